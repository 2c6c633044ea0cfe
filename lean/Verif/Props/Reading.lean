import Verif.Props.Sql
import Verif.Props.Lexer
import Verif.Spec.Reading
/-
Properties C98 and C99: what the caller puts into a query is read where it was put.
-/
namespace Klick.Props
open Klick Klick.Spec

/-! ### the reader, composed -/

theorem text_append (s : ReadState) (a b : Str) : s.text (a ++ b) = (s.text a).bind (fun s' => s'.text b) := by
  induction a generalizing s with
  | nil => rfl
  | cons c a ih =>
    show (s.char c).bind (fun s' => s'.text (a ++ b)) = ((s.char c).bind (fun s' => s'.text a)).bind (fun s' => s'.text b)
    cases s.char c with
    | none => rfl
    | some s' => exact ih s'

theorem text_cons (s : ReadState) (c : Char) (b : Str) : s.text (c :: b) = (s.char c).bind (fun s' => s'.text b) := rfl

/-- The nodes do not end in a word. -/
def NoWord (ns : List SqlNode) : Prop := ∀ w, ns.getLast? ≠ some (.word w)

theorem noWord_nil : NoWord [] := fun _ h => by cases h

theorem noWord_sign (ns : List SqlNode) (c : Char) : NoWord (ns ++ [.sign c]) := fun w h => by
  rw [List.getLast?_concat] at h; cases h

theorem noWord_group (ns ms : List SqlNode) : NoWord (ns ++ [.group ms]) := fun w h => by
  rw [List.getLast?_concat] at h; cases h

theorem addLetter_new {ns : List SqlNode} (h : NoWord ns) (c : Char) : addLetter ns c = ns ++ [.word [c]] := by
  unfold addLetter
  split
  · rename_i w hw; exact absurd hw (h w)
  · rfl

theorem addLetter_word (ns : List SqlNode) (w : Str) (c : Char) : addLetter (ns ++ [.word w]) c = ns ++ [.word (w ++ [c])] := by
  unfold addLetter
  rw [List.getLast?_concat]
  simp

theorem noWord_other (ns : List SqlNode) (n : SqlNode) (h : ∀ w, n ≠ .word w) : NoWord (ns ++ [n]) := fun w e => by
  rw [List.getLast?_concat] at e; exact h w (Option.some.inj e)

theorem addLetter_prefix {P : List SqlNode} (hP : NoWord P) (h : List SqlNode) (c : Char) : addLetter (P ++ h) c = P ++ addLetter h c := by
  rcases List.eq_nil_or_concat h with rfl | ⟨h', n, hc⟩
  · rw [List.append_nil, addLetter_new hP, addLetter_new noWord_nil]; rfl
  · rw [List.concat_eq_append] at hc
    subst hc
    by_cases hn : ∃ w, n = .word w
    · obtain ⟨w, rfl⟩ := hn
      rw [← List.append_assoc, addLetter_word, addLetter_word, List.append_assoc]
    · have hn' : ∀ w, n ≠ .word w := fun w e => hn ⟨w, e⟩
      rw [← List.append_assoc, addLetter_new (noWord_other _ _ hn'), addLetter_new (noWord_other _ _ hn')]
      simp [List.append_assoc]

/-- The reader with something read before, and with groups open around. -/
def embOuter (P : List SqlNode) (Q : List (List SqlNode)) : List (List SqlNode) → List (List SqlNode)
  | [] => Q
  | [o] => (P ++ o) :: Q
  | o :: o' :: os => o :: embOuter P Q (o' :: os)

def embHere (P h : List SqlNode) : List (List SqlNode) → List SqlNode
  | [] => P ++ h
  | _ :: _ => h

def emb (P : List SqlNode) (Q : List (List SqlNode)) (s : ReadState) : ReadState :=
  ⟨s.mode, embHere P s.here s.outer, embOuter P Q s.outer⟩

theorem embHere_append (P h x : List SqlNode) (o : List (List SqlNode)) : embHere P (h ++ x) o = embHere P h o ++ x := by
  cases o with
  | nil => exact (List.append_assoc ..).symm
  | cons => rfl

theorem embHere_letter {P : List SqlNode} (hP : NoWord P) (h : List SqlNode) (o : List (List SqlNode)) (c : Char) :
    addLetter (embHere P h o) c = embHere P (addLetter h c) o := by
  cases o with
  | nil => exact addLetter_prefix hP h c
  | cons => rfl

theorem embOuter_push (P h : List SqlNode) (Q o : List (List SqlNode)) : embOuter P Q (h :: o) = embHere P h o :: embOuter P Q o := by
  cases o with
  | nil => rfl
  | cons => rfl

theorem emb_put (P : List SqlNode) (Q : List (List SqlNode)) (s : ReadState) (c : Char) : (emb P Q s).put c = emb P Q (s.put c) := by
  show (⟨_, _, _⟩ : ReadState) = ⟨_, _, _⟩
  rw [show (s.put c).here = s.here ++ [.sign c] from rfl, show (s.put c).outer = s.outer from rfl, embHere_append]
  rfl

theorem emb_plain {P : List SqlNode} (hP : NoWord P) (Q : List (List SqlNode)) {s s' : ReadState} {c : Char} (h : s.plain c = some s') :
    (emb P Q s).plain c = some (emb P Q s') := by
  unfold ReadState.plain at h ⊢
  split at h
  · rename_i hc; rw [if_pos hc]; cases h; rfl
  rename_i hc; rw [if_neg hc]
  split at h
  · rename_i hc; rw [if_pos hc]; cases h; rfl
  rename_i hc; rw [if_neg hc]
  split at h
  · rename_i hc; rw [if_pos hc]; cases h; rfl
  rename_i hc; rw [if_neg hc]
  split at h
  · rename_i hc; rw [if_pos hc]; cases h
    show some (⟨_, _, _⟩ : ReadState) = some ⟨_, _, _⟩
    dsimp only
    rw [embOuter_push]
    rfl
  rename_i hc; rw [if_neg hc]
  split at h
  · rename_i hc; rw [if_pos hc]
    cases ho : s.outer with
    | nil => rw [ho] at h; cases h
    | cons o os =>
      rw [ho] at h; cases h
      show (match embOuter P Q s.outer with | [] => none | o' :: os' => some (⟨.code, o' ++ [SqlNode.group (embHere P s.here s.outer)], os'⟩ : ReadState)) = _
      rw [ho, embOuter_push]
      show some (⟨_, _, _⟩ : ReadState) = some ⟨_, _, _⟩
      dsimp only
      rw [embHere_append]
      rfl
  rename_i hc; rw [if_neg hc]
  split at h
  · cases h
  rename_i hc; rw [if_neg hc]
  split at h
  · rename_i hc; rw [if_pos hc]; cases h
    show some (⟨_, _, _⟩ : ReadState) = some ⟨_, _, _⟩
    dsimp only
    rw [← embHere_letter hP]
    rfl
  · rename_i hc; rw [if_neg hc]; cases h
    rw [emb_put]

theorem emb_char {P : List SqlNode} (hP : NoWord P) (Q : List (List SqlNode)) {s s' : ReadState} {c : Char} (h : s.char c = some s') :
    (emb P Q s).char c = some (emb P Q s') := by
  obtain ⟨m, hr, o⟩ := s
  cases m <;> dsimp only [ReadState.char, emb] at h ⊢
  case code => exact emb_plain hP Q h
  case dash =>
    split at h
    · rename_i hc; rw [if_pos hc]; cases h; rfl
    · rename_i hc; rw [if_neg hc]
      have := emb_plain hP Q h
      rw [← emb_put] at this
      exact this
  case slash =>
    split at h
    · rename_i hc; rw [if_pos hc]; cases h; rfl
    · rename_i hc; rw [if_neg hc]
      have := emb_plain hP Q h
      rw [← emb_put] at this
      exact this
  case line =>
    split at h
    · rename_i hc; rw [if_pos hc]; cases h
      exact congrArg some (emb_put P Q ⟨.line, hr, o⟩ '\n')
    · rename_i hc; rw [if_neg hc]; cases h; rfl
  case block =>
    split at h
    · rename_i hc; rw [if_pos hc]; cases h; rfl
    · rename_i hc; rw [if_neg hc]
      split at h
      · rename_i hc; rw [if_pos hc]; cases h; rfl
      · rename_i hc; rw [if_neg hc]; cases h; rfl
  case star =>
    split at h
    · rename_i hc; rw [if_pos hc]; cases h
      exact congrArg some (emb_put P Q ⟨.star, hr, o⟩ ' ')
    · rename_i hc; rw [if_neg hc]
      split at h
      · rename_i hc; rw [if_pos hc]; cases h; rfl
      · rename_i hc; rw [if_neg hc]; cases h; rfl
  case blockSlash =>
    split at h
    · cases h
    · rename_i hc; rw [if_neg hc]
      split at h
      · rename_i hc; rw [if_pos hc]; cases h; rfl
      · rename_i hc; rw [if_neg hc]; cases h; rfl
  case quote =>
    split at h
    · rename_i hc; rw [if_pos hc]; cases h; rfl
    · rename_i hc; rw [if_neg hc]
      split at h
      · rename_i hc; rw [if_pos hc]; cases h
        show some (⟨_, _, _⟩ : ReadState) = some ⟨_, _, _⟩
        dsimp only
        rw [embHere_append]
      · rename_i hc; rw [if_neg hc]; cases h; rfl
  case escape => cases h; rfl
  case behind =>
    split at h
    · cases h
    · rename_i hc; rw [if_neg hc]; exact emb_plain hP Q h

theorem emb_text {P : List SqlNode} (hP : NoWord P) (Q : List (List SqlNode)) : ∀ (t : Str) {s s' : ReadState}, s.text t = some s' →
    (emb P Q s).text t = some (emb P Q s')
  | [], s, s', h => by cases h; rfl
  | c :: t, s, s', h => by
    rw [text_cons] at h ⊢
    cases hc : s.char c with
    | none => rw [hc] at h; cases h
    | some s1 =>
      rw [hc] at h
      rw [emb_char hP Q hc]
      exact emb_text hP Q t h

/-- A text that is read by itself is read the same way behind anything that does not end in a word, inside any open groups. -/
theorem reads_within {t : Str} {ns : List SqlNode} (h : ReadsAs t ns) {P : List SqlNode} (hP : NoWord P) (Q : List (List SqlNode)) :
    (⟨.code, P, Q⟩ : ReadState).text t = some ⟨.code, P ++ ns, Q⟩ := by
  have := emb_text hP Q t h
  simpa [emb, embHere, embOuter, ReadState.start] using this

theorem reads_unique {t : Str} {ns ms : List SqlNode} (h : ReadsAs t ns) (h' : ReadsAs t ms) : ns = ms := by
  unfold ReadsAs at h h'
  rw [h] at h'
  exact congrArg ReadState.here (Option.some.inj h')

/-! ### keywords and separators -/

/-- A character that is part of a word or a sign of its own. -/
def calmChar (c : Char) : Bool :=
  !(c == '-' || c == '/' || c == '\'' || c == '"' || c == '`' || c == '(' || c == ')' || c == '$' || c == '#' || c == ';')

theorem calm_plain {c : Char} (h : calmChar c = true) (m : ReadMode) (P : List SqlNode) (Q : List (List SqlNode)) :
    (⟨m, P, Q⟩ : ReadState).plain c = some ⟨.code, if isWord c then addLetter P c else P ++ [.sign c], Q⟩ := by
  simp only [calmChar, Bool.not_eq_true', Bool.or_eq_false_iff, beq_eq_false_iff_ne] at h
  obtain ⟨⟨⟨⟨⟨⟨⟨⟨⟨h1, h2⟩, h3⟩, h4⟩, h5⟩, h6⟩, h7⟩, h8⟩, h9⟩, h10⟩ := h
  unfold ReadState.plain
  rw [if_neg h1, if_neg h2, if_neg (by rintro (h | h | h) <;> contradiction), if_neg h6, if_neg h7,
    if_neg (by rintro (h | h | h) <;> contradiction)]
  cases hw : isWord c <;> rfl

/-- Reading words and signs. -/
def addNodes (ns : List SqlNode) (s : Str) : List SqlNode := s.foldl (fun ns c => if isWord c then addLetter ns c else ns ++ [.sign c]) ns

theorem calm_text {s : Str} (h : s.all calmChar = true) (P : List SqlNode) (Q : List (List SqlNode)) :
    (⟨.code, P, Q⟩ : ReadState).text s = some ⟨.code, addNodes P s, Q⟩ := by
  induction s generalizing P with
  | nil => rfl
  | cons c s ih =>
    rw [List.all_cons, Bool.and_eq_true] at h
    rw [text_cons]
    show ((⟨.code, P, Q⟩ : ReadState).plain c).bind _ = _
    rw [calm_plain h.1]
    exact ih h.2 _

theorem addNodes_prefix {P : List SqlNode} (hP : NoWord P) (ns : List SqlNode) (s : Str) : addNodes (P ++ ns) s = P ++ addNodes ns s := by
  induction s generalizing ns with
  | nil => rfl
  | cons c s ih =>
    show addNodes (if isWord c then addLetter (P ++ ns) c else P ++ ns ++ [.sign c]) s = P ++ addNodes (if isWord c then addLetter ns c else ns ++ [.sign c]) s
    cases isWord c
    · simp only [Bool.false_eq_true, if_false]; rw [List.append_assoc, ih]
    · simp only [if_true]; rw [addLetter_prefix hP, ih]

/-- A keyword with the blank behind it, or nothing. -/
def Lead (t : Str) (ns : List SqlNode) : Prop :=
  ∀ (P : List SqlNode) (Q : List (List SqlNode)), NoWord P → (⟨.code, P, Q⟩ : ReadState).text t = some ⟨.code, P ++ ns, Q⟩ ∧ NoWord (P ++ ns)

/-- A separator: also behind a word. -/
def Parting (t : Str) (ns : List SqlNode) : Prop :=
  ∀ (P : List SqlNode) (Q : List (List SqlNode)), (⟨.code, P, Q⟩ : ReadState).text t = some ⟨.code, P ++ ns, Q⟩ ∧ NoWord (P ++ ns)

theorem lead_keyword {s : Str} {c : Char} (h : s.all calmChar = true) (hc : calmChar c = true) (hw : isWord c = false) :
    Lead (s ++ [c]) (asNodes (s ++ [c])) := by
  intro P Q hP
  have ha : (s ++ [c]).all calmChar = true := by rw [List.all_append]; simp [h, hc]
  have e : addNodes P (s ++ [c]) = P ++ asNodes (s ++ [c]) := by
    have := addNodes_prefix hP [] (s ++ [c])
    rwa [List.append_nil] at this
  refine ⟨by rw [calm_text ha, e], ?_⟩
  rw [← e]
  unfold addNodes
  rw [List.foldl_append]
  simp only [List.foldl_cons, List.foldl_nil, hw, Bool.false_eq_true, if_false]
  exact noWord_sign _ _

theorem lead_nil : Lead [] [] := fun P Q hP => ⟨by rw [List.append_nil]; rfl, by rwa [List.append_nil]⟩

theorem Lead.parting {c : Char} {s : Str} (hc : calmChar c = true) (hw : isWord c = false) {ns : List SqlNode} (h : Lead s ns) :
    Parting (c :: s) (.sign c :: ns) := by
  intro P Q
  rw [text_cons]
  show ((⟨.code, P, Q⟩ : ReadState).plain c).bind _ = _ ∧ _
  rw [calm_plain hc, hw]
  have := h (P ++ [.sign c]) Q (noWord_sign _ _)
  simpa [List.append_assoc] using this

theorem parting_nl : Parting ['\n'] (asNodes ['\n']) := (lead_nil.parting (c := '\n') (by decide) (by decide))
theorem parting_comma : Parting [','] (asNodes [',']) := (lead_nil.parting (c := ',') (by decide) (by decide))
theorem parting_commanl : Parting (ch!",\n") (asNodes (ch!",\n")) :=
  Lead.parting (c := ',') (by decide) (by decide) (lead_keyword (s := []) (c := '\n') rfl (by decide) (by decide))
theorem parting_and : Parting (ch!" AND\n") (asNodes (ch!" AND\n")) :=
  Lead.parting (c := ' ') (by decide) (by decide) (lead_keyword (s := ch!"AND") (c := '\n') rfl (by decide) (by decide))

/-- A fragment. -/
def Inner (t : Str) (ns : List SqlNode) : Prop :=
  ∀ (P : List SqlNode) (Q : List (List SqlNode)), NoWord P → (⟨.code, P, Q⟩ : ReadState).text t = some ⟨.code, P ++ ns, Q⟩

theorem inner_of {t : Str} {ns : List SqlNode} (h : ReadsAs t ns) : Inner t ns := fun _ Q hP => reads_within h hP Q

/-- A text in parentheses is a group, also directly behind a word. -/
theorem group_text {t : Str} {ns : List SqlNode} (h : Inner t ns) (P : List SqlNode) (Q : List (List SqlNode)) :
    (⟨.code, P, Q⟩ : ReadState).text ('(' :: t ++ [')']) = some ⟨.code, P ++ [.group ns], Q⟩ := by
  rw [List.cons_append, text_cons]
  show (some (⟨.code, [], P :: Q⟩ : ReadState)).bind _ = _
  show (⟨.code, [], P :: Q⟩ : ReadState).text (t ++ [')']) = _
  rw [text_append, h [] (P :: Q) noWord_nil]
  rfl

theorem group_inner {t : Str} {ns : List SqlNode} (h : Inner t ns) : Inner ('(' :: t ++ [')']) [.group ns] := fun P Q _ => group_text h P Q

theorem Lead.append {a b : Str} {as bs : List SqlNode} (ha : Lead a as) (hb : Lead b bs) : Lead (a ++ b) (as ++ bs) := by
  intro P Q hP
  obtain ⟨h1, h2⟩ := ha P Q hP
  obtain ⟨h3, h4⟩ := hb (P ++ as) Q h2
  rw [text_append, h1]
  rw [← List.append_assoc]
  exact ⟨h3, h4⟩

theorem Inner.parted {a b : Str} {as bs : List SqlNode} (ha : Inner a as) (hb : Parting b bs) : Lead (a ++ b) (as ++ bs) := by
  intro P Q hP
  obtain ⟨h3, h4⟩ := hb (P ++ as) Q
  rw [text_append, ha P Q hP]
  rw [← List.append_assoc]
  exact ⟨h3, h4⟩

theorem Lead.inner {a b : Str} {as bs : List SqlNode} (ha : Lead a as) (hb : Inner b bs) : Inner (a ++ b) (as ++ bs) := by
  intro P Q hP
  obtain ⟨h1, h2⟩ := ha P Q hP
  rw [text_append, h1]
  show (⟨.code, P ++ as, Q⟩ : ReadState).text b = _
  rw [hb _ Q h2, List.append_assoc]

theorem inner_join {sep : Str} {sn : List SqlNode} (hs : Parting sep sn) : ∀ (fs : List (Str × List SqlNode)), fs ≠ [] →
    (∀ f ∈ fs, Inner f.1 f.2) → Inner (joinWith sep (fs.map Prod.fst)) (sn.intercalate (fs.map Prod.snd))
  | [], h, _ => absurd rfl h
  | [f], _, hf => by
    have := hf f (List.mem_singleton.mpr rfl)
    simpa [joinWith, List.intercalate] using this
  | f :: g :: fs, _, hf => by
    have ih := inner_join hs (g :: fs) (by simp) (fun x hx => hf x (List.mem_cons_of_mem _ hx))
    have h1 := hf f List.mem_cons_self
    have := (h1.parted hs).inner ih
    have e1 : joinWith sep ((f :: g :: fs).map Prod.fst) = f.1 ++ sep ++ joinWith sep ((g :: fs).map Prod.fst) := by
      simp [joinWith]
    have e2 : sn.intercalate ((f :: g :: fs).map Prod.snd) = f.2 ++ sn ++ sn.intercalate ((g :: fs).map Prod.snd) := by
      simp [List.intercalate]
    rw [e1, e2]
    exact this

theorem lead_clause {head sep tail : Str} (hh : Lead head (asNodes head)) (hs : Parting sep (asNodes sep)) (ht : Parting tail (asNodes tail))
    {items : List Str} {r : Str → List SqlNode} (hr : ∀ f ∈ items, Inner f (r f)) :
    Lead (clause head sep tail items) (nodeClause head sep tail (items.map r)) := by
  cases hi : items with
  | nil => exact lead_nil
  | cons f fs =>
    rw [hi] at hr
    have := inner_join hs ((f :: fs).map (fun g => (g, r g))) (by simp) (by
      intro x hx
      obtain ⟨g, hg, rfl⟩ := List.mem_map.mp hx
      exact hr g hg)
    simp only [List.map_map] at this
    have e1 : (f :: fs).map (Prod.fst ∘ fun g => (g, r g)) = f :: fs := by
      rw [show (Prod.fst ∘ fun g => (g, r g)) = id from rfl, List.map_id]
    have e2 : (f :: fs).map (Prod.snd ∘ fun g => (g, r g)) = (f :: fs).map r := rfl
    rw [e1, e2] at this
    exact (hh.inner this).parted ht

/-- A clause of at most one item. -/
theorem lead_option {head tail : Str} (hh : Lead head (asNodes head)) (ht : Parting tail (asNodes tail))
    {item : Option Str} {r : Str → List SqlNode} (hr : ∀ f ∈ item.toList, Inner f (r f)) :
    Lead (clause head [] tail item.toList) (nodeClause head [] tail (item.toList.map r)) := by
  cases item with
  | none => exact lead_nil
  | some f =>
    have := (hh.inner (hr f (List.mem_singleton.mpr rfl))).parted ht
    simpa [clause, nodeClause, joinWith, List.intercalate] using this

theorem join_parens (sep : Str) : ∀ (f : Str) (fs : List Str),
    ['('] ++ joinWith ([')'] ++ sep ++ ['(']) (f :: fs) ++ [')'] = joinWith sep ((f :: fs).map (fun g => '(' :: g ++ [')']))
  | f, [] => by simp [joinWith]
  | f, g :: fs => by
    have ih := join_parens sep g fs
    rw [List.map_cons, List.map_cons] at *
    show ['('] ++ (f ++ ([')'] ++ sep ++ ['(']) ++ joinWith ([')'] ++ sep ++ ['(']) (g :: fs)) ++ [')'] = ('(' :: f ++ [')']) ++ sep ++ joinWith sep _
    rw [← ih]
    simp [List.append_assoc]

theorem clause_parens (head sep tail : Str) (items : List Str) :
    clause (head ++ ['(']) ([')'] ++ sep ++ ['(']) ([')'] ++ tail) items = clause head sep tail (items.map (fun g => '(' :: g ++ [')'])) := by
  cases items with
  | nil => rfl
  | cons f fs =>
    show head ++ ['('] ++ joinWith _ (f :: fs) ++ ([')'] ++ tail) = head ++ joinWith sep ((f :: fs).map _) ++ tail
    rw [← join_parens]
    simp [List.append_assoc]

theorem lead_conditions {kw : Str} (hk : kw.all calmChar = true) {items : List Str} {r : Str → List SqlNode} (hr : ∀ f ∈ items, Inner f (r f)) :
    Lead (clause (kw ++ [' ', '(']) (ch!") AND\n(") (ch!")\n") items) (conditionNodes kw (items.map r)) := by
  have e : clause (kw ++ [' ', '(']) (ch!") AND\n(") (ch!")\n") items =
      clause (kw ++ [' ']) (ch!" AND\n") ['\n'] (items.map (fun g => '(' :: g ++ [')'])) := by
    rw [← clause_parens]
    rw [List.append_assoc]
    rfl
  rw [e]
  unfold conditionNodes nodeClause
  cases hi : items with
  | nil => exact lead_nil
  | cons f fs =>
    rw [hi] at hr
    have := inner_join parting_and ((f :: fs).map (fun g => ('(' :: g ++ [')'], [SqlNode.group (r g)]))) (by simp) (by
      intro x hx
      obtain ⟨g, hg, rfl⟩ := List.mem_map.mp hx
      exact group_inner (hr g hg))
    rw [List.map_map, List.map_map] at this
    rw [List.map_map]
    exact ((lead_keyword hk (c := ' ') (by decide) (by decide)).inner this).parted parting_nl

/-- C98: when every fragment given to a SELECT builder is complete by itself (it is read to its end outside quotes, comments and
parentheses), then the statement is read as its clauses with each fragment in its place, and each condition of PREWHERE, WHERE and
HAVING is one operand of AND, whatever it contains. -/
theorem C98_conditions_partial (c : Clauses) (r : Str → List SqlNode) (h : ∀ f ∈ c.fragments, ReadsAs f (r f)) :
    ∃ q, c.builder.build = .ok q ∧ ReadsAs q (c.nodes r) := by
  refine ⟨c.sql, C26_renders c, ?_⟩
  suffices hl : Lead c.sql (c.nodes r) by
    have := (hl [] [] noWord_nil).1
    simpa [ReadsAs, ReadState.start] using this
  have hi : ∀ f ∈ c.fragments, Inner f (r f) := fun f hf => inner_of (h f hf)
  unfold Clauses.fragments at hi
  have hsel : Lead (ch!"SELECT\n") (asNodes (ch!"SELECT\n")) := lead_keyword (s := ch!"SELECT") (c := '\n') rfl (by decide) (by decide)
  have hfrom : Lead (ch!"FROM ") (asNodes (ch!"FROM ")) := lead_keyword (s := ch!"FROM") (c := ' ') rfl (by decide) (by decide)
  have hwith : Lead (clause (ch!"WITH ") [','] ['\n'] c.withs) (nodeClause (ch!"WITH ") [','] ['\n'] (c.withs.map r)) :=
    lead_clause (lead_keyword (s := ch!"WITH") (c := ' ') rfl (by decide) (by decide)) parting_comma parting_nl
      (fun f hf => hi f (by simp only [List.mem_append, hf, true_or, or_true]))
  have hdist : Lead (if c.distinct then ch!"DISTINCT\n" else clause (ch!"DISTINCT ON (") [','] (ch!")\n") c.distinctOn)
      (if c.distinct then asNodes (ch!"DISTINCT\n")
        else if c.distinctOn.isEmpty then []
        else asNodes (ch!"DISTINCT ON ") ++ [.group ((asNodes [',']).intercalate (c.distinctOn.map r))] ++ asNodes ['\n']) := by
    cases hd : c.distinct with
    | true => exact lead_keyword (s := ch!"DISTINCT") (c := '\n') rfl (by decide) (by decide)
    | false =>
      rw [hd] at hi
      simp only [Bool.false_eq_true, if_false] at hi ⊢
      cases ho : c.distinctOn with
      | nil => exact lead_nil
      | cons f fs =>
        have hon := inner_join parting_comma ((f :: fs).map (fun g => (g, r g))) (by simp) (by
          intro x hx
          obtain ⟨g, hg, rfl⟩ := List.mem_map.mp hx
          rw [← ho] at hg
          exact hi g (by simp only [List.mem_append, hg, true_or, or_true]))
        rw [List.map_map, List.map_map, show (Prod.fst ∘ fun g => (g, r g)) = id from rfl, List.map_id] at hon
        have := ((lead_keyword (s := ch!"DISTINCT ON") (c := ' ') rfl (by decide) (by decide)).inner (group_inner hon)).parted parting_nl
        have e : clause (ch!"DISTINCT ON (") [','] (ch!")\n") (f :: fs) =
            ch!"DISTINCT ON" ++ [' '] ++ ('(' :: joinWith [','] (f :: fs) ++ [')']) ++ ['\n'] := by
          simp [clause]
        rw [e]
        exact this
  have hexprs : Lead (clause [] (ch!",\n") ['\n'] c.exprs) (nodeClause [] (ch!",\n") ['\n'] (c.exprs.map r)) :=
    lead_clause lead_nil parting_commanl parting_nl (fun f hf => hi f (by simp only [List.mem_append, hf, true_or, or_true]))
  have hfrm : Inner c.frm (r c.frm) := hi _ (by simp only [List.mem_append, List.mem_singleton, true_or, or_true])
  have hfirst := ((((hwith.append hsel).append hdist).append hexprs).append hfrom).inner hfrm |>.parted parting_nl
  have h1 : Lead (clause (ch!"SAMPLE ") [] ['\n'] c.sample.toList) (nodeClause (ch!"SAMPLE ") [] ['\n'] (c.sample.toList.map r)) :=
    lead_option (lead_keyword (s := ch!"SAMPLE") (c := ' ') rfl (by decide) (by decide)) parting_nl
      (fun f hf => hi f (by simp only [List.mem_append, hf, true_or, or_true]))
  have h2 : Lead (clause [] ['\n'] ['\n'] c.arrayJoins) (nodeClause [] ['\n'] ['\n'] (c.arrayJoins.map r)) :=
    lead_clause lead_nil parting_nl parting_nl (fun f hf => hi f (by simp only [List.mem_append, hf, true_or, or_true]))
  have h3 : Lead (clause [] ['\n'] ['\n'] c.joins) (nodeClause [] ['\n'] ['\n'] (c.joins.map r)) :=
    lead_clause lead_nil parting_nl parting_nl (fun f hf => hi f (by simp only [List.mem_append, hf, true_or, or_true]))
  have h4 : Lead (clause (ch!"PREWHERE (") (ch!") AND\n(") (ch!")\n") c.prewhere) (conditionNodes (ch!"PREWHERE") (c.prewhere.map r)) :=
    lead_conditions (kw := ch!"PREWHERE") rfl (fun f hf => hi f (by simp only [List.mem_append, hf, true_or, or_true]))
  have h5 : Lead (clause (ch!"WHERE (") (ch!") AND\n(") (ch!")\n") c.where_) (conditionNodes (ch!"WHERE") (c.where_.map r)) :=
    lead_conditions (kw := ch!"WHERE") rfl (fun f hf => hi f (by simp only [List.mem_append, hf, true_or, or_true]))
  have h6 : Lead (clause (ch!"GROUP BY ") (ch!",\n") ['\n'] c.groupBy) (nodeClause (ch!"GROUP BY ") (ch!",\n") ['\n'] (c.groupBy.map r)) :=
    lead_clause (lead_keyword (s := ch!"GROUP BY") (c := ' ') rfl (by decide) (by decide)) parting_commanl parting_nl
      (fun f hf => hi f (by simp only [List.mem_append, hf, true_or, or_true]))
  have h7 : Lead (clause (ch!"HAVING (") (ch!") AND\n(") (ch!")\n") c.having) (conditionNodes (ch!"HAVING") (c.having.map r)) :=
    lead_conditions (kw := ch!"HAVING") rfl (fun f hf => hi f (by simp only [List.mem_append, hf, true_or, or_true]))
  have h8 : Lead (clause (ch!"ORDER BY ") [] ['\n'] c.orderBy.toList) (nodeClause (ch!"ORDER BY ") [] ['\n'] (c.orderBy.toList.map r)) :=
    lead_option (lead_keyword (s := ch!"ORDER BY") (c := ' ') rfl (by decide) (by decide)) parting_nl
      (fun f hf => hi f (by simp only [List.mem_append, hf, true_or, or_true]))
  have h9 : Lead (clause (ch!"LIMIT ") [] ['\n'] c.limit.toList) (nodeClause (ch!"LIMIT ") [] ['\n'] (c.limit.toList.map r)) :=
    lead_option (lead_keyword (s := ch!"LIMIT") (c := ' ') rfl (by decide) (by decide)) parting_nl
      (fun f hf => hi f (by simp only [List.mem_append, hf, true_or, or_true]))
  have h10 : Lead (clause (ch!"OFFSET ") [] ['\n'] c.offset.toList) (nodeClause (ch!"OFFSET ") [] ['\n'] (c.offset.toList.map r)) :=
    lead_option (lead_keyword (s := ch!"OFFSET") (c := ' ') rfl (by decide) (by decide)) parting_nl
      (fun f hf => hi f (by simp only [List.mem_append, hf, true_or, or_true]))
  have h11 : Lead (clause (ch!"SETTINGS ") [] ['\n'] c.settings.toList) (nodeClause (ch!"SETTINGS ") [] ['\n'] (c.settings.toList.map r)) :=
    lead_option (lead_keyword (s := ch!"SETTINGS") (c := ' ') rfl (by decide) (by decide)) parting_nl
      (fun f hf => hi f (by simp only [List.mem_append, hf, true_or, or_true]))
  have h12 : Lead (clause (ch!"UNION ") [] ['\n'] c.union.toList) (nodeClause (ch!"UNION ") [] ['\n'] (c.union.toList.map r)) :=
    lead_option (lead_keyword (s := ch!"UNION") (c := ' ') rfl (by decide) (by decide)) parting_nl
      (fun f hf => hi f (by simp only [List.mem_append, hf, true_or, or_true]))
  unfold Clauses.sql Clauses.nodes
  exact ((((((((((((hfirst.append h1).append h2).append h3).append h4).append h5).append h6).append h7).append h8).append h9).append h10).append h11).append h12)


/-- Every fragment satisfies `p`. -/
structure AllFrags (p : Str → Prop) (c : Clauses) : Prop where
  frm : p c.frm
  withs : ∀ s ∈ c.withs, p s
  distinctOn : ∀ s ∈ c.distinctOn, p s
  exprs : ∀ s ∈ c.exprs, p s
  arrayJoins : ∀ s ∈ c.arrayJoins, p s
  joins : ∀ s ∈ c.joins, p s
  prewhere : ∀ s ∈ c.prewhere, p s
  where_ : ∀ s ∈ c.where_, p s
  groupBy : ∀ s ∈ c.groupBy, p s
  having : ∀ s ∈ c.having, p s
  sample : ∀ s ∈ c.sample.toList, p s
  orderBy : ∀ s ∈ c.orderBy.toList, p s
  limit : ∀ s ∈ c.limit.toList, p s
  offset : ∀ s ∈ c.offset.toList, p s
  settings : ∀ s ∈ c.settings.toList, p s
  union : ∀ s ∈ c.union.toList, p s

theorem AllFrags.fragments {p : Str → Prop} {c : Clauses} (h : AllFrags p c) : ∀ s ∈ c.fragments, p s := by
  intro s hs
  have hd : s ∈ (if c.distinct then [] else c.distinctOn) → s ∈ c.distinctOn := by
    split
    · intro h; cases h
    · exact id
  simp only [Clauses.fragments, List.mem_append, List.mem_singleton, or_assoc] at hs
  rcases hs with hs | hs | hs | hs | hs | hs | hs | hs | hs | hs | hs | hs | hs | hs | hs | hs
  · exact h.withs s hs
  · exact h.distinctOn s (hd hs)
  · exact h.exprs s hs
  · rw [hs]; exact h.frm
  · exact h.sample s hs
  · exact h.arrayJoins s hs
  · exact h.joins s hs
  · exact h.prewhere s hs
  · exact h.where_ s hs
  · exact h.groupBy s hs
  · exact h.having s hs
  · exact h.orderBy s hs
  · exact h.limit s hs
  · exact h.offset s hs
  · exact h.settings s hs
  · exact h.union s hs

theorem snoc_all {p : Str → Prop} {l : List Str} {a : Str} (h : ∀ s ∈ l, p s) (ha : p a) : ∀ s ∈ l ++ [a], p s := by
  intro s hs
  rcases List.mem_append.mp hs with hs | hs
  · exact h s hs
  · rw [List.mem_singleton.mp hs]; exact ha

theorem some_all {p : Str → Prop} {a : Str} (ha : p a) : ∀ s ∈ (some a).toList, p s := by
  intro s hs
  rw [List.mem_singleton.mp hs]; exact ha

theorem calls_clauses {p : Str → Prop} (frm : Str) (hf : p frm) : ∀ (rev : List SelectCall),
    (∀ x ∈ rev, ∀ f, callFrag x = some f → ∃ s, f = .ok s ∧ p s) →
    ∃ c : Clauses, SelectBuilder.calls (.ok frm) rev.reverse = c.builder ∧ AllFrags p c
  | [], _ => ⟨⟨[], false, [], [], frm, none, [], [], [], [], [], [], none, none, none, none, none⟩, rfl,
      ⟨hf, nofun, nofun, nofun, nofun, nofun, nofun, nofun, nofun, nofun, nofun, nofun, nofun, nofun, nofun, nofun⟩⟩
  | x :: rev, h => by
    obtain ⟨c, hc, hp⟩ := calls_clauses frm hf rev (fun y hy => h y (List.mem_cons_of_mem _ hy))
    have e : SelectBuilder.calls (.ok frm) (x :: rev).reverse = (SelectBuilder.calls (.ok frm) rev.reverse).call x := by
      simp [SelectBuilder.calls, List.foldl_append]
    rw [e, hc]
    have hx := h x List.mem_cons_self
    cases x with
    | distinct d => exact ⟨{ c with distinct := d, distinctOn := [] }, rfl, { hp with distinctOn := nofun }⟩
    | with_ f =>
      obtain ⟨s, rfl, hs⟩ := hx f rfl
      refine ⟨{ c with withs := c.withs ++ [s] }, ?_, { hp with withs := snoc_all hp.withs hs }⟩
      simp [Clauses.builder, SelectBuilder.call]
    | distinctOn f =>
      obtain ⟨s, rfl, hs⟩ := hx f rfl
      refine ⟨{ c with distinct := false, distinctOn := c.distinctOn ++ [s] }, ?_, { hp with distinctOn := snoc_all hp.distinctOn hs }⟩
      simp [Clauses.builder, SelectBuilder.call]
    | select f =>
      obtain ⟨s, rfl, hs⟩ := hx f rfl
      refine ⟨{ c with exprs := c.exprs ++ [s] }, ?_, { hp with exprs := snoc_all hp.exprs hs }⟩
      simp [Clauses.builder, SelectBuilder.call]
    | arrayJoin f =>
      obtain ⟨s, rfl, hs⟩ := hx f rfl
      refine ⟨{ c with arrayJoins := c.arrayJoins ++ [s] }, ?_, { hp with arrayJoins := snoc_all hp.arrayJoins hs }⟩
      simp [Clauses.builder, SelectBuilder.call]
    | join f =>
      obtain ⟨s, rfl, hs⟩ := hx f rfl
      refine ⟨{ c with joins := c.joins ++ [s] }, ?_, { hp with joins := snoc_all hp.joins hs }⟩
      simp [Clauses.builder, SelectBuilder.call]
    | prewhere f =>
      obtain ⟨s, rfl, hs⟩ := hx f rfl
      refine ⟨{ c with prewhere := c.prewhere ++ [s] }, ?_, { hp with prewhere := snoc_all hp.prewhere hs }⟩
      simp [Clauses.builder, SelectBuilder.call]
    | where_ f =>
      obtain ⟨s, rfl, hs⟩ := hx f rfl
      refine ⟨{ c with where_ := c.where_ ++ [s] }, ?_, { hp with where_ := snoc_all hp.where_ hs }⟩
      simp [Clauses.builder, SelectBuilder.call]
    | groupBy f =>
      obtain ⟨s, rfl, hs⟩ := hx f rfl
      refine ⟨{ c with groupBy := c.groupBy ++ [s] }, ?_, { hp with groupBy := snoc_all hp.groupBy hs }⟩
      simp [Clauses.builder, SelectBuilder.call]
    | having f =>
      obtain ⟨s, rfl, hs⟩ := hx f rfl
      refine ⟨{ c with having := c.having ++ [s] }, ?_, { hp with having := snoc_all hp.having hs }⟩
      simp [Clauses.builder, SelectBuilder.call]
    | sample f =>
      obtain ⟨s, rfl, hs⟩ := hx f rfl
      exact ⟨{ c with sample := some s }, rfl, { hp with sample := some_all hs }⟩
    | orderBy f =>
      obtain ⟨s, rfl, hs⟩ := hx f rfl
      exact ⟨{ c with orderBy := some s }, rfl, { hp with orderBy := some_all hs }⟩
    | limit f =>
      obtain ⟨s, rfl, hs⟩ := hx f rfl
      exact ⟨{ c with limit := some s }, rfl, { hp with limit := some_all hs }⟩
    | offset f =>
      obtain ⟨s, rfl, hs⟩ := hx f rfl
      exact ⟨{ c with offset := some s }, rfl, { hp with offset := some_all hs }⟩
    | settings f =>
      obtain ⟨s, rfl, hs⟩ := hx f rfl
      exact ⟨{ c with settings := some s }, rfl, { hp with settings := some_all hs }⟩
    | union f =>
      obtain ⟨s, rfl, hs⟩ := hx f rfl
      exact ⟨{ c with union := some s }, rfl, { hp with union := some_all hs }⟩

/-- C98, from the calls: after any builder calls with fragments that are complete by themselves, the builder holds the fragments as
collected (`C26_collects`) and builds a statement that is read with each of them in its place. -/
theorem C98_calls_partial (frm : Str) (cs : List SelectCall) (r : Str → List SqlNode) (hf : ReadsAs frm (r frm))
    (h : ∀ x ∈ cs, ∀ f, callFrag x = some f → ∃ s, f = .ok s ∧ ReadsAs s (r s)) :
    ∃ (c : Clauses) (q : Str), SelectBuilder.calls (.ok frm) cs = c.builder ∧ fragsOf selWhere cs = c.where_.map .ok ∧
      (SelectBuilder.calls (.ok frm) cs).build = .ok q ∧ ReadsAs q (c.nodes r) := by
  obtain ⟨c, hc, hp⟩ := calls_clauses (p := fun s => ReadsAs s (r s)) frm hf cs.reverse (fun x hx => h x (List.mem_reverse.mp hx))
  rw [List.reverse_reverse] at hc
  obtain ⟨q, h1, h2⟩ := C98_conditions_partial c r hp.fragments
  refine ⟨c, q, hc, ?_, by rw [hc]; exact h1, h2⟩
  have := (C26_collects (.ok frm) cs).2.2.2.2.2.2.1
  rw [← this, hc]
  rfl

/-- The full property is false: a condition may be complete up to the end of its line, in a comment, and the comment then swallows
the closing parenthesis: the statement has no reading. -/
theorem C98_comment_false : ∃ q,
    (SelectBuilder.calls (.ok ['t']) [.select (.ok ['a']), .where_ (.ok (ch!"a = 1 -- first")), .where_ (.ok (ch!"b = 2"))]).build = .ok q ∧
    (∃ ns, ReadsAs (ch!"a = 1 -- first\n") ns) ∧ (∃ ns, ReadsAs (ch!"b = 2") ns) ∧ ¬ ∃ ns, ReadsAs q ns := by
  refine ⟨_, rfl, ⟨_, rfl⟩, ⟨_, rfl⟩, ?_⟩
  rintro ⟨ns, h⟩
  have h' := congrArg (Option.map ReadState.outer) h
  cases h'

/-- … and a condition with parentheses that do not match splits into two: the condition added behind it is required of one of
them only (AND binds more tightly than OR). -/
theorem C98_parenthesis_false : ∃ q,
    (SelectBuilder.calls (.ok ['t']) [.select (.ok ['a']), .where_ (.ok (ch!"a) OR (c")), .where_ (.ok ['b'])]).build = .ok q ∧
    ReadsAs q (asNodes (ch!"SELECT\na\nFROM t\nWHERE ") ++ [.group [.word ['a']]] ++ asNodes (ch!" OR ") ++ [.group [.word ['c']]] ++
      asNodes (ch!" AND\n") ++ [.group [.word ['b']]] ++ asNodes ['\n']) ∧
    ReadState.start.text (ch!"a) OR (c") = none :=
  ⟨_, rfl, rfl, rfl⟩

/-- Two conditions, one with an OR, a comment and a quoted parenthesis. -/
def exClauses : Clauses :=
  ⟨[], false, [], [['a']], ['t'], none, [], [], [], [ch!"a = ')' OR /* ( */ b", ch!"c"], [], [], none, some ['5'], none, none, none⟩

/-- How its fragments are read. -/
def exReading (s : Str) : List SqlNode := ((ReadState.start.text s).map ReadState.here).getD []

example : ∀ f ∈ exClauses.fragments, ReadsAs f (exReading f) := by
  intro f hf
  simp only [exClauses, Clauses.fragments, Bool.false_eq_true, if_false, Option.toList, List.nil_append, List.append_nil,
    List.cons_append, List.mem_cons, List.not_mem_nil, or_false] at hf
  rcases hf with rfl | rfl | rfl | rfl | rfl <;> rfl

example : exClauses.nodes exReading = asNodes (ch!"SELECT\na\nFROM t\nWHERE ") ++
    [.group [.word ['a'], .sign ' ', .sign '=', .sign ' ', .quoted '\'' [')'], .sign ' ', .word ['O', 'R'], .sign ' ', .sign ' ', .sign ' ', .word ['b']]] ++
    asNodes (ch!" AND\n") ++ [.group [.word ['c']]] ++ asNodes (ch!"\nLIMIT 5\n") := rfl

end Klick.Props
