import Verif.Spec.TypeText
/-
Lemmas about the argument scanner and the type-name parser.
-/
namespace Klick
open Spec

/-! ### white space and trimming -/

theorem dropWhile_ws_blank {s : Str} (h : Blank s) : s.dropWhile isWs = [] := by
  induction s with
  | nil => rfl
  | cons c r ih =>
    rw [List.dropWhile_cons_of_pos (h c (by simp))]
    exact ih (fun c hc => h c (by simp [hc]))

theorem dropWhile_ws_append {w s : Str} (h : Blank w) : (w ++ s).dropWhile isWs = s.dropWhile isWs := by
  induction w with
  | nil => rfl
  | cons c r ih =>
    rw [List.cons_append, List.dropWhile_cons_of_pos (h c (by simp))]
    exact ih (fun c hc => h c (by simp [hc]))

theorem dropWhile_ws_spec (s : Str) : ∃ w, s = w ++ s.dropWhile isWs ∧ Blank w := by
  refine ⟨s.takeWhile isWs, (List.takeWhile_append_dropWhile ..).symm, ?_⟩
  intro c hc
  have := List.all_takeWhile (p := isWs) (l := s)
  rw [List.all_eq_true] at this
  exact this c hc

theorem trimEnd_spec (s : Str) : ∃ w, s = trimEnd s ++ w ∧ Blank w := by
  obtain ⟨w, h, hb⟩ := dropWhile_ws_spec s.reverse
  refine ⟨w.reverse, ?_, fun c hc => hb c (by simpa using hc)⟩
  unfold trimEnd
  rw [← List.reverse_append, ← h, List.reverse_reverse]

theorem trim_spec (s : Str) : ∃ w w', s = w ++ trim s ++ w' ∧ Blank w ∧ Blank w' := by
  obtain ⟨w, h, hb⟩ := dropWhile_ws_spec s
  obtain ⟨w', h', hb'⟩ := trimEnd_spec (s.dropWhile isWs)
  refine ⟨w, w', ?_, hb, hb'⟩
  unfold trim
  rw [List.append_assoc, ← h', ← h]

theorem trim_length_le (s : Str) : (trim s).length ≤ s.length := by
  obtain ⟨w, w', h, _, _⟩ := trim_spec s
  have := congrArg List.length h
  simp at this
  omega

theorem mem_of_mem_trim {s : Str} {c : Char} (h : c ∈ trim s) : c ∈ s := by
  obtain ⟨w, w', he, _, _⟩ := trim_spec s
  rw [he]; simp [h]

/-! ### parts of the scanner -/

/-- The scanner passes over `s` at any depth without splitting, panicking or changing depth. -/
def Atom (s : Str) : Prop :=
  ∀ cfg (d : Int) cur rest, 0 ≤ d → argLoop cfg d cur (s ++ rest) = argLoop cfg d (cur ++ s) rest

/-- The same inside parentheses (where commas do not split). -/
def Bal (s : Str) : Prop :=
  ∀ cfg (d : Int) cur rest, 1 ≤ d → argLoop cfg d cur (s ++ rest) = argLoop cfg d (cur ++ s) rest

theorem Atom.bal {s : Str} (h : Atom s) : Bal s := fun cfg d cur rest hd => h cfg d cur rest (by omega)

theorem Atom.nil : Atom [] := by intro cfg d cur rest _; simp

theorem Atom.append {s t : Str} (hs : Atom s) (ht : Atom t) : Atom (s ++ t) := by
  intro cfg d cur rest hd
  rw [List.append_assoc, hs _ _ _ _ hd, ht _ _ _ _ hd, List.append_assoc]

theorem Bal.append {s t : Str} (hs : Bal s) (ht : Bal t) : Bal (s ++ t) := by
  intro cfg d cur rest hd
  rw [List.append_assoc, hs _ _ _ _ hd, ht _ _ _ _ hd, List.append_assoc]

theorem Atom.char {c : Char} (h : ¬ Separator c) : Atom [c] := by
  intro cfg d cur rest _
  simp only [Separator, not_or] at h
  obtain ⟨h1, h2, h3⟩ := h
  rw [List.singleton_append]
  conv => lhs; unfold argLoop
  rw [if_neg h3, if_neg h1, if_neg h2]

theorem Atom.plain {s : Str} (h : ∀ c ∈ s, ¬ Separator c) : Atom s := by
  induction s with
  | nil => exact Atom.nil
  | cons c r ih =>
    have := (Atom.char (h c (by simp))).append (ih (fun c hc => h c (by simp [hc])))
    simpa using this

theorem Bal.comma : Bal [','] := by
  intro cfg d cur rest hd
  rw [List.singleton_append]
  conv => lhs; unfold argLoop
  rw [if_pos rfl, if_neg (by omega)]

theorem Bal.atom {s : Str} (h : Bal s) : Atom ('(' :: s ++ [')']) := by
  intro cfg d cur rest hd
  have e1 : ('(' :: s ++ [')']) ++ rest = '(' :: (s ++ (')' :: rest)) := by simp
  rw [e1]
  conv => lhs; unfold argLoop
  rw [if_neg (by decide), if_pos rfl, h _ _ _ _ (by omega)]
  conv => lhs; unfold argLoop
  rw [if_neg (by decide), if_neg (by decide), if_pos rfl]
  have : (cfg.overflowChecks && d + 1 == 0) = false := by
    have : (d + 1 == 0) = false := by rw [beq_eq_false_iff_ne]; omega
    simp [this]
  rw [this]
  simp

theorem Bal.join {l : List Str} (h : ∀ s ∈ l, Atom s) : Bal (joinComma l) := by
  induction l with
  | nil => exact Atom.nil.bal
  | cons x r ih =>
    cases r with
    | nil => exact (h x (by simp)).bal
    | cons y r =>
      have := ((h x (by simp)).bal.append Bal.comma).append (ih (fun s hs => h s (by simp [hs])))
      simpa [joinComma] using this

/-- An empty last argument is not pushed. -/
def dropEmptyLast : List Str → List Str
  | [] => []
  | [x] => if x.isEmpty then [] else [x]
  | x :: y :: r => x :: dropEmptyLast (y :: r)

theorem argLoop_join {cfg : Cfg} {l : List Str} (h : ∀ s ∈ l, Atom s) :
    argLoop cfg 0 [] (joinComma l) = .ok ((dropEmptyLast l).map trim) := by
  induction l with
  | nil => rfl
  | cons x r ih =>
    cases r with
    | nil =>
      have := h x (by simp) cfg 0 [] [] (by omega)
      simp only [List.append_nil, List.nil_append] at this
      simp only [joinComma]
      rw [this]
      unfold argLoop dropEmptyLast
      cases hx : x.isEmpty <;> simp
    | cons y r =>
      simp only [joinComma]
      rw [h x (by simp) cfg 0 [] _ (by omega)]
      conv => lhs; unfold argLoop
      rw [if_pos rfl, if_pos rfl, ih (fun s hs => h s (by simp [hs]))]
      simp [dropEmptyLast]

theorem dropEmptyLast_of_ne {l : List Str} (h : ∀ s ∈ l, s ≠ []) : dropEmptyLast l = l := by
  induction l with
  | nil => rfl
  | cons x r ih =>
    cases r with
    | nil => simp [dropEmptyLast, h x (by simp)]
    | cons y r => simp only [dropEmptyLast]; rw [ih (fun s hs => h s (by simp [hs]))]

/-! ### `parse_args` -/

/-- Non-empty text without white space at its ends. -/
def Ends (s : Str) : Prop :=
  (∃ c r, s = c :: r ∧ isWs c = false) ∧ (∃ c r, s = r ++ [c] ∧ isWs c = false)

theorem Ends.trim {s : Str} (h : Ends s) : trim s = s := by
  obtain ⟨⟨c, r, h1, hc⟩, ⟨c', r', h2, hc'⟩⟩ := h
  apply trim_of_ends
  · intro x hx; rw [h1] at hx; simp at hx; rw [← hx]; exact hc
  · intro x hx; rw [h2] at hx; simp at hx; rw [← hx]; exact hc'

theorem Ends.ne_nil {s : Str} (h : Ends s) : s ≠ [] := by
  obtain ⟨⟨c, r, h1, hc⟩, _⟩ := h; rw [h1]; simp

theorem Ends.cons_append {c c' : Char} {s : Str} (h : isWs c = false) (h' : isWs c' = false) :
    Ends (c :: s ++ [c']) := ⟨⟨c, _, rfl, h⟩, ⟨c', _, rfl, h'⟩⟩

theorem Ends.append {s t : Str} {u : Str} (hs : Ends s) (ht : Ends t) : Ends (s ++ u ++ t) := by
  obtain ⟨⟨c, r, h1, hc⟩, _⟩ := hs
  obtain ⟨_, ⟨c', r', h2, hc'⟩⟩ := ht
  refine ⟨⟨c, r ++ u ++ t, by rw [h1]; simp, hc⟩, ⟨c', s ++ u ++ r', by rw [h2]; simp, hc'⟩⟩

theorem Ends.join {l : List Str} (h : ∀ s ∈ l, Ends s) (hne : l ≠ []) : Ends (joinComma l) := by
  induction l with
  | nil => exact absurd rfl hne
  | cons x r ih =>
    cases r with
    | nil => exact h x (by simp)
    | cons y r =>
      have := Ends.append (u := [',']) (h x (by simp)) (ih (fun s hs => h s (by simp [hs])) (by simp))
      simpa [joinComma] using this

theorem parseArgs_join {cfg : Cfg} {l : List Str} (ha : ∀ s ∈ l, Atom s) (he : ∀ s ∈ l, Ends s) :
    parseArgs cfg ('(' :: joinComma l ++ [')']) = .ok l := by
  unfold parseArgs
  rw [if_pos ⟨rfl, List.getLast?_concat⟩]
  have e : (('(' :: joinComma l ++ [')']).drop 1).dropLast = joinComma l := by simp
  rw [e]
  have ht : trim (joinComma l) = joinComma l := by
    cases l with
    | nil => rfl
    | cons x r => exact (Ends.join he (by simp)).trim
  rw [ht, argLoop_join ha, dropEmptyLast_of_ne (fun s hs => (he s hs).ne_nil)]
  congr 1
  have : l.map trim = l.map id := List.map_congr_left (fun s hs => (he s hs).trim)
  rw [this, List.map_id]

/-! ### fuel -/

theorem argLoop_length {cfg : Cfg} {d : Int} {cur s : Str} {l : List Str}
    (h : argLoop cfg d cur s = .ok l) : ∀ a ∈ l, a.length ≤ cur.length + s.length := by
  induction s generalizing d cur l with
  | nil =>
    unfold argLoop at h
    split at h
    · cases h
    · split at h
      · cases h; simp
      · cases h
        intro a ha
        simp at ha
        rw [ha]
        have := trim_length_le cur
        simp; omega
  | cons c r ih =>
    unfold argLoop at h
    split at h
    · split at h
      · rw [Res.bind_eq_ok] at h
        obtain ⟨xs, h1, h2⟩ := h
        cases h2
        intro a ha
        rw [List.mem_cons] at ha
        rcases ha with rfl | ha
        · have := trim_length_le cur
          simp; omega
        · have := ih h1 a ha
          simp at *; omega
      · intro a ha
        have := ih h a ha
        simp at *; omega
    · split at h
      · intro a ha
        have := ih h a ha
        simp at *; omega
      · split at h
        · split at h
          · cases h
          · intro a ha
            have := ih h a ha
            simp at *; omega
        · intro a ha
          have := ih h a ha
          simp at *; omega

theorem parseArgs_length {cfg : Cfg} {s : Str} {l : List Str} (h : parseArgs cfg s = .ok l) :
    ∀ a ∈ l, a.length < s.length := by
  unfold parseArgs at h
  split at h
  · rename_i hc
    intro a ha
    have h1 := argLoop_length h a ha
    have h2 := trim_length_le ((s.drop 1).dropLast)
    have h3 : 0 < s.length := by
      cases s with
      | nil => simp at hc
      | cons => simp
    simp at h1 h2
    omega
  · cases h

theorem eatTail_append (cfg : Cfg) (s : Str) : (eatTail cfg s).1 ++ (eatTail cfg s).2 = s := by
  induction s with
  | nil => rfl
  | cons c r ih =>
    unfold eatTail
    split
    · simp [ih]
    · rfl

theorem eatIdent_append (cfg : Cfg) (s : Str) : (eatIdent cfg s).1 ++ (eatIdent cfg s).2 = s := by
  cases s with
  | nil => rfl
  | cons c r =>
    simp only [eatIdent]
    split
    · simp [eatTail_append]
    · rfl

theorem mapL_congr {α β : Type} {f g : α → Res β} {l : List α} (h : ∀ a ∈ l, f a = g a) :
    Res.mapL f l = Res.mapL g l := by
  induction l with
  | nil => rfl
  | cons x r ih =>
    unfold Res.mapL
    rw [h x (by simp), ih (fun a ha => h a (by simp [ha]))]

theorem withArgs_congr {cfg : Cfg} {f g : Str → Res Ty} {ident : Str} {args : List Str}
    (h : ∀ a ∈ args, f a = g a ∧ f (trim a) = g (trim a)) :
    withArgs cfg f ident args = withArgs cfg g ident args := by
  have h1 : ∀ a, args = [a] → f a = g a := fun a ha => (h a (by simp [ha])).1
  have h2 : ∀ a b, args = [a, b] → f a = g a ∧ f b = g b := fun a b ha =>
    ⟨(h a (by simp [ha])).1, (h b (by simp [ha])).1⟩
  have h3 : Res.mapL (fun a => f (trim a)) args = Res.mapL (fun a => g (trim a)) args :=
    mapL_congr (fun a ha => (h a ha).2)
  unfold withArgs
  rw [h3]
  match args, h1, h2 with
  | [], _, _ => rfl
  | [a], h1, _ => simp only [h1 a rfl]
  | [a, b], _, h2 => simp only [(h2 a b rfl).1, (h2 a b rfl).2]
  | _ :: _ :: _ :: _, _, _ => rfl

theorem parseStep_congr {cfg : Cfg} {f g : Str → Res Ty} {s : Str}
    (h : ∀ a, a.length < s.length → f a = g a) : parseStep cfg f s = parseStep cfg g s := by
  unfold parseStep
  dsimp only
  split
  · rfl
  · split
    · rfl
    · cases hp : parseArgs cfg (trim (eatIdent cfg s).2) with
      | panic => rfl
      | err e => rfl
      | ok args =>
        simp only [Res.bind_ok]
        apply withArgs_congr
        intro a ha
        have h1 := parseArgs_length hp a ha
        have h2 := trim_length_le (eatIdent cfg s).2
        have h3 := congrArg List.length (eatIdent_append cfg s)
        have h4 := trim_length_le a
        simp at h3
        exact ⟨h _ (by omega), h _ (by omega)⟩

theorem parseF_enough {cfg : Cfg} (n m : Nat) (s : Str) (hn : s.length < n) (hm : s.length < m) :
    parseF cfg n s = parseF cfg m s := by
  induction n generalizing m s with
  | zero => omega
  | succ n ih =>
    cases m with
    | zero => omega
    | succ m =>
      unfold parseF
      exact parseStep_congr (fun a ha => ih m a (by omega) (by omega))

/-- `Type::from_str` is exactly its recursive definition. -/
theorem parse_unfold (cfg : Cfg) (s : Str) : Ty.parse cfg s = parseStep cfg (Ty.parse cfg) s := by
  show parseStep cfg (parseF cfg s.length) s = _
  apply parseStep_congr
  intro a ha
  exact parseF_enough _ _ _ ha (by omega)

/-! ### one level of a rendered type -/

theorem parseStep_call {cfg : Cfg} {rec : Str → Res Ty} {ident : Str} {l : List Str}
    (hid : ∀ r, eatIdent cfg (ident ++ '(' :: r) = (ident, '(' :: r)) (hne : ident ≠ [])
    (ha : ∀ s ∈ l, Atom s) (he : ∀ s ∈ l, Ends s) :
    parseStep cfg rec (ident ++ '(' :: joinComma l ++ [')']) = withArgs cfg rec ident l := by
  unfold parseStep
  have e : ident ++ '(' :: joinComma l ++ [')'] = ident ++ '(' :: (joinComma l ++ [')']) := by simp
  rw [e, hid]
  dsimp only
  rw [if_neg (by simp [hne])]
  have e2 : '(' :: (joinComma l ++ [')']) = '(' :: joinComma l ++ [')'] := by simp
  have ht : trim ('(' :: (joinComma l ++ [')'])) = '(' :: joinComma l ++ [')'] := by
    rw [e2]
    exact (Ends.cons_append (by decide) (by decide)).trim
  rw [ht, if_neg (by simp), parseArgs_join ha he]
  rfl

theorem isDigit_not_sep {c : Char} (h : isDigit c = true) : ¬ Separator c := by
  rintro (rfl | rfl | rfl) <;> exact absurd h (by decide)

theorem dec_atom (n : Nat) : Atom (dec n) :=
  Atom.plain (fun c hc => isDigit_not_sep (List.all_eq_true.mp (dec_digits n) c hc))

theorem ends_of_all_nonws {s : Str} (hne : s ≠ []) (h : ∀ c ∈ s, isWs c = false) : Ends s := by
  refine ⟨?_, ?_⟩
  · cases s with
    | nil => exact absurd rfl hne
    | cons c r => exact ⟨c, r, rfl, h c (by simp)⟩
  · have := List.dropLast_concat_getLast hne
    exact ⟨s.getLast hne, s.dropLast, this.symm, h _ (List.getLast_mem hne)⟩

theorem dec_ends (n : Nat) : Ends (dec n) :=
  ends_of_all_nonws (dec_ne_nil n)
    (fun c hc => isDigit_not_ws (List.all_eq_true.mp (dec_digits n) c hc))

theorem decInt_chars (x : Int) : ∀ c ∈ decInt x, isWs c = false ∧ ¬ Separator c := by
  have hd : ∀ c ∈ dec x.natAbs, isWs c = false ∧ ¬ Separator c := fun c hc =>
    have := List.all_eq_true.mp (dec_digits _) c hc
    ⟨isDigit_not_ws this, isDigit_not_sep this⟩
  unfold decInt
  split
  · intro c hc
    rw [List.mem_cons] at hc
    rcases hc with rfl | hc
    · exact ⟨by decide, by unfold Separator; decide⟩
    · exact hd c hc
  · exact hd

theorem decInt_ne_nil (x : Int) : decInt x ≠ [] := by
  unfold decInt
  split
  · simp
  · exact dec_ne_nil _

theorem decInt_ends (x : Int) : Ends (decInt x) :=
  ends_of_all_nonws (decInt_ne_nil x) (fun c hc => (decInt_chars x c hc).1)

theorem quoted_atom {s : Str} (h : ∀ c ∈ s, ¬ Separator c) : Atom ('\'' :: s ++ ['\'']) := by
  apply Atom.plain
  intro c hc
  simp at hc
  rcases hc with rfl | hc | rfl
  · unfold Separator; decide
  · exact h c hc
  · unfold Separator; decide

theorem quoted_ends (s : Str) : Ends ('\'' :: s ++ ['\'']) := Ends.cons_append (by decide) (by decide)

theorem unquote_quoted (s : Str) : unquote ('\'' :: s ++ ['\'']) = .ok s := by
  unfold unquote
  rw [if_pos ⟨rfl, List.getLast?_concat⟩, if_neg (by simp)]
  simp

theorem enumItem_atom {w : Nat} {it : Str × BitVec w} (h : PlainName it.1) : Atom (enumItem it) := by
  apply Atom.plain
  intro c hc
  unfold enumItem at hc
  simp at hc
  rcases hc with rfl | hc | rfl | rfl | rfl | rfl | hc
  · unfold Separator; decide
  · exact (h.2 c hc).1
  · unfold Separator; decide
  · unfold Separator; decide
  · unfold Separator; decide
  · unfold Separator; decide
  · exact (decInt_chars _ c hc).2

theorem enumItem_ends {w : Nat} (it : Str × BitVec w) : Ends (enumItem it) := by
  obtain ⟨_, ⟨c, r, h, hc⟩⟩ := decInt_ends it.2.toInt
  refine ⟨⟨'\'', _, rfl, by decide⟩, ⟨c, '\'' :: it.1 ++ (ch! "' = ") ++ r, ?_, hc⟩⟩
  unfold enumItem
  rw [h]
  simp

theorem takeWhile_until {α : Type} {p : α → Bool} {l r : List α} {c : α} (h : ∀ x ∈ l, p x = true)
    (hc : p c = false) : (l ++ c :: r).takeWhile p = l ∧ (l ++ c :: r).dropWhile p = c :: r := by
  induction l with
  | nil => simp [hc]
  | cons x l ih =>
    have := ih (fun y hy => h y (by simp [hy]))
    simp [h x (by simp), this]

theorem trim_append_blank {s w : Str} (h : Ends s) (hw : Blank w) : trim (s ++ w) = s := by
  unfold trim trimEnd
  obtain ⟨⟨c, r, h1, hc⟩, ⟨c', r', h2, hc'⟩⟩ := h
  have : (s ++ w).dropWhile isWs = s ++ w := by rw [h1]; simp [hc]
  rw [this, List.reverse_append, dropWhile_ws_append (fun c hc => hw c (by simpa using hc))]
  have : s.reverse.dropWhile isWs = s.reverse := by rw [h2]; simp [hc']
  rw [this, List.reverse_reverse]

theorem trim_blank_append {s w : Str} (h : Ends s) (hw : Blank w) : trim (w ++ s) = s := by
  have := h.trim
  unfold trim at this ⊢
  rw [dropWhile_ws_append hw]
  exact this

theorem parseEnumVariant_item {w : Nat} {it : Str × BitVec w} (h : PlainName it.1) :
    parseEnumVariant w (trim (enumItem it)) = .ok it := by
  rw [(enumItem_ends it).trim]
  unfold parseEnumVariant
  have e : enumItem it = ('\'' :: it.1 ++ ['\''] ++ [' ']) ++ '=' :: (' ' :: decInt it.2.toInt) := by
    unfold enumItem; simp
  have hmem : '=' ∈ enumItem it := by rw [e]; simp
  rw [if_pos hmem]
  have hpre : ∀ x ∈ ('\'' :: it.1 ++ ['\''] ++ [' ']), (decide (x ≠ '=')) = true := by
    intro x hx
    simp at hx
    rcases hx with rfl | hx | rfl | rfl
    · decide
    · simp [(h.2 x hx).2]
    · decide
    · decide
  have hs := takeWhile_until (r := ' ' :: decInt it.2.toInt) hpre (c := '=') (by decide)
  rw [e, hs.1, hs.2]
  dsimp only
  rw [trim_append_blank (quoted_ends it.1) (w := [' ']) (by intro c hc; simp at hc; subst hc; rfl)]
  have : List.drop 1 ('=' :: ' ' :: decInt it.2.toInt) = [' '] ++ decInt it.2.toInt := rfl
  rw [this, trim_blank_append (decInt_ends _) (by intro c hc; simp at hc; subst hc; rfl),
    unquote_quoted, Res.bind_ok, parseInt_decInt, h.1]

theorem mapL_eq_map {α β : Type} {f : α → Res β} {g : α → β} {l : List α}
    (h : ∀ a ∈ l, f a = .ok (g a)) : Res.mapL f l = .ok (l.map g) := by
  induction l with
  | nil => rfl
  | cons x r ih =>
    unfold Res.mapL
    rw [h x (by simp), ih (fun a ha => h a (by simp [ha]))]
    rfl

theorem mapL_map {α β γ : Type} (f : β → Res γ) (g : α → β) (l : List α) :
    Res.mapL f (l.map g) = Res.mapL (fun a => f (g a)) l := by
  induction l with
  | nil => rfl
  | cons x r ih =>
    simp only [List.map_cons]
    unfold Res.mapL
    rw [ih]

theorem parseNum_dec {n : Nat} (h : n < 2 ^ 64) : parseNum (dec n) = .ok n := by
  unfold parseNum; rw [parseUsize_dec n h]

theorem plain_lit {s : Str} (h : s.all (fun c => c ≠ '(' && c ≠ ')' && c ≠ ',') = true) :
    ∀ c ∈ s, ¬ Separator c := by
  intro c hc
  have := List.all_eq_true.mp h c hc
  simp at this
  rintro (rfl | rfl | rfl) <;> simp at this

theorem lit_ends {s : Str} (h : s.isEmpty = false) (h2 : s.all (fun c => !isWs c) = true) : Ends s := by
  apply ends_of_all_nonws
  · intro hc; simp [hc] at h
  · intro c hc
    have := List.all_eq_true.mp h2 c hc
    simpa using this

theorem call_atom {ident : Str} {l : List Str} (h : ∀ c ∈ ident, ¬ Separator c) (hl : ∀ s ∈ l, Atom s) :
    Atom (ident ++ '(' :: joinComma l ++ [')']) := by
  have := (Atom.plain h).append (Bal.join hl).atom
  simpa using this

theorem call_ends {c : Char} {ident s : Str} (h : isWs c = false) :
    Ends (c :: ident ++ '(' :: s ++ [')']) := by
  refine ⟨⟨c, _, rfl, h⟩, ⟨')', _, rfl, by decide⟩⟩

end Klick
