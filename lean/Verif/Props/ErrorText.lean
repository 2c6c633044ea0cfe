import Verif.Spec.ErrorText
import Verif.Props.Lock
import Verif.TypeTextLemmas
/-
C96: the texts of errors, and what the lock makes of them.
-/
namespace Klick.Props
open Klick Spec

/-! ### Infixes -/

theorem claims_infix (t : Str) : SaysTaken t ↔ ch! "already exists" <:+: t := by
  constructor
  · rintro ⟨a, b, h⟩; exact ⟨a, b, h.symm⟩
  · rintro ⟨a, b, h⟩; exact ⟨a, b, h.symm⟩

theorem prefix_sep {p : Str} {c : Char} (hc : c ∉ p) (a b : Str) (h : p <+: a ++ c :: b) : p <+: a := by
  induction a generalizing p with
  | nil =>
    cases p with
    | nil => exact List.nil_prefix
    | cons x p =>
      rw [List.nil_append, List.cons_prefix_cons] at h
      exact absurd (by rw [h.1]; simp) hc
  | cons y a ih =>
    cases p with
    | nil => exact List.nil_prefix
    | cons x p =>
      rw [List.cons_append, List.cons_prefix_cons] at h
      rw [List.cons_prefix_cons]
      exact ⟨h.1, ih (fun hm => hc (by simp [hm])) h.2⟩

/-- A text without `c` occurs on one side of a `c`. -/
theorem infix_sep {p : Str} {c : Char} (hc : c ∉ p) (hp : p ≠ []) (a b : Str) : p <:+: a ++ c :: b ↔ p <:+: a ∨ p <:+: b := by
  induction a with
  | nil =>
    rw [List.nil_append, List.infix_cons_iff]
    constructor
    · rintro (h | h)
      · exact .inl (prefix_sep hc [] b h).isInfix
      · exact .inr h
    · rintro (h | h)
      · exact absurd (List.infix_nil.mp h) hp
      · exact .inr h
  | cons x a ih =>
    rw [List.cons_append, List.infix_cons_iff, List.infix_cons_iff, ih, or_assoc]
    constructor
    · rintro (h | h)
      · exact .inl (prefix_sep hc (x :: a) b h)
      · exact .inr h
    · rintro (h | h)
      · exact .inl (h.trans (List.prefix_append (x :: a) (c :: b)))
      · exact .inr h

/-- A text occurs after a character that is not its first where it occurs at all. -/
theorem claims_cons {c : Char} (h : c ≠ 'a') (s : Str) : ch! "already exists" <:+: c :: s ↔ ch! "already exists" <:+: s := by
  rw [List.infix_cons_iff]
  constructor
  · rintro (h' | h')
    · rw [List.cons_prefix_cons] at h'; exact absurd h'.1.symm h
    · exact h'
  · exact .inr

theorem claims_a {c : Char} (h : c ≠ 'l') (s : Str) : ch! "already exists" <:+: 'a' :: c :: s ↔ ch! "already exists" <:+: c :: s := by
  rw [List.infix_cons_iff]
  constructor
  · rintro (h' | h')
    · rw [List.cons_prefix_cons, List.cons_prefix_cons] at h'; exact absurd h'.2.1.symm h
    · exact h'
  · exact .inr

/-- A text that begins with `p` after `a` begins with it already in `a`, or ends in the rest. -/
theorem prefix_split {p : Str} (a b : Str) (h : p <+: a ++ b) : p <+: a ∨ p.drop a.length <+: b ∧ a.length < p.length := by
  induction a generalizing p with
  | nil =>
    cases p with
    | nil => exact .inl List.nil_prefix
    | cons x p => exact .inr ⟨h, by simp⟩
  | cons y a ih =>
    cases p with
    | nil => exact .inl List.nil_prefix
    | cons x p =>
      rw [List.cons_append, List.cons_prefix_cons] at h
      rcases ih h.2 with h' | ⟨h', h''⟩
      · exact .inl (List.cons_prefix_cons.mpr ⟨h.1, h'⟩)
      · exact .inr ⟨h', by simpa using h''⟩

theorem struct_end (n : Str) : ch! "already exists" <:+: n ++ ch! " in struct" ↔ ch! "already exists" <:+: n := by
  have hno : ∀ k < 14, ¬ (ch! "already exists").drop k <+: ch! " in struct" := by decide
  induction n with
  | nil => decide
  | cons x n ih =>
    rw [List.cons_append, List.infix_cons_iff, List.infix_cons_iff]
    constructor
    · rintro (h | h)
      · rcases prefix_split (x :: n) (ch! " in struct") h with h | ⟨h, hk⟩
        · exact .inl h
        · exact absurd h (hno _ hk)
      · exact .inr (ih.mp h)
    · rintro (h | h)
      · exact .inl (h.trans (List.prefix_append (x :: n) (ch! " in struct")))
      · exact .inr (ih.mpr h)

theorem digits_quiet {d : Str} (hd : ∀ c ∈ d, c ≠ 'a') (s : Str) : ch! "already exists" <:+: d ++ s ↔ ch! "already exists" <:+: s := by
  induction d with
  | nil => rfl
  | cons c d ih => rw [List.cons_append, claims_cons (hd c (by simp)), ih (fun c hc => hd c (by simp [hc]))]

theorem dec_no_a (n : Nat) : ∀ c ∈ dec n, c ≠ 'a' := by
  intro c hc e
  have := List.all_eq_true.mp (dec_digits n) c hc
  subst e
  exact absurd this (by decide)

theorem decInt_no (x : Int) : ∀ c ∈ decInt x, c ≠ 'a' ∧ c ≠ ' ' := by
  intro c hc
  have hd : ∀ c ∈ dec x.natAbs, c ≠ 'a' ∧ c ≠ ' ' := by
    intro c hc
    have := List.all_eq_true.mp (dec_digits _) c hc
    constructor <;> (intro e; subst e; exact absurd this (by decide))
  unfold decInt at hc
  split at hc
  · rcases List.mem_cons.mp hc with rfl | hc
    · decide
    · exact hd c hc
  · exact hd c hc

/-- The phrase begins nowhere in the wording, not even with its end in what follows. -/
def mute : Str → Bool
  | [] => true
  | c :: cs => !(c :: cs).isPrefixOf (ch! "already exists") && !(ch! "already exists").isPrefixOf (c :: cs) && mute cs

theorem mute_lead (w s : Str) (h : mute w = true) : ch! "already exists" <:+: w ++ s ↔ ch! "already exists" <:+: s := by
  induction w with
  | nil => exact Iff.rfl
  | cons c w ih =>
    simp only [mute, Bool.and_eq_true, Bool.not_eq_true', ← Bool.not_eq_true, List.isPrefixOf_iff_prefix] at h
    obtain ⟨⟨h1, h2⟩, h3⟩ := h
    rw [List.cons_append, List.infix_cons_iff]
    constructor
    · rintro (h | h)
      · rcases List.prefix_or_prefix_of_prefix h (List.prefix_append (c :: w) s) with h' | h'
        · exact absurd h' h2
        · exact absurd h' h1
      · exact (ih h3).mp h
    · exact fun h => .inr ((ih h3).mpr h)

/-- One text after a wording. -/
theorem one_text (w t : Str) (h : mute w = true) : ch! "already exists" <:+: w ++ t ↔ ∃ x ∈ [t], ch! "already exists" <:+: x := by
  rw [mute_lead w t h]
  simp

/-- Two texts after a wording, joined by a colon and a space. -/
theorem two_texts (w t u : Str) (h : mute w = true) :
    ch! "already exists" <:+: w ++ t ++ ch! ": " ++ u ↔ ch! "already exists" <:+: t ∨ ch! "already exists" <:+: u := by
  rw [List.append_assoc, List.append_assoc, mute_lead w _ h]
  exact (infix_sep (by decide) (by decide) t (' ' :: u)).trans (or_congr Iff.rfl (claims_cons (by decide) u))

/-- C96: the text of an error says that something already exists exactly when one of the texts it carries does: nothing of the
wording around them, and no joint between two of them, says so. -/
theorem C96_says (e : Fault) : strContains (ch! "already exists") e.display = true ↔ ∃ t ∈ carried e, SaysTaken t := by
  rw [contains_infix]
  simp only [claims_infix]
  cases e with
  | missingRow => exact ⟨fun h => absurd h (by decide), by rintro ⟨_, h, _⟩; cases h⟩
  | doubleFetch => exact ⟨fun h => absurd h (by decide), by rintro ⟨_, h, _⟩; cases h⟩
  | outOfBounds => exact ⟨fun h => absurd h (by decide), by rintro ⟨_, h, _⟩; cases h⟩
  | missingField n => exact one_text _ n (by decide)
  | duplicateField n =>
    refine Iff.trans ?_ (one_text [] n rfl)
    rw [Fault.display, List.append_assoc, mute_lead _ _ (by decide)]
    exact struct_end n
  | protocol m => exact one_text _ m (by decide)
  | typeParse m => exact one_text _ m (by decide)
  | deserialize m => exact one_text _ m (by decide)
  | serialize m => exact one_text _ m (by decide)
  | deserializeWithColumn c m => rw [Fault.display, two_texts _ c m (by decide)]; simp [carried]
  | serverException c n m s =>
    have e1 : (Fault.serverException c n m s).display =
        ch! "server exception: " ++ (decInt c.toInt ++ ([' '] ++ (n ++ ':' :: ' ' :: (m ++ '\n' :: s)))) := by
      simp only [Fault.display, List.append_assoc, List.cons_append, List.nil_append]
    rw [e1, mute_lead _ _ (by decide), digits_quiet (fun c hc => (decInt_no _ c hc).1), mute_lead _ _ (by decide),
      infix_sep (by decide) (by decide), claims_cons (by decide), infix_sep (by decide) (by decide)]
    simp [carried]
  | unexpectedType t => exact one_text _ _ (by decide)
  | unexpectedTypeWithColumn c t => rw [Fault.display, two_texts _ c _ (by decide)]; simp [carried]
  | io k t o => exact one_text _ t (by decide)
  | utf8 b u l =>
    constructor
    · intro h
      exfalso
      rw [Fault.display, mute_lead _ _ (by decide)] at h
      cases l with
      | none =>
        rw [utf8Text, mute_lead _ _ (by decide)] at h
        rw [← List.append_nil (dec u), digits_quiet (dec_no_a u)] at h
        exact absurd h (by decide)
      | some n =>
        rw [utf8Text, List.append_assoc, List.append_assoc, mute_lead _ _ (by decide), digits_quiet (dec_no_a n),
          mute_lead _ _ (by decide)] at h
        rw [← List.append_nil (dec u), digits_quiet (dec_no_a u)] at h
        exact absurd h (by decide)
    · rintro ⟨_, h, _⟩; cases h

/-! ### What a text tells -/

/-- Two texts cut at the first `c`. -/
theorem cut_at {c : Char} {a b r r' : Str} (ha : c ∉ a) (hb : c ∉ b) (h : a ++ c :: r = b ++ c :: r') : a = b ∧ r = r' := by
  induction a generalizing b with
  | nil =>
    cases b with
    | nil => exact ⟨rfl, (List.cons.inj h).2⟩
    | cons y b => exact absurd (by rw [(List.cons.inj h).1]; simp) hb
  | cons x a ih =>
    cases b with
    | nil => exact absurd (by rw [← (List.cons.inj h).1]; simp) ha
    | cons y b =>
      obtain ⟨h1, h2⟩ := List.cons.inj h
      obtain ⟨h3, h4⟩ := ih (fun hm => ha (by simp [hm])) (fun hm => hb (by simp [hm])) h2
      exact ⟨by rw [h1, h3], h4⟩

/-- Two texts cut at the first colon followed by a space. -/
theorem cut_colon {a b r r' : Str} (ha : NoColon a) (hb : NoColon b) (h : a ++ ':' :: ' ' :: r = b ++ ':' :: ' ' :: r') : a = b ∧ r = r' := by
  induction a generalizing b with
  | nil =>
    cases b with
    | nil => exact ⟨rfl, (List.cons.inj (List.cons.inj h).2).2⟩
    | cons y b =>
      obtain ⟨h1, h2⟩ := List.cons.inj h
      cases b with
      | nil => exact absurd (List.cons.inj h2).1 (by decide)
      | cons z b => exact absurd (by rw [← h1, ← (List.cons.inj h2).1]; rfl) (hb [] b)
  | cons x a ih =>
    cases b with
    | nil =>
      obtain ⟨h1, h2⟩ := List.cons.inj h
      cases a with
      | nil => exact absurd (List.cons.inj h2).1 (by decide)
      | cons z a => exact absurd (by rw [h1, (List.cons.inj h2).1]; rfl) (ha [] a)
    | cons y b =>
      obtain ⟨h1, h2⟩ := List.cons.inj h
      obtain ⟨h3, h4⟩ := ih (fun u v e => ha (x :: u) v (by rw [e]; rfl)) (fun u v e => hb (y :: u) v (by rw [e]; rfl)) h2
      exact ⟨by rw [h1, h3], h4⟩

/-- The kind of an error, read off its text. -/
def kindByText (s : Str) : Nat :=
  if (ch! "no rows").isPrefixOf s then 0
  else if (ch! "can't").isPrefixOf s then 1
  else if (ch! "column index").isPrefixOf s then 2
  else if (ch! "missing field").isPrefixOf s then 3
  else if (ch! "duplicate field").isPrefixOf s then 4
  else if (ch! "protocol").isPrefixOf s then 5
  else if (ch! "type parse").isPrefixOf s then 6
  else if (ch! "deserialize error:").isPrefixOf s then 7
  else if (ch! "serialize").isPrefixOf s then 8
  else if (ch! "deserialize error for").isPrefixOf s then 9
  else if (ch! "server").isPrefixOf s then 10
  else if (ch! "unexpected type:").isPrefixOf s then 11
  else if (ch! "unexpected type for").isPrefixOf s then 12
  else if (ch! "io error").isPrefixOf s then 13
  else 14

theorem kindByText_display (e : Fault) : kindByText e.display = kindOf e := by
  cases e <;> rfl

/-- C96: the text of an error tells which kind of error it is: errors of different kinds never read the same, whatever texts they
carry. -/
theorem C96_kind (a b : Fault) (h : a.display = b.display) : kindOf a = kindOf b := by
  rw [← kindByText_display a, ← kindByText_display b, h]

/-- C96: the text begins with the words for its kind, and every text the error carries is a part of it. -/
theorem C96_carries (e : Fault) : wording (kindOf e) <+: e.display ∧ ∀ t ∈ carried e, t <:+: e.display := by
  cases e with
  | missingRow => exact ⟨List.prefix_refl _, fun t h => by cases h⟩
  | doubleFetch => exact ⟨List.prefix_refl _, fun t h => by cases h⟩
  | outOfBounds => exact ⟨List.prefix_refl _, fun t h => by cases h⟩
  | utf8 b u l => exact ⟨List.prefix_append _ _, fun t h => by cases h⟩
  | duplicateField n =>
    refine ⟨⟨n ++ ch! " in struct", (List.append_assoc _ _ _).symm⟩, fun t h => ?_⟩
    rcases List.mem_singleton.mp h with rfl
    exact ⟨_, _, rfl⟩
  | deserializeWithColumn c m =>
    refine ⟨⟨c ++ ch! ": " ++ m, by simp only [Fault.display, wording, kindOf, List.append_assoc]⟩, fun t h => ?_⟩
    rcases List.mem_cons.mp h with rfl | h
    · exact ⟨_, ch! ": " ++ m, (List.append_assoc _ _ _).symm⟩
    · rcases List.mem_singleton.mp h with rfl
      exact (List.suffix_append _ _).isInfix
  | unexpectedTypeWithColumn c m =>
    refine ⟨⟨c ++ ch! ": " ++ m.display, by simp only [Fault.display, wording, kindOf, List.append_assoc]⟩, fun t h => ?_⟩
    rcases List.mem_cons.mp h with rfl | h
    · exact ⟨_, ch! ": " ++ m.display, (List.append_assoc _ _ _).symm⟩
    · rcases List.mem_singleton.mp h with rfl
      exact (List.suffix_append _ _).isInfix
  | serverException c n m s =>
    refine ⟨⟨decInt c.toInt ++ ch! " " ++ n ++ ch! ": " ++ m ++ ch! "\n" ++ s, by
      simp only [Fault.display, wording, kindOf, List.append_assoc]⟩, fun t h => ?_⟩
    rcases List.mem_cons.mp h with rfl | h
    · exact ⟨ch! "server exception: " ++ decInt c.toInt ++ ch! " ", ch! ": " ++ m ++ ch! "\n" ++ s, by simp only [Fault.display, List.append_assoc]⟩
    rcases List.mem_cons.mp h with rfl | h
    · exact ⟨_, ch! "\n" ++ s, (List.append_assoc _ _ _).symm⟩
    · rcases List.mem_singleton.mp h with rfl
      exact (List.suffix_append _ _).isInfix
  | missingField m | protocol m | typeParse m | deserialize m | serialize m | unexpectedType m | io k m o =>
    refine ⟨List.prefix_append _ _, fun t h => ?_⟩
    rcases List.mem_singleton.mp h with rfl
    exact (List.suffix_append _ _).isInfix

example : carried (.serverException 57 (ch! "DB::Exception") (ch! "already exists") []) = [ch! "DB::Exception", ch! "already exists", []] ∧
    wording (kindOf (.utf8 [] 3 none)) = ch! "utf-8 conversion error: " := ⟨rfl, rfl⟩

theorem exception_text (c : BitVec 32) (n m s : Str) : (Fault.serverException c n m s).display =
    ch! "server exception: " ++ (decInt c.toInt ++ ' ' :: (n ++ ':' :: ' ' :: (m ++ '\n' :: s))) := by
  simp only [Fault.display, List.append_assoc, List.cons_append, List.nil_append]

theorem decInt_inj {x y : BitVec 32} (h : decInt x.toInt = decInt y.toInt) : x = y := by
  have hx := parseInt_decInt 32 x
  rw [h, parseInt_decInt 32 y] at hx
  exact (Option.some.inj hx).symm

/-- C96: server exceptions that read the same have the same code. -/
theorem C96_code (c c' : BitVec 32) (n m s n' m' s' : Str)
    (h : (Fault.serverException c n m s).display = (Fault.serverException c' n' m' s').display) : c = c' := by
  rw [exception_text, exception_text] at h
  exact decInt_inj (cut_at (fun hm => (decInt_no _ _ hm).2 rfl) (fun hm => (decInt_no _ _ hm).2 rfl) (List.append_cancel_left h)).1

/-- C96: server exceptions that read the same are the same, if their names contain no `: ` (the server's are like `DB::Exception`) and
their messages no line break. -/
theorem C96_parts_partial (c c' : BitVec 32) (n m s n' m' s' : Str) (hn : NoColon n) (hn' : NoColon n') (hm : '\n' ∉ m) (hm' : '\n' ∉ m')
    (h : (Fault.serverException c n m s).display = (Fault.serverException c' n' m' s').display) : c = c' ∧ n = n' ∧ m = m' ∧ s = s' := by
  rw [exception_text, exception_text] at h
  obtain ⟨h1, h2⟩ := cut_at (fun hm => (decInt_no _ _ hm).2 rfl) (fun hm => (decInt_no _ _ hm).2 rfl) (List.append_cancel_left h)
  obtain ⟨h3, h4⟩ := cut_colon hn hn' h2
  obtain ⟨h5, h6⟩ := cut_at hm hm' h4
  exact ⟨decInt_inj h1, h3, h5, h6⟩

example : NoColon (ch! "DB::Exception") ∧ '\n' ∉ ch! "Table _lock_jobs already exists" ∧
    (Fault.serverException 57 (ch! "DB::Exception") (ch! "Table _lock_jobs already exists") (ch! "0. main")).display =
      ch! "server exception: 57 DB::Exception: Table _lock_jobs already exists\n0. main" := by
  refine ⟨?_, by decide, by rfl⟩
  intro a b h
  have : ' ' ∈ ch! "DB::Exception" := by rw [h]; simp
  exact absurd this (by decide)

/-- C96 is false without: where the message ends and the stack trace begins cannot be told when messages have line breaks. -/
theorem C96_parts_false : ∃ m s m' s' : Str, m ≠ m' ∧
    (Fault.serverException 1 (ch! "DB::Exception") m s).display = (Fault.serverException 1 (ch! "DB::Exception") m' s').display :=
  ⟨ch! "a", ch! "b\nc", ch! "a\nb", ch! "c", by decide, by rfl⟩

/-- C96: a clone of an error reads like the error, is of the same kind and is the same error; only the code of the operating system is
lost from an I/O error. -/
theorem C96_clone (e : Fault) : e.clone.display = e.display ∧ kindOf e.clone = kindOf e ∧ carried e.clone = carried e ∧
    (e.clone = e ∨ ∃ k t o, e = .io k t (some o) ∧ e.clone = .io k t none) := by
  cases e with
  | io k t o =>
    refine ⟨rfl, rfl, rfl, ?_⟩
    cases o with
    | none => exact .inl rfl
    | some o => exact .inr ⟨k, t, o, rfl, rfl⟩
  | _ => exact ⟨rfl, rfl, rfl, .inl rfl⟩

/-- C96: what is said about the column keeps the rest of the text: the name of the column comes between the wording and the message. -/
theorem C96_column (col m : Str) (t : Ty) :
    ((Fault.deserialize m).withColumn col).display = ch! "deserialize error for column " ++ col ++ ch! ": " ++ m ∧
    ((Fault.unexpectedType t).withColumn col).display = ch! "unexpected type for column " ++ col ++ ch! ": " ++ t.display ∧
    ∀ e : Fault, kindOf e ≠ 7 → kindOf e ≠ 11 → e.withColumn col = e := by
  refine ⟨rfl, rfl, ?_⟩
  intro e h1 h2
  cases e <;> first | rfl | exact absurd rfl h1 | exact absurd rfl h2

/-- The full errors and those of the other modules agree. -/
theorem toErr_withColumn (e : Fault) (col : Str) : (e.withColumn col).toErr = e.toErr.withColumn col := by
  cases e <;> rfl

theorem toErr_fault (e : ServerException) : e.fault.toErr = e.emit := rfl

/-! ### The lock -/

theorem attempt_text (e : Fault) :
    ((∃ t ∈ carried e, SaysTaken t) ∧ Attempt.of (.error e.display) = .busy) ∨
    ((¬ ∃ t ∈ carried e, SaysTaken t) ∧ Attempt.of (.error e.display) = .failed e.display) := by
  by_cases h : strContains (ch! "already exists") e.display = true
  · exact .inl ⟨(C96_says e).mp h, by simp only [Attempt.of, if_pos h]⟩
  · exact .inr ⟨fun h' => h ((C96_says e).mpr h'), by simp only [Attempt.of, if_neg h]⟩

/-- A refused request of any task. -/
theorem refused_request (lex : Str → List Token) (c : Cloud) (i : Nat) (pc : Pc) (p : Purpose) (q t : Str) (hreq : pc.request = some (p, q))
    (ht : c.tasks[i]? = some ⟨pc, .sent⟩) :
    (c.run lex [.serve i (.rejected t), .recv i]).tasks[i]?.map Task.pc = some (pc.resume lex c.now (.error t)).1 := by
  have hi := lt_of_get ht
  have hg : (c.tasks.set i ⟨pc, .answered (.error t)⟩)[i]? = some ⟨pc, .answered (.error t)⟩ := List.getElem?_set_self hi
  have e1 : c.step lex (.serve i (.rejected t)) = c.put i ⟨pc, .answered (.error t)⟩ := by
    simp only [Cloud.step, ht, hreq, Cloud.served]
  simp only [Cloud.run, e1]
  simp only [Cloud.step, Cloud.put, hg, hreq, Cloud.received, List.set_set]
  rw [List.getElem?_append_left (by rw [List.length_set]; exact hi), List.getElem?_set_self hi]
  rfl

/-- C96: an attempt at a lock that gets error `e` reports the lock as taken if one of the texts `e` carries says `already exists`, and
otherwise fails with `e`: `try_lock` says that the lock is taken, `lock` sleeps and tries again, a batch of migrations too. -/
theorem C96_attempt (lex : Str → List Token) (c : Cloud) (i : Nat) (e : Fault) (l : Lock) (m : Migrator) (start : Nat) (scripts : List Str) :
    let pc' := (c.run lex [.serve i (.rejected e.display), .recv i]).tasks[i]?.map Task.pc
    ((∃ t ∈ carried e, SaysTaken t) →
      (c.tasks[i]? = some ⟨.tryLock l, .sent⟩ → pc' = some (.refused l)) ∧
      (c.tasks[i]? = some ⟨.lock l, .sent⟩ → pc' = some (.lockSleep l (c.now + 100))) ∧
      (c.tasks[i]? = some ⟨.mig m (.acquire start scripts), .sent⟩ → pc' = some (.mig m (.pause start (c.now + 250) scripts)))) ∧
    ((¬ ∃ t ∈ carried e, SaysTaken t) →
      (c.tasks[i]? = some ⟨.tryLock l, .sent⟩ → pc' = some (.returned (.error e.display))) ∧
      (c.tasks[i]? = some ⟨.lock l, .sent⟩ → pc' = some (.returned (.error e.display))) ∧
      (c.tasks[i]? = some ⟨.mig m (.acquire start scripts), .sent⟩ → pc' = some (.mig m (.done (.error e.display))))) := by
  intro pc'
  have key : ∀ pc : Pc, ∀ p q, pc.request = some (p, q) → c.tasks[i]? = some ⟨pc, .sent⟩ → pc' = some (pc.resume lex c.now (.error e.display)).1 :=
    fun pc p q hreq ht => refused_request lex c i pc p q e.display hreq ht
  rcases attempt_text e with ⟨hs, ha⟩ | ⟨hs, ha⟩
  · refine ⟨fun _ => ⟨?_, ?_, ?_⟩, fun h => absurd hs h⟩
    all_goals
      intro ht
      rw [key _ _ _ rfl ht]
      simp only [Pc.resume, ha]
  · refine ⟨fun h => absurd h hs, fun _ => ⟨?_, ?_, ?_⟩⟩
    all_goals
      intro ht
      rw [key _ _ _ rfl ht]
      simp only [Pc.resume, ha]

/-- A lock whose name the server cannot read. -/
def exOddLock : Lock := ⟨ch! "job that already exists", none, 0⟩

/-- What the server says about its statement, with code 62. -/
def exSyntaxError : Fault :=
  .serverException 62 (ch! "DB::Exception") (ch! "Syntax error: failed at position 24 ('that'): that already exists (i Int64)ENGINE=Null. Expected one of: ON, UUID") []

/-- One round of `lock` that gets the error. -/
def exRound : List CloudStep := [.start 0, .serve 0 (.rejected exSyntaxError.display), .recv 0, .tick 100, .wake 0]

/-- Any number of rounds. -/
def exRounds : Nat → List CloudStep
  | 0 => []
  | n + 1 => exRound ++ exRounds n

theorem odd_round (now : Nat) (log : List LockEv) (steps : List CloudStep) :
    ∃ log', Cloud.run (fun _ => []) ⟨now, [], [⟨.lock exOddLock, .ready⟩], log, []⟩ (exRound ++ steps) =
      Cloud.run (fun _ => []) ⟨now + 100, [], [⟨.lock exOddLock, .ready⟩], log', []⟩ steps := by
  have hs : Cloud.step (fun _ => []) ⟨now, [], [⟨.lock exOddLock, .sent⟩], log, []⟩ (.serve 0 (.rejected exSyntaxError.display)) =
      ⟨now, [], [⟨.lock exOddLock, .answered (.error exSyntaxError.display)⟩], log, []⟩ := rfl
  have ha : Attempt.of (.error exSyntaxError.display) = .busy := by
    rcases attempt_text exSyntaxError with ⟨_, h⟩ | ⟨h, _⟩
    · exact h
    · exact absurd ⟨_, List.mem_cons_of_mem _ List.mem_cons_self,
        ch! "Syntax error: failed at position 24 ('that'): that ", ch! " (i Int64)ENGINE=Null. Expected one of: ON, UUID", rfl⟩ h
  have hr : Pc.resume (fun _ => []) now (.error exSyntaxError.display) (.lock exOddLock) = (.lockSleep exOddLock (now + 100), []) := by
    simp only [Pc.resume, ha]
  refine ⟨log ++ [.answer 0 .lock exOddLock.createText (.error exSyntaxError.display)], ?_⟩
  have e1 : Cloud.step (fun _ => []) ⟨now, [], [⟨.lock exOddLock, .ready⟩], log, []⟩ (.start 0) = ⟨now, [], [⟨.lock exOddLock, .sent⟩], log, []⟩ := rfl
  have e3 : Cloud.step (fun _ => []) ⟨now, [], [⟨.lock exOddLock, .answered (.error exSyntaxError.display)⟩], log, []⟩ (.recv 0) =
      ⟨now, [], [⟨.lockSleep exOddLock (now + 100), .ready⟩], log ++ [.answer 0 .lock exOddLock.createText (.error exSyntaxError.display)], []⟩ := by
    have hq : (Pc.lock exOddLock).request = some (.lock, exOddLock.createText) := rfl
    simp only [Cloud.step, List.getElem?_cons_zero, hq, Cloud.received, hr, List.set_cons_zero, List.map_nil, List.append_nil]
  have e5 : Pc.wake (now + 100) (.lockSleep exOddLock (now + 100)) = .lock exOddLock := by
    simp only [Pc.wake, if_pos (Nat.le_refl _)]
  show Cloud.run _ (((((_ : Cloud).step _ _).step _ _).step _ _).step _ _ |>.step _ _) steps = _
  rw [e1, hs, e3]
  simp only [Cloud.step, List.getElem?_cons_zero, Cloud.put, e5, List.set_cons_zero]

/-- C96 is false of the lock: with no table at all, `try_lock` reports a lock as taken because the server could not read its name and
quoted it, and `lock` waits for it forever, however often the server says so; the code (62, a syntax error) is not looked at. -/
theorem C96_taken_false :
    (Cloud.init.run (fun _ => []) [.callTryLock exOddLock, .start 0, .serve 0 (.rejected exSyntaxError.display), .recv 0]).tasks =
      [⟨.refused exOddLock, .ready⟩] ∧
    ∀ n, (Cloud.init.run (fun _ => []) (.callLock exOddLock :: exRounds n)).tasks = [⟨.lock exOddLock, .ready⟩] ∧
      (Cloud.init.run (fun _ => []) (.callLock exOddLock :: exRounds n)).tables = [] ∧
      (Cloud.init.run (fun _ => []) (.callLock exOddLock :: exRounds n)).now = 100 * n := by
  refine ⟨by rfl, ?_⟩
  have gen : ∀ n now log, (Cloud.run (fun _ => []) ⟨now, [], [⟨.lock exOddLock, .ready⟩], log, []⟩ (exRounds n)).tasks = [⟨.lock exOddLock, .ready⟩] ∧
      (Cloud.run (fun _ => []) ⟨now, [], [⟨.lock exOddLock, .ready⟩], log, []⟩ (exRounds n)).tables = [] ∧
      (Cloud.run (fun _ => []) ⟨now, [], [⟨.lock exOddLock, .ready⟩], log, []⟩ (exRounds n)).now = now + 100 * n := by
    intro n
    induction n with
    | zero => intro now log; exact ⟨rfl, rfl, rfl⟩
    | succ n ih =>
      intro now log
      obtain ⟨log', h⟩ := odd_round now log (exRounds n)
      obtain ⟨h1, h2, h3⟩ := ih (now + 100) log'
      have h0 : exRounds (n + 1) = exRound ++ exRounds n := rfl
      rw [h0, h]
      exact ⟨h1, h2, by rw [h3]; omega⟩
  intro n
  obtain ⟨h1, h2, h3⟩ := gen n 0 []
  exact ⟨h1, h2, by rw [show (Cloud.init.run (fun _ => []) (.callLock exOddLock :: exRounds n)).now = _ from h3]; omega⟩

end Klick.Props
