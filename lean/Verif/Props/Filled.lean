import Verif.Props.Reading
/-
Property C99: an argument is read as one operand, where the template has it.
-/
namespace Klick.Props
open Klick Klick.Spec

/-! ### the texts of values are complete by themselves -/

/-- The text is read from anywhere outside quotes and comments, and leaves the open groups as they are. -/
def Passes (t : Str) : Prop := ∀ (P : List SqlNode) (Q : List (List SqlNode)), ∃ P', (⟨.code, P, Q⟩ : ReadState).text t = some ⟨.code, P', Q⟩

theorem Passes.append {a b : Str} (ha : Passes a) (hb : Passes b) : Passes (a ++ b) := by
  intro P Q
  obtain ⟨P1, h1⟩ := ha P Q
  obtain ⟨P2, h2⟩ := hb P1 Q
  exact ⟨P2, by rw [text_append, h1]; exact h2⟩

theorem Passes.reads {t : Str} (h : Passes t) : ∃ ns, ReadsAs t ns := h [] []

theorem passes_nil : Passes [] := fun P _ => ⟨P, rfl⟩

theorem passes_calm {t : Str} (h : t.all calmChar = true) : Passes t := fun P Q => ⟨_, calm_text h P Q⟩

theorem passes_group {t : Str} (h : Passes t) : Passes ('(' :: t ++ [')']) := by
  intro P Q
  obtain ⟨P1, h1⟩ := h [] (P :: Q)
  refine ⟨P ++ [.group P1], ?_⟩
  rw [List.cons_append, text_cons]
  show (⟨.code, [], P :: Q⟩ : ReadState).text (t ++ [')']) = _
  rw [text_append, h1]
  rfl

/-- Inside quotes. -/
theorem quote_text {q : Char} {body : Str} (h : Closed q body) (hq : q ≠ '\\') (P : List SqlNode) (Q : List (List SqlNode)) :
    ∀ b, (⟨.quote q b, P, Q⟩ : ReadState).text (body ++ [q]) = some ⟨.code, P ++ [.quoted q (b ++ body)], Q⟩ := by
  induction h with
  | nil =>
    intro b
    show (if q = '\\' then _ else if q = q then some (⟨.code, P ++ [.quoted q b], Q⟩ : ReadState) else _).bind _ = _
    rw [if_neg hq, if_pos rfl, List.append_nil]
    rfl
  | @plain c s h1 h2 _ ih =>
    intro b
    rw [List.cons_append, text_cons]
    show (if c = '\\' then _ else if c = q then _ else some (⟨.quote q (b ++ [c]), P, Q⟩ : ReadState)).bind _ = _
    rw [if_neg h2, if_neg h1]
    show (⟨.quote q (b ++ [c]), P, Q⟩ : ReadState).text (s ++ [q]) = _
    rw [ih, List.append_assoc]
    rfl
  | @escaped c s _ ih =>
    intro b
    rw [List.cons_append, List.cons_append, text_cons]
    show (⟨.escape q b, P, Q⟩ : ReadState).text (c :: (s ++ [q])) = _
    rw [text_cons]
    show (⟨.quote q (b ++ ['\\', c]), P, Q⟩ : ReadState).text (s ++ [q]) = _
    rw [ih, List.append_assoc]
    rfl

theorem quoted_text {body : Str} (h : Closed '\'' body) (P : List SqlNode) (Q : List (List SqlNode)) :
    (⟨.code, P, Q⟩ : ReadState).text (['\''] ++ body ++ ['\'']) = some ⟨.code, P ++ [.quoted '\'' body], Q⟩ := by
  rw [List.append_assoc]
  show (⟨.quote '\'' [], P, Q⟩ : ReadState).text (body ++ ['\'']) = _
  rw [quote_text h (by decide)]
  rfl

theorem passes_quoted {body : Str} (h : Closed '\'' body) : Passes (['\''] ++ body ++ ['\'']) := fun P Q => ⟨_, quoted_text h P Q⟩

theorem closed_append {q : Char} {a b : Str} (ha : Closed q a) (hb : Closed q b) : Closed q (a ++ b) := by
  induction ha with
  | nil => exact hb
  | plain h1 h2 _ ih => exact .plain h1 h2 ih
  | escaped _ ih => exact .escaped ih

theorem hexU_plain : ∀ n, n < 16 → hexU n ≠ '\'' ∧ hexU n ≠ '\\' := by decide

theorem ascii_plain : ∀ n, n < 128 → n ≠ 0x5C → n ≠ 0x27 → Char.ofNat n ≠ '\'' ∧ Char.ofNat n ≠ '\\' := by decide

theorem closed_escapeByte (b : Byte) : Closed '\'' (escapeByte b) := by
  unfold escapeByte
  split
  · rename_i hb
    split
    · exact .escaped .nil
    rename_i h1
    split
    · exact .escaped .nil
    rename_i h2
    repeat' (split; exact .escaped .nil)
    have := ascii_plain b.toNat hb (fun e => h1 (BitVec.eq_of_toNat_eq e)) (fun e => h2 (BitVec.eq_of_toNat_eq e))
    exact .plain this.1 this.2 .nil
  · have hb := b.isLt
    have h1 := hexU_plain (b.toNat / 16) (by omega)
    have h2 := hexU_plain (b.toNat % 16) (by omega)
    exact .escaped (.plain h1.1 h1.2 (.plain h2.1 h2.2 .nil))

theorem closed_escape (s : Bytes) : Closed '\'' (escapeString s) := by
  induction s with
  | nil => exact .nil
  | cons b s ih => exact closed_append (closed_escapeByte b) ih

theorem digit_calm {c : Char} (h : isDigit c = true) : calmChar c = true := by
  unfold calmChar
  simp only [Bool.not_eq_true', Bool.or_eq_false_iff, beq_eq_false_iff_ne]
  refine ⟨⟨⟨⟨⟨⟨⟨⟨⟨?_, ?_⟩, ?_⟩, ?_⟩, ?_⟩, ?_⟩, ?_⟩, ?_⟩, ?_⟩, ?_⟩ <;> (intro e; subst e; revert h; decide)

theorem digits_calm {s : Str} (h : s.all isDigit = true) : s.all calmChar = true := by
  rw [List.all_eq_true] at h ⊢
  exact fun c hc => digit_calm (h c hc)

theorem passes_dec (n : Nat) : Passes (dec n) := passes_calm (digits_calm (dec_digits n))

/-- A minus sign before something that does not begin with one. -/
theorem passes_minus {c : Char} {t : Str} (hc : calmChar c = true) (ht : Passes t) : Passes ('-' :: c :: t) := by
  intro P Q
  rw [text_cons]
  show ∃ P', (⟨.dash, P, Q⟩ : ReadState).text (c :: t) = _
  have hne : c ≠ '-' := by rintro rfl; cases hc
  obtain ⟨P', h⟩ := ht (if isWord c then addLetter (P ++ [.sign '-']) c else P ++ [.sign '-'] ++ [.sign c]) Q
  refine ⟨P', ?_⟩
  rw [text_cons]
  show (if c = '-' then some (⟨.line, P, Q⟩ : ReadState) else (ReadState.put ⟨.dash, P, Q⟩ '-').plain c).bind _ = _
  rw [if_neg hne]
  show ((⟨.code, P ++ [.sign '-'], Q⟩ : ReadState).plain c).bind _ = _
  rw [calm_plain hc]
  exact h

theorem passes_minus_calm {s : Str} (hs : s.all calmChar = true) (hne : s ≠ []) : Passes ('-' :: s) := by
  cases s with
  | nil => exact absurd rfl hne
  | cons c s =>
    rw [List.all_cons, Bool.and_eq_true] at hs
    exact passes_minus hs.1 (passes_calm hs.2)

theorem passes_decInt (x : Int) : Passes (decInt x) := by
  unfold decInt
  split
  · exact passes_minus_calm (digits_calm (dec_digits _)) (dec_ne_nil _)
  · exact passes_dec _

theorem passes_decimal (p : Nat) (x : Int) : Passes (decimalText p (decInt x)) := by
  unfold decimalText
  split
  · exact passes_decInt x
  · unfold decInt
    split
    · have hd := digits_calm (dec_digits x.natAbs)
      have hne := dec_ne_nil x.natAbs
      generalize dec x.natAbs = ds at hd hne
      have hall : ∀ k, (ds.take k).all calmChar = true ∧ (ds.drop k).all calmChar = true := by
        intro k
        rw [List.all_eq_true] at hd
        simp only [List.all_eq_true]
        exact ⟨fun c hc => hd c (List.mem_of_mem_take hc), fun c hc => hd c (List.mem_of_mem_drop hc)⟩
      generalize hk : ('-' :: ds).length - p = k
      cases k with
      | zero =>
        rw [List.take_zero, List.drop_zero]
        exact (passes_calm (t := ['.']) rfl).append (passes_minus_calm hd hne)
      | succ k =>
        show Passes ('-' :: ds.take k ++ ['.'] ++ ds.drop k)
        rw [List.append_assoc, List.cons_append]
        refine passes_minus_calm ?_ (by simp)
        rw [List.all_append, List.all_append, (hall k).1, (hall k).2]
        rfl
    · have hd := digits_calm (dec_digits x.natAbs)
      refine ((passes_calm ?_).append (passes_calm (t := ['.']) rfl)).append (passes_calm ?_)
      · rw [List.all_eq_true] at hd ⊢
        exact fun c hc => hd c (List.mem_of_mem_take hc)
      · rw [List.all_eq_true] at hd ⊢
        exact fun c hc => hd c (List.mem_of_mem_drop hc)

/-! ### a complete text passes anywhere -/

/-- The same place in the text, with `n` groups of `Q` around. -/
def SameShape (Q : List (List SqlNode)) (s s' : ReadState) : Prop := s.mode = s'.mode ∧ ∃ o, o.length = s.outer.length ∧ s'.outer = o ++ Q

theorem shape_plain {Q : List (List SqlNode)} {s s' t : ReadState} {c : Char} (ho : ∃ o, o.length = s.outer.length ∧ s'.outer = o ++ Q)
    (h : s.plain c = some t) : ∃ t', s'.plain c = some t' ∧ SameShape Q t t' := by
  obtain ⟨o, hl, ho⟩ := ho
  unfold ReadState.plain at h ⊢
  split at h
  · rename_i hc; rw [if_pos hc]; cases h; exact ⟨_, rfl, rfl, o, hl, ho⟩
  rename_i hc; rw [if_neg hc]
  split at h
  · rename_i hc; rw [if_pos hc]; cases h; exact ⟨_, rfl, rfl, o, hl, ho⟩
  rename_i hc; rw [if_neg hc]
  split at h
  · rename_i hc; rw [if_pos hc]; cases h; exact ⟨_, rfl, rfl, o, hl, ho⟩
  rename_i hc; rw [if_neg hc]
  split at h
  · rename_i hc; rw [if_pos hc]; cases h
    exact ⟨_, rfl, rfl, s'.here :: o, by simp [hl], by simp [ho]⟩
  rename_i hc; rw [if_neg hc]
  split at h
  · rename_i hc; rw [if_pos hc]
    cases hs : s.outer with
    | nil => rw [hs] at h; cases h
    | cons a as =>
      rw [hs] at h; cases h
      cases o with
      | nil => rw [hs] at hl; cases hl
      | cons b bs =>
        rw [ho]
        exact ⟨_, rfl, rfl, bs, by rw [hs] at hl; simpa using hl, rfl⟩
  rename_i hc; rw [if_neg hc]
  split at h
  · cases h
  rename_i hc; rw [if_neg hc]
  split at h
  · rename_i hc; rw [if_pos hc]; cases h; exact ⟨_, rfl, rfl, o, hl, ho⟩
  · rename_i hc; rw [if_neg hc]; cases h; exact ⟨_, rfl, rfl, o, hl, ho⟩

theorem shape_char {Q : List (List SqlNode)} {s s' t : ReadState} {c : Char} (hs : SameShape Q s s') (h : s.char c = some t) :
    ∃ t', s'.char c = some t' ∧ SameShape Q t t' := by
  obtain ⟨m, hr, os⟩ := s
  obtain ⟨m', hr', os'⟩ := s'
  obtain ⟨hm, o, hl, ho⟩ := hs
  dsimp only at hm hl ho
  subst hm
  subst ho
  cases m <;> dsimp only [ReadState.char] at h ⊢
  case code => exact shape_plain ⟨o, hl, rfl⟩ h
  case dash =>
    split at h
    · rename_i hc; rw [if_pos hc]; cases h; exact ⟨_, rfl, rfl, o, hl, rfl⟩
    · rename_i hc; rw [if_neg hc]; exact shape_plain ⟨o, hl, rfl⟩ h
  case slash =>
    split at h
    · rename_i hc; rw [if_pos hc]; cases h; exact ⟨_, rfl, rfl, o, hl, rfl⟩
    · rename_i hc; rw [if_neg hc]; exact shape_plain ⟨o, hl, rfl⟩ h
  case behind =>
    split at h
    · cases h
    · rename_i hc; rw [if_neg hc]; exact shape_plain ⟨o, hl, rfl⟩ h
  case quote q b =>
    split at h
    · rename_i hc; rw [if_pos hc]; cases h; exact ⟨_, rfl, rfl, o, hl, rfl⟩
    · rename_i hc; rw [if_neg hc]
      split at h
      · rename_i hc; rw [if_pos hc]; cases h; exact ⟨_, rfl, rfl, o, hl, rfl⟩
      · rename_i hc; rw [if_neg hc]; cases h; exact ⟨_, rfl, rfl, o, hl, rfl⟩
  case escape => cases h; exact ⟨_, rfl, rfl, o, hl, rfl⟩
  all_goals
    repeat' split at h
    all_goals first
      | (cases h; done)
      | (cases h; simp only [*, if_true, if_false]; exact ⟨_, rfl, rfl, o, hl, rfl⟩)

theorem shape_text {Q : List (List SqlNode)} : ∀ (x : Str) {s s' t : ReadState}, SameShape Q s s' → s.text x = some t →
    ∃ t', s'.text x = some t' ∧ SameShape Q t t'
  | [], s, s', t, hs, h => by cases h; exact ⟨s', rfl, hs⟩
  | c :: x, s, s', t, hs, h => by
    rw [text_cons] at h
    cases hc : s.char c with
    | none => rw [hc] at h; cases h
    | some s1 =>
      rw [hc] at h
      obtain ⟨s1', h1, hs1⟩ := shape_char hs hc
      rw [text_cons, h1]
      exact shape_text x hs1 h

theorem passes_of_reads {t : Str} {ns : List SqlNode} (h : ReadsAs t ns) : Passes t := by
  intro P Q
  obtain ⟨⟨m, hr, o⟩, h1, hm, o', hl, ho⟩ := shape_text (Q := Q) t (s := ReadState.start) (s' := ⟨.code, P, Q⟩) ⟨rfl, [], rfl, rfl⟩ h
  have : o' = [] := List.length_eq_zero_iff.mp hl
  subst this
  dsimp only at hm ho
  subst hm
  subst ho
  exact ⟨hr, h1⟩

/-! ### values -/

theorem passes_commaTail : ∀ {ss : List Str}, (∀ s ∈ ss, Passes s) → Passes (commaTail ss)
  | [], _ => passes_nil
  | s :: ss, h => ((passes_calm (t := [',']) rfl).append (h s List.mem_cons_self)).append
      (passes_commaTail (fun x hx => h x (List.mem_cons_of_mem _ hx)))

theorem passes_commas : ∀ {ss : List Str}, (∀ s ∈ ss, Passes s) → Passes (commas ss)
  | [], _ => passes_nil
  | s :: ss, h => (h s List.mem_cons_self).append (passes_commaTail (fun x hx => h x (List.mem_cons_of_mem _ hx)))

theorem isWord_calm {c : Char} (h : isWord c = true) : calmChar c = true := by
  unfold calmChar
  simp only [Bool.not_eq_true', Bool.or_eq_false_iff, beq_eq_false_iff_ne]
  refine ⟨⟨⟨⟨⟨⟨⟨⟨⟨?_, ?_⟩, ?_⟩, ?_⟩, ?_⟩, ?_⟩, ?_⟩, ?_⟩, ?_⟩, ?_⟩ <;> (intro e; subst e; revert h; decide)

theorem hexU_word : ∀ n, n < 16 → isWord (hexU n) = true := by decide

theorem passes_hex (x : BitVec 256) : Passes (hexText x) := by
  refine passes_calm ?_
  unfold hexText
  rw [List.all_append, Bool.and_eq_true]
  refine ⟨rfl, ?_⟩
  rw [List.all_eq_true]
  intro c hc
  obtain ⟨b, _, hb⟩ := List.mem_flatMap.mp hc
  have := b.isLt
  simp only [List.mem_cons, List.not_mem_nil, or_false] at hb
  rcases hb with rfl | rfl
  · exact isWord_calm (hexU_word _ (by omega))
  · exact isWord_calm (hexU_word _ (by omega))

theorem closed_of {s : Str} (h : ∀ c ∈ s, c ≠ '\'' ∧ c ≠ '\\') : Closed '\'' s := by
  induction s with
  | nil => exact .nil
  | cons c s ih => exact .plain (h c List.mem_cons_self).1 (h c List.mem_cons_self).2 (ih (fun d hd => h d (List.mem_cons_of_mem _ hd)))

theorem pad2_digits (n : Nat) : (pad2 n).all isDigit = true := by
  unfold pad2
  split
  · rw [List.all_cons, dec_digits]; rfl
  · exact dec_digits n

theorem passes_fn {w a : Str} (hw : w.all calmChar = true) (ha : Passes a) : Passes (w ++ ('(' :: a ++ [')'])) :=
  (passes_calm hw).append (passes_group ha)

mutual
/-- The text of a value is complete by itself. -/
theorem passes_value {ext : Ext} (he : PlainExt ext) : ∀ (v : Value) (s : Str), v.text ext = .ok s → Passes s
  | .int8 _, _, h => by cases h; exact passes_decInt _
  | .int16 _, _, h => by cases h; exact passes_decInt _
  | .int32 _, _, h => by cases h; exact passes_decInt _
  | .int64 _, _, h => by cases h; exact passes_decInt _
  | .int128 _, _, h => by cases h; exact (passes_decInt _).append (passes_calm rfl)
  | .int256 _, _, h => by cases h; exact (passes_hex _).append (passes_calm rfl)
  | .uint8 _, _, h => by cases h; exact passes_dec _
  | .uint16 _, _, h => by cases h; exact passes_dec _
  | .uint32 _, _, h => by cases h; exact passes_dec _
  | .uint64 _, _, h => by cases h; exact passes_dec _
  | .uint128 _, _, h => by cases h; exact (passes_dec _).append (passes_calm rfl)
  | .uint256 _, _, h => by cases h; exact (passes_hex _).append (passes_calm rfl)
  | .float32 x, _, h => by cases h; exact (he.f32 x).elim (fun _ h => passes_of_reads h)
  | .float64 x, _, h => by cases h; exact (he.f64 x).elim (fun _ h => passes_of_reads h)
  | .bfloat16 x, _, h => by cases h; exact (he.bf16 x).elim (fun _ h => passes_of_reads h)
  | .decimal32 _ _, _, h => by cases h; exact passes_decimal _ _
  | .decimal64 _ _, _, h => by cases h; exact passes_decimal _ _
  | .decimal128 _ _, _, h => by cases h; exact passes_decimal _ _
  | .decimal256 _ _, _, h => by cases h
  | .string b, _, h => by cases h; exact passes_quoted (closed_escape b)
  | .uuid x, _, h => by
    cases h
    have := passes_fn (w := ch!"toUUID") rfl (passes_quoted (closed_of (uuidText_chars x)))
    simpa [List.append_assoc] using this
  | .date d, _, h => by
    cases h
    unfold dateText
    have := fun a b c => passes_fn (w := ch!"makeDate") rfl (passes_calm (t := dec a ++ [','] ++ pad2 b ++ [','] ++ pad2 c) (by
      simp only [List.all_append, digits_calm (dec_digits _), digits_calm (pad2_digits _)]; rfl))
    have := this (civilOf d.toNat).1 (civilOf d.toNat).2.1 (civilOf d.toNat).2.2
    simpa [List.append_assoc] using this
  | .dateTime tz t, s, h => by
    unfold Value.text at h
    split at h
    · cases h
      rename_i x _
      have := passes_fn (w := ch!"parseDateTimeBestEffort") rfl (passes_quoted (closed_escape (utf8Encode x)))
      simpa [List.append_assoc] using this
    · cases h
  | .dateTime64 tz t p, s, h => by
    unfold Value.text at h
    split at h
    · cases h
      rename_i x _
      have := passes_fn (w := ch!"parseDateTime64BestEffort") rfl
        (((passes_quoted (closed_escape (utf8Encode x))).append (passes_calm (t := ch!", ") rfl)).append (passes_dec p))
      simpa [List.append_assoc] using this
    · cases h
  | .enum8 _, _, h => by cases h; exact passes_decInt _
  | .enum16 _, _, h => by cases h; exact passes_decInt _
  | .array xs, s, h => by
    unfold Value.text at h
    obtain ⟨ss, h1, h2⟩ := Res.bind_eq_ok.mp h
    cases h2
    exact ((passes_calm (t := ['[']) rfl).append (passes_commas (passes_values he xs ss h1))).append (passes_calm (t := [']']) rfl)
  | .tuple xs, s, h => by
    unfold Value.text at h
    obtain ⟨ss, h1, h2⟩ := Res.bind_eq_ok.mp h
    cases h2
    exact passes_group (passes_commas (passes_values he xs ss h1))
  | .null, _, h => by cases h; exact passes_calm rfl
  | .map ks vs, s, h => by
    unfold Value.text at h
    split at h
    · cases h
    obtain ⟨ss, h1, h2⟩ := Res.bind_eq_ok.mp h
    obtain ⟨ts, h3, h4⟩ := Res.bind_eq_ok.mp h2
    cases h4
    have hk := passes_values he ks ss h1
    have hv := passes_values he vs ts h3
    refine ((passes_calm (t := ['{']) rfl).append (passes_commas ?_)).append (passes_calm (t := ['}']) rfl)
    intro x hx
    obtain ⟨e, hm, rfl⟩ := List.mem_map.mp hx
    have := List.of_mem_zip hm
    exact ((hk _ this.1).append (passes_calm (t := [':']) rfl)).append (hv _ this.2)
  | .ipv4 x, _, h => by cases h; exact passes_quoted (closed_of (ipv4Text_chars x))
  | .ipv6 x, _, h => by cases h; exact passes_quoted (closed_of (he.ipv6 x))
  | .point p, _, h => by cases h; exact (he.geo _).elim (fun _ h => passes_of_reads h)
  | .ring p, _, h => by cases h; exact (he.geo _).elim (fun _ h => passes_of_reads h)
  | .polygon p, _, h => by cases h; exact (he.geo _).elim (fun _ h => passes_of_reads h)
  | .multiPolygon p, _, h => by cases h; exact (he.geo _).elim (fun _ h => passes_of_reads h)
theorem passes_values {ext : Ext} (he : PlainExt ext) : ∀ (vs : List Value) (ss : List Str), Value.texts ext vs = .ok ss → ∀ s ∈ ss, Passes s
  | [], _, h => by cases h; nofun
  | v :: vs, ss, h => by
    unfold Value.texts at h
    obtain ⟨s, h1, h2⟩ := Res.bind_eq_ok.mp h
    obtain ⟨ss', h3, h4⟩ := Res.bind_eq_ok.mp h2
    cases h4
    intro x hx
    rcases List.mem_cons.mp hx with rfl | hx
    · exact passes_value he v _ h1
    · exact passes_values he vs ss' h3 x hx
end

/-! ### filling in -/

theorem fillAll_append (r : Nat → List SqlNode) (a b : List SqlNode) : SqlNode.fillAll r (a ++ b) = SqlNode.fillAll r a ++ SqlNode.fillAll r b := by
  induction a with
  | nil => rfl
  | cons n a ih => simp [SqlNode.fillAll, ih]

theorem fillAll_snoc (r : Nat → List SqlNode) (a : List SqlNode) (n : SqlNode) : SqlNode.fillAll r (a ++ [n]) = SqlNode.fillAll r a ++ n.fill r := by
  rw [fillAll_append]; simp [SqlNode.fillAll]

/-- Directly behind an argument the filled text is read like any other. -/
def filledMode : ReadMode → ReadMode
  | .behind => .code
  | m => m

/-- The reader of the filled text, when the reader of the template is at `s`. -/
def filledState (r : Nat → List SqlNode) (s : ReadState) : ReadState :=
  ⟨filledMode s.mode, SqlNode.fillAll r s.here, s.outer.map (SqlNode.fillAll r)⟩

/-- Outside quotes and comments the last node is no argument, unless the reader is directly behind it. -/
def NotBehind (s : ReadState) : Prop := s.mode = .code → ∀ k, s.here.getLast? ≠ some (.place k)

theorem notBehind_snoc {m : ReadMode} {h : List SqlNode} {o : List (List SqlNode)} {n : SqlNode} (hn : ∀ k, n ≠ .place k) :
    NotBehind ⟨m, h ++ [n], o⟩ := fun _ k e => by
  dsimp only at e
  rw [List.getLast?_concat] at e; exact hn k (Option.some.inj e)

theorem notBehind_mode {m : ReadMode} {h : List SqlNode} {o : List (List SqlNode)} (hm : m ≠ .code) : NotBehind ⟨m, h, o⟩ :=
  fun e => absurd e hm

theorem fill_letter {r : Nat → List SqlNode} {h : List SqlNode} (hp : ∀ k, h.getLast? ≠ some (.place k)) (c : Char) :
    addLetter (SqlNode.fillAll r h) c = SqlNode.fillAll r (addLetter h c) ∧ ∀ k, (addLetter h c).getLast? ≠ some (.place k) := by
  rcases List.eq_nil_or_concat h with rfl | ⟨h', n, hc⟩
  · exact ⟨rfl, fun k e => by cases e⟩
  · rw [List.concat_eq_append] at hc
    subst hc
    by_cases hn : ∃ w, n = .word w
    · obtain ⟨w, rfl⟩ := hn
      rw [addLetter_word, fillAll_snoc, fillAll_snoc]
      refine ⟨addLetter_word _ _ _, fun k e => ?_⟩
      rw [List.getLast?_concat] at e; cases e
    · have hn' : ∀ w, n ≠ .word w := fun w e => hn ⟨w, e⟩
      rw [addLetter_new (noWord_other _ _ hn')]
      refine ⟨?_, fun k e => by rw [List.getLast?_concat] at e; cases e⟩
      rw [fillAll_snoc r (h' ++ [n]), fillAll_snoc]
      have : ∃ m, n.fill r = [m] ∧ ∀ w, m ≠ .word w := by
        cases n with
        | word w => exact absurd rfl (hn' w)
        | sign c => exact ⟨_, rfl, nofun⟩
        | quoted q b => exact ⟨_, rfl, nofun⟩
        | group ns => exact ⟨_, rfl, nofun⟩
        | place k => exact absurd (List.getLast?_concat ..) (hp k)
      obtain ⟨m, hm, hw⟩ := this
      rw [hm, addLetter_new (noWord_other _ _ hw)]
      rfl

theorem fill_put (r : Nat → List SqlNode) (s : ReadState) (c : Char) : (filledState r s).put c = filledState r (s.put c) := by
  show (⟨_, _, _⟩ : ReadState) = ⟨_, _, _⟩
  rw [show (s.put c).here = s.here ++ [.sign c] from rfl, fillAll_snoc]
  rfl

theorem notBehind_put (s : ReadState) (c : Char) : NotBehind (s.put c) := notBehind_snoc nofun

/-- A plain character, when it is no letter directly behind an argument. -/
theorem fill_plain {r : Nat → List SqlNode} {s s' : ReadState} {c : Char} (hp : isWord c = true → ∀ k, s.here.getLast? ≠ some (.place k))
    (h : s.plain c = some s') : (filledState r s).plain c = some (filledState r s') ∧ NotBehind s' := by
  unfold ReadState.plain at h ⊢
  split at h
  · rename_i hc; rw [if_pos hc]; cases h; exact ⟨rfl, notBehind_mode nofun⟩
  rename_i hc; rw [if_neg hc]
  split at h
  · rename_i hc; rw [if_pos hc]; cases h; exact ⟨rfl, notBehind_mode nofun⟩
  rename_i hc; rw [if_neg hc]
  split at h
  · rename_i hc; rw [if_pos hc]; cases h; exact ⟨rfl, notBehind_mode nofun⟩
  rename_i hc; rw [if_neg hc]
  split at h
  · rename_i hc; rw [if_pos hc]; cases h; exact ⟨rfl, fun _ k e => by cases e⟩
  rename_i hc; rw [if_neg hc]
  split at h
  · rename_i hc; rw [if_pos hc]
    cases ho : s.outer with
    | nil => rw [ho] at h; cases h
    | cons o os =>
      rw [ho] at h; cases h
      refine ⟨?_, notBehind_snoc nofun⟩
      show (match s.outer.map (SqlNode.fillAll r) with
        | [] => none
        | o' :: os' => some (⟨.code, o' ++ [SqlNode.group (SqlNode.fillAll r s.here)], os'⟩ : ReadState)) = _
      rw [ho]
      show some (⟨_, _, _⟩ : ReadState) = some ⟨_, _, _⟩
      dsimp only
      rw [fillAll_snoc]
      rfl
  rename_i hc; rw [if_neg hc]
  split at h
  · cases h
  rename_i hc; rw [if_neg hc]
  split at h
  · rename_i hc; rw [if_pos hc]; cases h
    have := fill_letter (r := r) (hp hc) c
    refine ⟨?_, fun _ => this.2⟩
    show some (⟨_, _, _⟩ : ReadState) = some ⟨_, _, _⟩
    dsimp only
    rw [← this.1]
    rfl
  · rename_i hc; rw [if_neg hc]; cases h
    exact ⟨by rw [fill_put], notBehind_put _ _⟩

theorem put_last (s : ReadState) (c : Char) : ∀ k, (s.put c).here.getLast? ≠ some (.place k) := fun k e => by
  rw [show (s.put c).here = s.here ++ [.sign c] from rfl, List.getLast?_concat] at e; cases e

theorem fill_char {r : Nat → List SqlNode} {s s' : ReadState} {c : Char} (hb : NotBehind s) (h : s.char c = some s') :
    (filledState r s).char c = some (filledState r s') ∧ NotBehind s' := by
  obtain ⟨m, hr, o⟩ := s
  cases m <;> dsimp only [ReadState.char, filledState, filledMode] at h ⊢
  case code => exact fill_plain (fun _ => hb rfl) h
  case dash =>
    split at h
    · rename_i hc; rw [if_pos hc]; cases h; exact ⟨rfl, notBehind_mode nofun⟩
    · rename_i hc; rw [if_neg hc]
      have := fill_plain (r := r) (fun _ => put_last _ _) h
      rw [← fill_put] at this
      exact this
  case slash =>
    split at h
    · rename_i hc; rw [if_pos hc]; cases h; exact ⟨rfl, notBehind_mode nofun⟩
    · rename_i hc; rw [if_neg hc]
      have := fill_plain (r := r) (fun _ => put_last _ _) h
      rw [← fill_put] at this
      exact this
  case line =>
    split at h
    · rename_i hc; rw [if_pos hc]; cases h
      exact ⟨congrArg some (fill_put r ⟨.line, hr, o⟩ '\n'), notBehind_put _ _⟩
    · rename_i hc; rw [if_neg hc]; cases h; exact ⟨rfl, notBehind_mode nofun⟩
  case block =>
    split at h
    · rename_i hc; rw [if_pos hc]; cases h; exact ⟨rfl, notBehind_mode nofun⟩
    · rename_i hc; rw [if_neg hc]
      split at h
      · rename_i hc; rw [if_pos hc]; cases h; exact ⟨rfl, notBehind_mode nofun⟩
      · rename_i hc; rw [if_neg hc]; cases h; exact ⟨rfl, notBehind_mode nofun⟩
  case star =>
    split at h
    · rename_i hc; rw [if_pos hc]; cases h
      exact ⟨congrArg some (fill_put r ⟨.star, hr, o⟩ ' '), notBehind_put _ _⟩
    · rename_i hc; rw [if_neg hc]
      split at h
      · rename_i hc; rw [if_pos hc]; cases h; exact ⟨rfl, notBehind_mode nofun⟩
      · rename_i hc; rw [if_neg hc]; cases h; exact ⟨rfl, notBehind_mode nofun⟩
  case blockSlash =>
    split at h
    · cases h
    · rename_i hc; rw [if_neg hc]
      split at h
      · rename_i hc; rw [if_pos hc]; cases h; exact ⟨rfl, notBehind_mode nofun⟩
      · rename_i hc; rw [if_neg hc]; cases h; exact ⟨rfl, notBehind_mode nofun⟩
  case quote q b =>
    split at h
    · rename_i hc; rw [if_pos hc]; cases h; exact ⟨rfl, notBehind_mode nofun⟩
    · rename_i hc; rw [if_neg hc]
      split at h
      · rename_i hc; rw [if_pos hc]; cases h
        refine ⟨?_, notBehind_snoc nofun⟩
        show some (⟨_, _, _⟩ : ReadState) = some ⟨_, _, _⟩
        dsimp only
        rw [fillAll_snoc]
        rfl
      · rename_i hc; rw [if_neg hc]; cases h; exact ⟨rfl, notBehind_mode nofun⟩
  case escape => cases h; exact ⟨rfl, notBehind_mode nofun⟩
  case behind =>
    split at h
    · cases h
    · rename_i hc
      exact fill_plain (s := ⟨.behind, hr, o⟩) (fun hw => absurd (.inl hw) hc) h

/-- The template with texts in the places of its arguments. -/
def fillSyms (t : Nat → Str) : List Sym → Str
  | [] => []
  | .ch c :: xs => c :: fillSyms t xs
  | .hole k :: xs => t k ++ fillSyms t xs

theorem fillSyms_append (t : Nat → Str) (a b : List Sym) : fillSyms t (a ++ b) = fillSyms t a ++ fillSyms t b := by
  induction a with
  | nil => rfl
  | cons x a ih => cases x <;> simp [fillSyms, ih]

theorem fillSyms_text (t : Nat → Str) (s : Str) : fillSyms t (s.map .ch) = s := by
  induction s with
  | nil => rfl
  | cons c s ih => rw [List.map_cons]; show c :: _ = _; rw [ih]

theorem joins_noWord {r : Nat → List SqlNode} {h : List SqlNode} (hj : (h.getLast?.map SqlNode.joins).getD false = false) :
    NoWord (SqlNode.fillAll r h) := by
  rcases List.eq_nil_or_concat h with rfl | ⟨h', n, hc⟩
  · exact noWord_nil
  · rw [List.concat_eq_append] at hc
    subst hc
    rw [List.getLast?_concat] at hj
    rw [fillAll_snoc]
    cases n with
    | word w => cases hj
    | sign c => exact noWord_sign _ _
    | quoted q b => cases hj
    | group ns => exact noWord_group _ _
    | place k => cases hj

theorem fill_syms {r : Nat → List SqlNode} {t : Nat → Str} : ∀ (xs : List Sym) {s s' : ReadState}, NotBehind s →
    (∀ k, Sym.hole k ∈ xs → ReadsAs (t k) (r k)) → s.syms xs = some s' → (filledState r s).text (fillSyms t xs) = some (filledState r s')
  | [], s, s', _, _, h => by cases h; rfl
  | .ch c :: xs, s, s', hb, hr, h => by
    unfold ReadState.syms at h
    cases hc : s.char c with
    | none => rw [show s.sym (.ch c) = none from hc] at h; cases h
    | some s1 =>
      rw [show s.sym (.ch c) = some s1 from hc] at h
      have := fill_char (r := r) hb hc
      show (filledState r s).text (c :: fillSyms t xs) = _
      rw [text_cons, this.1]
      exact fill_syms xs this.2 (fun k hk => hr k (List.mem_cons_of_mem _ hk)) h
  | .hole k :: xs, s, s', hb, hr, h => by
    unfold ReadState.syms at h
    obtain ⟨m, hh, o⟩ := s
    cases m with
    | code =>
      have e : (⟨.code, hh, o⟩ : ReadState).sym (.hole k) =
        if (hh.getLast?.map SqlNode.joins).getD false then none else some ⟨.behind, hh ++ [.place k], o⟩ := rfl
      rw [e] at h
      split at h
      · cases h
      · rename_i hj
        show (filledState r ⟨.code, hh, o⟩).text (t k ++ fillSyms t xs) = _
        rw [text_append]
        have := reads_within (hr k List.mem_cons_self) (joins_noWord (r := r) (Bool.eq_false_iff.mpr hj)) (o.map (SqlNode.fillAll r))
        rw [show filledState r ⟨.code, hh, o⟩ = ⟨.code, SqlNode.fillAll r hh, o.map (SqlNode.fillAll r)⟩ from rfl, this]
        have e2 : (⟨.code, SqlNode.fillAll r hh ++ r k, o.map (SqlNode.fillAll r)⟩ : ReadState) = filledState r ⟨.behind, hh ++ [.place k], o⟩ := by
          show (⟨_, _, _⟩ : ReadState) = ⟨_, _, _⟩
          dsimp only
          rw [fillAll_snoc]
          rfl
        rw [e2]
        exact fill_syms xs (notBehind_mode nofun) (fun k hk => hr k (List.mem_cons_of_mem _ hk)) h
    | _ => cases h

/-- A template filled with texts that are complete by themselves is read as the template, with their nodes in place of the arguments. -/
theorem template_filled {r : Nat → List SqlNode} {t : Nat → Str} {xs : List Sym} {ns : List SqlNode}
    (hr : ∀ k, Sym.hole k ∈ xs → ReadsAs (t k) (r k)) (h : TemplateReadsAs xs ns) : ReadsAs (fillSyms t xs) (SqlNode.fillAll r ns) := by
  obtain ⟨m, h, hm⟩ := h
  have := fill_syms xs (s := ReadState.start) (fun _ k e => by cases e) hr h
  unfold ReadsAs
  rw [show ReadState.start = filledState r ReadState.start from rfl, this]
  rcases hm with rfl | rfl <;> rfl

theorem filled_syms (texts : List Str) (p : SqlPiece) : fillSyms (fun k => (texts[k]?).getD []) (p.syms texts.length) = p.filled texts := by
  cases p with
  | arg ds =>
    unfold SqlPiece.syms SqlPiece.filled
    dsimp only
    by_cases h1 : 1 ≤ digitsVal ds
    · rw [if_pos h1]
      by_cases h2 : digitsVal ds ≤ texts.length
      · rw [if_pos ⟨h1, h2⟩]
        have hlt : digitsVal ds - 1 < texts.length := by omega
        simp [fillSyms, List.getElem?_eq_getElem hlt]
      · rw [if_neg (fun h => h2 h.2), fillSyms_text, List.getElem?_eq_none (by omega)]
        rfl
    · rw [if_neg h1, if_neg (fun h => h1 h.1), fillSyms_text]
  | dollars => rfl
  | plain s => exact fillSyms_text _ _
  | quoted q b => exact fillSyms_text _ _
  | dash b => exact fillSyms_text _ _
  | hash b => exact fillSyms_text _ _
  | block b => exact fillSyms_text _ _
  | heredoc n b => exact fillSyms_text _ _
  | semicolon => exact fillSyms_text _ _

theorem filled_all (texts : List Str) : ∀ ps : List SqlPiece,
    fillSyms (fun k => (texts[k]?).getD []) (ps.flatMap (SqlPiece.syms texts.length)) = ps.flatMap (SqlPiece.filled texts)
  | [] => rfl
  | p :: ps => by rw [List.flatMap_cons, List.flatMap_cons, fillSyms_append, filled_syms, filled_all texts ps]

theorem texts_length {ext : Ext} : ∀ {vs : List Value} {ss : List Str}, Value.texts ext vs = .ok ss → ss.length = vs.length
  | [], _, h => by cases h; rfl
  | v :: vs, ss, h => by
    unfold Value.texts at h
    obtain ⟨s, _, h2⟩ := Res.bind_eq_ok.mp h
    obtain ⟨ss', h3, h4⟩ := Res.bind_eq_ok.mp h2
    cases h4
    simp [texts_length h3]

theorem holes_small {n k : Nat} : ∀ {ps : List SqlPiece}, Sym.hole k ∈ ps.flatMap (SqlPiece.syms n) → k < n := by
  intro ps h
  obtain ⟨p, _, hp⟩ := List.mem_flatMap.mp h
  have hno : ∀ s : Str, Sym.hole k ∉ s.map Sym.ch := fun s hs => by
    obtain ⟨c, _, e⟩ := List.mem_map.mp hs
    cases e
  cases p with
  | arg ds =>
    unfold SqlPiece.syms at hp
    dsimp only at hp
    split at hp
    · rename_i hd
      have := List.mem_singleton.mp hp
      injection this with this
      omega
    · exact absurd hp (hno _)
  | dollars => exact absurd hp (hno ['$'])
  | plain s => exact absurd hp (hno _)
  | quoted q b => exact absurd hp (hno _)
  | dash b => exact absurd hp (hno _)
  | hash b => exact absurd hp (hno _)
  | block b => exact absurd hp (hno _)
  | heredoc n b => exact absurd hp (hno _)
  | semicolon => exact absurd hp (hno _)

/-- C99, arguments: whatever the value (a string of any bytes, a number, an array, tuple or map of any depth), its text is read to
its end outside quotes, comments and parentheses. -/
theorem C99_complete (ext : Ext) (he : PlainExt ext) (v : Value) (s : Str) (h : v.text ext = .ok s) : ∃ ns, ReadsAs s ns :=
  (passes_value he v s h).reads

/-- C99, strings: the text of a string of any bytes is read as one quoted literal. -/
theorem C99_string (ext : Ext) (b : Bytes) : ∃ s body, (Value.string b).text ext = .ok s ∧ ReadsAs s [.quoted '\'' body] :=
  ⟨_, _, rfl, quoted_text (closed_escape b) [] []⟩

/-- C99: however a conforming tokenizer reads a template whose arguments stand apart from words and literals and not behind a `-`,
the query sent is read as the template is, with what each argument is by itself in the argument's place: whatever the values,
nothing else of the query is read differently. -/
theorem C99_structure_partial {P : ParseStr} (hP : QuoteReader P) {ps : List SqlPiece} (hps : WellWritten P ps) {ts : List Token}
    (h : Lexes P (scriptText ps) ts) (ext : Ext) (he : PlainExt ext) (args : List Value) (texts : List Str) (hargs : args.length < 2 ^ 64)
    (htexts : Value.texts ext args = .ok texts) (ns : List SqlNode)
    (hns : TemplateReadsAs (ps.flatMap (SqlPiece.syms args.length)) ns) :
    ∃ (q : Str) (r : Nat → List SqlNode), parseQueryArguments ext ts args = .ok q ∧ ReadsAs q (SqlNode.fillAll r ns) ∧
      ∀ (k : Nat) (v : Value), args[k]? = some v → ∃ s, v.text ext = .ok s ∧ ReadsAs s (r k) := by
  have hread : ∀ k, k < texts.length → ReadsAs ((texts[k]?).getD []) (exReading ((texts[k]?).getD [])) := by
    intro k hk
    have hm : (texts[k]?).getD [] ∈ texts := by
      rw [List.getElem?_eq_getElem hk]; exact List.getElem_mem hk
    obtain ⟨ns, hn⟩ := (passes_values he args texts htexts _ hm).reads
    have : exReading ((texts[k]?).getD []) = ns := by
      unfold exReading
      rw [show ReadState.start.text ((texts[k]?).getD []) = _ from hn]
      rfl
    rw [this]; exact hn
  have hl := texts_length htexts
  refine ⟨_, fun k => exReading ((texts[k]?).getD []), C24_text hP hps h ext args texts hargs htexts, ?_, ?_⟩
  · rw [← filled_all]
    rw [← hl] at hns
    exact template_filled (fun k hk => hread k (holes_small hk)) hns
  · intro k v hv
    obtain ⟨s, h1, h2⟩ := C24_arguments_in_order ext args texts htexts k v hv
    refine ⟨s, h1, ?_⟩
    have hk : k < texts.length := by
      by_cases hk : k < texts.length
      · exact hk
      · rw [List.getElem?_eq_none (by omega)] at h2; cases h2
    have := hread k hk
    dsimp only
    rw [h2] at this ⊢
    exact this

/-- What a text is read as is what the reader finds. -/
theorem exReading_eq {s : Str} {ns : List SqlNode} (h : ReadsAs s ns) : exReading s = ns := by
  unfold exReading
  rw [show ReadState.start.text s = _ from h]
  rfl

/-- C99, in a SELECT builder: when every fragment given to the builder is a template with arguments, then whatever the values, the
statement built is read as its clauses with each template in its place, each condition one operand of AND, and each template as it is
written with the values in the arguments' places. -/
theorem C99_select_partial {P : ParseStr} (hP : QuoteReader P) (ext : Ext) (he : PlainExt ext) (frm : Str) (cs : List SelectCall)
    (hf : ∃ ns args, MadeFrom P ext ns args (.ok frm)) (h : ∀ x ∈ cs, ∀ f, callFrag x = some f → ∃ ns args, MadeFrom P ext ns args f) :
    ∃ (c : Clauses) (q : Str) (r : Str → List SqlNode), SelectBuilder.calls (.ok frm) cs = c.builder ∧ fragsOf selWhere cs = c.where_.map .ok ∧
      (SelectBuilder.calls (.ok frm) cs).build = .ok q ∧ ReadsAs q (c.nodes r) ∧
      ∀ (s : Str) (ns : List SqlNode) (args : List Value), MadeFrom P ext ns args (.ok s) →
        ∃ ρ : Nat → List SqlNode, r s = SqlNode.fillAll ρ ns ∧
          ∀ (k : Nat) (v : Value), args[k]? = some v → ∃ t, v.text ext = .ok t ∧ ReadsAs t (ρ k) := by
  have key : ∀ (f : Frag) (ns : List SqlNode) (args : List Value), MadeFrom P ext ns args f →
      ∃ (s : Str) (ρ : Nat → List SqlNode), f = .ok s ∧ ReadsAs s (exReading s) ∧ exReading s = SqlNode.fillAll ρ ns ∧
        ∀ (k : Nat) (v : Value), args[k]? = some v → ∃ t, v.text ext = .ok t ∧ ReadsAs t (ρ k) := by
    rintro f ns args ⟨ps, ts, texts, h1, h2, h3, h4, h5, h6⟩
    obtain ⟨q, ρ, hq, hr, hk⟩ := C99_structure_partial hP h1 h2 ext he args texts h3 h4 ns h5
    have e := exReading_eq hr
    exact ⟨q, ρ, h6.trans hq, e ▸ hr, e, hk⟩
  obtain ⟨ns, args, hm⟩ := hf
  obtain ⟨s, _, hs, hr, _⟩ := key _ _ _ hm
  cases hs
  obtain ⟨c, q, h1, h2, h3, h4⟩ := C98_calls_partial frm cs exReading hr (fun x hx f hxf => by
    obtain ⟨ns, args, hm⟩ := h x hx f hxf
    obtain ⟨s, _, hs, hr, _⟩ := key _ _ _ hm
    exact ⟨s, hs, hr⟩)
  refine ⟨c, q, exReading, h1, h2, h3, h4, ?_⟩
  intro s ns args hm
  obtain ⟨s', ρ, hs, _, he', hk⟩ := key _ _ _ hm
  cases hs
  exact ⟨ρ, he', hk⟩

/-- A template whose argument stands behind a minus sign. -/
def exMinus : List SqlPiece := [.plain (ch!"a = b-"), .arg ['1'], .plain (ch!" AND c = 7")]

theorem exMinus_ok : WellWritten exParseStr exMinus :=
  ⟨⟨rfl, .inr (.inl ⟨_, _, rfl, rfl⟩)⟩, ⟨by simp, rfl, (by intro c h; cases h; rfl), rfl⟩, ⟨rfl, .inl rfl⟩, trivial⟩

/-- The full property is false: behind a minus sign a negative number makes a comment of the rest of the line. With the argument 1
the query has both conditions; with the argument -1 it is read as `a = b` and nothing else. -/
theorem C99_minus_false (ts : List Token) (h : Lexes exParseStr (scriptText exMinus) ts) :
    (∃ q, parseQueryArguments exExt ts [.int32 1] = .ok q ∧ ReadsAs q (asNodes (ch!"a = b") ++ [.sign '-'] ++ asNodes (ch!"1 AND c = 7"))) ∧
    (∃ q, parseQueryArguments exExt ts [.int32 (-1)] = .ok q ∧ ReadsAs (q ++ ['\n']) (asNodes (ch!"a = b\n"))) := by
  refine ⟨⟨_, C24_text exParseStr_reader exMinus_ok h exExt _ [['1']] (by decide) rfl, rfl⟩,
    ⟨_, C24_text exParseStr_reader exMinus_ok h exExt _ [['-', '1']] (by decide) rfl, rfl⟩⟩

/-- Such queries are sent. -/
example : ∃ ts, Lexes exParseStr (scriptText exMinus) ts := lexes_total _ _ _ (Nat.le_refl _)

theorem plain_exExt : PlainExt exExt :=
  ⟨fun _ => ⟨[], rfl⟩, fun _ => ⟨[], rfl⟩, fun _ => ⟨[], rfl⟩, (by intro x c h; cases h), fun _ => ⟨[], rfl⟩⟩

/-- `y = $1 AND (z = $2) ` -/
def exPlaces : List SqlPiece := [.plain (ch!"y = "), .arg ['1'], .plain (ch!" AND (z = "), .arg ['2'], .plain (ch!") ")]

example : WellWritten exParseStr exPlaces :=
  ⟨⟨rfl, .inr (.inl ⟨_, _, rfl, rfl⟩)⟩, ⟨by simp, rfl, (by intro c h; cases h; rfl), rfl⟩, ⟨rfl, .inr (.inl ⟨_, _, rfl, rfl⟩)⟩,
    ⟨by simp, rfl, (by intro c h; cases h; rfl), rfl⟩, ⟨rfl, .inl rfl⟩, trivial⟩

example : TemplateReadsAs (exPlaces.flatMap (SqlPiece.syms 2))
    (asNodes (ch!"y = ") ++ [.place 0] ++ asNodes (ch!" AND ") ++ [.group (asNodes (ch!"z = ") ++ [.place 1]), .sign ' ']) :=
  ⟨_, rfl, .inl rfl⟩

example : Value.texts exExt [.string [0x27, 0x29, 0x2D, 0x2D], .tuple [.int8 (-1), .null]] = .ok [ch!"'\\')--'", ch!"(-1,NULL)"] := rfl

/-- A condition with two arguments, as given to a SELECT builder. -/
example : ∃ ts f, Lexes exParseStr (scriptText exPlaces) ts ∧ f = parseQueryArguments exExt ts [.string [0x27, 0x29, 0x2D, 0x2D], .tuple [.int8 (-1), .null]] ∧
    MadeFrom exParseStr exExt (asNodes (ch!"y = ") ++ [.place 0] ++ asNodes (ch!" AND ") ++ [.group (asNodes (ch!"z = ") ++ [.place 1]), .sign ' '])
      [.string [0x27, 0x29, 0x2D, 0x2D], .tuple [.int8 (-1), .null]] f := by
  obtain ⟨ts, h⟩ := lexes_total exParseStr _ (scriptText exPlaces) (Nat.le_refl _)
  exact ⟨ts, _, h, rfl, exPlaces, ts, _, ⟨⟨rfl, .inr (.inl ⟨_, _, rfl, rfl⟩)⟩, ⟨by simp, rfl, (by intro c h; cases h; rfl), rfl⟩,
    ⟨rfl, .inr (.inl ⟨_, _, rfl, rfl⟩)⟩, ⟨by simp, rfl, (by intro c h; cases h; rfl), rfl⟩, ⟨rfl, .inl rfl⟩, trivial⟩, h, by decide, rfl, ⟨_, rfl, .inl rfl⟩, rfl⟩

/-- A table's name is one without arguments. -/
example : ∃ ns args, MadeFrom exParseStr exExt ns args (.ok (ch!"t ")) := by
  have hw : WellWritten exParseStr [.plain (ch!"t ")] := ⟨⟨rfl, .inl rfl⟩, trivial⟩
  obtain ⟨ts, h⟩ := lexes_total exParseStr _ (scriptText [.plain (ch!"t ")]) (Nat.le_refl _)
  exact ⟨_, [], _, ts, [], hw, h, by decide, rfl, ⟨_, rfl, .inl rfl⟩, (C24_text exParseStr_reader hw h exExt [] [] (by decide) rfl).symm⟩

end Klick.Props
