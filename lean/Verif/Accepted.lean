import Verif.Spec.Accepted
import Verif.Props.ServerText
/-
Lemmas for C95: which texts are accepted as type names.
-/
namespace Klick
open Spec

/-! ### white space -/

theorem core_iff {a s : Str} : Core a s ↔ trim s = a := by
  constructor
  · rintro ⟨⟨w, w', rfl, h1, h2⟩, h3, h4⟩
    by_cases ha : a = []
    · subst ha
      have hb : Blank (w ++ [] ++ w') := by
        intro c hc
        simp only [List.append_nil, List.mem_append] at hc
        exact hc.elim (h1 c) (h2 c)
      unfold trim
      rw [dropWhile_ws_blank hb]; rfl
    · have he : Ends a := by
        constructor
        · cases a with
          | nil => exact absurd rfl ha
          | cons c r => exact ⟨c, r, rfl, h3 c rfl⟩
        · obtain ⟨r, c, rfl⟩ := List.eq_nil_or_concat a |>.resolve_left ha
          exact ⟨c, r, by simp, h4 c (by simp)⟩
      exact Props.trim_padded he ⟨w, w', rfl, h1, h2⟩
  · rintro rfl
    obtain ⟨w, w', h1, h2, h3⟩ := trim_spec s
    refine ⟨⟨w, w', h1, h2, h3⟩, ?_, ?_⟩
    · intro c hc
      unfold trim trimEnd at hc
      have hd : (s.dropWhile isWs).head? = some c ∨ trim s = [] := by
        obtain ⟨u, hu, hb⟩ := trimEnd_spec (s.dropWhile isWs)
        cases ht : trimEnd (s.dropWhile isWs) with
        | nil => exact .inr ht
        | cons x r =>
          left
          rw [hu, ht]
          have : trimEnd (s.dropWhile isWs) = ((s.dropWhile isWs).reverse.dropWhile isWs).reverse := rfl
          rw [← this, ht] at hc
          exact hc
      rcases hd with hd | hd
      · have := List.head?_dropWhile_not isWs s
        rw [hd] at this
        simpa using this
      · have h : trim s = ((s.dropWhile isWs).reverse.dropWhile isWs).reverse := rfl
        rw [← h, hd] at hc
        cases hc
    · intro c hc
      unfold trim trimEnd at hc
      rw [List.getLast?_reverse] at hc
      have := List.head?_dropWhile_not isWs (s.dropWhile isWs).reverse
      rw [hc] at this
      simpa using this

theorem trim_idem (s : Str) : trim (trim s) = trim s := by
  obtain ⟨_, h1, h2⟩ := core_iff.mpr (rfl : trim s = trim s)
  exact trim_of_ends h1 h2

theorem blank_iff {s : Str} : Blank s ↔ trim s = [] := by
  constructor
  · intro h; unfold trim; rw [dropWhile_ws_blank h]; rfl
  · intro h
    obtain ⟨w, w', h1, h2, h3⟩ := trim_spec s
    rw [h] at h1
    intro c hc
    rw [h1] at hc
    simp only [List.append_nil, List.mem_append] at hc
    exact hc.elim (h2 c) (h3 c)

/-! ### numbers -/

theorem decF_fuel (f g n : Nat) (hf : n < f) (hg : n < g) : decF f n = decF g n := by
  induction f generalizing g n with
  | zero => omega
  | succ f ih =>
    cases g with
    | zero => omega
    | succ g =>
      simp only [decF]
      split
      · rfl
      · rw [ih g (n / 10) (by omega) (by omega)]

theorem dec_small {n : Nat} (h : n < 10) : dec n = [digit n] := by
  unfold dec decF; rw [if_pos h]

theorem dec_step {n : Nat} (h : ¬ n < 10) : dec n = dec (n / 10) ++ [digit (n % 10)] := by
  unfold dec
  rw [decF, if_neg h, decF_fuel n (n / 10 + 1) (n / 10) (by omega) (by omega)]

theorem digit_of {c : Char} (h : isDigit c = true) : digit (c.toNat - 48) = c ∧ c.toNat - 48 < 10 := by
  simp only [isDigit, Bool.and_eq_true, decide_eq_true_eq] at h
  refine ⟨?_, by omega⟩
  unfold digit
  rw [show 48 + (c.toNat - 48) = c.toNat by omega]
  exact Char.ofNat_toNat c

theorem digitsVal_snoc (s : Str) (c : Char) : digitsVal (s ++ [c]) = 10 * digitsVal s + (c.toNat - 48) := by
  unfold digitsVal; rw [List.foldl_append]; rfl

theorem numeral_of_digits (s : Str) (hne : s ≠ []) (h : s.all isDigit = true) : Numeral (digitsVal s) s := by
  have key : ∀ (n : Nat) (s : Str), s.length = n → s ≠ [] → s.all isDigit = true → Numeral (digitsVal s) s := by
    intro n
    induction n with
    | zero => intro s hl hne; exact absurd (List.length_eq_zero_iff.mp hl) hne
    | succ n ih =>
      intro s hl hne h
      obtain ⟨r, c, rfl⟩ := List.eq_nil_or_concat s |>.resolve_left hne
      rw [List.concat_eq_append] at *
      simp only [List.all_append, Bool.and_eq_true, List.all_cons, List.all_nil, and_true] at h
      obtain ⟨hd1, hd2⟩ := digit_of h.2
      rw [digitsVal_snoc]
      by_cases hr : r = []
      · subst hr
        refine ⟨0, ?_⟩
        have e0 : digitsVal [] = 0 := rfl
        rw [e0, Nat.mul_zero, Nat.zero_add, dec_small hd2, hd1]
        rfl
      · obtain ⟨k, hk⟩ := ih r (by simpa using hl) hr h.1
        by_cases hv : digitsVal r = 0
        · refine ⟨k + 1, ?_⟩
          rw [hv, Nat.mul_zero, Nat.zero_add, dec_small hd2, hd1]
          rw [hv] at hk
          have e0 : dec 0 = ['0'] := rfl
          rw [e0] at hk
          rw [hk, List.replicate_succ']
        · refine ⟨k, ?_⟩
          rw [dec_step (by omega), show (10 * digitsVal r + (c.toNat - 48)) / 10 = digitsVal r by omega,
            show (10 * digitsVal r + (c.toNat - 48)) % 10 = c.toNat - 48 by omega, hd1, ← List.append_assoc, ← hk]
  exact key _ s rfl hne h

theorem numeral_digits {n : Nat} {s : Str} (h : Numeral n s) : s ≠ [] ∧ s.all isDigit = true ∧ digitsVal s = n := by
  obtain ⟨k, rfl⟩ := h
  refine ⟨by simp [dec_ne_nil], ?_, ?_⟩
  · rw [List.all_append, dec_digits, Bool.and_true, List.all_replicate]
    split <;> rfl
  · induction k with
    | zero => simpa using digitsVal_dec n
    | succ k ih =>
      rw [List.replicate_succ, List.cons_append]
      unfold digitsVal at ih ⊢
      rw [List.foldl_cons]
      exact ih

theorem parseDigits_iff {s : Str} {n : Nat} : parseDigits s = some n ↔ Numeral n s := by
  unfold parseDigits
  constructor
  · intro h
    split at h
    · rename_i hd
      simp only [Bool.and_eq_true, Bool.not_eq_true', List.isEmpty_eq_false_iff] at hd
      cases h
      exact numeral_of_digits s hd.1 hd.2
    · cases h
  · intro h
    obtain ⟨h1, h2, h3⟩ := numeral_digits h
    rw [if_pos (by simp [h1, h2]), h3]

theorem numeral_head {n : Nat} {s : Str} (h : Numeral n s) {c : Char} {r : Str} (e : s = c :: r) : isDigit c = true := by
  have := (numeral_digits h).2.1
  rw [e, List.all_cons, Bool.and_eq_true] at this
  exact this.1

theorem parseUsize_iff {s : Str} {n : Nat} : parseUsize s = some n ↔ Number n s := by
  unfold parseUsize Number
  rw [Option.bind_eq_some_iff]
  constructor
  · rintro ⟨m, h1, h2⟩
    split at h2
    · cases h2
      rename_i hm
      refine ⟨hm, ?_⟩
      split at h1
      · exact .inr ⟨_, rfl, parseDigits_iff.mp h1⟩
      · exact .inl (parseDigits_iff.mp h1)
    · cases h2
  · rintro ⟨hn, h | ⟨r, rfl, h⟩⟩
    · refine ⟨n, ?_, by rw [if_pos hn]⟩
      split
      · exact absurd (numeral_head h rfl) (by decide)
      · exact parseDigits_iff.mpr h
    · exact ⟨n, parseDigits_iff.mpr h, by rw [if_pos hn]⟩

theorem parseNum_iff {s : Str} {n : Nat} : parseNum s = .ok n ↔ Number n s := by
  rw [← parseUsize_iff]
  unfold parseNum
  split
  · rename_i m h
    rw [h]; simp
  · rename_i h
    rw [h]; simp

theorem parseInt_iff {w : Nat} (hw : 0 < w) {s : Str} {v : BitVec w} : parseInt w s = some v ↔ Signed v s := by
  unfold parseInt Signed
  rw [Option.bind_eq_some_iff]
  constructor
  · rintro ⟨i, h1, h2⟩
    split at h2
    · cases h2
      rename_i hi
      have hv : (BitVec.ofInt w i).toInt = i := by
        rw [BitVec.toInt_ofInt]
        obtain ⟨k, rfl⟩ : ∃ k, w = k + 1 := ⟨w - 1, by omega⟩
        rw [Nat.add_sub_cancel] at hi
        apply Int.bmod_eq_of_le
        · have : (2 : Int) ^ (k + 1) = 2 * 2 ^ k := by rw [Int.pow_succ]; omega
          have e : ((2 ^ (k + 1) : Nat) : Int) = 2 ^ (k + 1) := by simp
          rw [e]; omega
        · have : (2 : Int) ^ (k + 1) = 2 * 2 ^ k := by rw [Int.pow_succ]; omega
          have e : ((2 ^ (k + 1) : Nat) : Int) = 2 ^ (k + 1) := by simp
          rw [e]; omega
      rw [hv]
      split at h1
      · rw [Option.map_eq_some_iff] at h1
        obtain ⟨n, h1, rfl⟩ := h1
        exact ⟨n, _, parseDigits_iff.mp h1, .inr (.inl ⟨rfl, rfl⟩)⟩
      · rw [Option.map_eq_some_iff] at h1
        obtain ⟨n, h1, rfl⟩ := h1
        exact ⟨n, _, parseDigits_iff.mp h1, .inr (.inr ⟨rfl, rfl⟩)⟩
      · rw [Option.map_eq_some_iff] at h1
        obtain ⟨n, h1, rfl⟩ := h1
        exact ⟨n, _, parseDigits_iff.mp h1, .inl ⟨rfl, rfl⟩⟩
    · cases h2
  · rintro ⟨n, r, hn, h⟩
    have hlo := BitVec.le_toInt v
    have hhi := BitVec.toInt_lt (x := v)
    refine ⟨v.toInt, ?_, by rw [if_pos ⟨hlo, hhi⟩]; simp⟩
    have hp := parseDigits_iff.mpr hn
    rcases h with ⟨rfl, h⟩ | ⟨rfl, h⟩ | ⟨rfl, h⟩
    · split
      · exact absurd (numeral_head hn rfl) (by decide)
      · exact absurd (numeral_head hn rfl) (by decide)
      · rw [hp, h]; rfl
    · simp only [hp, h]; rfl
    · simp only [hp, h]; rfl

/-! ### quotes -/

theorem unquote_iff {s t : Str} : unquote s = .ok t ↔ s = quote t := by
  constructor
  · intro h
    unfold unquote at h
    split at h
    · rename_i hq
      split at h
      · cases h
      · rename_i hl
        cases h
        cases s with
        | nil => cases hq.1
        | cons c r =>
          have hc : c = '\'' := by simpa using hq.1
          subst hc
          have hr : r ≠ [] := by rintro rfl; simp at hl
          obtain ⟨u, d, rfl⟩ := List.eq_nil_or_concat r |>.resolve_left hr
          rw [List.concat_eq_append] at *
          have hd : d = '\'' := by
            have := hq.2
            rw [← List.cons_append, List.getLast?_concat] at this
            simpa using this
          subst hd
          simp [quote]
    · cases h
  · rintro rfl
    exact unquote_quoted t

theorem parseTz_iff {cfg : Cfg} {s : Str} {tz : Tz} : parseTz cfg s = .ok tz ↔ Zone cfg tz s := by
  unfold parseTz Zone
  rw [Res.bind_eq_ok]
  constructor
  · rintro ⟨t, h1, h2⟩
    split at h2
    · cases h2
      exact ⟨unquote_iff.mp h1, by assumption⟩
    · cases h2
  · rintro ⟨h1, h2⟩
    exact ⟨tz, unquote_iff.mpr h1, by rw [if_pos h2]⟩

/-! ### enum items -/

theorem split_at {s left right : Str} (h : s = left ++ '=' :: right) (hl : '=' ∉ left) :
    s.takeWhile (· ≠ '=') = left ∧ s.dropWhile (· ≠ '=') = '=' :: right := by
  subst h
  exact takeWhile_until (by intro x hx; simp only [ne_eq, decide_not, Bool.not_eq_eq_eq_not, Bool.not_true, decide_eq_false_iff_not]
                            rintro rfl; exact hl hx) (by decide)

theorem split_exists {s : Str} (h : '=' ∈ s) : ∃ left right, s = left ++ '=' :: right ∧ '=' ∉ left := by
  induction s with
  | nil => cases h
  | cons c r ih =>
    by_cases hc : c = '='
    · subst hc; exact ⟨[], r, rfl, by simp⟩
    · obtain ⟨left, right, rfl, hl⟩ := ih (by simpa [Ne.symm hc] using h)
      exact ⟨c :: left, right, rfl, by simp [Ne.symm hc, hl]⟩

theorem parseEnumVariant_iff {w : Nat} (hw : 0 < w) {s : Str} {it : Str × BitVec w} : parseEnumVariant w s = .ok it ↔ Variant it s := by
  unfold parseEnumVariant Variant
  constructor
  · intro h
    split at h
    · rename_i hm
      obtain ⟨left, right, e, hl⟩ := split_exists hm
      obtain ⟨h1, h2⟩ := split_at e hl
      rw [h1, h2] at h
      dsimp only at h
      rw [Res.bind_eq_ok] at h
      obtain ⟨inner, h3, h4⟩ := h
      split at h4
      · rename_i v hv
        cases h4
        exact ⟨left, inner, right, _, e, hl, core_iff.mpr (unquote_iff.mp h3), core_iff.mpr rfl, core_iff.mpr rfl, (parseInt_iff hw).mp hv⟩
      · cases h4
    · cases h
  · rintro ⟨left, inner, right, value, e, hl, h1, h2, h3, h4⟩
    rw [if_pos (by rw [e]; simp)]
    obtain ⟨e1, e2⟩ := split_at e hl
    rw [e1, e2]
    dsimp only
    rw [core_iff.mp h1, unquote_iff.mpr rfl, Res.bind_ok]
    have : trim (List.drop 1 ('=' :: right)) = value := core_iff.mp h3
    rw [this, (parseInt_iff hw).mpr h4, core_iff.mp h2]

/-! ### arguments -/

theorem level_append (a b : Str) : level (a ++ b) = level a + level b := by
  unfold level; rw [List.count_append, List.count_append]; omega

theorem level_nil : level [] = 0 := rfl

/-- The loop passes over a text in which it meets no comma at level 0. -/
theorem argLoop_pass {cfg : Cfg} {s : Str} : ∀ {d : Int} {cur rest : Str}, (∀ a b, s = a ++ ',' :: b → d + level a ≠ 0) →
    (cfg.overflowChecks = true → ∀ a b, s = a ++ b → 0 ≤ d + level a) →
    argLoop cfg d cur (s ++ rest) = argLoop cfg (d + level s) (cur ++ s) rest := by
  induction s with
  | nil => intro d cur rest _ _; simp [level_nil]
  | cons c r ih =>
    intro d cur rest h1 h2
    rw [List.cons_append]
    have hl : ∀ a, level (c :: a) = level [c] + level a := fun a => level_append [c] a
    have hnext : argLoop cfg (d + level [c]) (cur ++ [c]) (r ++ rest) = argLoop cfg (d + level (c :: r)) (cur ++ c :: r) rest := by
      rw [ih, hl r, ← Int.add_assoc, List.append_assoc]; rfl
      · intro a b e
        have := h1 (c :: a) b (by rw [e]; rfl)
        rw [hl a] at this; omega
      · intro ho a b e
        have := h2 ho (c :: a) b (by rw [e]; rfl)
        rw [hl a] at this; omega
    rw [← hnext, argLoop]
    by_cases c1 : c = ','
    · subst c1
      have := h1 [] r rfl
      rw [level_nil] at this
      rw [if_pos rfl, if_neg (by omega)]
      have e : level [','] = 0 := rfl
      rw [e, Int.add_zero]
    · rw [if_neg c1]
      by_cases c2 : c = '('
      · subst c2
        rw [if_pos rfl]; rfl
      · rw [if_neg c2]
        by_cases c3 : c = ')'
        · subst c3
          rw [if_pos rfl]
          have e : level [')'] = -1 := rfl
          rw [e, if_neg]
          · rfl
          · simp only [Bool.and_eq_true, beq_iff_eq, not_and]
            intro ho hd
            have := h2 ho [')'] r rfl
            rw [e] at this; omega
        · rw [if_neg c3]
          have e : level [c] = 0 := by
            unfold level
            rw [List.count_cons_of_ne c2, List.count_cons_of_ne c3]; rfl
          rw [e, Int.add_zero]

theorem _root_.Klick.Spec.OnePiece.pass {cfg : Cfg} {s cur rest : Str} (h : OnePiece cfg s) : argLoop cfg 0 cur (s ++ rest) = argLoop cfg 0 (cur ++ s) rest := by
  rw [argLoop_pass (fun a b e => by rw [Int.zero_add]; exact h.inside a b e) (fun ho a b e => by rw [Int.zero_add]; exact h.opened ho a b e),
    h.closed, Int.zero_add]

theorem argLoop_pieces {cfg : Cfg} {l : List Str} (h : ∀ s ∈ l, OnePiece cfg s) :
    argLoop cfg 0 [] (joinComma l) = .ok ((dropEmptyLast l).map trim) := by
  induction l with
  | nil => rfl
  | cons x r ih =>
    cases r with
    | nil =>
      have := (h x (by simp)).pass (cur := []) (rest := [])
      simp only [List.append_nil, List.nil_append] at this
      simp only [joinComma]
      rw [this]
      unfold argLoop dropEmptyLast
      cases hx : x.isEmpty <;> simp
    | cons y r =>
      simp only [joinComma]
      rw [(h x (by simp)).pass]
      conv => lhs; unfold argLoop
      rw [if_pos rfl, if_pos rfl, ih (fun s hs => h s (by simp [hs]))]
      simp [dropEmptyLast]

/-- What an accepted list of arguments looks like. -/
theorem argLoop_shape' {cfg : Cfg} {s : Str} : ∀ {d : Int} {cur : Str} {l : List Str}, argLoop cfg d cur s = .ok l →
    ∃ p ps, s = joinComma (p :: ps) ∧ (∀ a b, p = a ++ ',' :: b → d + level a ≠ 0) ∧ d + level p = 0 ∧
      (cfg.overflowChecks = true → 0 ≤ d → ∀ a b, p = a ++ b → 0 ≤ d + level a) ∧ (∀ q ∈ ps, OnePiece cfg q) ∧
      l = (dropEmptyLast ((cur ++ p) :: ps)).map trim := by
  induction s with
  | nil =>
    intro d cur l h
    unfold argLoop at h
    rcases ite_cases h with ⟨_, h⟩ | ⟨hd, h⟩
    · cases h
    · refine ⟨[], [], rfl, ?_, ?_, ?_, by simp, ?_⟩
      · intro a b e; cases a <;> cases e
      · rw [level_nil]; omega
      · intro _ hd a b e
        obtain ⟨rfl, _⟩ := List.append_eq_nil_iff.mp e.symm
        rw [level_nil]; omega
      · simp only [List.append_nil, dropEmptyLast]
        rcases ite_cases h with ⟨hc, h⟩ | ⟨hc, h⟩
        · rw [if_pos hc]; cases h; rfl
        · rw [if_neg hc]; cases h; rfl
  | cons c r ih =>
    intro d cur l h
    have hl : ∀ a, level (c :: a) = level [c] + level a := fun a => level_append [c] a
    -- the character belongs to the first piece
    have keep : ∀ {d' : Int}, d' = d + level [c] → (c = ',' → d ≠ 0) → (cfg.overflowChecks = true → 0 ≤ d → 0 ≤ d') →
        argLoop cfg d' (cur ++ [c]) r = .ok l → ∃ p ps, c :: r = joinComma (p :: ps) ∧ (∀ a b, p = a ++ ',' :: b → d + level a ≠ 0) ∧
          d + level p = 0 ∧ (cfg.overflowChecks = true → 0 ≤ d → ∀ a b, p = a ++ b → 0 ≤ d + level a) ∧ (∀ q ∈ ps, OnePiece cfg q) ∧
          l = (dropEmptyLast ((cur ++ p) :: ps)).map trim := by
      intro d' hd' hcomma hopen h
      obtain ⟨p, ps, h1, h2, h3, h4, h5, h6⟩ := ih h
      refine ⟨c :: p, ps, ?_, ?_, ?_, ?_, h5, ?_⟩
      · rw [h1]; cases ps <;> rfl
      · intro a b e
        cases a with
        | nil => rw [level_nil, Int.add_zero]; exact hcomma (List.cons.inj e).1
        | cons x a =>
          have e' : c :: p = x :: (a ++ _) := e
          have hx := (List.cons.inj e').1
          subst hx
          rw [hl a]
          have := h2 a b (List.cons.inj e').2
          omega
      · rw [hl p]; omega
      · intro ho hd a b e
        cases a with
        | nil => rw [level_nil]; omega
        | cons x a =>
          have e' : c :: p = x :: (a ++ _) := e
          have hx := (List.cons.inj e').1
          subst hx
          rw [hl a]
          have := h4 ho (hopen ho hd) a b (List.cons.inj e').2
          omega
      · rw [h6]; simp
    rw [argLoop] at h
    rcases ite_cases h with ⟨hc, h⟩ | ⟨c1, h⟩
    · subst hc
      rcases ite_cases h with ⟨hd, h⟩ | ⟨hd, h⟩
      · subst hd
        rw [Res.bind_eq_ok] at h
        obtain ⟨xs, h1, h2⟩ := h
        cases h2
        obtain ⟨p, ps, g1, g2, g3, g4, g5, g6⟩ := ih h1
        refine ⟨[], p :: ps, by rw [g1]; rfl, ?_, rfl, ?_, ?_, ?_⟩
        · intro a b e; cases a <;> cases e
        · intro _ hd a b e
          obtain ⟨rfl, _⟩ := List.append_eq_nil_iff.mp e.symm
          rw [level_nil]; omega
        · intro q hq
          rcases List.mem_cons.mp hq with rfl | hq
          · exact ⟨by omega, fun a b e => by have := g2 a b e; omega, fun ho a b e => by have := g4 ho (Int.le_refl 0) a b e; omega⟩
          · exact g5 q hq
        · rw [g6]; simp [dropEmptyLast]
      · exact keep (by rw [show level [','] = 0 from rfl]; omega) (fun _ => hd) (fun _ h => h) h
    · rcases ite_cases h with ⟨hc, h⟩ | ⟨c2, h⟩
      · subst hc
        exact keep (by rw [show level ['('] = 1 from rfl]) (fun e => absurd e (by decide)) (fun _ h => by omega) h
      · rcases ite_cases h with ⟨hc, h⟩ | ⟨c3, h⟩
        · subst hc
          rcases ite_cases h with ⟨_, h⟩ | ⟨ho, h⟩
          · cases h
          · refine keep (by rw [show level [')'] = -1 from rfl]; omega) (fun e => absurd e (by decide)) (fun h1 h2 => ?_) h
            rw [h1] at ho
            have : d ≠ 0 := by simpa using ho
            omega
        · have e : level [c] = 0 := by
            unfold level
            rw [List.count_cons_of_ne c2, List.count_cons_of_ne c3]; rfl
          exact keep (by rw [e]; omega) (fun h => absurd h c1) (fun _ h => h) h

theorem argLoop_iff {cfg : Cfg} {s : Str} {l : List Str} : argLoop cfg 0 [] s = .ok l ↔
    ∃ ps, s = joinComma ps ∧ (∀ p ∈ ps, OnePiece cfg p) ∧ l = (dropEmptyLast ps).map trim := by
  constructor
  · intro h
    obtain ⟨p, ps, h1, h2, h3, h4, h5, h6⟩ := argLoop_shape' h
    refine ⟨p :: ps, h1, ?_, by simpa using h6⟩
    intro q hq
    rcases List.mem_cons.mp hq with rfl | hq
    · exact ⟨by omega, fun a b e => by have := h2 a b e; omega, fun ho a b e => by have := h4 ho (Int.le_refl 0) a b e; omega⟩
    · exact h5 q hq
  · rintro ⟨ps, rfl, h, rfl⟩
    exact argLoop_pieces h

/-! ### white space around arguments -/

theorem blank_level {w : Str} (h : Blank w) : level w = 0 := by
  unfold level
  rw [List.count_eq_zero_of_not_mem, List.count_eq_zero_of_not_mem]
  · rfl
  · intro hm; exact absurd (h _ hm) (by decide)
  · intro hm; exact absurd (h _ hm) (by decide)

theorem blank_prefix {a b : Str} (h : Blank (a ++ b)) : Blank a := fun c hc => h c (List.mem_append_left _ hc)
theorem blank_suffix {a b : Str} (h : Blank (a ++ b)) : Blank b := fun c hc => h c (List.mem_append_right _ hc)

theorem onePiece_left {cfg : Cfg} {w s : Str} (hw : Blank w) : OnePiece cfg (w ++ s) ↔ OnePiece cfg s := by
  have hl : ∀ a, level (w ++ a) = level a := fun a => by rw [level_append, blank_level hw, Int.zero_add]
  constructor
  · intro h
    refine ⟨by rw [← hl]; exact h.closed, fun a b e => ?_, fun ho a b e => ?_⟩
    · rw [← hl]; exact h.inside (w ++ a) b (by rw [e, List.append_assoc])
    · rw [← hl]; exact h.opened ho (w ++ a) b (by rw [e, List.append_assoc])
  · intro h
    refine ⟨by rw [hl]; exact h.closed, fun a b e => ?_, fun ho a b e => ?_⟩
    · rcases List.append_eq_append_iff.mp e with ⟨a', h1, h2⟩ | ⟨c', h1, h2⟩
      · rw [h1, hl]; exact h.inside a' b h2
      · cases c' with
        | nil =>
          have h2 : ',' :: b = s := h2
          rw [List.append_nil] at h1
          rw [← h1, blank_level hw]
          have := h.inside [] b h2.symm
          exact this
        | cons x c' =>
          have hx := (List.cons.inj h2).1
          subst hx
          exact absurd (hw ',' (by rw [h1]; simp)) (by decide)
    · rcases List.append_eq_append_iff.mp e with ⟨a', h1, h2⟩ | ⟨c', h1, h2⟩
      · rw [h1, hl]; exact h.opened ho a' b h2
      · rw [h1] at hw
        rw [blank_level (blank_prefix hw)]; exact Int.le_refl _

theorem onePiece_right {cfg : Cfg} {w s : Str} (hw : Blank w) : OnePiece cfg (s ++ w) ↔ OnePiece cfg s := by
  have hl : level (s ++ w) = level s := by rw [level_append, blank_level hw, Int.add_zero]
  constructor
  · intro h
    refine ⟨by rw [← hl]; exact h.closed, fun a b e => ?_, fun ho a b e => ?_⟩
    · exact h.inside a (b ++ w) (by rw [e]; simp)
    · exact h.opened ho a (b ++ w) (by rw [e]; simp)
  · intro h
    refine ⟨by rw [hl]; exact h.closed, fun a b e => ?_, fun ho a b e => ?_⟩
    · rcases List.append_eq_append_iff.mp e with ⟨a', h1, h2⟩ | ⟨c', h1, h2⟩
      · exact absurd (hw ',' (by rw [h2]; simp)) (by decide)
      · cases c' with
        | nil =>
          have h2 : ',' :: b = w := h2
          exact absurd (hw ',' (by rw [← h2]; simp)) (by decide)
        | cons x c' =>
          have hx := (List.cons.inj h2).1
          subst hx
          exact h.inside a c' h1
    · rcases List.append_eq_append_iff.mp e with ⟨a', h1, h2⟩ | ⟨c', h1, h2⟩
      · rw [h2] at hw
        rw [h1, level_append, blank_level (blank_prefix hw), h.closed]; exact Int.le_refl _
      · exact h.opened ho a c' h1

theorem trim_left {w s : Str} (hw : Blank w) : trim (w ++ s) = trim s := by
  unfold trim; rw [dropWhile_ws_append hw]

theorem trim_right {w s : Str} (hw : Blank w) : trim (s ++ w) = trim s := by
  obtain ⟨⟨a, b, h1, h2, h3⟩, h4, h5⟩ := core_iff.mpr (rfl : trim s = trim s)
  refine core_iff.mp ⟨⟨a, b ++ w, ?_, h2, ?_⟩, h4, h5⟩
  · rw [← List.append_assoc, ← h1]
  · intro c hc
    exact (List.mem_append.mp hc).elim (h3 c) (hw c)

/-- Pieces that differ in white space at the ends only. -/
structure Alike (cfg : Cfg) (ps qs : List Str) : Prop where
  same : qs.map trim = ps.map trim
  onePiece : (∀ p ∈ ps, OnePiece cfg p) → ∀ q ∈ qs, OnePiece cfg q

theorem alike_cons {cfg : Cfg} {p p' : Str} {ps : List Str} (ht : trim p' = trim p) (ho : OnePiece cfg p → OnePiece cfg p') :
    Alike cfg (p :: ps) (p' :: ps) :=
  ⟨by simp [ht], fun h q hq => by
    rcases List.mem_cons.mp hq with rfl | hq
    · exact ho (h p (by simp))
    · exact h q (by simp [hq])⟩

theorem dropWhile_alike (cfg : Cfg) : ∀ ps : List Str, ps ≠ [] → ∃ qs, (joinComma ps).dropWhile isWs = joinComma qs ∧ Alike cfg ps qs
  | [], h => absurd rfl h
  | [p], _ => by
    obtain ⟨w, hw, hb⟩ := dropWhile_ws_spec p
    refine ⟨[p.dropWhile isWs], rfl, alike_cons ?_ ?_⟩
    · conv => rhs; rw [hw]
      rw [trim_left hb]
    · intro h; rw [hw] at h; exact (onePiece_left hb).mp h
  | p :: q :: r, _ => by
    obtain ⟨w, hw, hb⟩ := dropWhile_ws_spec p
    refine ⟨p.dropWhile isWs :: q :: r, ?_, alike_cons ?_ ?_⟩
    · simp only [joinComma]
      exact dropWhile_ws_cons (by decide)
    · conv => rhs; rw [hw]
      rw [trim_left hb]
    · intro h; rw [hw] at h; exact (onePiece_left hb).mp h

theorem trimEnd_alike (cfg : Cfg) : ∀ ps : List Str, ps ≠ [] → ∃ qs, trimEnd (joinComma ps) = joinComma qs ∧ Alike cfg ps qs ∧ qs ≠ []
  | [], h => absurd rfl h
  | [p], _ => by
    obtain ⟨w, hw, hb⟩ := trimEnd_spec p
    refine ⟨[trimEnd p], rfl, alike_cons ?_ ?_, by simp⟩
    · conv => rhs; rw [hw]
      rw [trim_right hb]
    · intro h; rw [hw] at h; exact (onePiece_right hb).mp h
  | p :: q :: r, _ => by
    obtain ⟨qs, h1, h2, h3⟩ := trimEnd_alike cfg (q :: r) (by simp)
    refine ⟨p :: qs, ?_, ⟨by simp [h2.same], fun h x hx => ?_⟩, by simp⟩
    · cases qs with
      | nil => exact absurd rfl h3
      | cons y qs =>
        simp only [joinComma]
        rw [trimEnd_cons (by decide), h1]
    · rcases List.mem_cons.mp hx with rfl | hx
      · exact h _ (by simp)
      · exact h2.onePiece (fun p hp => h p (by simp [hp])) x hx

theorem trim_alike (cfg : Cfg) (ps : List Str) (h : ps ≠ []) : ∃ qs, trim (joinComma ps) = joinComma qs ∧ Alike cfg ps qs ∧ qs ≠ [] := by
  obtain ⟨qs, h1, h2⟩ := dropWhile_alike cfg ps h
  have hq : qs ≠ [] := by
    rintro rfl
    have := h2.same
    cases ps with
    | nil => exact h rfl
    | cons p ps => cases this
  obtain ⟨rs, h3, h4, h5⟩ := trimEnd_alike cfg qs hq
  refine ⟨rs, ?_, ⟨by rw [h4.same, h2.same], fun h => h4.onePiece (h2.onePiece h)⟩, h5⟩
  unfold trim
  rw [h1, h3]

theorem join_snoc (ps : List Str) (p w : Str) : joinComma (ps ++ [p]) ++ w = joinComma (ps ++ [p ++ w]) := by
  induction ps with
  | nil => rfl
  | cons q ps ih =>
    cases hps : ps with
    | nil => simp [joinComma]
    | cons r ps' =>
      subst hps
      simp only [List.cons_append, joinComma, List.append_assoc] at ih ⊢
      rw [ih]

theorem join_comma (ps : List Str) (w : Str) (h : ps ≠ []) : joinComma ps ++ ',' :: w = joinComma (ps ++ [w]) := by
  induction ps with
  | nil => exact absurd rfl h
  | cons q ps ih =>
    cases ps with
    | nil => rfl
    | cons r ps =>
      have := ih (by simp)
      simp only [List.cons_append, joinComma, List.append_assoc] at this ⊢
      rw [this]

theorem join_left (p w : Str) (ps : List Str) : w ++ joinComma (p :: ps) = joinComma ((w ++ p) :: ps) := by
  cases ps <;> simp [joinComma]

theorem join_last (ps : List Str) (p : Str) (hp : p ≠ []) : (joinComma (ps ++ [p])).getLast? = p.getLast? := by
  induction ps with
  | nil => rfl
  | cons q ps ih =>
    cases hps : ps ++ [p] with
    | nil => simp at hps
    | cons y r =>
      rw [hps] at ih
      rw [List.cons_append, hps]
      simp only [joinComma]
      have hne : joinComma (y :: r) ≠ [] := by
        intro e
        rw [e] at ih
        cases p with
        | nil => exact hp rfl
        | cons a b => exact absurd ih.symm (by simp [List.getLast?_cons])
      rw [List.getLast?_append, List.getLast?_cons, ih]
      cases h : p.getLast? with
      | none => exact absurd (List.getLast?_eq_none_iff.mp h) hp
      | some c => simp

theorem dropEmptyLast_snoc (ps : List Str) (p : Str) : dropEmptyLast (ps ++ [p]) = if p = [] then ps else ps ++ [p] := by
  induction ps with
  | nil => cases p <;> rfl
  | cons q ps ih =>
    cases hps : ps ++ [p] with
    | nil => simp at hps
    | cons y r =>
      rw [List.cons_append, hps]
      simp only [dropEmptyLast]
      rw [← hps, ih]
      split <;> rfl

theorem core_zip {args ps : List Str} : (args.length = ps.length ∧ ∀ x ∈ args.zip ps, Core x.1 x.2) ↔ args = ps.map trim := by
  induction ps generalizing args with
  | nil => cases args <;> simp
  | cons p ps ih =>
    cases args with
    | nil => simp
    | cons a args =>
      simp only [List.length_cons, List.map_cons, List.cons.injEq, List.zip_cons_cons, List.mem_cons, forall_eq_or_imp, Nat.add_right_cancel_iff]
      rw [← ih, core_iff]
      constructor
      · rintro ⟨h1, h2, h3⟩; exact ⟨h2.symm, h1, h3⟩
      · rintro ⟨h1, h2, h3⟩; exact ⟨h2, h1.symm, h3⟩

theorem trim_last {s : Str} {c : Char} (h : (trim s).getLast? = some c) : isWs c = false :=
  (core_iff.mpr (rfl : trim s = trim s)).2.2 c h

/-- The last of the pieces of a trimmed text is empty or not blank. -/
theorem last_piece {s : Str} {ps : List Str} {p : Str} (h : trim s = joinComma (ps ++ [p])) (hb : trim p = []) : p = [] := by
  apply Classical.byContradiction
  intro hp
  have h1 := join_last ps p hp
  rw [← h] at h1
  cases hl : p.getLast? with
  | none => exact hp (List.getLast?_eq_none_iff.mp hl)
  | some c =>
    rw [hl] at h1
    have h2 := trim_last h1
    have h3 := blank_iff.mpr hb c (List.mem_of_getLast? hl)
    rw [h2] at h3; cases h3

theorem listed_iff {cfg : Cfg} {s : Str} {args : List Str} : Listed cfg s args ↔ argLoop cfg 0 [] (trim s) = .ok args := by
  rw [argLoop_iff]
  constructor
  · rintro (hb | ⟨hne, ho, hl, hc, hlast⟩ | ⟨hne, ho, hl, hc, hb⟩)
    · exact ⟨[], by rw [blank_iff.mp hb]; rfl, by simp, rfl⟩
    · rename_i pieces
      have ha := core_zip.mp ⟨hl, hc⟩
      obtain ⟨qs, h1, h2, h3⟩ := trim_alike cfg pieces hne
      refine ⟨qs, h1, h2.onePiece ho, ?_⟩
      obtain ⟨r, q, rfl⟩ := List.eq_nil_or_concat qs |>.resolve_left h3
      rw [List.concat_eq_append] at *
      rw [dropEmptyLast_snoc, if_neg, ha, h2.same]
      rintro rfl
      apply hlast
      rw [ha, ← h2.same]
      simp [show trim [] = [] from rfl]
    · rename_i pieces w
      have ha := core_zip.mp ⟨hl, hc⟩
      rw [join_comma pieces w hne]
      obtain ⟨qs, h1, h2, h3⟩ := trim_alike cfg (pieces ++ [w]) (by simp)
      have hw : OnePiece cfg w := by
        have h0 : OnePiece cfg [] := ⟨rfl, (fun a b e => by cases a <;> cases e), fun _ a b e => by
          obtain ⟨rfl, _⟩ := List.append_eq_nil_iff.mp e.symm; exact Int.le_refl _⟩
        have := (onePiece_left (s := []) (cfg := cfg) hb).mpr h0
        simpa using this
      refine ⟨qs, h1, h2.onePiece ?_, ?_⟩
      · intro p hp
        rcases List.mem_append.mp hp with hp | hp
        · exact ho p hp
        · rw [List.mem_singleton.mp hp]; exact hw
      · obtain ⟨r, q, rfl⟩ := List.eq_nil_or_concat qs |>.resolve_left h3
        rw [List.concat_eq_append] at *
        have hs := h2.same
        rw [List.map_append, List.map_append] at hs
        obtain ⟨e1, e2⟩ := List.append_inj' hs rfl
        have hq : q = [] := last_piece h1 (by
          have : trim q = trim w := (List.cons.inj e2).1
          rw [this, blank_iff.mp hb])
        rw [dropEmptyLast_snoc, if_pos hq, ha, e1]
  · rintro ⟨ps, h1, ho, rfl⟩
    obtain ⟨w, w', hs, hw, hw'⟩ := trim_spec s
    by_cases hps : ps = []
    · subst hps
      exact .none (blank_iff.mpr h1)
    obtain ⟨r, q, rfl⟩ := List.eq_nil_or_concat ps |>.resolve_left hps
    rw [List.concat_eq_append] at *
    rw [dropEmptyLast_snoc]
    by_cases hq : q = []
    · subst hq
      rw [if_pos rfl]
      cases r with
      | nil => exact .none (blank_iff.mpr h1)
      | cons p r =>
        have e : s = joinComma ((w ++ p) :: r) ++ ',' :: w' := by
          rw [hs, h1, List.cons_append, join_left, ← List.cons_append, join_snoc, List.nil_append, join_comma _ _ (by simp)]
        rw [e]
        have hz := core_zip.mpr (rfl : ((w ++ p) :: r).map trim = _)
        have hm : (p :: r).map trim = ((w ++ p) :: r).map trim := by simp [trim_left hw]
        rw [hm]
        refine .comma (by simp) ?_ hz.1 hz.2 hw'
        intro x hx
        rcases List.mem_cons.mp hx with rfl | hx
        · exact (onePiece_left hw).mpr (ho p (by simp))
        · exact ho x (by simp [hx])
    · rw [if_neg hq]
      have hq' : trim q ≠ [] := fun h => hq (last_piece h1 h)
      cases r with
      | nil =>
        have e : s = joinComma [w ++ q ++ w'] := by rw [hs, h1]; rfl
        rw [e]
        have hm : ([] ++ [q]).map trim = [w ++ q ++ w'].map trim := by simp [trim_left hw, trim_right hw']
        rw [hm]
        have hz := core_zip.mpr (rfl : [w ++ q ++ w'].map trim = _)
        refine .some (by simp) ?_ hz.1 hz.2 ?_
        · intro x hx
          rw [List.mem_singleton.mp hx]
          exact (onePiece_right hw').mpr ((onePiece_left hw).mpr (ho q (by simp)))
        · rw [← hm]; simpa using hq'
      | cons p r =>
        have e : s = joinComma ((w ++ p) :: (r ++ [q ++ w'])) := by
          rw [hs, h1, List.cons_append, join_left, ← List.cons_append, join_snoc]; rfl
        rw [e]
        have hm : (p :: r ++ [q]).map trim = ((w ++ p) :: (r ++ [q ++ w'])).map trim := by simp [trim_left hw, trim_right hw']
        rw [hm]
        have hz := core_zip.mpr (rfl : ((w ++ p) :: (r ++ [q ++ w'])).map trim = _)
        refine .some (by simp) ?_ hz.1 hz.2 ?_
        · intro x hx
          rcases List.mem_cons.mp hx with rfl | hx
          · exact (onePiece_left hw).mpr (ho p (by simp))
          · rcases List.mem_append.mp hx with hx | hx
            · exact ho x (by simp [hx])
            · rw [List.mem_singleton.mp hx]
              exact (onePiece_right hw').mpr (ho q (by simp))
        · rw [← hm, List.map_append]
          show ((p :: r).map trim ++ [trim q]).getLast? ≠ _
          rw [List.getLast?_concat]; simpa using hq'

theorem parseArgs_iff {cfg : Cfg} {s : Str} {args : List Str} : parseArgs cfg s = .ok args ↔ ∃ inner, s = '(' :: inner ++ [')'] ∧ Listed cfg inner args := by
  unfold parseArgs
  constructor
  · intro h
    rcases ite_cases h with ⟨⟨h1, h2⟩, h⟩ | ⟨_, h⟩
    · cases s with
      | nil => cases h1
      | cons c r =>
        have hc : c = '(' := by simpa using h1
        subst hc
        have hr : r ≠ [] := by rintro rfl; simp at h2
        obtain ⟨u, d, rfl⟩ := List.eq_nil_or_concat r |>.resolve_left hr
        rw [List.concat_eq_append] at *
        have hd : d = ')' := by
          rw [← List.cons_append, List.getLast?_concat] at h2
          simpa using h2
        subst hd
        rw [← List.cons_append, Props.strip_parens] at h
        exact ⟨u, rfl, listed_iff.mpr h⟩
    · cases h
  · rintro ⟨inner, rfl, h⟩
    rw [if_pos ⟨rfl, List.getLast?_concat⟩, Props.strip_parens]
    exact listed_iff.mp h

/-! ### the word -/

/-- A character of an identifier. -/
def identChar (cfg : Cfg) (c : Char) : Bool := isAlphabetic cfg c || c == '_' || c == '$' || isNumeric cfg c

theorem eatTail_exact {cfg : Cfg} {n rest : Str} (hn : n.all (identChar cfg) = true) (hr : ∀ c, rest.head? = some c → identChar cfg c = false) :
    eatTail cfg (n ++ rest) = (n, rest) := by
  induction n with
  | nil =>
    cases rest with
    | nil => rfl
    | cons c r =>
      have h : identChar cfg c = false := hr c rfl
      unfold identChar at h
      simp only [List.nil_append, eatTail, h]; rfl
  | cons c n ih =>
    rw [List.all_cons, Bool.and_eq_true] at hn
    have h : identChar cfg c = true := hn.1
    unfold identChar at h
    simp only [List.cons_append, eatTail, h, if_true, ih hn.2]

theorem eatIdent_exact {cfg : Cfg} {c : Char} {n rest : Str} (hc : (isAlphabetic cfg c || c == '_' || c == '$') = true)
    (hn : n.all (identChar cfg) = true) (hr : ∀ c, rest.head? = some c → identChar cfg c = false) :
    eatIdent cfg (c :: n ++ rest) = (c :: n, rest) := by
  simp only [List.cons_append, eatIdent, hc, if_true, eatTail_exact hn hr]

theorem ws_ident {cfg : Cfg} (hs : SpaceApart cfg) {c : Char} (h : isWs c = true) : identChar cfg c = false := by
  have hx := hs c h
  unfold identChar isAlphabetic isNumeric
  by_cases hl : c.toNat < 128
  · rw [if_pos hl, if_pos hl]
    have hd : isDigit c = false := by
      cases e : isDigit c with
      | false => rfl
      | true => rw [isDigit_not_ws e] at h; cases h
    have hw : c.toNat = 32 ∨ (9 ≤ c.toNat ∧ c.toNat ≤ 13) := by
      simp only [isWs, Bool.or_eq_true, Bool.and_eq_true, beq_iff_eq, decide_eq_true_eq] at h
      omega
    have ha : c.isAlpha = false := by
      simp only [Char.isAlpha, Char.isUpper, Char.isLower, Bool.or_eq_false_iff, Bool.and_eq_false_iff, decide_eq_false_iff_not, ge_iff_le,
        UInt32.le_iff_toNat_le]
      have e : c.val.toNat = c.toNat := rfl
      simp only [e]
      constructor
      · rintro ⟨h, _⟩
        have h : 65 ≤ c.toNat := h
        omega
      · left
        intro h
        have h : 97 ≤ c.toNat := h
        omega
    have h1 : (c == '_') = false := by
      rw [beq_eq_false_iff_ne]; rintro rfl; revert h; decide
    have h2 : (c == '$') = false := by
      rw [beq_eq_false_iff_ne]; rintro rfl; revert h; decide
    rw [hd, ha, h1, h2]; rfl
  · rw [if_neg hl, if_neg hl, hx.1, hx.2]
    have h1 : (c == '_') = false := by
      rw [beq_eq_false_iff_ne]; rintro rfl; revert h; decide
    have h2 : (c == '$') = false := by
      rw [beq_eq_false_iff_ne]; rintro rfl; revert h; decide
    rw [h1, h2]; rfl

/-- A name that is read as one word. -/
def Ident (cfg : Cfg) (n : Str) : Prop := ∃ c r, n = c :: r ∧ (isAlphabetic cfg c || c == '_' || c == '$') = true ∧ r.all (identChar cfg) = true

theorem parseStep_applied {cfg : Cfg} (hs : SpaceApart cfg) {rec : Str → Res Ty} {name s : Str} {args : List Str} (hi : Ident cfg name)
    (h : Applied cfg name args s) : parseStep cfg rec s = withArgs cfg rec name args := by
  obtain ⟨c, n, rfl, hc, hn⟩ := hi
  obtain ⟨w, inner, w', rfl, hw, hw', hl⟩ := h
  have hr : ∀ x, (w ++ ('(' :: inner ++ [')'] ++ w')).head? = some x → identChar cfg x = false := by
    intro x hx
    cases w with
    | nil =>
      have : x = '(' := by simpa using hx.symm
      subst this; rfl
    | cons y w =>
      have : x = y := by simpa using hx.symm
      subst this
      exact ws_ident hs (hw x (by simp))
  have e : c :: n ++ w ++ '(' :: inner ++ ')' :: w' = c :: n ++ (w ++ ('(' :: inner ++ [')'] ++ w')) := by simp
  unfold parseStep
  rw [e, eatIdent_exact hc hn hr]
  dsimp only
  have ht : trim (w ++ ('(' :: inner ++ [')'] ++ w')) = '(' :: inner ++ [')'] := by
    rw [trim_left hw, trim_right hw', (Ends.cons_append (by decide) (by decide)).trim]
  rw [if_neg (by simp), ht, if_neg (by simp), parseArgs_iff.mpr ⟨inner, rfl, hl⟩]
  rfl

theorem applied_of {cfg : Cfg} {s : Str} {args : List Str} (h : parseArgs cfg (trim (eatIdent cfg s).2) = .ok args) :
    Applied cfg (eatIdent cfg s).1 args s := by
  obtain ⟨inner, e, hl⟩ := parseArgs_iff.mp h
  obtain ⟨w, w', hs, hw, hw'⟩ := trim_spec (eatIdent cfg s).2
  refine ⟨w, inner, w', ?_, hw, hw', hl⟩
  rw [e] at hs
  conv => lhs; rw [← eatIdent_append cfg s, hs]
  simp

theorem noArgs_plainly {cfg : Cfg} {n : Str} {t : Ty} : noArgs cfg n = .ok t → Plainly cfg t n := by
  intro h
  unfold noArgs at h
  repeat' (rcases ite_cases h with ⟨rfl, h⟩ | ⟨_, h'⟩
           · first
             | (rcases ite_cases (p := cfg.bf16 = true) h with ⟨hb, h⟩ | ⟨_, h⟩
                · cases h; exact .bfloat16 hb
                · cases h)
             | (cases h; constructor; done)
           replace h := h'; clear h')
  cases h

theorem plainly_noArgs {cfg : Cfg} {n : Str} {t : Ty} (h : Plainly cfg t n) : noArgs cfg n = .ok t ∧ Ident cfg n := by
  cases h
  case bfloat16 hb =>
    refine ⟨?_, _, _, rfl, rfl, rfl⟩
    show (if cfg.bf16 = true then Res.ok Ty.bfloat16 else Res.err Err.typeParse) = _
    rw [if_pos hb]
  all_goals exact ⟨rfl, _, _, rfl, rfl, rfl⟩

theorem parseStep_word {cfg : Cfg} (hs : SpaceApart cfg) {rec : Str → Res Ty} {n w : Str} {t : Ty} (h : Plainly cfg t n) (hw : Blank w) :
    parseStep cfg rec (n ++ w) = .ok t := by
  obtain ⟨h1, c, r, rfl, hc, hr⟩ := plainly_noArgs h
  unfold parseStep
  rw [eatIdent_exact hc hr]
  · dsimp only
    rw [if_neg (by simp), blank_iff.mp hw, if_pos (by rfl), h1]
  · intro x hx
    cases w with
    | nil => cases hx
    | cons y w =>
      have : x = y := by simpa using hx.symm
      subst this
      exact ws_ident hs (hw x (by simp))

end Klick
