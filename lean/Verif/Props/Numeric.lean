import Verif.Spec.Numeric
import Verif.Props.Sql
import Verif.Props.Column
import Verif.Props.Convert
/-
Numbers (C49 to C52).
-/
namespace Klick
open Spec Props

/-! ### C49: fixed-point numbers -/

/-- Whenever the parts of a fixed-point number are returned, for every width, scale (also nonsensical ones, in
every build) and raw value: integer part times modulus plus fraction is the raw value, the fraction is smaller
than the modulus in magnitude, and has the sign of the raw value. -/
theorem C49_decompose (cfg : Cfg) (w p : Nat) (raw : BitVec w) (i f m : Int) (hi : fpInteger cfg w p raw = .ok i)
    (hf : fpFraction cfg w p raw = .ok f) (hm : fpModulus cfg w p = .ok m) :
    i * m + f = raw.toInt ∧ f.natAbs < m.natAbs ∧ (0 ≤ raw.toInt → 0 ≤ f) ∧ (raw.toInt ≤ 0 → f ≤ 0) := by
  simp only [fpModulus] at hm
  simp only [fpInteger, hm, Res.bind_ok] at hi
  simp only [fpFraction, hm, Res.bind_ok] at hf
  by_cases hz : m = 0 ∨ (m = -1 ∧ raw.toInt = -(2 ^ (w - 1)))
  · rw [if_pos hz] at hi; cases hi
  rw [if_neg hz] at hi hf
  cases hi; cases hf
  have hm0 : m ≠ 0 := fun h => hz (.inl h)
  refine ⟨?_, ?_, fun h => Int.tmod_nonneg m h, fun h => ?_⟩
  · rw [Int.mul_comm]; exact Int.mul_tdiv_add_tmod _ _
  · rw [Int.natAbs_tmod]; exact Nat.mod_lt _ (by omega)
  · have := Int.tmod_nonneg m (a := -raw.toInt) (by omega)
    rw [Int.neg_tmod] at this
    omega

/-- For the scales ClickHouse allows (up to 9, 18, 38 digits) the parts are always returned, and the modulus is
ten to the scale. -/
theorem C49_defined (cfg : Cfg) (w p : Nat) (raw : BitVec w)
    (hw : (w = 32 ∧ p ≤ 9) ∨ (w = 64 ∧ p ≤ 18) ∨ (w = 128 ∧ p ≤ 38)) :
    fpModulus cfg w p = .ok (10 ^ p) ∧ (∃ i, fpInteger cfg w p raw = .ok i) ∧ (∃ f, fpFraction cfg w p raw = .ok f) := by
  have hp : p % 2 ^ 32 = p := by omega
  have hlt : (10 : Nat) ^ p < 2 ^ (w - 1) := by
    rcases hw with ⟨rfl, h⟩ | ⟨rfl, h⟩ | ⟨rfl, h⟩
    · exact Nat.lt_of_le_of_lt (Nat.pow_le_pow_right (by decide) h) (by decide)
    · exact Nat.lt_of_le_of_lt (Nat.pow_le_pow_right (by decide) h) (by decide)
    · exact Nat.lt_of_le_of_lt (Nat.pow_le_pow_right (by decide) h) (by decide)
  have hm : powTenS cfg w (p % 2 ^ 32) = .ok (10 ^ p) := by
    rw [hp, powTenS, if_pos hlt, Int.natCast_pow]; rfl
  have hpos : (0 : Int) < 10 ^ p := Int.pow_pos (by decide)
  have hn : ¬ ((10 : Int) ^ p = 0 ∨ ((10 : Int) ^ p = -1 ∧ raw.toInt = -(2 ^ (w - 1)))) := by omega
  refine ⟨hm, ⟨raw.toInt.tdiv (10 ^ p), ?_⟩, ⟨raw.toInt.tmod (10 ^ p), ?_⟩⟩
  · rw [fpInteger, hm, Res.bind_ok, if_neg hn]
  · rw [fpFraction, hm, Res.bind_ok, if_neg hn]

/-- For every scale, also nonsensical ones, integer part and fraction are returned together or both panic: neither is ever an error. -/
theorem C49_together (cfg : Cfg) (w p : Nat) (raw : BitVec w) :
    (∃ i f, fpInteger cfg w p raw = .ok i ∧ fpFraction cfg w p raw = .ok f) ∨
    (fpInteger cfg w p raw = .panic ∧ fpFraction cfg w p raw = .panic) := by
  have hm : (∃ m, powTenS cfg w (p % 2 ^ 32) = .ok m) ∨ powTenS cfg w (p % 2 ^ 32) = .panic := by
    unfold powTenS
    (repeat' split) <;> simp
  rcases hm with ⟨m, hm⟩ | hm
  · by_cases hz : m = 0 ∨ (m = -1 ∧ raw.toInt = -(2 ^ (w - 1)))
    · right; constructor
      · rw [fpInteger, hm, Res.bind_ok, if_pos hz]
      · rw [fpFraction, hm, Res.bind_ok, if_pos hz]
    · left; refine ⟨raw.toInt.tdiv m, raw.toInt.tmod m, ?_, ?_⟩
      · rw [fpInteger, hm, Res.bind_ok, if_neg hz]
      · rw [fpFraction, hm, Res.bind_ok, if_neg hz]
  · right; constructor
    · rw [fpInteger, hm, Res.bind_panic]
    · rw [fpFraction, hm, Res.bind_panic]

/-- Both happen: with 64 digits the modulus of a 64-bit number is zero in a build without overflow checks. -/
example : fpInteger cfgRelease 64 64 (BitVec.ofNat 64 5) = .panic ∧ fpFraction cfgRelease 64 64 (BitVec.ofNat 64 5) = .panic := ⟨rfl, rfl⟩

/-- A negative number: -1234 with two digits is -12 and -34 hundredths. -/
example : fpInteger cfgDebug 32 2 (BitVec.ofInt 32 (-1234)) = .ok (-12) ∧
    fpFraction cfgDebug 32 2 (BitVec.ofInt 32 (-1234)) = .ok (-34) ∧ fpModulus cfgDebug 32 2 = .ok 100 := ⟨rfl, rfl, rfl⟩

/-- A scale above the digits of the type panics in a build with overflow checks; without them the modulus is
not the power of ten. -/
theorem C49_scale_too_large :
    fpModulus cfgDebug 32 10 = .panic ∧ fpModulus cfgRelease 32 10 = .ok 1410065408 := ⟨rfl, rfl⟩

/-! ### C50: 256-bit integers -/

theorem unBe_append (a b : Bytes) : unBe (a ++ b) = unBe a * 256 ^ b.length + unBe b := by
  have key : ∀ (x y : Bytes), unLe (x ++ y) = unLe x + 256 ^ x.length * unLe y := by
    intro x y
    induction x with
    | nil => simp [unLe]
    | cons c x ih =>
      simp only [List.cons_append, unLe, ih, List.length_cons, Nat.pow_succ]
      rw [Nat.mul_add, ← Nat.mul_assoc, Nat.mul_comm 256 (256 ^ x.length)]
      omega
  simp only [unBe, List.reverse_append, key, List.length_reverse]
  rw [Nat.mul_comm, Nat.add_comm]

theorem unBe_be (n x : Nat) : unBe (be n x) = x % 256 ^ n := by
  simp only [unBe, be, List.reverse_reverse, unLe_le]

theorem be_unBe (b : Bytes) : be b.length (unBe b) = b := by
  have := le_unLe b.reverse
  rw [List.length_reverse] at this
  rw [be, unBe, this, List.reverse_reverse]

theorem be_length (n x : Nat) : (be n x).length = n := by simp [be]

theorem unBe_lt (b : Bytes) : unBe b < 256 ^ b.length := by
  have := unLe_lt b.reverse
  rwa [List.length_reverse] at this

/-- The halves are the number divided by 2^128 and the rest. -/
theorem C50_halves (x : BitVec 256) :
    (halves x).1.toNat = x.toNat / 2 ^ 128 ∧ (halves x).2.toNat = x.toNat % 2 ^ 128 := by
  have hx := x.isLt
  have hl : (bytes256 x).length = 32 := be_length _ _
  have e : unBe (bytes256 x) = x.toNat := by
    rw [bytes256, unBe_be]; exact Nat.mod_eq_of_lt x.isLt
  have h := unBe_append ((bytes256 x).take 16) ((bytes256 x).drop 16)
  rw [List.take_append_drop, e, List.length_drop, hl] at h
  have h1 := unBe_lt ((bytes256 x).take 16)
  have h2 := unBe_lt ((bytes256 x).drop 16)
  rw [List.length_take, hl] at h1
  rw [List.length_drop, hl] at h2
  have e3 : (256 : Nat) ^ (32 - 16) = 2 ^ 128 := by decide
  have e4 : (256 : Nat) ^ min 16 32 = 2 ^ 128 := by decide
  rw [e3] at h h2
  rw [e4] at h1
  simp only [halves, BitVec.toNat_ofNat]
  omega

/-- There and back: halves of a number make the number, and the number made of two halves has them. -/
theorem C50_halves_roundtrip (x : BitVec 256) (h : BitVec 128 × BitVec 128) :
    ofHalves (halves x) = x ∧ halves (ofHalves h) = h := by
  have val : ∀ h : BitVec 128 × BitVec 128, (ofHalves h).toNat = h.1.toNat * 2 ^ 128 + h.2.toNat := by
    intro h
    have h1 := h.1.isLt
    have h2 := h.2.isLt
    have e3 : (256 : Nat) ^ 16 = 2 ^ 128 := by decide
    simp only [ofHalves, ofBytes256, BitVec.toNat_ofNat, unBe_append, unBe_be, be_length, e3]
    rw [Nat.mod_eq_of_lt h1, Nat.mod_eq_of_lt h2]
    omega
  have hx := x.isLt
  refine ⟨?_, ?_⟩
  · apply BitVec.eq_of_toNat_eq
    rw [val, (C50_halves x).1, (C50_halves x).2]
    omega
  · have h1 := h.1.isLt
    have h2 := h.2.isLt
    have a := (C50_halves (ofHalves h)).1
    have b := (C50_halves (ofHalves h)).2
    rw [val] at a b
    refine Prod.ext (BitVec.eq_of_toNat_eq ?_) (BitVec.eq_of_toNat_eq ?_)
    · omega
    · omega

/-- Signed and unsigned reinterpretation keeps the bits, so back and forth is the identity. -/
theorem C50_reinterpret (x : BitVec 256) : reinterpret256 x = x := by
  apply BitVec.eq_of_toNat_eq
  have hx := x.isLt
  have e3 : (256 : Nat) ^ 32 = 2 ^ 256 := by decide
  simp only [reinterpret256, ofBytes256, bytes256, BitVec.toNat_ofNat, unBe_be, e3]
  omega

/-- The text is `0x` and 64 upper-case hexadecimal digits that denote the number. -/
theorem C50_text (x : BitVec 256) :
    ∃ ds, hexText x = ch! "0x" ++ ds ∧ ds.length = 64 ∧ ds.all (fun c => c ∈ ch! "0123456789ABCDEF") = true ∧
      hexDigitsVal ds = x.toNat := by
  refine ⟨_, rfl, ?_, ?_, ?_⟩
  · have : ∀ bs : Bytes, (bs.flatMap (fun b => [hexU (b.toNat / 16), hexU (b.toNat % 16)])).length = 2 * bs.length := by
      intro bs
      induction bs with
      | nil => rfl
      | cons b bs ih => simp only [List.flatMap_cons, List.length_append, ih, List.length_cons, List.length_nil]; omega
    rw [this, be_length]
  · have key : ∀ m : Fin 16, decide (hexU m.val ∈ ch! "0123456789ABCDEF") = true := by decide
    rw [List.all_eq_true]
    intro c hc
    obtain ⟨b, _, hb⟩ := List.mem_flatMap.mp hc
    have := b.isLt
    rcases List.mem_cons.mp hb with rfl | hb
    · exact key ⟨b.toNat / 16, by omega⟩
    · rcases List.mem_singleton.mp hb with rfl
      exact key ⟨b.toNat % 16, by omega⟩
  · rw [hexDigitsVal_bytes, unBe_be]
    exact Nat.mod_eq_of_lt x.isLt

example : halves (BitVec.ofNat 256 (5 * 2 ^ 128 + 7)) = (5#128, 7#128) ∧ ofHalves (5#128, 7#128) = BitVec.ofNat 256 (5 * 2 ^ 128 + 7) :=
  ⟨Prod.ext (BitVec.eq_of_toNat_eq (C50_halves _).1) (BitVec.eq_of_toNat_eq (C50_halves _).2),
   BitVec.eq_of_toNat_eq rfl⟩

/-! ### C51: decimals -/

theorem toBits_ok {w : Nat} (hw : 0 < w) {m : Int} (h : InBits w m) : toBits w m = .ok (BitVec.ofInt w m) ∧ (BitVec.ofInt w m).toInt = m := by
  refine ⟨if_pos ⟨h.1, h.2⟩, ?_⟩
  rw [BitVec.toInt_ofInt]
  obtain ⟨k, rfl⟩ : ∃ k, w = k + 1 := ⟨w - 1, by omega⟩
  obtain ⟨h1, h2⟩ := h
  rw [Nat.add_sub_cancel] at h1 h2
  have e : ((2 ^ (k + 1) : Nat) : Int) = 2 * 2 ^ k := by
    rw [Int.natCast_pow, Int.pow_succ, Int.mul_comm]; rfl
  generalize (2 : Int) ^ k = q at h1 h2 e
  apply Int.bmod_eq_of_le <;> rw [e] <;> omega

theorem toBits_err {w : Nat} {m : Int} (h : ¬ InBits w m) : toBits w m = .err .serialize := by
  exact if_neg (fun h2 => h ⟨h2.1, h2.2⟩)

theorem toBits_eq_ok {w : Nat} (hw : 0 < w) {m : Int} {x : BitVec w} (h : toBits w m = .ok x) : InBits w m ∧ x.toInt = m := by
  by_cases hb : InBits w m
  · obtain ⟨h1, h2⟩ := toBits_ok hw hb
    rw [h1] at h; cases h; exact ⟨hb, h2⟩
  · rw [toBits_err hb] at h; cases h

theorem scale_ok (cfg : Cfg) {m : Int} {s p : Nat} (hs : s ≤ p) (hp : p ≤ 38) :
    mantissaToScale cfg m s p = if p = s then .ok m else toBits 128 (m * 10 ^ (p - s)) >>= fun _ => .ok (m * 10 ^ (p - s)) := by
  rw [mantissaToScale]
  by_cases h : p = s
  · rw [if_pos h, if_pos h]
  · rw [if_neg h, if_neg h, powTenS, if_pos (Nat.lt_of_le_of_lt (Nat.pow_le_pow_right (by decide) (show p - s ≤ 38 by omega)) (by decide)),
      Res.bind_ok, Int.natCast_pow]
    rfl

/-- A decimal column of `w` bits and scale `p`: what `to_sql` does with a decimal of a scale up to `p`. -/
theorem scaled (cfg : Cfg) (d : Decimal) (p w : Nat) (hw : w = 32 ∨ w = 64 ∨ w = 128) (hs : d.scale ≤ p)
    (hp : p ≤ 38) (mk : BitVec w → Value) :
    (InBits w (d.mantissa * 10 ^ (p - d.scale)) →
      (mantissaToScale cfg d.mantissa d.scale p >>= fun m => toBits w m >>= fun x => .ok (mk x)) =
        .ok (mk (BitVec.ofInt w (d.mantissa * 10 ^ (p - d.scale))))) ∧
    (¬ InBits w (d.mantissa * 10 ^ (p - d.scale)) →
      (mantissaToScale cfg d.mantissa d.scale p >>= fun m => toBits w m >>= fun x => .ok (mk x)) = .err .serialize) := by
  have hw0 : 0 < w := by omega
  have hsub : InBits w (d.mantissa * 10 ^ (p - d.scale)) → InBits 128 (d.mantissa * 10 ^ (p - d.scale)) := by
    intro h
    have : (2 : Int) ^ (w - 1) ≤ 2 ^ (128 - 1) := by
      rcases hw with rfl | rfl | rfl <;> decide
    simp only [InBits] at h ⊢
    omega
  rw [scale_ok cfg hs hp]
  refine ⟨fun h => ?_, fun h => ?_⟩
  · by_cases e : p = d.scale
    · have e2 : d.mantissa * 10 ^ (p - d.scale) = d.mantissa := by rw [e, Nat.sub_self]; simp
      rw [e2] at h ⊢
      rw [if_pos e, Res.bind_ok, (toBits_ok hw0 h).1, Res.bind_ok]
    · rw [if_neg e, (toBits_ok (by decide) (hsub h)).1]
      simp only [Res.bind_ok]
      rw [(toBits_ok hw0 h).1, Res.bind_ok]
  · by_cases e : p = d.scale
    · have e2 : d.mantissa * 10 ^ (p - d.scale) = d.mantissa := by rw [e, Nat.sub_self]; simp
      rw [e2] at h
      rw [if_pos e, Res.bind_ok, toBits_err h, Res.bind_err]
    · rw [if_neg e]
      by_cases h2 : InBits 128 (d.mantissa * 10 ^ (p - d.scale))
      · rw [(toBits_ok (by decide) h2).1]
        simp only [Res.bind_ok]
        rw [toBits_err h, Res.bind_err]
      · rw [toBits_err h2]; rfl

/-- C51, writing: into a decimal column of sufficient scale, the value written stands for the same number; if
that does not fit the column, it is refused. -/
theorem C51_to_column (cfg : Cfg) (d : Decimal) (T : Ty) (w p : Nat) (hT : decimalCol T = some (w, p))
    (hs : d.scale ≤ p) (hp : p ≤ 38) :
    (InBits w (d.mantissa * 10 ^ (p - d.scale)) → ∃ v a, d.toSql cfg (some T) = .ok v ∧ Shaped T v ∧
      numberOf v = some (a, p) ∧ SameNumber a p d.mantissa d.scale) ∧
    (¬ InBits w (d.mantissa * 10 ^ (p - d.scale)) → d.toSql cfg (some T) = .err .serialize) := by
  have hpm : p % 2 ^ 32 = p := by omega
  have same : SameNumber (d.mantissa * 10 ^ (p - d.scale)) p d.mantissa d.scale := by
    rw [SameNumber, Int.mul_assoc, ← Int.pow_add]
    congr 2
    omega
  cases T <;> simp only [decimalCol, Option.some.injEq, Prod.mk.injEq, reduceCtorEq] at hT
  case decimal32 q =>
    obtain ⟨rfl, rfl⟩ := hT
    obtain ⟨h1, h2⟩ := scaled cfg d q 32 (.inl rfl) hs hp (Value.decimal32 q)
    refine ⟨fun h => ⟨.decimal32 q (BitVec.ofInt 32 (d.mantissa * 10 ^ (q - d.scale))),
      (BitVec.ofInt 32 (d.mantissa * 10 ^ (q - d.scale))).toInt, ?_, ⟨_, rfl⟩, rfl, ?_⟩, fun h => ?_⟩
    · simp only [Decimal.toSql, hpm, ge_iff_le, if_pos hs]; exact h1 h
    · rw [(toBits_ok (by decide) h).2]; exact same
    · simp only [Decimal.toSql, hpm, ge_iff_le, if_pos hs]; exact h2 h
  case decimal64 q =>
    obtain ⟨rfl, rfl⟩ := hT
    obtain ⟨h1, h2⟩ := scaled cfg d q 64 (.inr (.inl rfl)) hs hp (Value.decimal64 q)
    refine ⟨fun h => ⟨.decimal64 q (BitVec.ofInt 64 (d.mantissa * 10 ^ (q - d.scale))),
      (BitVec.ofInt 64 (d.mantissa * 10 ^ (q - d.scale))).toInt, ?_, ⟨_, rfl⟩, rfl, ?_⟩, fun h => ?_⟩
    · simp only [Decimal.toSql, hpm, ge_iff_le, if_pos hs]; exact h1 h
    · rw [(toBits_ok (by decide) h).2]; exact same
    · simp only [Decimal.toSql, hpm, ge_iff_le, if_pos hs]; exact h2 h
  case decimal128 q =>
    obtain ⟨rfl, rfl⟩ := hT
    obtain ⟨h1, h2⟩ := scaled cfg d q 128 (.inr (.inr rfl)) hs hp (Value.decimal128 q)
    refine ⟨fun h => ⟨.decimal128 q (BitVec.ofInt 128 (d.mantissa * 10 ^ (q - d.scale))),
      (BitVec.ofInt 128 (d.mantissa * 10 ^ (q - d.scale))).toInt, ?_, ⟨_, rfl⟩, rfl, ?_⟩, fun h => ?_⟩
    · simp only [Decimal.toSql, hpm, ge_iff_le, if_pos hs]; exact h1 h
    · rw [(toBits_ok (by decide) h).2]; exact same
    · simp only [Decimal.toSql, hpm, ge_iff_le, if_pos hs]; exact h2 h

/-- Without a hint the number is written as it is, and comes back as it is. -/
theorem C51_no_hint (cfg : Cfg) (d : Decimal) (hd : Decimal.Valid d) (T : Ty) :
    ∃ v, d.toSql cfg none = .ok v ∧ numberOf v = some (d.mantissa, d.scale) ∧ Decimal.fromSql T v = .ok d := by
  have h : InBits 128 d.mantissa := by
    obtain ⟨_, h2⟩ := hd
    simp only [InBits]
    have : (2 : Int) ^ (128 - 1) = 170141183460469231731687303715884105728 := by decide
    omega
  obtain ⟨h1, h2⟩ := toBits_ok (by decide) h
  have h3 := hd.1
  refine ⟨.decimal128 d.scale (BitVec.ofInt 128 d.mantissa), ?_, ?_, ?_⟩
  · simp only [Decimal.toSql, h1, Res.bind_ok]
  · simp only [numberOf, h2]
  · have e : d.scale % 2 ^ 32 = d.scale := by omega
    simp only [Decimal.fromSql, Decimal.tryNamed, Decimal.try, h2, e]
    rw [if_pos ⟨hd.1, hd.2⟩]

/-- Never rounded: a column with fewer digits than the number's scale, or no decimal column, is refused. -/
theorem C51_not_rounded (cfg : Cfg) (d : Decimal) (T : Ty) (h : ∀ w p, decimalCol T = some (w, p) → p < d.scale) :
    d.toSql cfg (some T) = .err .serialize := by
  cases T <;> first
    | rfl
    | (rename_i q
       have := h _ _ rfl
       have h2 : ¬ (q % 2 ^ 32 ≥ d.scale) := by omega
       simp only [Decimal.toSql, if_neg h2])

/-- C51, reading: a number read as a decimal is exactly the column's number; the others are refused with an
error, never a panic. -/
theorem C51_read (T : Ty) (v : Value) :
    (∀ d, Decimal.fromSql T v = .ok d → ∃ a s, numberOf v = some (a, s) ∧ (s < 2 ^ 32 → d = ⟨a, s⟩)) ∧
    (numberOf v = none → Decimal.fromSql T v = .err (unexpectedType T)) ∧
    (∀ a s, numberOf v = some (a, s) → s ≤ 28 → a.natAbs < 2 ^ 96 → Decimal.fromSql T v = .ok ⟨a, s⟩) ∧
    Decimal.fromSql T v ≠ .panic := by
  have named : ∀ name (m : Int) (s : Nat), (∀ d, Decimal.tryNamed name m s = .ok d → d = ⟨m, s⟩) ∧
      (s ≤ 28 → m.natAbs < 2 ^ 96 → Decimal.tryNamed name m s = .ok ⟨m, s⟩) ∧ Decimal.tryNamed name m s ≠ .panic := by
    intro name m s
    by_cases h : s ≤ 28 ∧ m.natAbs < 2 ^ 96
    · have e : Decimal.tryNamed name m s = .ok ⟨m, s⟩ := by simp only [Decimal.tryNamed, Decimal.try, if_pos h]
      rw [e]
      exact ⟨fun d h => (Res.ok.inj h).symm, fun _ _ => rfl, fun h => (by cases h)⟩
    · have e : Decimal.tryNamed name m s = .err (decRange name) := by simp only [Decimal.tryNamed, Decimal.try, if_neg h]
      rw [e]
      exact ⟨fun d h => (by cases h), fun h1 h2 => absurd ⟨h1, h2⟩ h, fun h => (by cases h)⟩
  have fin : ∀ name (m : Int) (s : Nat) (x : Option (Int × Nat)), x = some (m, s) →
      (∀ d, Decimal.tryNamed name m (s % 2 ^ 32) = .ok d → ∃ a s', x = some (a, s') ∧ (s' < 2 ^ 32 → d = ⟨a, s'⟩)) ∧
      (x = none → Decimal.tryNamed name m (s % 2 ^ 32) = .err (unexpectedType T)) ∧
      (∀ a s', x = some (a, s') → s' ≤ 28 → a.natAbs < 2 ^ 96 → Decimal.tryNamed name m (s % 2 ^ 32) = .ok ⟨a, s'⟩) ∧
      Decimal.tryNamed name m (s % 2 ^ 32) ≠ .panic := by
    rintro name m s x rfl
    obtain ⟨h1, h2, h3⟩ := named name m (s % 2 ^ 32)
    refine ⟨fun d h => ⟨m, s, rfl, fun hs => ?_⟩, fun h => (by cases h), ?_, h3⟩
    · rw [h1 d h, Nat.mod_eq_of_lt hs]
    · rintro a s' e hs ha
      cases e
      have e2 : s % 2 ^ 32 = s := by omega
      rw [e2] at h2 ⊢
      exact h2 hs ha
  have plain : ∀ (m : Int) (x : Option (Int × Nat)), x = some (m, 0) →
      (∀ d, (Res.ok ⟨m, 0⟩ : Res Decimal) = .ok d → ∃ a s, x = some (a, s) ∧ (s < 2 ^ 32 → d = ⟨a, s⟩)) ∧
      (x = none → (Res.ok ⟨m, 0⟩ : Res Decimal) = .err (unexpectedType T)) ∧
      (∀ a s, x = some (a, s) → s ≤ 28 → a.natAbs < 2 ^ 96 → (Res.ok ⟨m, 0⟩ : Res Decimal) = .ok ⟨a, s⟩) ∧
      (Res.ok ⟨m, 0⟩ : Res Decimal) ≠ .panic := by
    rintro m x rfl
    refine ⟨fun d h => ⟨m, 0, rfl, fun _ => (Res.ok.inj h).symm⟩, fun h => (by cases h), ?_, fun h => (by cases h)⟩
    rintro a s e _ _; cases e; rfl
  cases v <;> first
    | exact plain _ _ rfl
    | exact fin _ _ 0 _ rfl
    | exact fin _ _ _ _ rfl
    | (refine ⟨fun d h => ?_, fun _ => rfl, fun a s h => ?_, fun h => ?_⟩ <;> cases h; done)
    | skip
  case uint128 i =>
    by_cases hi : i.toNat < 2 ^ 127
    · have e : Decimal.fromSql T (.uint128 i) = Decimal.tryNamed (ch! "u128") i.toNat (0 % 2 ^ 32) := by
        simp only [Decimal.fromSql, if_pos hi]
      rw [e]
      exact fin _ _ 0 _ rfl
    · have e : Decimal.fromSql T (.uint128 i) = .err (decRange (ch! "u128")) := by simp only [Decimal.fromSql, if_neg hi]
      rw [e]
      refine ⟨fun d h => (by cases h), fun h => (by cases h), ?_, fun h => (by cases h)⟩
      intro a s h _ ha
      cases h
      exfalso
      omega

/-- C51: a number out of the range of `Decimal` is refused, it is not cut down to one that fits. -/
theorem C51_out_of_range (T : Ty) (v : Value) (a : Int) (s : Nat) (hv : numberOf v = some (a, s)) (hs : s < 2 ^ 32)
    (h : ¬ (s ≤ 28 ∧ a.natAbs < 2 ^ 96)) : ∃ m, Decimal.fromSql T v = .err (.deserialize m) := by
  have named : ∀ name, Decimal.tryNamed name a (s % 2 ^ 32) = .err (decRange name) := by
    intro name
    rw [Nat.mod_eq_of_lt hs]
    simp only [Decimal.tryNamed, Decimal.try, if_neg h]
  cases v <;> simp only [numberOf, Option.some.injEq, Prod.mk.injEq, reduceCtorEq] at hv <;> obtain ⟨rfl, rfl⟩ := hv
  case int128 i => exact ⟨_, named _⟩
  case decimal32 p x => exact ⟨_, named _⟩
  case decimal64 p x => exact ⟨_, named _⟩
  case decimal128 p x => exact ⟨_, named _⟩
  case uint128 i =>
    by_cases hi : i.toNat < 2 ^ 127
    · refine ⟨ch! "u128" ++ ch! " out of bounds for rust_decimal", ?_⟩
      simp only [Decimal.fromSql, if_pos hi]
      exact named _
    · exact ⟨_, by simp only [Decimal.fromSql, if_neg hi]; rfl⟩
  all_goals
    exfalso
    apply h
    refine ⟨Nat.zero_le _, ?_⟩
    first
      | (rename_i i; have h1 := i.isLt; have h2 := BitVec.toInt_lt (x := i); have h3 := BitVec.le_toInt (x := i); omega)
      | (rename_i i; have h1 := i.isLt; omega)

/-- C51_out_of_range: `2^96` in an `Int128` column. -/
example : numberOf (.int128 79228162514264337593543950336#128) = some (79228162514264337593543950336, 0) ∧
    Decimal.fromSql .int128 (.int128 79228162514264337593543950336#128) = .err (.deserialize (ch! "i128 out of bounds for rust_decimal")) := ⟨rfl, rfl⟩

/-- C51, there and back, for scales up to 28 and numbers of up to 96 bits at the column's scale: an equal number.
What is missing is false, see `C51_readback_false`. -/
theorem C51_roundtrip_partial (cfg : Cfg) (d : Decimal) (T : Ty) (w p : Nat) (hT : decimalCol T = some (w, p))
    (hs : d.scale ≤ p) (hp : p ≤ 28) (hb : InBits w (d.mantissa * 10 ^ (p - d.scale)))
    (h96 : (d.mantissa * 10 ^ (p - d.scale)).natAbs < 2 ^ 96) :
    ∃ v d', d.toSql cfg (some T) = .ok v ∧ Decimal.fromSql T v = .ok d' ∧ SameNumber d'.mantissa d'.scale d.mantissa d.scale := by
  obtain ⟨v, a, h1, _, h3, h4⟩ := (C51_to_column cfg d T w p hT hs (by omega)).1 hb
  have ha : a = d.mantissa * 10 ^ (p - d.scale) := by
    have h5 : SameNumber (d.mantissa * 10 ^ (p - d.scale)) p d.mantissa d.scale := by
      rw [SameNumber, Int.mul_assoc, ← Int.pow_add]
      congr 2
      omega
    rw [SameNumber] at h4 h5
    rw [← h5] at h4
    exact Int.eq_of_mul_eq_mul_right (Int.ne_of_gt (Int.pow_pos (by decide))) h4
  rw [← ha] at h96
  exact ⟨v, ⟨a, p⟩, h1, (C51_read T v).2.2.1 a p h3 hp h96, h4⟩

/-- 1.5 in `Decimal64(4)`: written as 15000 and read back as 1.5000. -/
example : Decimal.Valid ⟨15, 1⟩ ∧ decimalCol (.decimal64 4) = some (64, 4) ∧ InBits 64 (15 * 10 ^ (4 - 1)) ∧
    ((15 : Int) * 10 ^ (4 - 1)).natAbs < 2 ^ 96 ∧
    Decimal.toSql cfgDebug (some (.decimal64 4)) ⟨15, 1⟩ = .ok (.decimal64 4 15000#64) ∧
    Decimal.fromSql (.decimal64 4) (.decimal64 4 15000#64) = .ok ⟨15000, 4⟩ := by
  refine ⟨by unfold Decimal.Valid; decide, rfl, by unfold InBits; decide, by decide, rfl, rfl⟩

/-- Not always readable: the number 1 in a `Decimal128(38)` column, and ten thousand millions in a
`Decimal128(28)` column, are written but reading them back is an error. -/
theorem C51_readback_false :
    (∃ v, Decimal.toSql cfgDebug (some (.decimal128 38)) ⟨1, 0⟩ = .ok v ∧
      Decimal.fromSql (.decimal128 38) v = .err (.deserialize (ch! "Decimal128 out of bounds for rust_decimal"))) ∧
    (∃ v, Decimal.toSql cfgDebug (some (.decimal128 28)) ⟨10000000000, 0⟩ = .ok v ∧
      Decimal.fromSql (.decimal128 28) v = .err (.deserialize (ch! "Decimal128 out of bounds for rust_decimal"))) :=
  ⟨⟨_, rfl, rfl⟩, ⟨_, rfl, rfl⟩⟩

/-! ### C52: UUIDs and addresses -/

/-- A column of scalars whose conversion and layout are known. -/
theorem prim_wire (cfg : Cfg) (p : Prim) (T : Ty) (w : Nat) (hc : Column p T) (hw : wireSize T = some w) (hT : T = .bfloat16 → cfg.bf16 = true) (h8 : T ≠ .int8)
    (hst : ∀ x : p.den, Storable cfg T (p.toValue x)) (hint : Option Ty) (xs : List p.den) (hn : xs.length ≤ 2 ^ 30) (rest : Bytes) :
    ∃ vs, Res.mapL (RT.toSql (.prim p) hint) xs = .ok vs ∧
      serCol cfg T vs = .ok ((xs.map (fun x => wireBytes (p.toValue x))).flatten) ∧
      deCol cfg T xs.length ((xs.map (fun x => wireBytes (p.toValue x))).flatten ++ rest) = .ok (vs, rest) ∧
      Res.mapL (RT.fromSql (.prim p) T) vs = .ok xs := by
  have hv : ∀ v ∈ xs.map p.toValue, Storable cfg T v := by
    intro v hv
    obtain ⟨x, _, rfl⟩ := List.mem_map.mp hv
    exact hst x
  obtain ⟨h1, _, h3⟩ := C04_scalar_layout cfg T w hw hT (xs.map p.toValue) hv (by simpa using hn) rest
  have hcan : (xs.map p.toValue).map (canon T) = xs.map p.toValue := by
    rw [List.map_congr_left (g := id) (fun v h => C04_scalar_exact cfg T w hw v (hv v h) h8), List.map_id]
  rw [hcan, List.length_map] at h3
  rw [List.map_map] at h1 h3
  refine ⟨xs.map p.toValue, ?_, h1, h3, ?_⟩
  · exact Res.mapL_ok_of_forall (fun x _ => rfl)
  · have key : Res.mapL (fun x : p.den => p.fromSql T (p.toValue x)) xs = .ok (xs.map id) := by
      apply Res.mapL_ok_of_forall
      intro x _
      rw [Prim.fromSql, if_pos ((accepts_iff p T).mpr hc), ofValue_toValue]; rfl
    rw [List.map_id] at key
    exact (mapL_map (p.fromSql T) p.toValue xs).trans key

theorem leBytes_split (a b x : Nat) : leBytes (a + b) x = leBytes a (x % 256 ^ a) ++ leBytes b (x / 256 ^ a) := by
  rw [← le_eq_leBytes, ← le_eq_leBytes, ← le_eq_leBytes, le_mod]
  induction a generalizing x with
  | zero => simp [le]
  | succ a ih =>
    have e : x / 256 ^ (a + 1) = x / 256 / 256 ^ a := by
      rw [Nat.pow_succ, Nat.mul_comm, Nat.div_div_eq_div_mul]
    rw [show a + 1 + b = (a + b) + 1 by omega, e]
    simp only [le, List.cons_append, ih]

/-- C52 for UUIDs: any list of UUIDs converted to column values and written is, per UUID, its octets with each
half reversed (ClickHouse's layout); reading these bytes and converting gives the same UUIDs. -/
theorem C52_uuid (cfg : Cfg) (hint : Option Ty) (xs : List (BitVec 128)) (hn : xs.length ≤ 2 ^ 30) (rest : Bytes) :
    ∃ vs bytes, Res.mapL (RT.toSql (.prim .uuid) hint) xs = .ok vs ∧ serCol cfg .uuid vs = .ok bytes ∧
      bytes = (xs.map (fun x => ((octets 16 x.toNat).take 8).reverse ++ ((octets 16 x.toNat).drop 8).reverse)).flatten ∧
      deCol cfg .uuid xs.length (bytes ++ rest) = .ok (vs, rest) ∧ Res.mapL (RT.fromSql (.prim .uuid) .uuid) vs = .ok xs := by
  obtain ⟨vs, h1, h2, h3, h4⟩ := prim_wire cfg .uuid .uuid 16 .uuid rfl (by intro h; cases h) (by intro h; cases h)
    (fun x => ⟨x, rfl⟩) hint xs hn rest
  refine ⟨vs, _, h1, h2, ?_, h3, h4⟩
  congr 1
  apply List.map_congr_left
  intro x _
  have hs : octets 16 x.toNat = (leBytes 8 (x.toNat / 2 ^ 64)).reverse ++ (leBytes 8 (x.toNat % 2 ^ 64)).reverse := by
    have := leBytes_split 8 8 x.toNat
    rw [octets, beBytes, this, List.reverse_append]
  have hl : (leBytes 8 (x.toNat / 2 ^ 64)).reverse.length = 8 := by rw [List.length_reverse, leBytes_length]
  rw [hs, List.take_left' hl, List.drop_left' hl, List.reverse_reverse, List.reverse_reverse]
  rfl

/-- C52 for IPv4: the octets in reverse (a little-endian number). -/
theorem C52_ipv4 (cfg : Cfg) (hint : Option Ty) (xs : List (BitVec 32)) (hn : xs.length ≤ 2 ^ 30) (rest : Bytes) :
    ∃ vs bytes, Res.mapL (RT.toSql (.prim .ipv4) hint) xs = .ok vs ∧ serCol cfg .ipv4 vs = .ok bytes ∧
      bytes = (xs.map (fun x => (octets 4 x.toNat).reverse)).flatten ∧
      deCol cfg .ipv4 xs.length (bytes ++ rest) = .ok (vs, rest) ∧ Res.mapL (RT.fromSql (.prim .ipv4) .ipv4) vs = .ok xs := by
  obtain ⟨vs, h1, h2, h3, h4⟩ := prim_wire cfg .ipv4 .ipv4 4 .ipv4 rfl (by intro h; cases h) (by intro h; cases h)
    (fun x => ⟨x, rfl⟩) hint xs hn rest
  refine ⟨vs, _, h1, h2, ?_, h3, h4⟩
  rw [show (fun x : BitVec 32 => (octets 4 x.toNat).reverse) = fun x => leBytes 4 x.toNat from funext (fun x => List.reverse_reverse _)]
  rfl

/-- C52 for IPv6: the octets in order. -/
theorem C52_ipv6 (cfg : Cfg) (hint : Option Ty) (xs : List (BitVec 128)) (hn : xs.length ≤ 2 ^ 30) (rest : Bytes) :
    ∃ vs bytes, Res.mapL (RT.toSql (.prim .ipv6) hint) xs = .ok vs ∧ serCol cfg .ipv6 vs = .ok bytes ∧
      bytes = (xs.map (fun x => octets 16 x.toNat)).flatten ∧
      deCol cfg .ipv6 xs.length (bytes ++ rest) = .ok (vs, rest) ∧ Res.mapL (RT.fromSql (.prim .ipv6) .ipv6) vs = .ok xs := by
  obtain ⟨vs, h1, h2, h3, h4⟩ := prim_wire cfg .ipv6 .ipv6 16 .ipv6 rfl (by intro h; cases h) (by intro h; cases h)
    (fun x => ⟨x, rfl⟩) hint xs hn rest
  exact ⟨vs, _, h1, h2, rfl, h3, h4⟩

/-- `10.0.0.1` is 01 00 00 0A on the wire. -/
example : octets 4 0x0A000001 = [10, 0, 0, 1] ∧
    serCol cfgDebug .ipv4 [.ipv4 0x0A000001#32] = .ok [1, 0, 0, 10] := ⟨rfl, rfl⟩

end Klick
