import Verif.Order
import Verif.Props.Numeric
/-
C72: the orderings of the wrapper types.
-/
namespace Klick

theorem lexCmp_append : ∀ {a b : List Nat} (a' b' : List Nat), a.length = b.length →
    lexCmp (a ++ a') (b ++ b') = (lexCmp a b).then (lexCmp a' b')
  | [], [], _, _, _ => rfl
  | x :: a, y :: b, a', b', h => by
    have ih := lexCmp_append (a := a) (b := b) a' b' (by simpa using h)
    simp only [List.cons_append, lexCmp]
    split
    · rfl
    · split
      · rfl
      · exact ih
  | [], _ :: _, _, _, h => by simp at h
  | _ :: _, [], _, _, h => by simp at h

theorem compare_eq (a b : Nat) : compare a b = if a < b then .lt else if b < a then .gt else .eq := by
  show compareOfLessAndEq _ _ = _
  unfold compareOfLessAndEq
  by_cases h : a < b
  · rw [if_pos h, if_pos h]
  · rw [if_neg h, if_neg h]
    by_cases h' : a = b
    · rw [if_pos h', if_neg (by omega)]
    · rw [if_neg h', if_pos (by omega)]

/-- Most significant part first. -/
theorem compare_parts {B : Nat} (a b c d : Nat) (hc : c < B) (hd : d < B) :
    compare (a * B + c) (b * B + d) = (compare a b).then (compare c d) := by
  rw [compare_eq, compare_eq a, compare_eq c]
  rcases Nat.lt_trichotomy a b with h | h | h
  · have : (a + 1) * B ≤ b * B := Nat.mul_le_mul_right _ h
    rw [Nat.succ_mul] at this
    rw [if_pos (by omega), if_pos h]; rfl
  · subst h
    rw [if_neg (Nat.lt_irrefl a), if_neg (Nat.lt_irrefl a)]
    by_cases h1 : c < d
    · rw [if_pos (by omega), if_pos h1]; rfl
    · rw [if_neg (by omega), if_neg h1]
      by_cases h2 : d < c
      · rw [if_pos (by omega), if_pos h2]; rfl
      · rw [if_neg (by omega), if_neg h2]; rfl
  · have : (b + 1) * B ≤ a * B := Nat.mul_le_mul_right _ h
    rw [Nat.succ_mul] at this
    rw [if_neg (by omega), if_pos (by omega), if_neg (by omega), if_pos h]; rfl

theorem be_succ (n x : Nat) : be (n + 1) x = be n (x / 256) ++ [BitVec.ofNat 8 x] := by
  unfold be; rw [le]; simp

theorem lexCmp_be : ∀ (n x y : Nat), lexCmp ((be n x).map BitVec.toNat) ((be n y).map BitVec.toNat) = compare (x % 256 ^ n) (y % 256 ^ n)
  | 0, x, y => by simp [be, le, lexCmp, Nat.mod_one]
  | n + 1, x, y => by
    rw [be_succ, be_succ, List.map_append, List.map_append, lexCmp_append _ _ (by simp [be]), lexCmp_be n]
    have h : ∀ z, z % 256 ^ (n + 1) = (z / 256 % 256 ^ n) * 256 + z % 256 := by
      intro z
      rw [Nat.pow_succ, Nat.mul_comm (256 ^ n) 256, Nat.mod_mul]
      omega
    rw [h x, h y, compare_parts _ _ _ _ (Nat.mod_lt _ (by decide)) (Nat.mod_lt _ (by decide))]
    congr 1
    simp only [List.map_cons, List.map_nil, lexCmp, BitVec.toNat_ofNat]
    rw [compare_eq]

theorem cmp256_nat (x y : BitVec 256) : lexCmp ((bytes256 x).map BitVec.toNat) ((bytes256 y).map BitVec.toNat) = compare x.toNat y.toNat := by
  unfold bytes256
  rw [lexCmp_be, Nat.mod_eq_of_lt (show x.toNat < 256 ^ 32 from x.isLt), Nat.mod_eq_of_lt (show y.toNat < 256 ^ 32 from y.isLt)]

/-- C72: unsigned 256-bit integers sort by the numbers they are. -/
theorem C72_unsigned (x y : BitVec 256) : u256Cmp x y = compare x.toNat y.toNat := cmp256_nat x y

/-- C72: addresses sort by the numbers they are. -/
theorem C72_addresses (x y : BitVec 32) (x' y' : BitVec 128) :
    ipv4Cmp x y = compare x.toNat y.toNat ∧ ipv6Cmp x' y' = compare x'.toNat y'.toNat := by
  constructor
  · unfold ipv4Cmp octets
    rw [lexCmp_be, Nat.mod_eq_of_lt (show x.toNat < 256 ^ 4 from x.isLt), Nat.mod_eq_of_lt (show y.toNat < 256 ^ 4 from y.isLt)]
  · unfold ipv6Cmp segments
    have key : ∀ (n : Nat) (ds : List Nat), ds = (List.range n).reverse → ∀ x y : Nat,
        lexCmp (ds.map (fun i => x / 65536 ^ i % 65536)) (ds.map (fun i => y / 65536 ^ i % 65536)) = compare (x % 65536 ^ n) (y % 65536 ^ n) := by
      intro n
      induction n with
      | zero => intro ds hd x y; subst hd; simp [lexCmp, Nat.mod_one]
      | succ n ih =>
        intro ds hd x y
        rw [List.range_succ, List.reverse_append] at hd
        subst hd
        simp only [List.reverse_singleton, List.singleton_append, List.map_cons, lexCmp]
        rw [ih _ rfl]
        have h : ∀ z, z % 65536 ^ (n + 1) = (z / 65536 ^ n % 65536) * 65536 ^ n + z % 65536 ^ n := by
          intro z
          rw [Nat.pow_succ, Nat.mod_mul, Nat.mul_comm, Nat.add_comm]
        have hpos : 0 < 65536 ^ n := Nat.pow_pos (by decide)
        rw [h x, h y, compare_parts _ _ _ _ (Nat.mod_lt _ hpos) (Nat.mod_lt _ hpos), compare_eq (x / 65536 ^ n % 65536)]
        split
        · rfl
        · split
          · rfl
          · rfl
    have := key 8 [7, 6, 5, 4, 3, 2, 1, 0] rfl x'.toNat y'.toNat
    rw [Nat.mod_eq_of_lt (show x'.toNat < 65536 ^ 8 from x'.isLt), Nat.mod_eq_of_lt (show y'.toNat < 65536 ^ 8 from y'.isLt)] at this
    exact this

/-- C72: dates sort as calendar days do. -/
theorem C72_dates (x y : BitVec 16) : dateCmp x y = compare (dateToDay x) (dateToDay y) := by
  unfold dateCmp dateToDay
  rw [compare_eq]
  show _ = compareOfLessAndEq _ _
  unfold compareOfLessAndEq
  rcases Nat.lt_trichotomy x.toNat y.toNat with h | h | h
  · rw [if_pos h, if_pos (by omega)]
  · rw [h]; simp
  · rw [if_neg (by omega), if_pos h, if_neg (by omega), if_neg (by omega)]

theorem compare_int (a b : Int) : compare a b = if a < b then .lt else if b < a then .gt else .eq := by
  show compareOfLessAndEq _ _ = _
  unfold compareOfLessAndEq
  by_cases h : a < b
  · rw [if_pos h, if_pos h]
  · rw [if_neg h, if_neg h]
    by_cases h' : a = b
    · rw [if_pos h', if_neg (by omega)]
    · rw [if_neg h', if_pos (by omega)]

/-- C72, signed 256-bit integers (and 256-bit fixed-point numbers) of one sign sort by the numbers they are; every negative one sorts *after* every
other. Missing: the order between the signs. -/
theorem C72_signed_partial (x y : BitVec 256) :
    ((x.toInt < 0 ↔ y.toInt < 0) → i256Cmp x y = compare x.toInt y.toInt) ∧
    (x.toInt < 0 → 0 ≤ y.toInt → i256Cmp x y = .gt ∧ i256Cmp y x = .lt) ∧ fp256Cmp x y = i256Cmp x y := by
  have hx := BitVec.toInt_eq_toNat_cond x
  have hy := BitVec.toInt_eq_toNat_cond y
  have lx := x.isLt
  have ly := y.isLt
  unfold i256Cmp fp256Cmp
  refine ⟨?_, ?_, rfl⟩
  · intro hs
    rw [cmp256_nat, compare_eq, compare_int]
    generalize (2 : Nat) ^ 256 = M at hx hy lx ly
    have h1 : x.toNat < y.toNat ↔ x.toInt < y.toInt := by split at hx <;> split at hy <;> omega
    have h2 : y.toNat < x.toNat ↔ y.toInt < x.toInt := by split at hx <;> split at hy <;> omega
    by_cases c1 : x.toNat < y.toNat
    · rw [if_pos c1, if_pos (h1.mp c1)]
    · rw [if_neg c1, if_neg (fun h => c1 (h1.mpr h))]
      by_cases c2 : y.toNat < x.toNat
      · rw [if_pos c2, if_pos (h2.mp c2)]
      · rw [if_neg c2, if_neg (fun h => c2 (h2.mpr h))]
  · intro h1 h2
    have h : y.toNat < x.toNat := by
      generalize (2 : Nat) ^ 256 = M at hx hy lx ly
      split at hx <;> split at hy <;> omega
    rw [cmp256_nat, cmp256_nat, compare_eq, compare_eq]
    exact ⟨by rw [if_neg (by omega), if_pos h], by rw [if_pos h]⟩

/-- C72 is false of signed 256-bit integers and 256-bit fixed-point numbers: -1 sorts after 0. -/
theorem C72_signed_false : ¬ ∀ x y : BitVec 256, i256Cmp x y = compare x.toInt y.toInt := by
  intro h
  have := h (-1) 0
  have h2 := (C72_signed_partial (-1) 0).2.1 (by decide) (by decide)
  rw [h2.1] at this
  revert this
  decide

/-- C72: fixed-point values of the same scale up to 128 bits are ordered as the decimal numbers they stand for. -/
theorem C72_fixed {w : Nat} (scale : Nat) (x y : BitVec w) :
    (fpCmp x y = .lt ↔ (x.toInt : Rat) / 10 ^ scale < (y.toInt : Rat) / 10 ^ scale) ∧
    (fpCmp x y = .gt ↔ (y.toInt : Rat) / 10 ^ scale < (x.toInt : Rat) / 10 ^ scale) := by
  have hp : (0 : Rat) < (10 : Rat) ^ scale := Rat.pow_pos (by decide)
  have hi : (0 : Rat) < ((10 : Rat) ^ scale)⁻¹ := Rat.inv_pos.mpr hp
  have key : ∀ a b : Int, ((a : Rat) / 10 ^ scale < (b : Rat) / 10 ^ scale) ↔ a < b := by
    intro a b
    rw [Rat.div_def, Rat.div_def, Rat.mul_lt_mul_right hi, Rat.intCast_lt_intCast]
  rw [key, key]
  unfold fpCmp
  rw [compare_int]
  constructor
  · constructor
    · intro h; split at h
      · assumption
      · split at h <;> cases h
    · intro h; rw [if_pos h]
  · constructor
    · intro h; split at h
      · cases h
      · split at h
        · assumption
        · cases h
    · intro h; rw [if_neg (by omega), if_pos h]

/-- C72: the order agrees with equality, of every type. -/
theorem C72_equal (x y : BitVec 256) (a b : BitVec 32) (c d : BitVec 128) (e f : BitVec 16) (w : Nat) (p q : BitVec w) :
    (u256Cmp x y = .eq ↔ x = y) ∧ (i256Cmp x y = .eq ↔ x = y) ∧ (fp256Cmp x y = .eq ↔ x = y) ∧ (ipv4Cmp a b = .eq ↔ a = b) ∧
    (ipv6Cmp c d = .eq ↔ c = d) ∧ (dateCmp e f = .eq ↔ e = f) ∧ (fpCmp p q = .eq ↔ p = q) := by
  have key : ∀ {w : Nat} (a b : BitVec w), compare a.toNat b.toNat = .eq ↔ a = b := by
    intro w a b
    rw [Nat.compare_eq_eq]
    exact ⟨BitVec.eq_of_toNat_eq, fun h => by rw [h]⟩
  refine ⟨by rw [C72_unsigned]; exact key x y, ?_, ?_, by rw [(C72_addresses a b c d).1]; exact key a b, by rw [(C72_addresses a b c d).2]; exact key c d, key e f, ?_⟩
  · unfold i256Cmp; rw [cmp256_nat]; exact key x y
  · unfold fp256Cmp i256Cmp; rw [cmp256_nat]; exact key x y
  · unfold fpCmp
    rw [compare_int]
    constructor
    · intro h
      apply BitVec.eq_of_toInt_eq
      split at h
      · cases h
      · split at h
        · cases h
        · omega
    · intro h; subst h; simp

example : u256Cmp 255 256 = .lt := rfl
example : fpCmp (-1 : BitVec 32) 2 = .lt := rfl
example : ipv4Cmp 0x0a000001 0xc0a80001 = .lt := rfl
example : ipv6Cmp (1 <<< 112) 0xffff = .gt := rfl

end Klick
