import Verif.Spec.F64
import Mathlib.Tactic.Linarith
import Mathlib.Tactic.Ring
import Mathlib.Tactic.FieldSimp
import Mathlib.Tactic.NormNum
import Mathlib.Tactic.Positivity
import Mathlib.Data.Int.Log
import Mathlib.Data.Rat.Floor
/-
Rounding to nearest: order, exact numbers, relative error, and that there is such a rounding.
-/
namespace Klick
open Klick.Spec

theorem two_zpow_pos (e : Int) : (0 : Rat) < 2 ^ e := zpow_pos (by norm_num) e

theorem isF64_iff {q : Rat} : IsF64 q ↔ ∃ m e : Int, m.natAbs < 2 ^ 53 ∧ q = m * 2 ^ e := by
  constructor
  · rintro ⟨m, j, k, hm, h⟩
    refine ⟨m, (j : Int) - k, hm, ?_⟩
    rw [zpow_sub₀ (by norm_num), zpow_natCast, zpow_natCast]
    field_simp
    linarith
  · rintro ⟨m, e, hm, rfl⟩
    rcases Int.le_total 0 e with he | he
    · refine ⟨m, e.toNat, 0, hm, ?_⟩
      obtain ⟨n, rfl⟩ := Int.eq_ofNat_of_zero_le he
      simp
    · refine ⟨m, 0, (-e).toNat, hm, ?_⟩
      obtain ⟨n, hn⟩ := Int.eq_ofNat_of_zero_le (Int.neg_nonneg_of_nonpos he)
      have : e = -(n : Int) := by omega
      subst this
      simp only [neg_neg, Int.toNat_natCast, pow_zero, mul_one, zpow_neg, zpow_natCast]
      field_simp

theorem evenF64_iff {q : Rat} : EvenF64 q ↔ ∃ m e : Int, 2 ^ 52 ≤ m.natAbs ∧ m.natAbs < 2 ^ 53 ∧ m % 2 = 0 ∧ q = m * 2 ^ e := by
  constructor
  · rintro ⟨m, j, k, h1, hm, h2, h⟩
    refine ⟨m, (j : Int) - k, h1, hm, h2, ?_⟩
    rw [zpow_sub₀ (by norm_num), zpow_natCast, zpow_natCast]
    field_simp
    linarith
  · rintro ⟨m, e, h1, hm, h2, rfl⟩
    rcases Int.le_total 0 e with he | he
    · refine ⟨m, e.toNat, 0, h1, hm, h2, ?_⟩
      obtain ⟨n, rfl⟩ := Int.eq_ofNat_of_zero_le he
      simp
    · refine ⟨m, 0, (-e).toNat, h1, hm, h2, ?_⟩
      obtain ⟨n, hn⟩ := Int.eq_ofNat_of_zero_le (Int.neg_nonneg_of_nonpos he)
      have : e = -(n : Int) := by omega
      subst this
      simp only [neg_neg, Int.toNat_natCast, pow_zero, mul_one, zpow_neg, zpow_natCast]
      field_simp

theorem IsF64.neg {q : Rat} (h : IsF64 q) : IsF64 (-q) := by
  obtain ⟨m, j, k, hm, h⟩ := h
  exact ⟨-m, j, k, by simpa using hm, by push_cast; linarith⟩

theorem EvenF64.neg {q : Rat} (h : EvenF64 q) : EvenF64 (-q) := by
  obtain ⟨m, j, k, h1, hm, h2, h⟩ := h
  exact ⟨-m, j, k, by simpa using h1, by simpa using hm, by omega, by push_cast; linarith⟩

/-- Whole numbers up to 2^53 are floats. -/
theorem isF64_int {n : Int} (h : n.natAbs ≤ 2 ^ 53) : IsF64 n := by
  by_cases h' : n.natAbs < 2 ^ 53
  · exact ⟨n, 0, 0, h', by simp⟩
  · have : n = 2 ^ 53 ∨ n = -2 ^ 53 := by omega
    rcases this with rfl | rfl
    · exact ⟨2 ^ 52, 1, 0, by decide, by norm_num⟩
    · exact ⟨-2 ^ 52, 1, 0, by decide, by norm_num⟩

section
variable {rnd : Rat → Rat} (R : RoundsToNearest rnd)
include R

theorem rnd_mono {a b : Rat} (h : a ≤ b) : rnd a ≤ rnd b := by
  rcases h.lt_or_eq with h | rfl
  · by_contra hc
    have h1 := R.nearest a _ (R.float b)
    have h2 := R.nearest b _ (R.float a)
    rcases abs_cases (rnd a - a) with ⟨e1, _⟩ | ⟨e1, _⟩ <;> rcases abs_cases (rnd b - a) with ⟨e2, _⟩ | ⟨e2, _⟩ <;>
      rcases abs_cases (rnd b - b) with ⟨e3, _⟩ | ⟨e3, _⟩ <;> rcases abs_cases (rnd a - b) with ⟨e4, _⟩ | ⟨e4, _⟩ <;>
      rw [e1, e2] at h1 <;> rw [e3, e4] at h2 <;> linarith
  · exact le_refl _

theorem rnd_fix {q : Rat} (h : IsF64 q) : rnd q = q := by
  have := R.nearest q q h
  rw [sub_self, abs_zero] at this
  have := abs_nonpos_iff.mp this
  linarith

theorem rnd_zero : rnd 0 = 0 := by
  have := rnd_fix R (isF64_int (n := 0) (by decide))
  simpa using this

theorem rnd_one : rnd 1 = 1 := by
  have := rnd_fix R (isF64_int (n := 1) (by decide))
  simpa using this

theorem rnd_nonneg {q : Rat} (h : 0 ≤ q) : 0 ≤ rnd q := by
  have := rnd_mono R h
  rwa [rnd_zero R] at this

end

/-- Every nonzero number lies in a binade. -/
theorem binade {q : Rat} (h : 0 < q) : ∃ e : Int, 2 ^ 52 * (2 : Rat) ^ e ≤ q ∧ q < 2 ^ 53 * (2 : Rat) ^ e := by
  refine ⟨Int.log 2 q - 52, ?_, ?_⟩
  · have := Int.zpow_log_le_self (b := 2) (by decide) h
    have e : (2 : Rat) ^ 52 * 2 ^ (Int.log 2 q - 52) = 2 ^ Int.log 2 q := by
      rw [← zpow_natCast, ← zpow_add₀ (by norm_num)]; congr 1; omega
    rw [e]; exact_mod_cast this
  · have := Int.lt_zpow_succ_log_self (b := 2) (by decide) q
    have e : (2 : Rat) ^ 53 * 2 ^ (Int.log 2 q - 52) = 2 ^ (Int.log 2 q + 1) := by
      rw [← zpow_natCast, ← zpow_add₀ (by norm_num)]; congr 1; omega
    rw [e]; exact_mod_cast this

/-- A float is a multiple of the grid of a binade, or smaller than the binade. -/
theorem grid {d : Rat} (h : IsF64 d) (e : Int) : (∃ k : Int, d = k * 2 ^ e) ∨ |d| < 2 ^ 52 * (2 : Rat) ^ e := by
  obtain ⟨m, e', hm, rfl⟩ := isF64_iff.mp h
  rcases lt_or_ge e' e with he | he
  · right
    obtain ⟨n, hn⟩ := Int.eq_ofNat_of_zero_le (a := e - e' - 1) (by omega)
    have e1 : e = e' + 1 + n := by omega
    have hmm : |(m : Rat)| < 2 ^ 53 := by
      have : |m| < 2 ^ 53 := by rw [Int.abs_eq_natAbs]; exact_mod_cast hm
      exact_mod_cast this
    rw [abs_mul, abs_of_pos (two_zpow_pos e'), e1, zpow_add₀ (by norm_num), zpow_add₀ (by norm_num), zpow_one, zpow_natCast]
    have hp := two_zpow_pos e'
    have h1 : (1 : Rat) ≤ 2 ^ n := one_le_pow₀ (by norm_num)
    calc |(m : Rat)| * 2 ^ e' < 2 ^ 53 * 2 ^ e' := by exact mul_lt_mul_of_pos_right hmm hp
      _ = 2 ^ 52 * (2 ^ e' * 2) * 1 := by ring
      _ ≤ 2 ^ 52 * (2 ^ e' * 2) * 2 ^ n := by apply mul_le_mul_of_nonneg_left h1; positivity
      _ = _ := by ring
  · left
    obtain ⟨n, hn⟩ := Int.eq_ofNat_of_zero_le (a := e' - e) (by omega)
    refine ⟨m * 2 ^ n, ?_⟩
    have e1 : e' = e + n := by omega
    rw [e1, zpow_add₀ (by norm_num), zpow_natCast]; push_cast; ring

/-- Rounding to a whole number, ties to even. -/
def roundEven (t : Rat) : Int :=
  if t - ⌊t⌋ < 1 / 2 then ⌊t⌋ else if 1 / 2 < t - ⌊t⌋ then ⌊t⌋ + 1 else if ⌊t⌋ % 2 = 0 then ⌊t⌋ else ⌊t⌋ + 1

theorem roundEven_spec (t : Rat) : |(roundEven t : Rat) - t| ≤ 1 / 2 ∧ (|(roundEven t : Rat) - t| = 1 / 2 → roundEven t % 2 = 0) := by
  have h1 := Int.floor_le t
  have h2 := Int.lt_floor_add_one t
  unfold roundEven
  split
  · rw [abs_of_nonpos (by linarith)]
    exact ⟨by linarith, fun h => by linarith⟩
  · split
    · push_cast
      rw [abs_of_nonneg (by linarith)]
      exact ⟨by linarith, fun h => by linarith⟩
    · have : t - ⌊t⌋ = 1 / 2 := by linarith
      split
      · rw [abs_of_nonpos (by linarith)]
        exact ⟨by linarith, fun _ => by assumption⟩
      · push_cast
        rw [abs_of_nonneg (by linarith)]
        exact ⟨by linarith, fun _ => by omega⟩

theorem roundEven_nearest (t : Rat) (k : Int) : |(roundEven t : Rat) - t| ≤ |(k : Rat) - t| ∧
    (k ≠ roundEven t → |(roundEven t : Rat) - t| = |(k : Rat) - t| → roundEven t % 2 = 0) := by
  obtain ⟨h1, h2⟩ := roundEven_spec t
  by_cases hk : k = roundEven t
  · rw [hk]; exact ⟨le_refl _, fun h => absurd rfl h⟩
  · have hd : (1 : Rat) ≤ |(k : Rat) - roundEven t| := by
      have : 1 ≤ |k - roundEven t| := Int.one_le_abs (by omega)
      exact_mod_cast this
    have ht : |(k : Rat) - roundEven t| ≤ |(k : Rat) - t| + |(roundEven t : Rat) - t| := by
      have := abs_sub_le (k : Rat) t (roundEven t)
      rwa [abs_sub_comm t] at this
    refine ⟨by linarith, fun _ he => h2 ?_⟩
    linarith

/-- Rounding to nearest, ties to even, for positive numbers. -/
theorem round_pos {q : Rat} (hq : 0 < q) : ∃ r, IsF64 r ∧ (∀ d, IsF64 d → |r - q| ≤ |d - q|) ∧
    ∀ d, IsF64 d → d ≠ r → |r - q| = |d - q| → EvenF64 r := by
  obtain ⟨e, h1, h2⟩ := binade hq
  have hp := two_zpow_pos e
  obtain ⟨t, ht⟩ : ∃ t : Rat, q = t * 2 ^ e := ⟨q / 2 ^ e, by field_simp⟩
  have h1' : 2 ^ 52 ≤ t := by rw [ht] at h1; exact le_of_mul_le_mul_right h1 hp
  have h2' : t < 2 ^ 53 := by rw [ht] at h2; exact lt_of_mul_lt_mul_right h2 hp.le
  have hn := roundEven_spec t
  have hnn := roundEven_nearest t
  generalize roundEven t = n at hn hnn
  have ha := abs_le.mp hn.1
  have hlo : 2 ^ 52 ≤ n := by
    have : (2 ^ 52 - 1 : Rat) < n := by linarith
    have : (2 ^ 52 - 1 : Int) < n := by exact_mod_cast this
    omega
  have hhi : n ≤ 2 ^ 53 := by
    have : (n : Rat) < 2 ^ 53 + 1 := by linarith
    have : n < 2 ^ 53 + 1 := by exact_mod_cast this
    omega
  have dist : ∀ x : Rat, |x * 2 ^ e - q| = |x - t| * 2 ^ e := fun x => by
    rw [ht, ← sub_mul, abs_mul, abs_of_pos hp]
  have low : ∀ d : Rat, |d| < 2 ^ 52 * (2 : Rat) ^ e → |(n : Rat) * 2 ^ e - q| < |d - q| := fun d hd => by
    have h3 := (hnn (2 ^ 52)).1
    have h4 : |((2 ^ 52 : Int) : Rat) * 2 ^ e - q| < |d - q| := by
      push_cast
      have := (abs_lt.mp hd).2
      rw [abs_of_nonpos (by linarith), abs_of_neg (by linarith)]
      linarith
    rw [dist] at h4 ⊢
    exact lt_of_le_of_lt (mul_le_mul_of_nonneg_right h3 hp.le) h4
  refine ⟨n * 2 ^ e, ?_, ?_, ?_⟩
  · by_cases hm : n < 2 ^ 53
    · exact isF64_iff.mpr ⟨n, e, by omega, rfl⟩
    · have : n = 2 ^ 53 := by omega
      subst this
      refine isF64_iff.mpr ⟨2 ^ 52, e + 1, by decide, ?_⟩
      rw [zpow_add₀ (by norm_num)]; push_cast; ring
  · intro d hd
    rcases grid hd e with ⟨k, rfl⟩ | h
    · rw [dist, dist]
      exact mul_le_mul_of_nonneg_right (hnn k).1 hp.le
    · exact (low d h).le
  · intro d hd hne heq
    rcases grid hd e with ⟨k, rfl⟩ | h
    · rw [dist, dist] at heq
      have heq' := mul_right_cancel₀ hp.ne' heq
      have hev := (hnn k).2 (fun hk => hne (by rw [hk])) heq'
      by_cases hm : n < 2 ^ 53
      · exact evenF64_iff.mpr ⟨n, e, by omega, by omega, hev, rfl⟩
      · have : n = 2 ^ 53 := by omega
        subst this
        refine evenF64_iff.mpr ⟨2 ^ 52, e + 1, by decide, by decide, by decide, ?_⟩
        rw [zpow_add₀ (by norm_num)]; push_cast; ring
    · exact absurd heq (low d h).ne

/-- There is a rounding. -/
theorem rounding_exists : ∃ rnd, RoundsToNearest rnd := by
  classical
  let pos : Rat → Rat := fun q => if h : 0 < q then Classical.choose (round_pos h) else 0
  have hpos : ∀ q, 0 < q → IsF64 (pos q) ∧ (∀ d, IsF64 d → |pos q - q| ≤ |d - q|) ∧
      ∀ d, IsF64 d → d ≠ pos q → |pos q - q| = |d - q| → EvenF64 (pos q) := fun q h => by
    have e : pos q = Classical.choose (round_pos h) := dif_pos h
    rw [e]; exact Classical.choose_spec (round_pos h)
  have h0 : pos 0 = 0 := dif_neg (lt_irrefl _)
  refine ⟨fun q => if q < 0 then -pos (-q) else pos q, ?_, ?_, ?_, ?_⟩
  · intro q
    split
    · exact IsF64.neg (hpos (-q) (by linarith)).1
    · rcases lt_or_eq_of_le (not_lt.mp ‹_›) with h | h
      · exact (hpos q h).1
      · rw [← h, h0]; exact ⟨0, 0, 0, by decide, by simp⟩
  · intro q d hd
    split
    · have := (hpos (-q) (by linarith)).2.1 (-d) (IsF64.neg hd)
      have e1 : -pos (-q) - q = -(pos (-q) - -q) := by ring
      have e2 : d - q = -(-d - -q) := by ring
      rw [e1, e2, abs_neg, abs_neg]; exact this
    · rcases lt_or_eq_of_le (not_lt.mp ‹_›) with h | h
      · exact (hpos q h).2.1 d hd
      · rw [← h, h0]; simp
  · intro q d hd
    split
    · intro hne heq
      refine EvenF64.neg ((hpos (-q) (by linarith)).2.2 (-d) (IsF64.neg hd) (fun h => hne (by rw [← h]; ring)) ?_)
      have e1 : -pos (-q) - q = -(pos (-q) - -q) := by ring
      have e2 : d - q = -(-d - -q) := by ring
      rw [e1, e2, abs_neg, abs_neg] at heq; exact heq
    · rcases lt_or_eq_of_le (not_lt.mp ‹_›) with h | h
      · exact (hpos q h).2.2 d hd
      · rw [← h, h0]; intro hne heq
        simp at heq
        exact absurd heq.symm (by simpa using hne)
  · intro q
    rcases lt_trichotomy q 0 with h | h | h
    · rw [if_pos h, if_neg (by linarith), neg_neg]
    · subst h; simp [h0]
    · rw [if_pos (show -q < 0 by linarith), if_neg (show ¬ q < 0 by linarith), neg_neg]

/-- The relative error. -/
theorem rnd_error {rnd : Rat → Rat} (R : RoundsToNearest rnd) (q : Rat) : |rnd q - q| ≤ |q| / 2 ^ 53 := by
  have key : ∀ q, 0 < q → |rnd q - q| ≤ q / 2 ^ 53 := by
    intro q hq
    obtain ⟨e, h1, h2⟩ := binade hq
    have hp := two_zpow_pos e
    obtain ⟨t, ht⟩ : ∃ t : Rat, q = t * 2 ^ e := ⟨q / 2 ^ e, by field_simp⟩
    have h1' : 2 ^ 52 ≤ t := by rw [ht] at h1; exact le_of_mul_le_mul_right h1 hp
    have h2' : t < 2 ^ 53 := by rw [ht] at h2; exact lt_of_mul_lt_mul_right h2 hp.le
    have hn := (roundEven_spec t).1
    generalize roundEven t = n at hn
    have ha := abs_le.mp hn
    have hlo : 2 ^ 52 ≤ n := by
      have : (2 ^ 52 - 1 : Rat) < n := by linarith
      have : (2 ^ 52 - 1 : Int) < n := by exact_mod_cast this
      omega
    have hhi : n ≤ 2 ^ 53 := by
      have : (n : Rat) < 2 ^ 53 + 1 := by linarith
      have : n < 2 ^ 53 + 1 := by exact_mod_cast this
      omega
    have hf : IsF64 ((n : Rat) * 2 ^ e) := by
      by_cases hm : n < 2 ^ 53
      · exact isF64_iff.mpr ⟨n, e, by omega, rfl⟩
      · have : n = 2 ^ 53 := by omega
        subst this
        refine isF64_iff.mpr ⟨2 ^ 52, e + 1, by decide, ?_⟩
        rw [zpow_add₀ (by norm_num)]; push_cast; ring
    have h3 := R.nearest q _ hf
    have h4 : |(n : Rat) * 2 ^ e - q| ≤ 1 / 2 * 2 ^ e := by
      rw [ht, ← sub_mul, abs_mul, abs_of_pos hp]
      exact mul_le_mul_of_nonneg_right hn hp.le
    have h5 : 1 / 2 * (2 : Rat) ^ e ≤ q / 2 ^ 53 := by linarith
    linarith
  rcases lt_trichotomy q 0 with h | h | h
  · have := key (-q) (by linarith)
    rw [R.neg] at this
    have e1 : -rnd q - -q = -(rnd q - q) := by ring
    rw [e1, abs_neg] at this
    rw [abs_of_neg h]; exact this
  · subst h; rw [rnd_zero R]; simp
  · rw [abs_of_pos h]; exact key q h

end Klick
