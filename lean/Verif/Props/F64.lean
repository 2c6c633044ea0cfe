import Verif.FixedF64
import Verif.F64Lemmas
import Verif.Props.Numeric
/-
C88: fixed-point numbers as floats.
-/
namespace Klick
open Klick.Spec

theorem odd_not_even {m e : Int} (h1 : 2 ^ 52 ≤ m) (h2 : m < 2 ^ 53) (ho : m % 2 = 1) : ¬ EvenF64 ((m : Rat) * 2 ^ e) := by
  intro h
  obtain ⟨m', e', g1, g2, g3, h⟩ := evenF64_iff.mp h
  have hp := two_zpow_pos e
  have hp' := two_zpow_pos e'
  have hm' : 0 < m' := by
    have : (0 : Rat) < m' * 2 ^ e' := by
      rw [← h]
      have : (0 : Rat) < m := by exact_mod_cast (by omega : 0 < m)
      positivity
    have := pos_of_mul_pos_left this hp'.le
    exact_mod_cast this
  rcases lt_trichotomy e e' with he | he | he
  · obtain ⟨n, hn⟩ := Int.eq_ofNat_of_zero_le (a := e' - e - 1) (by omega)
    have e1 : e' = e + (1 + n : Nat) := by push_cast; omega
    rw [e1, zpow_add₀ (by norm_num), zpow_natCast, mul_comm ((2 : Rat) ^ e), ← mul_assoc] at h
    have h := mul_right_cancel₀ hp.ne' h
    have h : m = m' * 2 ^ (1 + n) := by exact_mod_cast h
    have : (1 : Int) ≤ 2 ^ n := one_le_pow₀ (by norm_num)
    have : m = m' * 2 * 2 ^ n := by rw [h, pow_add]; ring
    have : m' * 2 ≤ m := by rw [this]; nlinarith
    omega
  · subst he
    have h := mul_right_cancel₀ hp.ne' h
    have h : m = m' := by exact_mod_cast h
    omega
  · obtain ⟨n, hn⟩ := Int.eq_ofNat_of_zero_le (a := e - e' - 1) (by omega)
    have e1 : e = e' + (1 + n : Nat) := by push_cast; omega
    rw [e1, zpow_add₀ (by norm_num), zpow_natCast, mul_comm ((2 : Rat) ^ e'), ← mul_assoc] at h
    have h := mul_right_cancel₀ hp'.ne' h
    have h : m * 2 ^ (1 + n) = m' := by exact_mod_cast h
    have : (1 : Int) ≤ 2 ^ n := one_le_pow₀ (by norm_num)
    have : m' = m * 2 * 2 ^ n := by rw [← h, pow_add]; ring
    have : m * 2 ≤ m' := by rw [this]; nlinarith
    omega

section
variable {rnd : Rat → Rat} (R : RoundsToNearest rnd)
include R

/-- The rounding of a number that is no tie. -/
theorem rnd_eval {q : Rat} (m e : Int) (h1 : 2 ^ 52 < m) (h2 : m < 2 ^ 53) (hq : |(m : Rat) * 2 ^ e - q| < 1 / 2 * 2 ^ e) :
    rnd q = m * 2 ^ e := by
  have hp := two_zpow_pos e
  have hn := R.nearest q _ (isF64_iff.mpr ⟨m, e, by omega, rfl⟩)
  have hd := R.float q
  generalize rnd q = d at hn hd
  have a1 := abs_lt.mp hq
  have a2 := abs_lt.mp (lt_of_le_of_lt hn hq)
  rcases grid hd e with ⟨k, rfl⟩ | h
  · have b1 : (k : Rat) * 2 ^ e < (m + 1) * 2 ^ e := by linarith
    have b2 : ((m : Rat) - 1) * 2 ^ e < k * 2 ^ e := by linarith
    have b1 := lt_of_mul_lt_mul_right b1 hp.le
    have b2 := lt_of_mul_lt_mul_right b2 hp.le
    have b1 : k < m + 1 := by exact_mod_cast b1
    have b2 : m - 1 < k := by exact_mod_cast b2
    have : k = m := by omega
    rw [this]
  · have := (abs_lt.mp h).2
    have hm : (2 ^ 52 + 1 : Rat) ≤ m := by exact_mod_cast (by omega : (2 ^ 52 + 1 : Int) ≤ m)
    have : (2 ^ 52 + 1 : Rat) * 2 ^ e ≤ m * 2 ^ e := mul_le_mul_of_nonneg_right hm hp.le
    linarith

/-- The rounding of a tie whose lower neighbour is odd. -/
theorem rnd_tie {q : Rat} (m e : Int) (h1 : 2 ^ 52 ≤ m) (h2 : m + 1 < 2 ^ 53) (ho : m % 2 = 1) (hq : q = (m + 1 / 2) * 2 ^ e) :
    rnd q = (m + 1) * 2 ^ e := by
  have hp := two_zpow_pos e
  have hf : IsF64 (((m + 1 : Int) : Rat) * 2 ^ e) := isF64_iff.mpr ⟨m + 1, e, by omega, rfl⟩
  have hn := R.nearest q _ hf
  have he := R.even q _ hf
  have hd := R.float q
  generalize rnd q = d at hn hd he
  push_cast at hn he
  have e1 : ((m : Rat) + 1) * 2 ^ e - q = 1 / 2 * 2 ^ e := by rw [hq]; ring
  have habs : |(1 / 2 * 2 ^ e : Rat)| = 1 / 2 * 2 ^ e := abs_of_pos (by linarith)
  rw [e1, habs] at hn he
  have a2 := abs_le.mp hn
  rcases grid hd e with ⟨k, rfl⟩ | h
  · have b1 : (k : Rat) * 2 ^ e ≤ (m + 1) * 2 ^ e := by linarith
    have b2 : (m : Rat) * 2 ^ e ≤ k * 2 ^ e := by linarith
    have b1 := le_of_mul_le_mul_right b1 hp
    have b2 := le_of_mul_le_mul_right b2 hp
    have b1 : k ≤ m + 1 := by exact_mod_cast b1
    have b2 : m ≤ k := by exact_mod_cast b2
    rcases (by omega : k = m ∨ k = m + 1) with rfl | rfl
    · exfalso
      refine odd_not_even h1 (by omega) ho (he ?_ ?_)
      · intro h
        linarith
      · have : (k : Rat) * 2 ^ e - q = -(1 / 2 * 2 ^ e) := by rw [hq]; ring
        rw [this, abs_neg, habs]
    · push_cast; rfl
  · have := (abs_lt.mp h).2
    have hm : (2 ^ 52 : Rat) ≤ m := by exact_mod_cast h1
    have : (2 ^ 52 : Rat) * 2 ^ e ≤ m * 2 ^ e := mul_le_mul_of_nonneg_right hm hp.le
    linarith

/-- One more never overtakes the next whole number. -/
theorem rnd_succ {n : Int} (h0 : 0 ≤ n) : rnd (rnd n + 1) ≤ rnd ((n : Rat) + 1) := by
  by_cases hle : rnd n ≤ n
  · exact rnd_mono R (by linarith)
  have hgt : (n : Rat) < rnd n := lt_of_not_ge hle
  have hn53 : 2 ^ 53 < n := by
    by_contra hc
    have := rnd_fix R (isF64_int (n := n) (by omega))
    linarith
  have hn53' : (2 ^ 53 : Rat) < n := by exact_mod_cast hn53
  refine le_trans ?_ (rnd_mono R (show (n : Rat) ≤ n + 1 by linarith))
  have hr := R.float n
  have hnear := R.nearest n
  have heven := R.even n
  generalize rnd n = r at hgt hr hnear heven
  by_contra hc
  have hc := lt_of_not_ge hc
  have hd := R.float (r + 1)
  have hdn := R.nearest (r + 1) r hr
  have hde := R.even (r + 1) r hr
  generalize rnd (r + 1) = d at hc hd hdn hde
  have e0 : r - (r + 1) = -1 := by ring
  rw [e0, abs_neg, abs_one] at hdn hde
  have hdn' := (abs_le.mp hdn).2
  -- the grid of distance 2
  have g1 : ∀ x : Rat, IsF64 x → 2 ^ 53 ≤ x → ∃ k : Int, x = k * 2 := fun x hx hlo => by
    rcases grid hx 1 with ⟨k, h⟩ | h
    · exact ⟨k, by simpa using h⟩
    · have := (abs_lt.mp h).2
      norm_num at this hlo
      linarith
  have g2 : ∀ x : Rat, IsF64 x → 2 ^ 54 ≤ x → ∃ k : Int, x = k * 4 := fun x hx hlo => by
    rcases grid hx 2 with ⟨k, h⟩ | h
    · exact ⟨k, by rw [h]; norm_num⟩
    · have := (abs_lt.mp h).2
      norm_num at this hlo
      linarith
  obtain ⟨k, hk⟩ := g1 r hr (by linarith)
  obtain ⟨j, hj⟩ := g1 d hd (by linarith)
  have hjk : j = k + 1 := by
    have b1 : (k : Rat) < j := by linarith
    have b2 : (j : Rat) ≤ k + 1 := by linarith
    have b1 : k < j := by exact_mod_cast b1
    have b2 : j ≤ k + 1 := by exact_mod_cast b2
    omega
  subst hjk
  push_cast at hj
  have hklo : 2 ^ 52 ≤ k := by
    have : (2 ^ 53 : Rat) < k * 2 := by linarith
    have : 2 ^ 53 < k * 2 := by exact_mod_cast this
    omega
  by_cases hk53 : k < 2 ^ 53
  · -- both neighbours of the tie at `n` are floats
    have hde' : EvenF64 d := hde (by intro h; linarith) (by
      have : d - (r + 1) = 1 := by linarith
      rw [this, abs_one])
    have hrm : IsF64 (((k - 1 : Int) : Rat) * 2) := isF64_iff.mpr ⟨k - 1, 1, by omega, by simp⟩
    have hnr := hnear _ hrm
    push_cast at hnr
    have hnk : n = 2 * k - 1 := by
      have c1 : n < 2 * k := by
        have : (n : Rat) < 2 * k := by linarith
        exact_mod_cast this
      have c2 : 2 * k - 1 ≤ n := by
        by_contra hlt
        have hlt : n ≤ 2 * k - 2 := by omega
        have hlt : (n : Rat) ≤ 2 * k - 2 := by exact_mod_cast hlt
        rw [abs_of_pos (by linarith), abs_of_nonneg (by linarith)] at hnr
        linarith
      omega
    have hnq : (n : Rat) = 2 * k - 1 := by exact_mod_cast hnk
    have hre : EvenF64 r := heven _ hrm (by push_cast; intro h; linarith) (by
      push_cast
      have e1 : r - n = 1 := by linarith
      have e2 : ((k : Rat) - 1) * 2 - n = -1 := by linarith
      rw [e1, e2, abs_neg])
    by_cases hko : k % 2 = 1
    · refine odd_not_even (e := 1) hklo hk53 hko ?_
      rw [zpow_one, ← hk]; exact hre
    · by_cases hk1 : k + 1 < 2 ^ 53
      · refine odd_not_even (m := k + 1) (e := 1) (by omega) hk1 (by omega) ?_
        rw [zpow_one]
        push_cast
        rw [← hj]; exact hde'
      · omega
  · have hk' : (2 ^ 53 : Rat) ≤ k := by exact_mod_cast (by omega : 2 ^ 53 ≤ k)
    obtain ⟨a, ha⟩ := g2 r hr (by linarith)
    obtain ⟨b, hb⟩ := g2 d hd (by linarith)
    have : (b : Rat) * 4 = a * 4 + 2 := by linarith
    have : b * 4 = a * 4 + 2 := by exact_mod_cast this
    omega

end

/-- The conversion as a function of the raw number. -/
def floatOf (rnd : Rat → Rat) (M x : Int) : Rat := rnd (rnd (x.tdiv M) + rnd (rnd (x.tmod M) / rnd M))

theorem fpToF64_eq (rnd : Rat → Rat) (cfg : Cfg) {w p : Nat} (raw : BitVec w)
    (hw : (w = 32 ∧ p ≤ 9) ∨ (w = 64 ∧ p ≤ 18) ∨ (w = 128 ∧ p ≤ 38)) :
    fpToF64 rnd cfg w p raw = .ok (floatOf rnd (10 ^ p) raw.toInt) := by
  obtain ⟨hm, ⟨i, hi⟩, ⟨f, hf⟩⟩ := C49_defined cfg w p raw hw
  have hpos : (0 : Int) < 10 ^ p := Int.pow_pos (by decide)
  have hi' := hi
  have hf' := hf
  simp only [fpModulus] at hm
  have hn : ¬ ((10 : Int) ^ p = 0 ∨ ((10 : Int) ^ p = -1 ∧ raw.toInt = -(2 ^ (w - 1)))) := by omega
  rw [fpInteger, hm, Res.bind_ok, if_neg hn] at hi'
  rw [fpFraction, hm, Res.bind_ok, if_neg hn] at hf'
  cases hi'; cases hf'
  simp only [fpToF64, fpModulus, hi, hf, hm, Res.bind_ok, floatOf]

section
variable {rnd : Rat → Rat} (R : RoundsToNearest rnd)
include R

theorem floatOf_neg (M x : Int) : floatOf rnd M (-x) = -floatOf rnd M x := by
  unfold floatOf
  rw [Int.neg_tdiv, Int.neg_tmod]
  push_cast
  rw [R.neg, R.neg, neg_div, R.neg, ← neg_add, R.neg]

theorem rnd_modulus_pos {M : Int} (hM : 0 < M) : 0 < rnd M := by
  have h1 : (1 : Rat) ≤ M := by exact_mod_cast hM
  have := rnd_mono R h1
  rw [rnd_one R] at this
  linarith

theorem floatOf_mono_nonneg {M x y : Int} (hM : 0 < M) (hx : 0 ≤ x) (hxy : x ≤ y) : floatOf rnd M x ≤ floatOf rnd M y := by
  have hMp := rnd_modulus_pos R hM
  have hix : x.tdiv M = x / M := Int.tdiv_eq_ediv_of_nonneg hx
  have hiy : y.tdiv M = y / M := Int.tdiv_eq_ediv_of_nonneg (by omega)
  have hfx : x.tmod M = x % M := Int.tmod_eq_emod_of_nonneg hx
  have hfy : y.tmod M = y % M := Int.tmod_eq_emod_of_nonneg (by omega)
  unfold floatOf
  rw [hix, hiy, hfx, hfy]
  have hle : x / M ≤ y / M := Int.ediv_le_ediv hM hxy
  have ax := Int.mul_ediv_add_emod x M
  have ay := Int.mul_ediv_add_emod y M
  have bx := Int.emod_nonneg x (show M ≠ 0 by omega)
  have by_ := Int.emod_nonneg y (show M ≠ 0 by omega)
  have cx := Int.emod_lt_of_pos x hM
  have hi0 : 0 ≤ x / M := Int.ediv_nonneg hx (by omega)
  generalize x / M = i at *
  generalize y / M = j at *
  generalize x % M = f at *
  generalize y % M = g at *
  rcases Int.lt_or_eq_of_le hle with hlt | rfl
  · have hd : rnd (rnd f / rnd M) ≤ 1 := by
      have h1 : (f : Rat) ≤ M := by exact_mod_cast cx.le
      have h2 := (div_le_one hMp).mpr (rnd_mono R h1)
      have := rnd_mono R h2
      rwa [rnd_one R] at this
    have hd' : 0 ≤ rnd (rnd g / rnd M) := by
      apply rnd_nonneg R
      apply div_nonneg _ hMp.le
      exact rnd_nonneg R (by exact_mod_cast by_)
    have hij : (i : Rat) + 1 ≤ j := by exact_mod_cast hlt
    calc rnd (rnd i + rnd (rnd f / rnd M)) ≤ rnd (rnd i + 1) := rnd_mono R (by linarith)
      _ ≤ rnd ((i : Rat) + 1) := rnd_succ R hi0
      _ ≤ rnd j := rnd_mono R hij
      _ = rnd (rnd j) := (rnd_fix R (R.float _)).symm
      _ ≤ _ := rnd_mono R (by linarith)
  · have hfg : f ≤ g := by omega
    have hfg : (f : Rat) ≤ g := by exact_mod_cast hfg
    have := rnd_mono R (div_le_div_of_nonneg_right (rnd_mono R hfg) hMp.le)
    exact rnd_mono R (by linarith)

theorem floatOf_zero (M : Int) : floatOf rnd M 0 = 0 := by
  simp [floatOf, rnd_zero R]

theorem floatOf_mono {M x y : Int} (hM : 0 < M) (hxy : x ≤ y) : floatOf rnd M x ≤ floatOf rnd M y := by
  rcases Int.le_total 0 x with hx | hx
  · exact floatOf_mono_nonneg R hM hx hxy
  · rcases Int.le_total 0 y with hy | hy
    · have h1 := floatOf_mono_nonneg R hM (le_refl 0) (show 0 ≤ -x by omega)
      have h2 := floatOf_mono_nonneg R hM (le_refl 0) hy
      rw [floatOf_neg R, floatOf_zero R] at h1
      rw [floatOf_zero R] at h2
      linarith
    · have := floatOf_mono_nonneg R hM (show 0 ≤ -y by omega) (show -y ≤ -x by omega)
      rw [floatOf_neg R, floatOf_neg R] at this
      linarith

theorem floatOf_close_nonneg {M x : Int} (hM : 0 < M) (hx : 0 ≤ x) : |floatOf rnd M x - x / M| ≤ x / M / 2 ^ 50 := by
  have hMp := rnd_modulus_pos R hM
  have hMr : (0 : Rat) < M := by exact_mod_cast hM
  have hix : x.tdiv M = x / M := Int.tdiv_eq_ediv_of_nonneg hx
  have hfx : x.tmod M = x % M := Int.tmod_eq_emod_of_nonneg hx
  unfold floatOf
  rw [hix, hfx]
  have ax := Int.mul_ediv_add_emod x M
  have bx := Int.emod_nonneg x (show M ≠ 0 by omega)
  have hi0 : 0 ≤ x / M := Int.ediv_nonneg hx (by omega)
  have hX : (x : Rat) / M = ((x / M : Int) : Rat) + ((x % M : Int) : Rat) / M := by
    rw [eq_comm, ← sub_eq_zero]
    have : (x : Rat) = M * ((x / M : Int) : Rat) + ((x % M : Int) : Rat) := by exact_mod_cast ax.symm
    rw [this]; field_simp; ring
  rw [hX]
  generalize x / M = i at *
  generalize x % M = f at *
  have hi : (0 : Rat) ≤ i := by exact_mod_cast hi0
  have hf : (0 : Rat) ≤ f := by exact_mod_cast bx
  -- relative errors
  have E : ∀ q : Rat, 0 ≤ q → q * (1 - 1 / 2 ^ 53) ≤ rnd q ∧ rnd q ≤ q * (1 + 1 / 2 ^ 53) := fun q hq => by
    have := abs_le.mp (rnd_error R q)
    rw [abs_of_nonneg hq] at this
    constructor <;> linarith [this.1, this.2]
  have Ei := E i hi
  have Ef := E f hf
  have EM := E M hMr.le
  have hf' : 0 ≤ rnd f := rnd_nonneg R hf
  have hq0 : 0 ≤ rnd f / rnd M := div_nonneg hf' hMp.le
  have Eq := E _ hq0
  have hq1 : rnd f / rnd M ≤ f / M * (1 + 3 / 2 ^ 53) := by
    rw [div_le_iff₀ hMp]
    have h1 : f / M * (1 + 3 / 2 ^ 53) * (M * (1 - 1 / 2 ^ 53)) ≤ f / M * (1 + 3 / 2 ^ 53) * rnd M :=
      mul_le_mul_of_nonneg_left EM.1 (by positivity)
    have h2 : f / M * (1 + 3 / 2 ^ 53) * (M * (1 - 1 / 2 ^ 53)) = (f : Rat) * ((1 + 3 / 2 ^ 53) * (1 - 1 / 2 ^ 53)) := by
      field_simp
    have h3 : (f : Rat) * (1 + 1 / 2 ^ 53) ≤ f * ((1 + 3 / 2 ^ 53) * (1 - 1 / 2 ^ 53)) :=
      mul_le_mul_of_nonneg_left (by norm_num) hf
    linarith [Ef.2]
  have hq2 : f / M * (1 - 3 / 2 ^ 53) ≤ rnd f / rnd M := by
    rw [le_div_iff₀ hMp]
    have h1 : f / M * (1 - 3 / 2 ^ 53) * rnd M ≤ f / M * (1 - 3 / 2 ^ 53) * (M * (1 + 1 / 2 ^ 53)) :=
      mul_le_mul_of_nonneg_left EM.2 (mul_nonneg (by positivity) (by norm_num))
    have h2 : f / M * (1 - 3 / 2 ^ 53) * (M * (1 + 1 / 2 ^ 53)) = (f : Rat) * ((1 - 3 / 2 ^ 53) * (1 + 1 / 2 ^ 53)) := by
      field_simp
    have h3 : (f : Rat) * ((1 - 3 / 2 ^ 53) * (1 + 1 / 2 ^ 53)) ≤ f * (1 - 1 / 2 ^ 53) :=
      mul_le_mul_of_nonneg_left (by norm_num) hf
    linarith [Ef.1]
  have hfM : 0 ≤ (f : Rat) / M := by positivity
  generalize (f : Rat) / M = φ at *
  generalize rnd f / rnd M = q at *
  have hd1 : rnd q ≤ φ * (1 + 5 / 2 ^ 53) := by
    have : q * (1 + 1 / 2 ^ 53) ≤ φ * (1 + 3 / 2 ^ 53) * (1 + 1 / 2 ^ 53) := mul_le_mul_of_nonneg_right hq1 (by norm_num)
    have : φ * (1 + 3 / 2 ^ 53) * (1 + 1 / 2 ^ 53) ≤ φ * (1 + 5 / 2 ^ 53) := by
      rw [mul_assoc]; exact mul_le_mul_of_nonneg_left (by norm_num) hfM
    linarith [Eq.2]
  have hd2 : φ * (1 - 5 / 2 ^ 53) ≤ rnd q := by
    have : φ * (1 - 3 / 2 ^ 53) * (1 - 1 / 2 ^ 53) ≤ q * (1 - 1 / 2 ^ 53) := mul_le_mul_of_nonneg_right hq2 (by norm_num)
    have : φ * (1 - 5 / 2 ^ 53) ≤ φ * (1 - 3 / 2 ^ 53) * (1 - 1 / 2 ^ 53) := by
      rw [mul_assoc]; exact mul_le_mul_of_nonneg_left (by norm_num) hfM
    linarith [Eq.1]
  have hs0 : 0 ≤ rnd i + rnd q := add_nonneg (rnd_nonneg R hi) (rnd_nonneg R hq0)
  have Es := E _ hs0
  generalize rnd i = a at *
  generalize rnd q = d at *
  have hs1 : a + d ≤ (i + φ) * (1 + 5 / 2 ^ 53) := by linarith [Ei.2]
  have hs2 : (i + φ) * (1 - 5 / 2 ^ 53) ≤ a + d := by linarith [Ei.1]
  generalize a + d = s at *
  have hX0 : 0 ≤ (i : Rat) + φ := by linarith
  generalize (i : Rat) + φ = X at *
  rw [abs_le]
  constructor
  · have : X * (1 - 5 / 2 ^ 53) * (1 - 1 / 2 ^ 53) ≤ s * (1 - 1 / 2 ^ 53) := mul_le_mul_of_nonneg_right hs2 (by norm_num)
    have : X * (1 - 1 / 2 ^ 50) ≤ X * (1 - 5 / 2 ^ 53) * (1 - 1 / 2 ^ 53) := by
      rw [mul_assoc]; exact mul_le_mul_of_nonneg_left (by norm_num) hX0
    linarith [Es.1]
  · have : s * (1 + 1 / 2 ^ 53) ≤ X * (1 + 5 / 2 ^ 53) * (1 + 1 / 2 ^ 53) := mul_le_mul_of_nonneg_right hs1 (by norm_num)
    have : X * (1 + 5 / 2 ^ 53) * (1 + 1 / 2 ^ 53) ≤ X * (1 + 1 / 2 ^ 50) := by
      rw [mul_assoc]; exact mul_le_mul_of_nonneg_left (by norm_num) hX0
    linarith [Es.2]

end

end Klick

namespace Klick.Props
open Klick Klick.Spec

/-- The scales ClickHouse allows for the three widths. -/
def Digits (w p : Nat) : Prop := (w = 32 ∧ p ≤ 9) ∨ (w = 64 ∧ p ≤ 18) ∨ (w = 128 ∧ p ≤ 38)

/-- C88: the conversion keeps the order (and so the sign, zero being zero). -/
theorem C88_order {rnd : Rat → Rat} (R : RoundsToNearest rnd) (cfg : Cfg) {w p : Nat} (hw : Digits w p) (x y : BitVec w)
    (h : x.toInt ≤ y.toInt) : ∃ a b, fpToF64 rnd cfg w p x = .ok a ∧ fpToF64 rnd cfg w p y = .ok b ∧ a ≤ b ∧ (x.toInt = 0 → a = 0) := by
  have hpos : (0 : Int) < 10 ^ p := Int.pow_pos (by decide)
  refine ⟨_, _, fpToF64_eq rnd cfg x hw, fpToF64_eq rnd cfg y hw, floatOf_mono R hpos h, fun h0 => ?_⟩
  rw [h0, floatOf_zero R]

/-- C88: the conversion is symmetric: opposite numbers become opposite floats. -/
theorem C88_negation {rnd : Rat → Rat} (R : RoundsToNearest rnd) (cfg : Cfg) {w p : Nat} (hw : Digits w p) (x y : BitVec w)
    (h : y.toInt = -x.toInt) : ∃ a, fpToF64 rnd cfg w p x = .ok a ∧ fpToF64 rnd cfg w p y = .ok (-a) := by
  refine ⟨_, fpToF64_eq rnd cfg x hw, ?_⟩
  rw [fpToF64_eq rnd cfg y hw, h, floatOf_neg R]

/-- C88: a whole number up to 2^53 becomes itself. -/
theorem C88_whole {rnd : Rat → Rat} (R : RoundsToNearest rnd) (cfg : Cfg) {w p : Nat} (hw : Digits w p) (x : BitVec w) (n : Int)
    (hx : x.toInt = n * 10 ^ p) (hn : n.natAbs ≤ 2 ^ 53) : fpToF64 rnd cfg w p x = .ok (n : Rat) := by
  have hpos : (0 : Int) < 10 ^ p := Int.pow_pos (by decide)
  rw [fpToF64_eq rnd cfg x hw, hx]
  unfold floatOf
  have h1 : (n * 10 ^ p : Int).tdiv (10 ^ p) = n := Int.mul_tdiv_cancel n (by omega)
  have h2 : (n * 10 ^ p : Int).tmod (10 ^ p) = 0 := Int.mul_tmod_left n _
  rw [h1, h2]
  simp only [Int.cast_zero, rnd_zero R, zero_div, add_zero]
  rw [rnd_fix R (R.float _), rnd_fix R (isF64_int hn)]

/-- C88, close: the float differs from the number by at most one part in 2^50 (a few units in the last place). That it is the nearest
float is false (`C88_nearest_false`). -/
theorem C88_close_partial {rnd : Rat → Rat} (R : RoundsToNearest rnd) (cfg : Cfg) {w p : Nat} (hw : Digits w p) (x : BitVec w) :
    ∃ a, fpToF64 rnd cfg w p x = .ok a ∧ |a - fixedValue p x.toInt| ≤ |fixedValue p x.toInt| / 2 ^ 50 := by
  have hpos : (0 : Int) < 10 ^ p := Int.pow_pos (by decide)
  refine ⟨_, fpToF64_eq rnd cfg x hw, ?_⟩
  have hv : ∀ n : Int, fixedValue p n = (n : Rat) / ((10 ^ p : Int) : Rat) := fun n => by simp [fixedValue]
  have hM : (0 : Rat) < ((10 ^ p : Int) : Rat) := by exact_mod_cast hpos
  rw [hv]
  generalize x.toInt = n
  rcases Int.le_total 0 n with hn | hn
  · have := floatOf_close_nonneg R hpos hn
    have h0 : (0 : Rat) ≤ n := by exact_mod_cast hn
    rw [abs_of_nonneg (div_nonneg h0 hM.le)]; exact this
  · have := floatOf_close_nonneg R hpos (show 0 ≤ -n by omega)
    rw [floatOf_neg R] at this
    have h0 : (n : Rat) ≤ 0 := by exact_mod_cast hn
    have e : -floatOf rnd (10 ^ p) n - ((-n : Int) : Rat) / ((10 ^ p : Int) : Rat) = -(floatOf rnd (10 ^ p) n - n / ((10 ^ p : Int) : Rat)) := by
      push_cast; ring
    rw [e, abs_neg] at this
    rw [abs_of_nonpos (div_nonpos_of_nonpos_of_nonneg h0 hM.le)]
    have e2 : -((n : Rat) / ((10 ^ p : Int) : Rat)) = ((-n : Int) : Rat) / ((10 ^ p : Int) : Rat) := by push_cast; ring
    rw [e2]; exact this

/-- C88, nearest: false. 1.14 becomes 1.1400000000000001, one float above the nearest. -/
theorem C88_nearest_false {rnd : Rat → Rat} (R : RoundsToNearest rnd) (cfg : Cfg) :
    fpToF64 rnd cfg 32 2 114#32 = .ok (5134103575202366 / 2 ^ 52) ∧ rnd (fixedValue 2 114) = 5134103575202365 / 2 ^ 52 := by
  have hint : ∀ n : Int, n.natAbs ≤ 2 ^ 53 → rnd (n : Rat) = n := fun n h => rnd_fix R (isF64_int h)
  constructor
  · rw [fpToF64_eq rnd cfg _ (.inl ⟨rfl, by decide⟩)]
    unfold floatOf
    have e1 : (114#32 : BitVec 32).toInt = 114 := rfl
    have e2 : (114 : Int).tdiv (10 ^ 2) = 1 := rfl
    have e3 : (114 : Int).tmod (10 ^ 2) = 14 := rfl
    rw [e1, e2, e3, hint 1 (by decide), hint 14 (by decide), hint (10 ^ 2) (by decide)]
    have e4 : rnd ((14 : Int) / ((10 ^ 2 : Int) : Rat)) = 5044031582654956 * 2 ^ (-55 : Int) := by
      have := rnd_eval R (q := (14 : Int) / ((10 ^ 2 : Int) : Rat)) 5044031582654956 (-55) (by decide) (by decide) (by
        rw [abs_lt]; constructor <;> norm_num)
      exact_mod_cast this
    rw [e4]
    have e5 := rnd_tie R (q := (1 : Int) + 5044031582654956 * 2 ^ (-55 : Int)) 5134103575202365 (-52) (by decide) (by decide) (by decide)
      (by norm_num)
    rw [e5]
    norm_num
  · have := rnd_eval R (q := fixedValue 2 114) 5134103575202365 (-52) (by decide) (by decide) (by
      rw [abs_lt]; constructor <;> norm_num [fixedValue])
    rw [this]
    norm_num

/-- C88: a scale above the digits of the type panics in a build with overflow checks. -/
theorem C88_scale_too_large (rnd : Rat → Rat) (cfg : Cfg) (hc : cfg.overflowChecks = true) (w p : Nat) (hp : p < 2 ^ 32)
    (hw : 2 ^ (w - 1) ≤ 10 ^ p) (x : BitVec w) : fpToF64 rnd cfg w p x = .panic := by
  have : powTenS cfg w (p % 2 ^ 32) = .panic := by
    rw [Nat.mod_eq_of_lt hp, powTenS, if_neg (by omega), hc, if_pos rfl]
  simp only [fpToF64, fpInteger, this, Res.bind_panic]

/-- There is such a rounding. -/
example : ∃ rnd, RoundsToNearest rnd := rounding_exists

example : ∃ rnd, RoundsToNearest rnd ∧ Digits 32 2 ∧ (BitVec.ofInt 32 (-250)).toInt ≤ (114#32).toInt ∧
    fpToF64 rnd cfgDebug 32 2 (BitVec.ofInt 32 (-300)) = .ok (-3) := by
  obtain ⟨rnd, R⟩ := rounding_exists
  refine ⟨rnd, R, .inl ⟨rfl, by decide⟩, by decide, ?_⟩
  have := C88_whole R cfgDebug (p := 2) (.inl ⟨rfl, by decide⟩) (BitVec.ofInt 32 (-300)) (-3) rfl (by decide)
  simpa using this

end Klick.Props
