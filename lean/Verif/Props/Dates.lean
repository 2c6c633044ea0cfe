import Verif.Spec.Time
import Verif.Props.Sql
import Verif.Props.Column
/-
Dates and times (C47, C48).
-/
namespace Klick
open Spec Props

/-! ### C47: dates -/

/-- Every `Date` converts to a calendar date and back unchanged. -/
theorem C47_date_roundtrip (x : BitVec 16) : dateOfDay (dateToDay x) = x := by
  simp only [dateOfDay, dateToDay]
  apply BitVec.eq_of_toNat_eq
  rw [BitVec.toNat_ofInt]
  have := x.isLt
  omega

/-- A calendar date converts to a `Date` that denotes it exactly when it is in `Date`'s range
(1970-01-01 to 2149-06-06, days 0 to 65535). The claim also asks that the others be refused; they are not, see
`C47_outside_not_refused`. -/
theorem C47_day_roundtrip_partial (day : Int) : dateToDay (dateOfDay day) = day ↔ 0 ≤ day ∧ day ≤ 65535 := by
  simp only [dateOfDay, dateToDay, BitVec.toNat_ofInt]
  omega

/-- Which date one gets outside the range: the one whole cycles of 65536 days away. -/
theorem C47_day_wraps (day : Int) : dateToDay (dateOfDay day) = day % 65536 := by
  simp only [dateOfDay, dateToDay, BitVec.toNat_ofInt]
  omega

/-- The refusal claimed does not happen: no date is refused, and every date outside the range comes out as a
different one. For example the day after 2149-06-06 comes out as 1970-01-01, and the day before 1970-01-01 as
2149-06-06. -/
theorem C47_outside_not_refused :
    (∀ day : Int, ¬ (0 ≤ day ∧ day ≤ 65535) → dateToDay (dateOfDay day) ≠ day) ∧
    dateToDay (dateOfDay 65536) = 0 ∧ dateToDay (dateOfDay (-1)) = 65535 :=
  ⟨fun day h e => h ((C47_day_roundtrip_partial day).mp e), rfl, rfl⟩

theorem yearsSum_add (y : Nat) : ∀ k j, yearsSum y (k + j) = yearsSum y k + yearsSum (y + k) j := by
  intro k
  induction k generalizing y with
  | zero => intro j; simp [yearsSum]
  | succ k ih =>
    intro j
    have e : k + 1 + j = (k + j) + 1 := by omega
    rw [e]
    simp only [yearsSum]
    rw [ih (y + 1) j]
    have e2 : y + 1 + k = y + (k + 1) := by omega
    rw [e2]
    omega

theorem monthsSum_add (y m : Nat) : ∀ k j, monthsSum y m (k + j) = monthsSum y m k + monthsSum y (m + k) j := by
  intro k
  induction k generalizing m with
  | zero => intro j; simp [monthsSum]
  | succ k ih =>
    intro j
    have e : k + 1 + j = (k + j) + 1 := by omega
    rw [e]
    simp only [monthsSum]
    rw [ih (m + 1) j]
    have e2 : m + 1 + k = m + (k + 1) := by omega
    rw [e2]
    omega

theorem months_year (y : Nat) : monthsSum y 1 12 = daysInYear y := by
  simp only [monthsSum, daysInMonth, daysInYear]
  cases isLeap y <;> simp

/-- Within its year a date comes before the year's end. -/
theorem dayInYear_lt {c : Civil} (h : c.Valid) : monthsSum c.year 1 (c.month - 1) + (c.day - 1) < daysInYear c.year := by
  obtain ⟨_, h1, h2, h3, h4⟩ := h
  have e : 12 = (c.month - 1) + (1 + (12 - c.month)) := by omega
  rw [← months_year, e, monthsSum_add, monthsSum_add]
  have e2 : 1 + (c.month - 1) = c.month := by omega
  rw [e2]
  simp only [monthsSum]
  omega

theorem day_lt_of_year_lt {a b : Civil} (ha : a.Valid) (hb : b.Valid) (h : a.year < b.year) : a.dayNumber < b.dayNumber := by
  have h1 := dayInYear_lt ha
  simp only [Civil.dayNumber]
  have := ha.1
  have e : b.year - 1970 = (a.year - 1970) + (1 + (b.year - a.year - 1)) := by omega
  rw [e, yearsSum_add, yearsSum_add]
  have e2 : 1970 + (a.year - 1970) = a.year := by omega
  rw [e2]
  simp only [yearsSum]
  omega

/-- Different calendar dates have different day numbers. -/
theorem dayNumber_inj {a b : Civil} (ha : a.Valid) (hb : b.Valid) (h : a.dayNumber = b.dayNumber) : a = b := by
  have hy : a.year = b.year := by
    rcases Nat.lt_trichotomy a.year b.year with l | e | l
    · have := day_lt_of_year_lt ha hb l; omega
    · exact e
    · have := day_lt_of_year_lt hb ha l; omega
  have lt : ∀ {a b : Civil}, a.Valid → b.Valid → a.year = b.year → a.month < b.month → a.dayNumber < b.dayNumber := by
    intro a b ha hb hy l
    simp only [Civil.dayNumber, hy]
    obtain ⟨_, h1, h2, h3, h4⟩ := ha
    have e : b.month - 1 = (a.month - 1) + (1 + (b.month - a.month - 1)) := by omega
    rw [e, monthsSum_add, monthsSum_add]
    have e2 : 1 + (a.month - 1) = a.month := by omega
    rw [e2]
    simp only [monthsSum]
    rw [hy] at h4
    omega
  have hm : a.month = b.month := by
    rcases Nat.lt_trichotomy a.month b.month with l | e | l
    · have := lt ha hb hy l; omega
    · exact e
    · have := lt hb ha hy.symm l; omega
  have hd : a.day = b.day := by
    simp only [Civil.dayNumber, hy, hm] at h
    have h1 := ha.2.2.2.1
    have h2 := hb.2.2.2.1
    omega
  cases a; cases b; simp_all

/-- In terms of the calendar: the `Date` made from a date of the range is printed by the client as that date,
and two different dates of the range make two different `Date`s. -/
theorem C47_calendar_partial (c : Civil) (hc : c.Valid) (hr : c.dayNumber ≤ 65535) :
    civilOf (dateOfDay c.dayNumber).toNat = (c.year, c.month, c.day) ∧
    ∀ c' : Civil, c'.Valid → c'.dayNumber ≤ 65535 → dateOfDay c'.dayNumber = dateOfDay c.dayNumber → c' = c := by
  have key : ∀ n : Nat, n ≤ 65535 → (dateOfDay n).toNat = n := by
    intro n hn
    simp only [dateOfDay, BitVec.toNat_ofInt]
    omega
  refine ⟨?_, fun c' hc' hr' e => ?_⟩
  · have h2 := C27_date_is_right (dateOfDay c.dayNumber)
    rw [key _ hr] at h2 ⊢
    have := dayNumber_inj h2.1 hc h2.2
    exact Prod.ext (congrArg Civil.year this) (Prod.ext (congrArg Civil.month this) (congrArg Civil.day this))
  · apply dayNumber_inj hc' hc
    rw [← key _ hr, ← key _ hr', e]

/-- A leap day. -/
example : (Civil.mk 2024 2 29).Valid ∧ (Civil.mk 2024 2 29).dayNumber ≤ 65535 := by
  refine ⟨by unfold Civil.Valid; decide, by decide⟩

/-! ### C48: times -/

/-- A `DateTime` (seconds) made from an instant of its range is that instant, to the second, and converts back
to it; every other instant is refused. -/
theorem C48_datetime (bad : Err) (i : Inst) :
    (0 ≤ i.secs ∧ i.secs < 2 ^ 32 → ∃ x, dateTimeOfInst bad i = .ok x ∧ (x.toNat : Int) = i.secs ∧
      dateTimeToInst x = .ok ⟨i.secs, 0⟩) ∧
    (¬ (0 ≤ i.secs ∧ i.secs < 2 ^ 32) → dateTimeOfInst bad i = .err bad) := by
  refine ⟨fun h => ?_, fun h => by rw [dateTimeOfInst, if_neg h]⟩
  refine ⟨_, by rw [dateTimeOfInst, if_pos h], ?_, ?_⟩
  · rw [BitVec.toNat_ofNat]; omega
  · have e : ((BitVec.ofNat 32 i.secs.toNat).toNat : Int) = i.secs := by rw [BitVec.toNat_ofNat]; omega
    simp only [dateTimeToInst, timestampOpt, e]
    rw [if_pos]
    · rfl
    · simp only [chronoMin, chronoMax]; omega

/-- The instants of the model are those from the first second of the year -262143 to the last one of the year 262142: whole
years, counted by the calendar (leap years are those of `isLeap`). -/
theorem C48_calendar_range :
    chronoMin = 86400 * daysBefore (-262143) ∧ chronoMax + 1 = 86400 * daysBefore 262143 ∧ daysBefore 1970 = 0 ∧
    ∀ y : Nat, daysBefore (y + 1) = daysBefore y + daysInYear y := by
  refine ⟨by decide, by decide, by decide, fun y => ?_⟩
  unfold daysBefore daysInYear isLeap
  split
  · rename_i h
    simp only [Bool.or_eq_true, Bool.and_eq_true, beq_iff_eq, bne_iff_ne] at h
    omega
  · rename_i h
    simp only [Bool.or_eq_true, Bool.and_eq_true, beq_iff_eq, bne_iff_ne] at h
    omega

/-- Every `DateTime` converts to an instant and back unchanged. -/
theorem C48_datetime_back (bad : Err) (x : BitVec 32) :
    ∃ i, dateTimeToInst x = .ok i ∧ (Inst.ns i = x.toNat * 10 ^ 9) ∧ dateTimeOfInst bad i = .ok x := by
  have := x.isLt
  refine ⟨⟨x.toNat, 0⟩, ?_, ?_, ?_⟩
  · simp only [dateTimeToInst, timestampOpt]
    rw [if_pos]
    · rfl
    · simp only [chronoMin, chronoMax]; omega
  · simp [Inst.ns]
  · simp only [dateTimeOfInst]
    rw [if_pos (by omega)]
    simp

theorem pow_split {p : Nat} (hp : p ≤ 9) : 10 ^ p * 10 ^ (9 - p) = (10 ^ 9 : Nat) := by
  rw [← Nat.pow_add]; congr 1; omega

theorem pow_le9 {e : Nat} (he : e ≤ 9) : (10 : Nat) ^ e ≤ 10 ^ 9 := Nat.pow_le_pow_right (by decide) he

theorem powTen_small (cfg : Cfg) {e : Nat} (he : e ≤ 9) : powTen cfg 64 e = .ok (10 ^ e) := by
  have := pow_le9 he
  rw [powTen, if_pos (by omega)]

/-- Reading, as a whole: the value is split into seconds and units, and nothing overflows. -/
theorem dt64ToInst_eq (cfg : Cfg) (bad : Err) {p v : Nat} (hp : p ≤ 9) (_ : v < 2 ^ 64) :
    dt64ToInst cfg bad p v =
      if (v / 10 ^ p : Nat) < 2 ^ 63 then unwrapInst (timestampOpt (v / 10 ^ p : Nat) (v % 10 ^ p * 10 ^ (9 - p)))
      else .err bad := by
  have hpm : p % 2 ^ 32 = p := by omega
  have h1 := pow_le9 hp
  have h2 : 0 < 10 ^ p := Nat.pow_pos (by decide)
  have h3 : v % 10 ^ p * 10 ^ (9 - p) < 10 ^ 9 := by
    have hlt := Nat.mod_lt v h2
    calc v % 10 ^ p * 10 ^ (9 - p) < 10 ^ p * 10 ^ (9 - p) := Nat.mul_lt_mul_of_pos_right hlt (Nat.pow_pos (by decide))
      _ = 10 ^ 9 := pow_split hp
  have e1 : nineMinus cfg p = .ok (9 - p) := by rw [nineMinus, hpm, if_pos hp]
  have e2 : mulU64 cfg (v % 10 ^ p) (10 ^ (9 - p)) = .ok (v % 10 ^ p * 10 ^ (9 - p)) := by
    rw [mulU64, if_pos (by omega)]
  simp only [dt64ToInst, hpm, powTen_small cfg hp, Res.bind_ok, divNat, remNat, if_neg (Nat.ne_of_gt h2), e1,
    powTen_small cfg (Nat.sub_le 9 p), e2]
  by_cases hs : (v / 10 ^ p : Nat) < 2 ^ 63
  · rw [if_pos hs, if_pos hs, if_pos (by omega)]
  · rw [if_neg hs, if_neg hs]

/-- Reading a `DateTime64` of precision up to 9 as a chrono time gives exactly the instant it denotes (units
since 1970), if chrono can represent it. -/
theorem C48_dt64_read (cfg : Cfg) (bad : Err) (p v : Nat) (hp : p ≤ 9) (hv : v < 2 ^ 64)
    (hr : (v / 10 ^ p : Nat) ≤ chronoMax) :
    ∃ i, dt64ToInst cfg bad p v = .ok i ∧ Inst.Valid i ∧ Inst.ns i = v * unitNs p := by
  have h2 : 0 < 10 ^ p := Nat.pow_pos (by decide)
  have h3 : v % 10 ^ p * 10 ^ (9 - p) < 10 ^ 9 := by
    have hlt := Nat.mod_lt v h2
    calc v % 10 ^ p * 10 ^ (9 - p) < 10 ^ p * 10 ^ (9 - p) := Nat.mul_lt_mul_of_pos_right hlt (Nat.pow_pos (by decide))
      _ = 10 ^ 9 := pow_split hp
  have hs : (v / 10 ^ p : Nat) < 2 ^ 63 := by simp only [chronoMax] at hr; omega
  have hlo : chronoMin ≤ ((v / 10 ^ p : Nat) : Int) := Int.le_trans (by decide) (Int.natCast_nonneg _)
  refine ⟨⟨(v / 10 ^ p : Nat), v % 10 ^ p * 10 ^ (9 - p)⟩, ?_, ?_, ?_⟩
  · rw [dt64ToInst_eq cfg bad hp hv, if_pos hs, timestampOpt, if_pos]
    · rfl
    · exact ⟨hlo, hr, by omega, by omega⟩
  · refine ⟨hlo, hr, Nat.lt_trans h3 (by decide), fun h => ?_⟩
    exact absurd h3 (Nat.not_lt.mpr h)
  · simp only [Inst.ns, unitNs]
    have : (v / 10 ^ p : Nat) * 10 ^ 9 + v % 10 ^ p * 10 ^ (9 - p) = v * 10 ^ (9 - p) := by
      rw [← pow_split hp, ← Nat.mul_assoc, ← Nat.add_mul, Nat.mul_comm (v / 10 ^ p) (10 ^ p), Nat.div_add_mod]
    exact_mod_cast this

/-- Writing a chrono time into a `DateTime64` of precision up to 9, for instants from 1970 on that fit the 64
bits: the value denotes the instant up to its precision. -/
theorem C48_dt64_write_partial (cfg : Cfg) (bad : Err) (p : Nat) (i : Inst) (hp : p ≤ 9) (h0 : 0 ≤ i.secs)
    (hfit : Inst.ns i / unitNs p < 2 ^ 64) :
    ∃ v, dt64OfInst cfg bad p i = .ok v ∧ v < 2 ^ 64 ∧ (v : Int) = Inst.ns i / unitNs p := by
  have hpm : p % 2 ^ 32 = p := by omega
  have hu : 0 < 10 ^ (9 - p) := Nat.pow_pos (by decide)
  obtain ⟨s, hs⟩ : ∃ s : Nat, i.secs = s := ⟨i.secs.toNat, by omega⟩
  have key : Inst.ns i / unitNs p = ((s * 10 ^ p + i.nanos / 10 ^ (9 - p) : Nat) : Int) := by
    have e : Inst.ns i = ((s * 10 ^ p * 10 ^ (9 - p) + i.nanos : Nat) : Int) := by
      rw [Nat.mul_assoc, pow_split hp, Inst.ns, hs, Int.natCast_add, Int.natCast_mul]; rfl
    rw [e]
    simp only [unitNs]
    rw [← Int.natCast_ediv]
    congr 1
    rw [Nat.add_comm, Nat.mul_comm _ (10 ^ (9 - p)), Nat.add_mul_div_left _ _ hu, Nat.add_comm]
  rw [key] at hfit ⊢
  have hfit' : s * 10 ^ p + i.nanos / 10 ^ (9 - p) < 2 ^ 64 := by exact_mod_cast hfit
  refine ⟨s * 10 ^ p + i.nanos / 10 ^ (9 - p), ?_, hfit', rfl⟩
  have e1 : nineMinus cfg p = .ok (9 - p) := by rw [nineMinus, hpm, if_pos hp]
  have e2 : mulU64 cfg s (10 ^ p) = .ok (s * 10 ^ p) := by
    rw [mulU64, if_pos (Nat.lt_of_le_of_lt (Nat.le_add_right _ _) hfit')]
  rw [dt64OfInst, if_pos h0]
  simp only [hpm, powTen_small cfg hp, Res.bind_ok, hs, Int.toNat_natCast, e2, e1,
    powTen_small cfg (Nat.sub_le 9 p), divNat, if_neg (Nat.ne_of_gt hu)]
  rw [plusU64, if_pos hfit']

/-- And for the instants from 1970 on that do not fit: with overflow checks exactly these panic, without them the value is taken modulo
2^64. -/
theorem C48_dt64_write_outcome (cfg : Cfg) (bad : Err) (p : Nat) (i : Inst) (hp : p ≤ 9) (h0 : 0 ≤ i.secs) :
    (cfg.overflowChecks = true → (dt64OfInst cfg bad p i = .panic ↔ 2 ^ 64 ≤ Inst.ns i / unitNs p)) ∧
    (cfg.overflowChecks = false → ∃ v, dt64OfInst cfg bad p i = .ok v ∧ (v : Int) = Inst.ns i / unitNs p % 2 ^ 64) := by
  have hpm : p % 2 ^ 32 = p := by omega
  have hu : 0 < 10 ^ (9 - p) := Nat.pow_pos (by decide)
  obtain ⟨s, hs⟩ : ∃ s : Nat, i.secs = s := ⟨i.secs.toNat, by omega⟩
  have key : Inst.ns i / unitNs p = ((s * 10 ^ p + i.nanos / 10 ^ (9 - p) : Nat) : Int) := by
    have e : Inst.ns i = ((s * 10 ^ p * 10 ^ (9 - p) + i.nanos : Nat) : Int) := by
      rw [Nat.mul_assoc, pow_split hp, Inst.ns, hs, Int.natCast_add, Int.natCast_mul]; rfl
    rw [e]
    simp only [unitNs]
    rw [← Int.natCast_ediv]
    congr 1
    rw [Nat.add_comm, Nat.mul_comm _ (10 ^ (9 - p)), Nat.add_mul_div_left _ _ hu, Nat.add_comm]
  rw [key]
  have e1 : nineMinus cfg p = .ok (9 - p) := by rw [nineMinus, hpm, if_pos hp]
  have e : dt64OfInst cfg bad p i = mulU64 cfg s (10 ^ p) >>= fun a => plusU64 cfg a (i.nanos / 10 ^ (9 - p)) := by
    rw [dt64OfInst, if_pos h0]
    simp only [hpm, powTen_small cfg hp, Res.bind_ok, hs, Int.toNat_natCast, e1, powTen_small cfg (Nat.sub_le 9 p), divNat,
      if_neg (Nat.ne_of_gt hu)]
  rw [e]
  unfold mulU64
  generalize s * 10 ^ p = a
  generalize i.nanos / 10 ^ (9 - p) = b
  refine ⟨fun hc => ?_, fun hc => ?_⟩
  · by_cases ha : a < 2 ^ 64
    · rw [if_pos ha, Res.bind_ok, plusU64]
      by_cases hb : a + b < 2 ^ 64
      · rw [if_pos hb]
        refine ⟨fun h => (by cases h), fun h => ?_⟩
        omega
      · rw [if_neg hb, hc, if_pos rfl]
        exact ⟨fun _ => by omega, fun _ => rfl⟩
    · rw [if_neg ha, hc, if_pos rfl, Res.bind_panic]
      exact ⟨fun _ => by omega, fun _ => rfl⟩
  · have ha : (if a < 2 ^ 64 then .ok a else if cfg.overflowChecks then .panic else .ok (a % 2 ^ 64) : Res Nat) = .ok (a % 2 ^ 64) := by
      by_cases ha : a < 2 ^ 64
      · rw [if_pos ha, Nat.mod_eq_of_lt ha]
      · rw [if_neg ha, hc]; rfl
    rw [ha, Res.bind_ok, plusU64]
    by_cases hb : a % 2 ^ 64 + b < 2 ^ 64
    · rw [if_pos hb]; exact ⟨_, rfl, by omega⟩
    · rw [if_neg hb, hc]; exact ⟨_, rfl, by omega⟩

/-- There and back: the instant rounded down to the precision. -/
theorem C48_dt64_roundtrip_partial (cfg : Cfg) (bad : Err) (p : Nat) (i : Inst) (hp : p ≤ 9) (h0 : 0 ≤ i.secs)
    (hfit : Inst.ns i / unitNs p < 2 ^ 64) (hr : Inst.ns i < (chronoMax + 1) * 10 ^ 9) :
    ∃ v j, dt64OfInst cfg bad p i = .ok v ∧ dt64ToInst cfg bad p v = .ok j ∧ Inst.ns j = truncNs p (Inst.ns i) := by
  obtain ⟨v, h1, h2, h3⟩ := C48_dt64_write_partial cfg bad p i hp h0 hfit
  have hu : 0 < unitNs p := Nat.pow_pos (by decide)
  have hv : (v : Int) * unitNs p ≤ Inst.ns i := by
    rw [h3]; exact Int.ediv_mul_le _ (by omega)
  have hr' : ((v / 10 ^ p : Nat) : Int) ≤ chronoMax := by
    have hd : v / 10 ^ p * 10 ^ 9 ≤ v * unitNs p := by
      rw [unitNs, ← pow_split hp, ← Nat.mul_assoc]
      exact Nat.mul_le_mul_right _ (Nat.div_mul_le_self v (10 ^ p))
    have hd' : ((v / 10 ^ p : Nat) : Int) * 10 ^ 9 ≤ (v : Int) * unitNs p := by exact_mod_cast hd
    simp only [chronoMax] at hr ⊢
    omega
  obtain ⟨j, h4, _, h5⟩ := C48_dt64_read cfg bad p v hp h2 hr'
  refine ⟨v, j, h1, h4, ?_⟩
  rw [h5, h3, truncNs]
  have := Int.mul_ediv_add_emod (Inst.ns i) (unitNs p)
  rw [Int.mul_comm]
  omega

/-- An instant with sub-second digits, in milliseconds. -/
example : (0 : Int) ≤ (Inst.mk 1700000000 123456789).secs ∧ Inst.ns ⟨1700000000, 123456789⟩ / unitNs 3 < 2 ^ 64 ∧
    Inst.ns ⟨1700000000, 123456789⟩ < (chronoMax + 1) * 10 ^ 9 ∧
    dt64OfInst cfgDebug chronoErr 3 ⟨1700000000, 123456789⟩ = .ok 1700000000123 ∧
    dt64ToInst cfgDebug chronoErr 3 1700000000123 = .ok ⟨1700000000, 123000000⟩ := by
  refine ⟨by decide, by decide, by decide, rfl, rfl⟩

/-- Instants before 1970 are refused by every precision. -/
theorem C48_negative_refused (cfg : Cfg) (bad : Err) (p : Nat) (i : Inst) (h : i.secs < 0) :
    dt64OfInst cfg bad p i = .err bad := by
  rw [dt64OfInst, if_neg (by omega)]

/-- Not refused: an instant beyond the 64 bits. With overflow checks the conversion panics, without them it
gives another instant: 2554-07-21T23:34:34Z in nanoseconds becomes 0.29 s after 1970. -/
theorem C48_overflow_not_refused :
    Inst.Valid ⟨18446744074, 0⟩ ∧
    dt64OfInst cfgDebug chronoErr 9 ⟨18446744074, 0⟩ = .panic ∧
    dt64OfInst cfgRelease chronoErr 9 ⟨18446744074, 0⟩ = .ok 290448384 ∧
    dt64ToInst cfgRelease chronoErr 9 290448384 = .ok ⟨0, 290448384⟩ := by
  refine ⟨by unfold Inst.Valid chronoMin chronoMax; decide, rfl, rfl, rfl⟩

/-- The outcome of reading any 64-bit value, precision 0 to 9: the instant, or an error (precision 0 only), or a
panic, when the value read as an unsigned number of units is beyond chrono. -/
theorem C48_dt64_read_outcome (cfg : Cfg) (bad : Err) (p v : Nat) (hp : p ≤ 9) (hv : v < 2 ^ 64) :
    (dt64ToInst cfg bad p v = .panic ↔ chronoMax < (v / 10 ^ p : Nat) ∧ (v / 10 ^ p : Nat) < 2 ^ 63) ∧
    (dt64ToInst cfg bad p v = .err bad ↔ 2 ^ 63 ≤ v / 10 ^ p) := by
  by_cases hs : (v / 10 ^ p : Nat) < 2 ^ 63
  · by_cases hr : ((v / 10 ^ p : Nat) : Int) ≤ chronoMax
    · obtain ⟨i, h, _⟩ := C48_dt64_read cfg bad p v hp hv hr
      rw [h]
      refine ⟨⟨fun e => (by cases e), fun e => ?_⟩, ⟨fun e => (by cases e), fun e => ?_⟩⟩ <;> omega
    · have e : dt64ToInst cfg bad p v = .panic := by
        rw [dt64ToInst_eq cfg bad hp hv, if_pos hs, timestampOpt, if_neg (fun h => hr h.2.1)]
        rfl
      rw [e]
      refine ⟨⟨fun _ => ⟨by omega, hs⟩, fun _ => rfl⟩, ⟨fun e => (by cases e), fun e => ?_⟩⟩
      omega
  · have e : dt64ToInst cfg bad p v = .err bad := by rw [dt64ToInst_eq cfg bad hp hv, if_neg hs]
    rw [e]
    refine ⟨⟨fun e => (by cases e), fun e => ?_⟩, ⟨fun _ => by omega, fun _ => rfl⟩⟩
    omega

/-- ClickHouse stores times before 1970 as negative numbers. Read by this client as a chrono time, one second
before 1970 is an error (precision 0), a panic (1 to 6), or a wrong instant centuries later (7 to 9). -/
theorem C48_negative_read_false :
    dt64ToInst cfgDebug chronoErr 0 (2 ^ 64 - 1) = .err chronoErr ∧
    (∀ p, 1 ≤ p → p ≤ 6 → dt64ToInst cfgDebug chronoErr p (2 ^ 64 - 10 ^ p) = .panic) ∧
    dt64ToInst cfgDebug chronoErr 9 (2 ^ 64 - 10 ^ 9) = .ok ⟨18446744072, 709551616⟩ := by
  refine ⟨rfl, fun p h1 h2 => ?_, rfl⟩
  have : p = 1 ∨ p = 2 ∨ p = 3 ∨ p = 4 ∨ p = 5 ∨ p = 6 := by omega
  rcases this with rfl | rfl | rfl | rfl | rfl | rfl <;> rfl

/-- Precisions from 10 on (type validation lets 10 to 18 through) panic in a build with overflow checks, in both directions, whatever the
value. -/
theorem C48_precision_above_nine (cfg : Cfg) (hc : cfg.overflowChecks = true) (bad : Err) (p : Nat) (hp : 9 < p) (hp' : p < 2 ^ 32) :
    (∀ v, dt64ToInst cfg bad p v = .panic) ∧ (∀ i : Inst, 0 ≤ i.secs → dt64OfInst cfg bad p i = .panic) := by
  have hpm : p % 2 ^ 32 = p := Nat.mod_eq_of_lt hp'
  by_cases h20 : p < 20
  · have hpow : 10 ^ p < 2 ^ 64 := by
      calc 10 ^ p ≤ 10 ^ 19 := Nat.pow_le_pow_right (by decide) (by omega)
        _ < 2 ^ 64 := by decide
    have h2 : 10 ^ p ≠ 0 := Nat.ne_of_gt (Nat.pow_pos (by decide))
    have e1 : nineMinus cfg p = .panic := by rw [nineMinus, hpm, if_neg (by omega), hc, if_pos rfl]
    refine ⟨fun v => ?_, fun i h0 => ?_⟩
    · simp only [dt64ToInst, hpm, powTen, if_pos hpow, Res.bind_ok, divNat, remNat, if_neg h2, e1, Res.bind_panic]
    · simp only [dt64OfInst, if_pos h0, hpm, powTen, if_pos hpow, Res.bind_ok, e1, Res.bind_panic, mulU64, hc, if_true]
      split <;> rfl
  · have hpow : ¬ 10 ^ p < 2 ^ 64 := by
      have : 10 ^ 20 ≤ 10 ^ p := Nat.pow_le_pow_right (by decide) (by omega)
      have : 2 ^ 64 ≤ 10 ^ 20 := by decide
      exact fun h => absurd (Nat.lt_of_lt_of_le h this) (by omega)
    refine ⟨fun v => ?_, fun i h0 => ?_⟩
    · simp only [dt64ToInst, hpm, powTen, if_neg hpow, hc, if_true, Res.bind_panic]
    · simp only [dt64OfInst, if_pos h0, hpm, powTen, if_neg hpow, hc, if_true, Res.bind_panic]

theorem ten_pow_wraps {e : Nat} (h : 64 ≤ e) : 10 ^ e % 2 ^ 64 = 0 := by
  refine Nat.mod_eq_zero_of_dvd (Nat.dvd_trans (Nat.pow_dvd_pow 2 h) ?_)
  rw [show (10 : Nat) = 2 * 5 from rfl, Nat.mul_pow]
  exact Nat.dvd_mul_right _ _

theorem powTen_release {cfg : Cfg} (hc : cfg.overflowChecks = false) {e : Nat} (h : 64 ≤ e) : powTen cfg 64 e = .ok 0 := by
  have h1 : ¬ 10 ^ e < 2 ^ 64 := by
    have h2 : 10 ^ 20 ≤ 10 ^ e := Nat.pow_le_pow_right (by decide) (by omega)
    have h3 : 2 ^ 64 ≤ 10 ^ 20 := by decide
    intro h4
    exact absurd (Nat.lt_of_lt_of_le h4 h3) (by omega)
  rw [powTen, if_neg h1, hc, if_neg (by decide), ten_pow_wraps h]

/-- In a build without overflow checks, precisions from 10 to 19 lose the fraction of the second when read, whatever it was, and panic when
written. -/
theorem C48_precision_release_false (cfg : Cfg) (hc : cfg.overflowChecks = false) (bad : Err) (p : Nat) (hp : 9 < p) (hp' : p < 20) :
    (∀ v, v < 2 ^ 64 → dt64ToInst cfg bad p v = .ok ⟨(v / 10 ^ p : Nat), 0⟩) ∧ (∀ i : Inst, 0 ≤ i.secs → dt64OfInst cfg bad p i = .panic) := by
  have hpm : p % 2 ^ 32 = p := Nat.mod_eq_of_lt (by omega)
  have hpow : 10 ^ p < 2 ^ 64 := by
    calc 10 ^ p ≤ 10 ^ 19 := Nat.pow_le_pow_right (by decide) (by omega)
      _ < 2 ^ 64 := by decide
  have h2 : 10 ^ p ≠ 0 := Nat.ne_of_gt (Nat.pow_pos (by decide))
  have e1 : nineMinus cfg p = .ok (2 ^ 32 + 9 - p) := by rw [nineMinus, hpm, if_neg (by omega), hc, if_neg (by decide)]
  have e2 : powTen cfg 64 (2 ^ 32 + 9 - p) = .ok 0 := powTen_release hc (by omega)
  have e3 : powTen cfg 64 p = .ok (10 ^ p) := by rw [powTen, if_pos hpow]
  refine ⟨fun v hv => ?_, fun i h0 => ?_⟩
  · have hdiv : v / 10 ^ p < 2 ^ 63 ∧ ((v / 10 ^ p : Nat) : Int) ≤ chronoMax := by
      have h3 : v / 10 ^ p ≤ v / 10 ^ 10 := Nat.div_le_div_left (Nat.pow_le_pow_right (by decide) (by omega)) (by decide)
      have h4 : v / 10 ^ 10 < 2 ^ 31 := by
        rw [Nat.div_lt_iff_lt_mul (by decide)]
        omega
      unfold chronoMax
      omega
    have e4 : mulU64 cfg (v % 10 ^ p) 0 = .ok 0 := by rw [mulU64, Nat.mul_zero, if_pos (by decide)]
    have e5 : timestampOpt ((v / 10 ^ p : Nat) : Int) 0 = some ⟨(v / 10 ^ p : Nat), 0⟩ :=
      if_pos ⟨Int.le_trans (by decide) (Int.natCast_nonneg _), hdiv.2, by decide, by omega⟩
    simp only [dt64ToInst, hpm, e3, Res.bind_ok, divNat, remNat, if_neg h2, e1, e2, e4]
    rw [if_pos hdiv.1, if_pos (by decide), e5]
    rfl
  · simp only [dt64OfInst, if_pos h0, hpm, e3, Res.bind_ok, e1, e2, divNat, if_true, mulU64, hc, Bool.false_eq_true, if_false, Res.bind_panic]
    split <;> rfl

/-- A picosecond in a `DateTime64(12)` is gone in a release build. -/
example : dt64ToInst cfgRelease chronoErr 12 1700000000123456789 = .ok ⟨1700000, 0⟩ :=
  (C48_precision_release_false cfgRelease rfl chronoErr 12 (by decide) (by decide)).1 _ (by decide)

/-- Of a precision only the lowest 32 bits count. -/
theorem C48_precision_wraps (cfg : Cfg) (bad : Err) (p v : Nat) (i : Inst) :
    dt64ToInst cfg bad p v = dt64ToInst cfg bad (p % 2 ^ 32) v ∧ dt64OfInst cfg bad p i = dt64OfInst cfg bad (p % 2 ^ 32) i := by
  have h : nineMinus cfg (p % 2 ^ 32) = nineMinus cfg p := by rw [nineMinus, nineMinus, Nat.mod_mod]
  constructor
  · rw [dt64ToInst, dt64ToInst, h, Nat.mod_mod]
  · rw [dt64OfInst, dt64OfInst, h, Nat.mod_mod]

/-- chrono times as column values: microseconds since 1970, refused before 1970. -/
theorem C48_chrono_to_sql (tz : Tz) (i : Inst) (hv : Inst.Valid i) :
    (0 ≤ i.secs → ∃ x : BitVec 64, chronoToSql tz i = .ok (.dateTime64 tz x 6) ∧ (x.toNat : Int) = Inst.ns i / 1000) ∧
    (i.secs < 0 → i.nanos < 10 ^ 9 →
      chronoToSql tz i = .err (.deserialize (ch! "failed to convert DateTime64: TryFromIntError(())"))) := by
  obtain ⟨h1, h2, h3, h4⟩ := hv
  have e : timestampMicros i = Inst.ns i / 1000 := by
    simp only [timestampMicros, Inst.ns]
    omega
  refine ⟨fun h0 => ?_, fun h0 hn => ?_⟩
  · have hge : 0 ≤ timestampMicros i := by simp only [timestampMicros]; omega
    refine ⟨BitVec.ofNat 64 (timestampMicros i).toNat, by rw [chronoToSql, if_pos hge], ?_⟩
    rw [BitVec.toNat_ofNat, ← e]
    have : timestampMicros i < 2 ^ 64 := by simp only [timestampMicros, chronoMax] at h2 ⊢; omega
    omega
  · rw [chronoToSql, if_neg]
    · rfl
    simp only [timestampMicros]
    omega

/-- And back: the same zone, the instant rounded down to microseconds. -/
theorem C48_chrono_roundtrip_partial (cfg : Cfg) (tz : Tz) (i : Inst) (hv : Inst.Valid i) (h0 : 0 ≤ i.secs)
    (hr : Inst.ns i < (chronoMax + 1) * 10 ^ 9) :
    ∃ v j, chronoToSql tz i = .ok v ∧ chronoFromSql cfg (.dateTime64 6 tz) v = .ok (tz, j) ∧
      Inst.ns j = truncNs 6 (Inst.ns i) := by
  obtain ⟨x, h1, h2⟩ := (C48_chrono_to_sql tz i hv).1 h0
  have hx := x.isLt
  have hr' : ((x.toNat / 10 ^ 6 : Nat) : Int) ≤ chronoMax := by
    simp only [chronoMax] at hr ⊢
    omega
  obtain ⟨j, h4, _, h5⟩ := C48_dt64_read cfg chronoErr 6 x.toNat (by decide) hx hr'
  refine ⟨_, j, h1, ?_, ?_⟩
  · simp only [chronoFromSql, h4, Res.bind_ok]
  · rw [h5, h2, truncNs]
    simp only [unitNs]
    omega

example : Inst.Valid ⟨1700000000, 123456789⟩ ∧
    chronoToSql tzUTC ⟨1700000000, 123456789⟩ = .ok (.dateTime64 tzUTC 1700000000123456#64 6) := by
  refine ⟨by unfold Inst.Valid chronoMin chronoMax; decide, rfl⟩

/-- Reading a time column of any precision up to 9 digits: the zone is that of the column value and the instant is exactly the
one it denotes, if chrono can represent it. -/
theorem C48_chrono_reads (cfg : Cfg) (T : Ty) (tz : Tz) (hT : (∃ z, T = .dateTime z) ∨ ∃ p z, T = .dateTime64 p z) :
    (∀ (x : BitVec 64) (p : Nat), p ≤ 9 → ((x.toNat / 10 ^ p : Nat) : Int) ≤ chronoMax →
      ∃ i, chronoFromSql cfg T (.dateTime64 tz x p) = .ok (tz, i) ∧ Inst.ns i = x.toNat * unitNs p) ∧
    (∀ x : BitVec 32, ∃ i, chronoFromSql cfg T (.dateTime tz x) = .ok (tz, i) ∧ Inst.ns i = x.toNat * 10 ^ 9) := by
  refine ⟨fun x p hp hr => ?_, fun x => ?_⟩
  · obtain ⟨i, h1, _, h2⟩ := C48_dt64_read cfg chronoErr p x.toNat hp x.isLt hr
    refine ⟨i, ?_, h2⟩
    rcases hT with ⟨z, rfl⟩ | ⟨q, z, rfl⟩ <;> simp only [chronoFromSql, h1, Res.bind_ok]
  · obtain ⟨i, h1, h2, _⟩ := C48_datetime_back chronoErr x
    refine ⟨i, ?_, h2⟩
    rcases hT with ⟨z, rfl⟩ | ⟨q, z, rfl⟩ <;> simp only [chronoFromSql, h1, Res.bind_ok]

/-- The error for a time whose seconds do not fit 63 bits, and the only one besides a column that is no time column. -/
theorem C48_chrono_error (cfg : Cfg) (T : Ty) (tz : Tz) (hT : (∃ z, T = .dateTime z) ∨ ∃ p z, T = .dateTime64 p z) (x : BitVec 64) (p : Nat) (hp : p ≤ 9) :
    (2 ^ 63 ≤ x.toNat / 10 ^ p → chronoFromSql cfg T (.dateTime64 tz x p) =
      .err (.deserialize (ch! "failed to convert DateTime: TryFromIntError(())"))) ∧
    (x.toNat / 10 ^ p < 2 ^ 63 → ∀ e, chronoFromSql cfg T (.dateTime64 tz x p) ≠ .err e) := by
  have e1 : chronoFromSql cfg T (.dateTime64 tz x p) = (dt64ToInst cfg chronoErr p x.toNat >>= fun i => .ok (tz, i)) := by
    rcases hT with ⟨z, rfl⟩ | ⟨q, z, rfl⟩ <;> rfl
  rw [e1]
  obtain ⟨h1, h2⟩ := C48_dt64_read_outcome cfg chronoErr p x.toNat hp x.isLt
  refine ⟨fun h => by rw [h2.mpr h]; rfl, fun h e q => ?_⟩
  by_cases hr : ((x.toNat / 10 ^ p : Nat) : Int) ≤ chronoMax
  · obtain ⟨i, hi, _⟩ := C48_dt64_read cfg chronoErr p x.toNat hp x.isLt hr
    rw [hi] at q; cases q
  · rw [h1.mpr ⟨by omega, h⟩] at q; cases q

example (cfg : Cfg) : ∃ i, chronoFromSql cfg (.dateTime64 3 tzUTC) (.dateTime64 (ch! "Europe/Paris") 1700000000123#64 3) = .ok (ch! "Europe/Paris", i) ∧
    Inst.ns i = 1700000000123 * 1000000 :=
  (C48_chrono_reads cfg (.dateTime64 3 tzUTC) (ch! "Europe/Paris") (.inr ⟨_, _, rfl⟩)).1 1700000000123#64 3 (by decide) (by decide)

/-- A `DateTime` made from a chrono time keeps its zone and is the instant, to the second. -/
theorem C48_datetime_zone (bad : Err) (tz : Tz) (i : Inst) (h : 0 ≤ i.secs ∧ i.secs < 2 ^ 32) :
    ∃ x, dateTimeOfChrono bad tz i = .ok (tz, x) ∧ (x.toNat : Int) = i.secs := by
  obtain ⟨x, h1, h2, _⟩ := (C48_datetime bad i).1 h
  exact ⟨x, by simp only [dateTimeOfChrono, h1, Res.bind_ok], h2⟩

/-- Times are read from time columns only. -/
theorem C48_chrono_other_refused (cfg : Cfg) (T : Ty) (v : Value) (h1 : ∀ tz, T ≠ .dateTime tz) (h2 : ∀ p tz, T ≠ .dateTime64 p tz) :
    chronoFromSql cfg T v = .err (unexpectedType T) := by
  cases T <;> first | rfl | (exact absurd rfl (h1 _)) | (exact absurd rfl (h2 _ _))

end Klick
