import Verif.Spec.Serde
import Verif.Props.Dates
/-
C73: dates and times written and read with serde.
-/
namespace Klick
open Spec Props

theorem roundMinutes_bound {o : Int} (h1 : -86400 < o) (h2 : o < 86400) : -1440 ≤ roundMinutes o ∧ roundMinutes o ≤ 1440 := by
  unfold roundMinutes
  split <;> omega

theorem roundMinutes_whole {o : Int} (h : o % 60 = 0) : 60 * roundMinutes o = o := by
  unfold roundMinutes
  split <;> omega

/-- What is read of a text chrono wrote. -/
theorem read_text {r : Rfc3339} (hr : Rfc3339.Keeps r) (tz : Tz) (i : Inst) (h0 : 0 ≤ i.secs) (h1 : i.secs ≤ lastSecond - 86400) (hn : i.nanos < 1000000000) :
    r.read (r.text tz i) = .ok ⟨i.secs + r.offset tz i.secs - 60 * roundMinutes (r.offset tz i.secs), i.nanos⟩ := by
  obtain ⟨o1, o2⟩ := hr.offset tz i.secs
  obtain ⟨m1, m2⟩ := roundMinutes_bound o1 o2
  unfold Rfc3339.read Rfc3339.text
  rw [hr.time _ _ _ (by unfold firstSecond; omega) (by omega) hn m1 m2]

theorem read_text_whole {r : Rfc3339} (hr : Rfc3339.Keeps r) (tz : Tz) (i : Inst) (h0 : 0 ≤ i.secs) (h1 : i.secs ≤ lastSecond - 86400) (hn : i.nanos < 1000000000)
    (hw : WholeMinutes r tz i.secs) : r.read (r.text tz i) = .ok i := by
  rw [read_text hr tz i h0 h1 hn, roundMinutes_whole hw]
  have : i.secs + r.offset tz i.secs - r.offset tz i.secs = i.secs := by omega
  rw [this]

/-- C73: every `Date` is read as it was written. -/
theorem C73_date (r : Rfc3339) (hr : Rfc3339.Keeps r) (d : BitVec 16) : (r.dateSer d >>= r.dateDe) = .ok d := by
  have := d.isLt
  show r.dateDe _ = _
  unfold Rfc3339.dateDe
  rw [hr.day _ (by unfold dateToDay; omega) (by unfold dateToDay; omega)]
  show Res.ok _ = _
  rw [C47_date_roundtrip]

/-- C73: every `DateTime` is read as the same instant, in UTC. -/
theorem C73_datetime_partial (r : Rfc3339) (hr : Rfc3339.Keeps r) (tz : Tz) (x : BitVec 32) (hw : WholeMinutes r tz x.toNat) :
    ∃ s, r.dateTimeSer (tz, x) = .ok s ∧ r.dateTimeDe s = .ok (tzUTC, x) := by
  obtain ⟨i, h1, h2, h3⟩ := C48_datetime_back serdeErr x
  have hx := x.isLt
  have hi : i = ⟨x.toNat, 0⟩ := by
    simp only [dateTimeToInst, timestampOpt] at h1
    rw [if_pos (by simp only [chronoMin, chronoMax]; omega)] at h1
    exact (Res.ok.inj h1).symm
  refine ⟨r.text tz i, by unfold Rfc3339.dateTimeSer; rw [h1]; rfl, ?_⟩
  unfold Rfc3339.dateTimeDe
  rw [read_text_whole hr tz i (by subst hi; show (0 : Int) ≤ x.toNat; omega) (by subst hi; show (x.toNat : Int) ≤ _; unfold lastSecond; omega) (by subst hi; show 0 < 1000000000; decide)
    (by subst hi; exact hw)]
  show dateTimeOfChrono serdeErr tzUTC i = _
  unfold dateTimeOfChrono
  rw [h3]
  rfl

/-- The instant of a `DateTime64` below the year 10000. -/
theorem dt64_inst (cfg : Cfg) (bad : Err) {p v : Nat} (hp : p ≤ 9) (hv : v < 2 ^ 64) (hl : ((v / 10 ^ p : Nat) : Int) ≤ lastSecond) :
    dt64ToInst cfg bad p v = .ok ⟨(v / 10 ^ p : Nat), v % 10 ^ p * 10 ^ (9 - p)⟩ ∧ v % 10 ^ p * 10 ^ (9 - p) < 1000000000 := by
  have h2 : 0 < 10 ^ p := Nat.pow_pos (by decide)
  have h3 : v % 10 ^ p * 10 ^ (9 - p) < 1000000000 := by
    have hlt := Nat.mod_lt v h2
    have h4 : v % 10 ^ p * 10 ^ (9 - p) < 10 ^ p * 10 ^ (9 - p) := Nat.mul_lt_mul_of_pos_right hlt (Nat.pow_pos (by decide))
    rw [pow_split hp] at h4
    exact h4
  refine ⟨?_, h3⟩
  unfold lastSecond at hl
  rw [dt64ToInst_eq cfg bad hp hv, if_pos (by omega)]
  unfold timestampOpt
  have h0 := Int.natCast_nonneg (v / 10 ^ p)
  generalize ((v / 10 ^ p : Nat) : Int) = q at h0 hl
  rw [if_pos (by simp only [chronoMin, chronoMax]; exact ⟨by omega, by omega, by omega, fun h => absurd h3 (by omega)⟩)]
  rfl

theorem dt64_ns {p v : Nat} (hp : p ≤ 9) : Inst.ns ⟨(v / 10 ^ p : Nat), v % 10 ^ p * 10 ^ (9 - p)⟩ = v * unitNs p := by
  have key : v / 10 ^ p * 10 ^ 9 + v % 10 ^ p * 10 ^ (9 - p) = v * 10 ^ (9 - p) := by
    rw [← pow_split hp, ← Nat.mul_assoc, ← Nat.add_mul, Nat.div_add_mod']
  unfold Inst.ns unitNs
  simp only
  have := congrArg (Int.ofNat) key
  simpa using this

/-- C73: every `DateTime64` of a precision up to nine digits before the last day of the year 9999 is read as the same instant, in UTC. -/
theorem C73_datetime64_partial (r : Rfc3339) (hr : Rfc3339.Keeps r) (cfg : Cfg) (p : Nat) (hp : p ≤ 9) (tz : Tz) (v : BitVec 64)
    (hl : ((v.toNat / 10 ^ p : Nat) : Int) ≤ lastSecond - 86400) (hw : WholeMinutes r tz (v.toNat / 10 ^ p : Nat)) :
    ∃ s, r.dt64Ser cfg p (tz, v) = .ok s ∧ r.dt64De cfg p s = .ok (tzUTC, v) := by
  obtain ⟨h1, h2⟩ := dt64_inst cfg serdeErr hp v.isLt (by omega)
  refine ⟨_, by unfold Rfc3339.dt64Ser; rw [h1]; rfl, ?_⟩
  unfold Rfc3339.dt64De
  rw [read_text_whole hr tz _ (Int.natCast_nonneg _) hl h2 hw, Res.bind_ok]
  have hns := dt64_ns (v := v.toNat) hp
  have hu : 0 < unitNs p := Nat.pow_pos (by decide)
  have hdiv : (v.toNat * unitNs p : Int) / unitNs p = v.toNat := Int.mul_ediv_cancel _ (by omega)
  obtain ⟨w, w1, w2, w3⟩ := C48_dt64_write_partial cfg serdeErr p ⟨(v.toNat / 10 ^ p : Nat), v.toNat % 10 ^ p * 10 ^ (9 - p)⟩ hp
    (Int.natCast_nonneg _) (by rw [hns, hdiv]; have := v.isLt; omega)
  rw [w1, Res.bind_ok]
  rw [hns, hdiv] at w3
  have : w = v.toNat := by omega
  rw [this, BitVec.ofNat_toNat, BitVec.setWidth_eq]

/-- C73: what comes back of a `DynDateTime64`: the instant cut to microseconds, at precision 6, in UTC. -/
theorem C73_dynamic_partial (r : Rfc3339) (hr : Rfc3339.Keeps r) (cfg : Cfg) (p : Nat) (hp : p ≤ 9) (tz : Tz) (v : BitVec 64)
    (hl : ((v.toNat / 10 ^ p : Nat) : Int) ≤ lastSecond - 86400) (hw : WholeMinutes r tz (v.toNat / 10 ^ p : Nat)) :
    ∃ s w, r.dynSer cfg (tz, v, p) = .ok s ∧ r.dynDe cfg s = .ok (tzUTC, w, 6) ∧ (w.toNat : Int) = (v.toNat * unitNs p : Int) / 1000 := by
  obtain ⟨h1, h2⟩ := dt64_inst cfg serdeErr hp v.isLt (by omega)
  refine ⟨r.text tz ⟨(v.toNat / 10 ^ p : Nat), v.toNat % 10 ^ p * 10 ^ (9 - p)⟩, ?_⟩
  have hns := dt64_ns (v := v.toNat) hp
  have hb : (v.toNat * unitNs p : Int) < 253402300800 * 1000000000 := by
    rw [← hns]; unfold Inst.ns; unfold lastSecond at hl; simp only; omega
  have h0 : (0 : Int) ≤ v.toNat * unitNs p := by
    have : ((v.toNat * unitNs p : Nat) : Int) = v.toNat * unitNs p := by simp
    omega
  obtain ⟨w, w1, w2, w3⟩ := C48_dt64_write_partial cfg serdeErr 6 ⟨(v.toNat / 10 ^ p : Nat), v.toNat % 10 ^ p * 10 ^ (9 - p)⟩ (by decide)
    (Int.natCast_nonneg _) (by rw [hns]; show _ / (1000 : Int) < _; omega)
  refine ⟨BitVec.ofNat 64 w, by unfold Rfc3339.dynSer; rw [h1]; rfl, ?_, ?_⟩
  · unfold Rfc3339.dynDe
    rw [read_text_whole hr tz _ (Int.natCast_nonneg _) hl h2 hw, Res.bind_ok, w1, Res.bind_ok]
  · rw [BitVec.toNat_ofNat, Nat.mod_eq_of_lt w2, w3, hns]
    rfl

/-- C73: times a `DateTime` cannot hold are refused, and texts chrono cannot read too; nothing panics. -/
theorem C73_datetime_refuses (r : Rfc3339) (s : Str) :
    (∃ i, r.read s = .ok i ∧ 0 ≤ i.secs ∧ i.secs < 2 ^ 32 ∧ ∃ x, r.dateTimeDe s = .ok (tzUTC, x) ∧ (x.toNat : Int) = i.secs) ∨
    r.dateTimeDe s = .err serdeErr := by
  unfold Rfc3339.dateTimeDe
  cases h : r.read s with
  | panic => unfold Rfc3339.read at h; split at h <;> cases h
  | err e =>
    right
    unfold Rfc3339.read at h
    split at h
    · cases h
    · cases h; rfl
  | ok i =>
    obtain ⟨h1, h2⟩ := C48_datetime serdeErr i
    by_cases hi : 0 ≤ i.secs ∧ i.secs < 2 ^ 32
    · left
      obtain ⟨x, x1, x2, _⟩ := h1 hi
      refine ⟨i, rfl, hi.1, hi.2, x, ?_, x2⟩
      show dateTimeOfChrono serdeErr tzUTC i = _
      unfold dateTimeOfChrono; rw [x1]; rfl
    · right
      show dateTimeOfChrono serdeErr tzUTC i = _
      unfold dateTimeOfChrono; rw [h2 hi]; rfl

/-- C73: in a zone whose offset is not a whole number of minutes, what is read differs by at most half a minute from what was written. -/
theorem C73_drift (r : Rfc3339) (hr : Rfc3339.Keeps r) (tz tz' : Tz) (x y : BitVec 32) (s : Str) (hs : r.dateTimeSer (tz, x) = .ok s)
    (hy : r.dateTimeDe s = .ok (tz', y)) : (y.toNat : Int) - x.toNat ≤ 30 ∧ (x.toNat : Int) - y.toNat ≤ 30 := by
  obtain ⟨i, h1, h2, h3⟩ := C48_datetime_back serdeErr x
  have hx := x.isLt
  have hi : i = ⟨x.toNat, 0⟩ := by
    simp only [dateTimeToInst, timestampOpt] at h1
    rw [if_pos (by simp only [chronoMin, chronoMax]; omega)] at h1
    exact (Res.ok.inj h1).symm
  unfold Rfc3339.dateTimeSer at hs
  rw [h1] at hs
  have hs : r.text tz i = s := Res.ok.inj hs
  have hread := read_text hr tz i (by subst hi; show (0 : Int) ≤ x.toNat; omega) (by subst hi; show (x.toNat : Int) ≤ _; unfold lastSecond; omega)
    (by subst hi; show 0 < 1000000000; decide)
  rw [hs] at hread
  rcases C73_datetime_refuses r s with ⟨j, j1, _, _, z, z1, z2⟩ | he
  · rw [z1] at hy
    cases hy
    rw [hread] at j1
    cases j1
    subst hi
    simp only at z2
    have key : ∀ o : Int, o - 60 * roundMinutes o ≤ 30 ∧ 60 * roundMinutes o - o ≤ 30 := by
      intro o; unfold roundMinutes; split <;> omega
    have := key (r.offset tz x.toNat)
    omega
  · rw [he] at hy; cases hy

/-- C73 is false as stated: the zone is always replaced by UTC. -/
theorem C73_zone_false (r : Rfc3339) (s : Str) (tz : Tz) (x : BitVec 32) (h : tz ≠ tzUTC) : r.dateTimeDe s ≠ .ok (tz, x) := by
  intro e
  unfold Rfc3339.dateTimeDe dateTimeOfChrono at e
  obtain ⟨i, _, e⟩ := (Res.bind_eq_ok ..).mp e
  obtain ⟨y, _, e⟩ := (Res.bind_eq_ok ..).mp e
  cases e
  exact h rfl

/-- C73 is false of `DynDateTime64`: a time with another precision than 6 never comes back, not even when the zone is UTC, and a time of nine digits
loses its last three. -/
theorem C73_dynamic_false (r : Rfc3339) (hr : Rfc3339.Keeps r) (hu : WholeMinutes r tzUTC 1) (cfg : Cfg) :
    (∀ s tz v p, r.dynDe cfg s = .ok (tz, v, p) → p = 6) ∧
    ∃ s, r.dynSer cfg (tzUTC, 1000000001#64, 9) = .ok s ∧ r.dynDe cfg s = .ok (tzUTC, 1000000#64, 6) := by
  constructor
  · intro s tz v p e
    unfold Rfc3339.dynDe at e
    obtain ⟨i, _, e⟩ := (Res.bind_eq_ok ..).mp e
    obtain ⟨y, _, e⟩ := (Res.bind_eq_ok ..).mp e
    cases e
    rfl
  · obtain ⟨s, w, h1, h2, h3⟩ := C73_dynamic_partial r hr cfg 9 (by decide) tzUTC 1000000001#64 (by unfold lastSecond; decide) hu
    refine ⟨s, h1, ?_⟩
    have : w = 1000000#64 := by
      apply BitVec.eq_of_toNat_eq
      have h3 : (w.toNat : Int) = (1000000001 * ((10 ^ (9 - 9) : Nat) : Int)) / 1000 := h3
      have : ((10 ^ (9 - 9) : Nat) : Int) = 1 := rfl
      rw [this] at h3
      show w.toNat = 1000000
      omega
    rw [h2, this]

/-- C73 is false in a zone that is not whole minutes from UTC (Monrovia before 1972: 44 minutes 30 seconds): the text shows the offset to the minute,
and another instant is read, here half a minute later. -/
theorem C73_seconds_false (r : Rfc3339) (hr : Rfc3339.Keeps r) (tz : Tz) (h : r.offset tz 86400 = -2670) :
    ∃ s, r.dateTimeSer (tz, 86400#32) = .ok s ∧ r.dateTimeDe s = .ok (tzUTC, 86430#32) := by
  refine ⟨r.text tz ⟨86400, 0⟩, rfl, ?_⟩
  unfold Rfc3339.dateTimeDe
  rw [read_text hr tz ⟨86400, 0⟩ (by decide) (by unfold lastSecond; decide) (by decide)]
  simp only [h]
  rfl

/-! ### such libraries exist -/

/-- Numbers written one after the other, in unary with a sign. -/
def unary (n : Int) : Str := (if n < 0 then '-' else '+') :: List.replicate n.natAbs '1' ++ ['.']

/-- The first number of a text. -/
def takeUnary : Str → Option (Int × Str)
  | [] => none
  | c :: s => some ((if c = '-' then -1 else 1) * ((s.takeWhile (· = '1')).length : Int), (s.dropWhile (· = '1')).drop 1)

theorem takeUnary_unary (n : Int) (s : Str) : takeUnary (unary n ++ s) = some (n, s) := by
  unfold unary takeUnary
  simp only [List.cons_append, List.append_assoc]
  have h1 : ∀ (k : Nat) (s : Str), ((List.replicate k '1' ++ ('.' :: s)).takeWhile (fun c => decide (c = '1'))).length = k := by
    intro k s
    induction k with
    | zero => rfl
    | succ k ih => simp [List.replicate_succ, ih]
  have h2 : ∀ (k : Nat) (s : Str), ((List.replicate k '1' ++ ('.' :: s)).dropWhile (fun c => decide (c = '1'))).drop 1 = s := by
    intro k s
    induction k with
    | zero => rfl
    | succ k ih => simpa [List.replicate_succ] using ih
  rw [List.nil_append, h1, h2]
  by_cases h : n < 0
  · simp only [h, if_true]
    congr 2
    omega
  · simp only [h, if_false]
    rw [if_neg (by decide)]
    congr 2
    omega

/-- A library with two zones: UTC, and Monrovia. -/
def exRfc : Rfc3339 where
  offset tz _ := if tz = ch! "Africa/Monrovia" then -2670 else 0
  format l n m := unary l ++ (unary n ++ unary m)
  parse s := takeUnary s |>.bind fun a => takeUnary a.2 |>.bind fun b => takeUnary b.2 |>.bind fun c => some (a.1, b.1.toNat, c.1)
  formatDay d := unary d
  parseDay s := takeUnary s |>.map (·.1)

theorem exRfc_keeps : Rfc3339.Keeps exRfc := by
  refine ⟨?_, ?_, ?_⟩
  · intro tz secs
    show -86400 < (if tz = ch! "Africa/Monrovia" then (-2670 : Int) else 0) ∧ (if tz = ch! "Africa/Monrovia" then (-2670 : Int) else 0) < 86400
    split <;> omega
  · intro l n m _ _ _ _ _
    have h3 := takeUnary_unary m []
    rw [List.append_nil] at h3
    simp only [exRfc, takeUnary_unary, h3, Option.bind_some, Int.toNat_natCast]
  · intro d _ _
    show (takeUnary (unary d) |>.map _) = _
    have := takeUnary_unary d []
    rw [List.append_nil] at this
    rw [this]
    rfl

example := C73_datetime_partial exRfc exRfc_keeps tzUTC 86400#32 rfl
example := C73_datetime64_partial exRfc exRfc_keeps cfgDebug 3 (by decide) (ch! "Europe/Berlin") 1700000000123#64 (by unfold lastSecond; decide) rfl
example := C73_seconds_false exRfc exRfc_keeps (ch! "Africa/Monrovia") rfl
example := C73_dynamic_false exRfc exRfc_keeps rfl cfgDebug

end Klick
