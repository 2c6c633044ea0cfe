import Verif.Convert
/-
Dates and times: klickhouse/src/values/date.rs, and the `chrono` types' `ToSql`/`FromSql`.

A `chrono::NaiveDate` (and the deprecated `chrono::Date<Utc>`) is represented by its day number, counted
from 1970-01-01. A `chrono::DateTime<Tz>` is represented by its zone and its instant: the seconds since
1970-01-01T00:00:00Z rounded down (`timestamp()`) and the nanoseconds within the second
(`timestamp_subsec_nanos()`, up to 1 999 999 999 in a leap second). `with_timezone` and `fixed_offset`
keep the instant. The serde impls (RFC 3339 text) are in `Serde`.
-/
namespace Klick

/-! ### `Date` -/

/-- `From<Date> for NaiveDate` and for `chrono::Date<Utc>`, klickhouse/src/values/date.rs:55-61,76-80. The
addition cannot leave chrono's range. -/
def dateToDay (d : BitVec 16) : Int := d.toNat

/-- `From<NaiveDate> for Date` and from `chrono::Date<Utc>`: `num_days() as u16`,
klickhouse/src/values/date.rs:63-74,82-90. -/
def dateOfDay (day : Int) : BitVec 16 := BitVec.ofInt 16 day

/-! ### Instants -/

/-- A point in time as chrono stores it, klickhouse/src/values/date.rs:148-178. -/
structure Inst where
  secs : Int
  nanos : Nat
deriving DecidableEq, Repr

/-- The timestamps of the first and last second chrono can represent (`DateTime::<Utc>::MIN_UTC`, `MAX_UTC`,
chrono 0.4.44 of Cargo.lock), klickhouse/src/values/date.rs:148-178. -/
def chronoMin : Int := -8334601228800
/-- The last second, see `chronoMin`; klickhouse/src/values/date.rs:148-178. -/
def chronoMax : Int := 8210266876799

/-- `timestamp_opt` of chrono: nothing outside the range, or for nanoseconds that are none, klickhouse/src/values/date.rs:148-178,348-376. -/
def timestampOpt (secs : Int) (nanos : Nat) : Option Inst :=
  if chronoMin ≤ secs ∧ secs ≤ chronoMax ∧ nanos < 2000000000 ∧ (1000000000 ≤ nanos → secs % 60 = 59)
  then some ⟨secs, nanos⟩ else none

/-- `.unwrap()`, klickhouse/src/values/date.rs:148-178,348-376. -/
def unwrapInst : Option Inst → Res Inst
  | some i => .ok i
  | none => .panic

/-! ### Machine arithmetic -/

/-- `10uN.pow(e)` for an unsigned type of `bits` bits, klickhouse/src/values/date.rs:348-376. -/
def powTen (cfg : Cfg) (bits e : Nat) : Res Nat :=
  if 10 ^ e < 2 ^ bits then .ok (10 ^ e) else if cfg.overflowChecks then .panic else .ok (10 ^ e % 2 ^ bits)

/-- `a * b` on `u64`, klickhouse/src/values/date.rs:348-376. -/
def mulU64 (cfg : Cfg) (a b : Nat) : Res Nat :=
  if a * b < 2 ^ 64 then .ok (a * b) else if cfg.overflowChecks then .panic else .ok (a * b % 2 ^ 64)

/-- `a + b` on `u64`, klickhouse/src/values/date.rs:418-441. -/
def plusU64 (cfg : Cfg) (a b : Nat) : Res Nat :=
  if a + b < 2 ^ 64 then .ok (a + b) else if cfg.overflowChecks then .panic else .ok ((a + b) % 2 ^ 64)

/-- `9 - p as u32`, klickhouse/src/values/date.rs:348-376. -/
def nineMinus (cfg : Cfg) (p : Nat) : Res Nat :=
  if p % 2 ^ 32 ≤ 9 then .ok (9 - p % 2 ^ 32)
  else if cfg.overflowChecks then .panic else .ok (2 ^ 32 + 9 - p % 2 ^ 32)

/-- `a / b`: panics on zero in every build, klickhouse/src/values/date.rs:348-376. -/
def divNat (a b : Nat) : Res Nat := if b = 0 then .panic else .ok (a / b)
/-- `a % b`, klickhouse/src/values/date.rs:348-376. -/
def remNat (a b : Nat) : Res Nat := if b = 0 then .panic else .ok (a % b)

/-! ### `DateTime` -/

/-- `TryFrom<DateTime> for chrono::DateTime<Tz>`, `<FixedOffset>`, `<Utc>`: the instant,
klickhouse/src/values/date.rs:148-178. -/
def dateTimeToInst (x : BitVec 32) : Res Inst := unwrapInst (timestampOpt x.toNat 0)

/-- `TryFrom<chrono::DateTime<..>> for DateTime`: `timestamp().try_into()?`,
klickhouse/src/values/date.rs:180-204; `bad` is the error. -/
def dateTimeOfInst (bad : Err) (i : Inst) : Res (BitVec 32) :=
  if 0 ≤ i.secs ∧ i.secs < 2 ^ 32 then .ok (BitVec.ofNat 32 i.secs.toNat) else .err bad

/-- The zone kept by `TryFrom<chrono::DateTime<Tz>>` (`other.timezone()`, values/date.rs:184); from a
`FixedOffset` or `Utc` it is UTC (values/date.rs:188-204). -/
def dateTimeOfChrono (bad : Err) (tz : Tz) (i : Inst) : Res (Tz × BitVec 32) :=
  dateTimeOfInst bad i >>= fun x => .ok (tz, x)

/-! ### `DateTime64` -/

/-- `TryFrom<DateTime64<P>>`, `TryFrom<DynDateTime64>` for the chrono types and the `DateTime64` arm of
their `from_sql`: klickhouse/src/values/date.rs:322-339,348-376,396-409,443-469,496-524. -/
def dt64ToInst (cfg : Cfg) (bad : Err) (p v : Nat) : Res Inst :=
  powTen cfg 64 (p % 2 ^ 32) >>= fun m => divNat v m >>= fun seconds => remNat v m >>= fun units =>
  nineMinus cfg p >>= fun e => powTen cfg 64 e >>= fun f => mulU64 cfg units f >>= fun ns =>
  if seconds < 2 ^ 63 then
    if ns < 2 ^ 32 then unwrapInst (timestampOpt seconds ns) else .err bad
  else .err bad

/-- `TryFrom<chrono::DateTime<..>> for DateTime64<P>`, `DynDateTime64::try_from_utc`, `try_from_tz`:
klickhouse/src/values/date.rs:418-441,471-494. -/
def dt64OfInst (cfg : Cfg) (bad : Err) (p : Nat) (i : Inst) : Res Nat :=
  if 0 ≤ i.secs then
    powTen cfg 64 (p % 2 ^ 32) >>= fun m => mulU64 cfg i.secs.toNat m >>= fun a =>
    nineMinus cfg p >>= fun e => powTen cfg 64 e >>= fun f => divNat i.nanos f >>= fun b => plusU64 cfg a b
  else .err bad

/-- The error of `chrono`'s `to_sql`, klickhouse/src/values/date.rs:308-310. -/
def chronoErr64 : Err := .deserialize (ch! "failed to convert DateTime64: TryFromIntError(())")
/-- The error of `chrono`'s `from_sql`, klickhouse/src/values/date.rs:329-333. -/
def chronoErr : Err := .deserialize (ch! "failed to convert DateTime: TryFromIntError(())")

/-- `timestamp_micros()` of chrono (never overflows an `i64` for an instant in chrono's range), klickhouse/src/values/date.rs:304-314. -/
def timestampMicros (i : Inst) : Int := i.secs * 1000000 + (i.nanos / 1000 : Nat)

/-- `to_sql` of `chrono::DateTime<Utc>` and `<Tz>`, klickhouse/src/values/date.rs:304-314,378-388. -/
def chronoToSql (tz : Tz) (i : Inst) : Res Value :=
  if 0 ≤ timestampMicros i then .ok (.dateTime64 tz (BitVec.ofNat 64 (timestampMicros i).toNat) 6)
  else .err chronoErr64

/-- `from_sql` of `chrono::DateTime<Tz>`, klickhouse/src/values/date.rs:390-416, and of
`chrono::DateTime<Utc>` (316-346; the zone of the result is then UTC). -/
def chronoFromSql (cfg : Cfg) (t : Ty) (v : Value) : Res (Tz × Inst) :=
  match t with
  | .dateTime64 _ _ | .dateTime _ =>
    match v with
    | .dateTime64 tz x p => dt64ToInst cfg chronoErr p x.toNat >>= fun i => .ok (tz, i)
    | .dateTime tz x => dateTimeToInst x >>= fun i => .ok (tz, i)
    | _ => .panic
  | t => .err (unexpectedType t)

end Klick
