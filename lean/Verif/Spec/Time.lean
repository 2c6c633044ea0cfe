import Verif.Dates
import Verif.Spec.Calendar
/-
Specification vocabulary for dates and times (C47, C48).
-/
namespace Klick.Spec
open Klick

/-- Nanoseconds since 1970-01-01T00:00:00Z. -/
def Inst.ns (i : Inst) : Int := i.secs * 10 ^ 9 + i.nanos

/-- The instants chrono can represent. -/
def Inst.Valid (i : Inst) : Prop :=
  chronoMin ≤ i.secs ∧ i.secs ≤ chronoMax ∧ i.nanos < 2 * 10 ^ 9 ∧ (10 ^ 9 ≤ i.nanos → i.secs % 60 = 59)

/-- Nanoseconds per unit of a time with `p` decimal digits of sub-second precision. -/
def unitNs (p : Nat) : Nat := 10 ^ (9 - p)

/-- Days from 1970-01-01 to the first of January of a year, also of years before 1970: 365 days a year and one for every leap
year in between (477 of them from year 1 to 1969). -/
def daysBefore (y : Int) : Int := 365 * (y - 1970) + ((y - 1) / 4 - (y - 1) / 100 + (y - 1) / 400) - 477

/-- Rounding a number of nanoseconds down to `p` digits. -/
def truncNs (p : Nat) (n : Int) : Int := n - n % unitNs p

end Klick.Spec
