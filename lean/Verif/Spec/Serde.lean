import Verif.Serde
import Verif.Spec.Time
/-
Specification vocabulary for texts of dates and times (C73).
-/
namespace Klick.Spec
open Klick

/-- 0000-01-01T00:00:00 and 9999-12-31T23:59:59 of the wall clock. -/
def firstSecond : Int := -62167219200
def lastSecond : Int := 253402300799

/-- What chrono promises: times of the years 0 to 9999 and all days of the first two centuries are read as they were written; offsets are
less than a day. -/
structure Rfc3339.Keeps (r : Rfc3339) : Prop where
  offset : ∀ tz secs, -86400 < r.offset tz secs ∧ r.offset tz secs < 86400
  time : ∀ l n m, firstSecond ≤ l → l ≤ lastSecond → n < 1000000000 → -1440 ≤ m → m ≤ 1440 → r.parse (r.format l n m) = some (l, n, m)
  day : ∀ d, 0 ≤ d → d < 65536 → r.parseDay (r.formatDay d) = some d

/-- The zone is a whole number of minutes from UTC at this instant (all are, today; Monrovia was not until 1972). -/
def WholeMinutes (r : Rfc3339) (tz : Tz) (secs : Int) : Prop := r.offset tz secs % 60 = 0

end Klick.Spec
