import Verif.ValueSerde
import Verif.Spec.Shown
/-
Specification vocabulary for values carried by serde (C110).
-/
namespace Klick.Spec
open Klick

mutual
/-- The value with all its times in UTC and all its `DateTime64` at six digits, what is beyond them cut off; the rest as it is. -/
def inUtc : Value → Value
  | .dateTime _ x => .dateTime tzUTC x
  | .dateTime64 _ x p => .dateTime64 tzUTC (BitVec.ofNat 64 (x.toNat * unitNs p / 1000)) 6
  | .array xs => .array (allInUtc xs)
  | .tuple xs => .tuple (allInUtc xs)
  | .map ks vs => .map (allInUtc ks) (allInUtc vs)
  | v => v
def allInUtc : List Value → List Value
  | [] => []
  | v :: vs => inUtc v :: allInUtc vs
end

/-- The times in a value can be written: each `DateTime64` has up to nine digits and is before the last day of the year 9999, and the zones
are whole minutes from UTC. -/
structure TimesFine (r : Rfc3339) (v : Value) : Prop where
  datetime : ∀ tz x, PartOf (.dateTime tz x) v → WholeMinutes r tz x.toNat
  datetime64 : ∀ tz x p, PartOf (.dateTime64 tz x p) v →
    p ≤ 9 ∧ ((x.toNat / 10 ^ p : Nat) : Int) ≤ lastSecond - 86400 ∧ WholeMinutes r tz (x.toNat / 10 ^ p : Nat)

/-- Writing the value with serde and reading what was written. -/
def serdeBack (cfg : Cfg) (r : Rfc3339) (v : Value) : Res Value := v.ser cfg r >>= Value.de cfg r

/-- What is read is a time of the years up to 9999 (RFC 3339 has four digits for the year; a leap second has up to two billion nanoseconds)
and an offset of at most a day. -/
def FourDigitYears (r : Rfc3339) : Prop :=
  ∀ s l n m, r.parse s = some (l, n, m) → l ≤ lastSecond ∧ n < 2000000000 ∧ -1440 ≤ m

end Klick.Spec
