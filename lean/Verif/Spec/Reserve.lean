import Verif.Spec.Size
/-
Specification vocabulary: how often a column's type makes the client reserve room for each row, and how much for one (C107).
-/
namespace Klick.Spec
open Klick

mutual
/-- How many reservations of up to a row's worth each row of the type is charged with, at most. -/
def weight : Ty → Nat
  | .string => 2
  | .fixedString _ => 2
  | .point => 3
  | .ring => 4
  | .polygon => 5
  | .multiPolygon => 6
  | .array t => weight t + 1
  | .nullable t => weight t + 1
  | .tuple ts => heaviest ts + 1
  | .map k v => max (weight k) (weight v) + 2
  | .lowCardinality t => weight t
  | _ => 1
/-- The heaviest member. -/
def heaviest : List Ty → Nat
  | [] => 1
  | t :: ts => max (weight t) (heaviest ts)
end

mutual
/-- The largest width of a `FixedString` in the type. -/
def widest : Ty → Nat
  | .fixedString n => n
  | .array t => widest t
  | .nullable t => widest t
  | .tuple ts => widestOf ts
  | .map k v => max (widest k) (widest v)
  | .lowCardinality t => widest t
  | _ => 0
/-- The widest member. -/
def widestOf : List Ty → Nat
  | [] => 0
  | t :: ts => max (widest t) (widestOf ts)
end

end Klick.Spec
