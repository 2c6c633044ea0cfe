import Verif.Spec.TypeText
/-
Specification vocabulary: how deeply types are nested (C93).
-/
namespace Klick.Spec
open Klick

mutual
/-- How many types are nested in each other: 0 for a type without components. -/
def depth : Ty → Nat
  | .array t | .nullable t | .lowCardinality t => 1 + depth t
  | .map k v => 1 + max (depth k) (depth v)
  | .tuple ts => 1 + depths ts
  | _ => 0
/-- The deepest of several. -/
def depths : List Ty → Nat
  | [] => 0
  | t :: ts => max (depth t) (depths ts)
end

/-- `Array(Array(… String …))`. -/
def arrays : Nat → Ty
  | 0 => .string
  | n + 1 => .array (arrays n)

end Klick.Spec
