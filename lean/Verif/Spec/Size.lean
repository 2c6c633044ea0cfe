import Verif.Spec.Layout
/-
Specification vocabulary: how much room values take, in memory and on the wire (C89).
-/
namespace Klick.Spec
open Klick

mutual
/-- The sum over everything a value is made of: one for each value, and for a string what `text` says. -/
def weigh (text : Bytes → Nat) : Value → Nat
  | .string b => text b
  | .array xs => 1 + weighAll text xs
  | .tuple xs => 1 + weighAll text xs
  | .map ks vs => 1 + weighAll text ks + weighAll text vs
  | .ring r => 1 + r.length
  | .polygon r => 1 + (r.map fun q => 1 + q.length).sum
  | .multiPolygon r => 1 + (r.map fun q => 1 + (q.map fun u => 1 + u.length).sum).sum
  | _ => 1
/-- The sum of several. -/
def weighAll (text : Bytes → Nat) : List Value → Nat
  | [] => 0
  | v :: vs => weigh text v + weighAll text vs
end

/-- How many values there are, counting those inside others. -/
def valuesIn (vs : List Value) : Nat := weighAll (fun _ => 1) vs

/-- The memory they take, up to a constant factor: one for each value and one for each byte of a string. -/
def memoryOf (vs : List Value) : Nat := weighAll (fun b => 1 + b.length) vs

mutual
/-- Every value of the type takes room on the wire: no empty tuple and no `FixedString(0)` in it; `LowCardinality` stands only around the
types ClickHouse allows there. -/
def roomy : Ty → Bool
  | .fixedString n => n != 0
  | .tuple ts => !ts.isEmpty && roomyAll ts
  | .array t => roomy t
  | .nullable t => roomy t
  | .map k v => roomy k && roomy v
  | .lowCardinality t => t.stripNull.lcAllowed && roomy t
  | _ => true
/-- All members. -/
def roomyAll : List Ty → Bool
  | [] => true
  | t :: ts => roomy t && roomyAll ts
end

mutual
/-- How deep tuples are nested in each other. -/
def tupleDepth : Ty → Nat
  | .tuple ts => 1 + tupleDepths ts
  | .array t => tupleDepth t
  | .nullable t => tupleDepth t
  | .map k v => max (tupleDepth k) (tupleDepth v)
  | _ => 0
/-- The deepest member. -/
def tupleDepths : List Ty → Nat
  | [] => 0
  | t :: ts => max (tupleDepth t) (tupleDepths ts)
end

end Klick.Spec
