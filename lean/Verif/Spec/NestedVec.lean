import Verif.Spec.Bound
/-
Specification vocabulary for nested fields (C81).
-/
namespace Klick.Spec
open Klick

/-- The struct itself writes the field (it is not skipped, and the struct is not written as another type). -/
def WritesField (c : ContainerAttrs) (a : FieldAttrs) : Prop := c.typeInto = none ∧ a.skipSer = false

/-- The struct itself reads the field's own columns (it is not skipped or flattened, and the struct is not read from another type). -/
def ReadsField (c : ContainerAttrs) (a : FieldAttrs) : Prop :=
  c.typeFrom = none ∧ c.typeTryFrom = none ∧ a.skipDe = false ∧ a.flatten = false

/-- The type is written `Vec<T>` (or `Vec::<T>`, which means the same), with nothing before `Vec`. -/
def IsVec (ty t : STy) : Prop := ∃ turbo, ty = .path (.mk false [.mk (ch! "Vec") (.angle turbo [.type t])])

end Klick.Spec
