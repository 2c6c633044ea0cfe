import Verif.Scope
import Verif.Spec.NestedVec
/-
Specification vocabulary for the names in generated code (C100): what each name has to be for the code to mean what it is meant to.
-/
namespace Klick.Spec
open Klick

/-- The type names nothing that is known only inside of the `impl`: neither a parameter of the struct nor `Self`. (In macros and constant
arguments every identifier counts as a name.) -/
def Everywhere (g : Generics) (t : STy) : Prop :=
  ∀ x, x ∈ tyHeads true t ∨ x ∈ tyHeads false t → x ∉ paramNames g ∧ x ≠ ch! "Self"

/-- `t::f()` can be read as a call: `t` is a path, and its arguments, if any, are written with `::<`. (For `<T as Trait>::A`, the
arguments of the trait are counted too.) -/
def Fronts : STy → Prop
  | .path p => ∀ s ∈ p.segs, s.args = .none ∨ ∃ as, s.args = .angle true as
  | .qpath _ p => ∀ s ∈ p.segs, s.args = .none ∨ ∃ as, s.args = .angle true as
  | _ => False

/-- The last declaration of the variable is of this type. -/
def LastDeclared (decls : List (Str × LocalTy)) (v : Str) (ty : LocalTy) : Prop :=
  ∃ before after, decls = before ++ (v, ty) :: after ∧ ∀ ty', (v, ty') ∉ after

/-- Every name in the code means what it is meant to. -/
structure Meant (g : Generics) (errors : List Str) (code : RowCode) : Prop where
  /-- types in the function before the `impl` can be understood there -/
  outside : ∀ t, .type true t ∈ code.mentions → Everywhere g t
  /-- types in front of `::column_names()` can stand there -/
  front : ∀ t, .front t ∈ code.mentions → Fronts t
  /-- functions are not taken for local variables -/
  calls : ∀ p vars, .call p vars ∈ code.mentions → ∀ x ∈ vars, p ≠ [x]
  /-- errors exist -/
  errors : ∀ v, .variant v ∈ code.mentions → v ∈ errors
  /-- variables are those that were declared for the purpose -/
  vars : ∀ v ty, (v, ty) ∈ code.uses → LastDeclared code.decls v ty

/-! ### What the author of a struct has to see to -/

/-- The columns of the field itself are read by the generated code. -/
def Read (f : SField) : Prop := f.attrs.skipDe = false ∧ f.attrs.flatten = false

/-- The variables of two nested fields have different names. -/
def VarsApart (x y : Str) : Prop := x ≠ y ++ ch! "_iter" ∧ x ≠ y ++ ch! "_len" ∧ ch! "ext_" ++ x ≠ y ++ ch! "_size"

/-- The name of a local variable of the generated `deserialize_row`, there after the variables of the fields have been declared. -/
def ReadingVar (fields : List SField) (x : Str) : Prop :=
  x = ch! "map" ∨ x = ch! "map_flattened_fields" ∨ (∃ (i : Nat) (f : SField), fields[i]? = some f ∧ Read f ∧ x = ch! "__field" ++ dec i) ∨
  ∃ f ∈ fields, Read f ∧ f.attrs.nested = true ∧
    (x = ch! "__" ++ f.attrs.name ++ ch! "_size" ∨ x = ch! "__ext_" ++ f.attrs.name ∨ x = ch! "__ext_" ++ f.attrs.name ++ ch! "_iter" ∨
      x = ch! "__ext_" ++ f.attrs.name ++ ch! "_len")

/-- The field is flattened when the struct is written (nested fields and `serialize_with` go first). -/
def WritesFlat (f : SField) : Prop := f.attrs.skipSer = false ∧ f.attrs.flatten = true ∧ f.attrs.nested = false

/-- What is asked of a struct that is written as it is (without `into`). -/
structure WritesWell (g : Generics) (fields : List SField) : Prop where
  /-- nested rows do not use the parameters of the struct (unless some field is flattened) -/
  rows : (∀ f ∈ fields, f.attrs.flatten = false) → ∀ f ∈ fields, f.attrs.skipSer = false → f.attrs.nested = true →
    ∀ t, IsVec f.ty t → Everywhere g t
  /-- the types of flattened fields are plain paths -/
  flat : ∀ f ∈ fields, WritesFlat f → Fronts f.ty
  /-- `serialize_with` is not the name of a variable -/
  writers : ∀ before f after, fields = before ++ f :: after → f.attrs.skipSer = false → ∀ x, f.attrs.serWith = some [x] →
    x ≠ ch! "out" ∧ x ≠ ch! "type_hints" ∧ x ≠ ch! "self" ∧
    (x = ch! "inner_length" → ∀ h ∈ before, WritesFlat h → h.attrs.serWith ≠ none)

/-- What is asked of a struct that is read as it is (without `from` and `try_from`). -/
structure ReadsWell (c : ContainerAttrs) (fields : List SField) : Prop where
  /-- the types of flattened fields are plain paths, even if they are skipped -/
  flat : ∀ f ∈ fields, f.attrs.flatten = true → Fronts f.ty
  /-- no `deny_unknown_fields`, unless some field is flattened -/
  deny : c.denyUnknown = true → ∃ f ∈ fields, f.attrs.flatten = true
  /-- `deserialize_with` is not the name of a variable -/
  readers : ∀ f ∈ fields, Read f → f.attrs.nested = false → ∀ x, f.attrs.deWith = some [x] → ¬ ReadingVar fields x ∧
    x ≠ ch! "_field_index" ∧ x ≠ ch! "_name" ∧ x ≠ ch! "_type_" ∧ x ≠ ch! "_value" ∧ (x = ch! "x" → ∃ h ∈ fields, h.attrs.flatten = true)
  /-- nor is `default` on the struct -/
  default : ∀ x, c.default = .path [x] → ¬ ReadingVar fields x
  /-- nor `default` on a field, except one that is flattened and not skipped -/
  defaults : ∀ f ∈ fields, f.attrs.skipDe = true ∨ f.attrs.flatten = false → ∀ x, f.attrs.default = .path [x] →
    ¬ ReadingVar fields x ∧ (x = ch! "__default" → c.default = .none)
  /-- the variables of nested fields differ -/
  apart : ∀ f ∈ fields, ∀ h ∈ fields, Read f → Read h → f.attrs.nested = true → h.attrs.nested = true → VarsApart f.attrs.name h.attrs.name

end Klick.Spec
