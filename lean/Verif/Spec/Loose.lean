import Verif.Loose
import Verif.Spec.Scope
/-
Specification vocabulary for the bare names in generated code (C108): what a module says about names, and when the code is understood there
as it is meant.
-/
namespace Klick.Spec
open Klick

/-- A module of the user: which names stand there for the type (or crate), the variant or the macro of the standard library (or of
klickhouse) that usually has the name; which traits of these are in scope; and which names are constants, statics, or structs or variants
without fields. -/
structure Place where
  types : Str → Prop
  variants : Str → Prop
  macros : Str → Prop
  traits : Str → Prop
  consts : Str → Prop

/-- The constant parameters of the struct. -/
def constParams (g : Generics) : List Str := g.params.filterMap fun | .const x => some x | _ => none

/-- The name is understood as it is meant. In the `impl` the parameters of the struct come first; a variable must not be the name of a
constant. -/
def Understood (p : Place) (g : Generics) : LooseName → Prop
  | .type outside x => p.types x ∧ (outside = false → x ∉ g.typeParams)
  | .variant outside x => p.variants x ∧ (outside = false → x ∉ constParams g)
  | .macro x => p.macros x
  | .method t => p.traits t
  | .binder outside x => ¬ p.consts x ∧ (outside = false → x ∉ constParams g)

/-- All of them are. -/
def AllUnderstood (p : Place) (g : Generics) (code : List LooseName) : Prop := ∀ b ∈ code, Understood p g b

/-- The names of variables in the generated code, with those that depend on the fields: `__field` with a number, and for a nested field
`x`: `__x_size`, `__ext_x`, `__ext_x_iter` and `__ext_x_len`. -/
def VariableName (fields : List SField) (x : Str) : Prop :=
  x ∈ [ch! "map", ch! "type_hints", ch! "out", ch! "x", ch! "e", ch! "v", ch! "c", ch! "c2", ch! "idx", ch! "col", ch! "ty", ch! "val", ch! "i",
    ch! "row", ch! "name", ch! "type_", ch! "value", ch! "values", ch! "temp", ch! "map2", ch! "outputs", ch! "columns", ch! "full_name",
    ch! "inner_length", ch! "column_names", ch! "map_flattened_fields", ch! "_field_index", ch! "_name", ch! "_type_", ch! "_value", ch! "__default"] ∨
  (∃ i : Nat, x = ch! "__field" ++ dec i) ∨
  ∃ f ∈ fields, f.attrs.nested = true ∧ (x = ch! "__" ++ f.attrs.name ++ ch! "_size" ∨ x = ch! "__ext_" ++ f.attrs.name ∨
    x = ch! "__ext_" ++ f.attrs.name ++ ch! "_iter" ∨ x = ch! "__ext_" ++ f.attrs.name ++ ch! "_len")

/-- The columns of the struct are read by the generated code (there is no `from` or `try_from`). -/
def ReadsFields (c : ContainerAttrs) : Prop := c.typeFrom = none ∧ c.typeTryFrom = none

/-- What the generated code of a struct takes for granted about the module. (Its own variables apart.) -/
structure TakesForGranted (p : Place) (g : Generics) (c : ContainerAttrs) (fields : List SField) : Prop where
  /-- always these types -/
  types : ∀ x ∈ [ch! "Option", ch! "Vec", ch! "String", ch! "str", ch! "usize"], p.types x ∧ x ∉ g.typeParams
  /-- `std` when the columns are read -/
  std : ReadsFields c → p.types (ch! "std") ∧ ch! "std" ∉ g.typeParams
  /-- `klickhouse` when a flattened field is read -/
  crate : ReadsFields c → (∃ f ∈ fields, f.attrs.flatten = true ∧ f.attrs.skipDe = false) → p.types (ch! "klickhouse") ∧ ch! "klickhouse" ∉ g.typeParams
  /-- `None` when the number of columns may be unknown -/
  noneThere : c.typeInto ≠ none ∨ (∃ f ∈ fields, f.attrs.flatten = true) ∨ (∃ f ∈ fields, f.attrs.nested = true ∧ f.attrs.skipSer = false) →
    p.variants (ch! "None")
  /-- and in the `impl` with `into` and with nested fields -/
  noneInside : c.typeInto ≠ none ∨ (∃ f ∈ fields, f.attrs.nested = true ∧ f.attrs.skipSer = false ∧ f.attrs.serWith = none) ∨
    (ReadsFields c ∧ ∃ f ∈ fields, Read f ∧ f.attrs.nested = true) → p.variants (ch! "None") ∧ ch! "None" ∉ constParams g
  /-- `Some` in the list of columns and with nested fields -/
  someThere : c.typeInto = none ∨ (ReadsFields c ∧ ∃ f ∈ fields, Read f ∧ f.attrs.nested = true) → p.variants (ch! "Some") ∧ ch! "Some" ∉ constParams g
  /-- `Ok` where the columns are written -/
  okThere : c.typeInto = none → p.variants (ch! "Ok") ∧ ch! "Ok" ∉ constParams g
  /-- `vec!` there and for flattened fields that are read -/
  vec : c.typeInto = none ∨ (ReadsFields c ∧ ∃ f ∈ fields, f.attrs.flatten = true ∧ f.attrs.skipDe = false) → p.macros (ch! "vec")
  /-- `format!` for nested fields -/
  format : (c.typeInto = none ∧ ∃ f ∈ fields, f.attrs.nested = true ∧ f.attrs.skipSer = false) ∨
    (ReadsFields c ∧ ∃ f ∈ fields, Read f ∧ f.attrs.nested = true) → p.macros (ch! "format")
  /-- `assert_eq!` for nested fields that are written -/
  assert : c.typeInto = none → (∃ f ∈ fields, f.attrs.nested = true ∧ f.attrs.skipSer = false ∧ f.attrs.serWith = none) → p.macros (ch! "assert_eq")
  /-- the trait `Row` for flattened fields, except those whose type is a parameter -/
  row : (∃ f ∈ fields, f.attrs.flatten = true ∧ (∀ x ∈ g.typeParams, f.ty ≠ .path (.mk false [.mk x .none])) ∧
      ((c.typeInto = none ∧ f.attrs.skipSer = false ∧ f.attrs.nested = false) ∨ ReadsFields c)) → p.traits (ch! "Row")
  /-- traits of the prelude -/
  extend : c.typeInto = none → (∃ f ∈ fields, f.attrs.skipSer = false ∧ (f.attrs.nested = true ∨ f.attrs.flatten = true)) → p.traits (ch! "Extend")
  iterators : ReadsFields c ∨ (c.typeInto = none ∧ ∃ f ∈ fields, f.attrs.nested = true ∧ f.attrs.skipSer = false) →
    p.traits (ch! "IntoIterator") ∧ p.traits (ch! "Iterator")
  into : (c.typeInto = none ∧ ∃ f ∈ fields, f.attrs.nested = true ∧ f.attrs.skipSer = false ∧ f.attrs.serWith = none) ∨
    (ReadsFields c ∧ ∃ f ∈ fields, f.attrs.flatten = true) → p.traits (ch! "Into")
  copies : ReadsFields c → (∃ f ∈ fields, Read f ∧ f.attrs.nested = true) → p.traits (ch! "ToString") ∧ p.traits (ch! "Clone")

/-- The variables that the generated code of a struct declares. -/
inductive UsesVariable (c : ContainerAttrs) (fields : List SField) : Str → Prop
  /-- the arguments -/
  | argument {x} : x ∈ [ch! "map", ch! "type_hints"] → UsesVariable c fields x
  /-- the columns written, or their names -/
  | out : c.typeInto = none → UsesVariable c fields (ch! "out")
  /-- the number, or the name, of a nested column -/
  | inner {f} : c.typeInto = none → f ∈ fields → f.attrs.nested = true → f.attrs.skipSer = false → UsesVariable c fields (ch! "x")
  /-- writing nested rows -/
  | rows {f x} : c.typeInto = none → f ∈ fields → f.attrs.nested = true → f.attrs.skipSer = false → f.attrs.serWith = none →
      x ∈ [ch! "inner_length", ch! "outputs", ch! "row", ch! "columns", ch! "i", ch! "name", ch! "value", ch! "column_names", ch! "values"] →
      UsesVariable c fields x
  /-- writing a flattened field -/
  | flat {f} : c.typeInto = none → f ∈ fields → f.attrs.nested = false → f.attrs.flatten = true → f.attrs.skipSer = false → f.attrs.serWith = none →
      UsesVariable c fields (ch! "inner_length")
  /-- `try_from` -/
  | tried : c.typeFrom = none → c.typeTryFrom ≠ none → UsesVariable c fields (ch! "v")
  /-- reading -/
  | reading {x} : ReadsFields c →
      x ∈ [ch! "map", ch! "map_flattened_fields", ch! "_field_index", ch! "_name", ch! "_type_", ch! "_value"] → UsesVariable c fields x
  /-- the value of a field -/
  | slot {f} {i : Nat} : ReadsFields c → fields[i]? = some f → Read f → UsesVariable c fields (ch! "__field" ++ dec i)
  /-- reading nested rows -/
  | columns {f x} : ReadsFields c → f ∈ fields → Read f → f.attrs.nested = true →
      x ∈ [ch! "full_name", ch! "values", ch! "x", ch! "temp", ch! "name", ch! "type_", ch! "i", ch! "value"] → UsesVariable c fields x
  | columnsOf {f x} : ReadsFields c → f ∈ fields → Read f → f.attrs.nested = true →
      (x = ch! "__" ++ f.attrs.name ++ ch! "_size" ∨ x = ch! "__ext_" ++ f.attrs.name ∨ x = ch! "__ext_" ++ f.attrs.name ++ ch! "_iter" ∨
        x = ch! "__ext_" ++ f.attrs.name ++ ch! "_len") → UsesVariable c fields x
  /-- the error of a conversion -/
  | error {f} : ReadsFields c → f ∈ fields → Read f → f.attrs.nested = false → f.attrs.deWith = none → UsesVariable c fields (ch! "e")
  /-- reading by position -/
  | position {f} : ReadsFields c → f ∈ fields → Read f → f.attrs.nested = false → (∀ h ∈ fields, h.attrs.flatten = false) → UsesVariable c fields (ch! "x")
  /-- taking the columns of a flattened field, and reading them -/
  | pulled {f x} : ReadsFields c → f ∈ fields → f.attrs.flatten = true →
      x ∈ [ch! "c", ch! "c2", ch! "idx", ch! "col", ch! "ty", ch! "val"] → UsesVariable c fields x
  | refilled {f x} : ReadsFields c → f ∈ fields → f.attrs.flatten = true → f.attrs.skipDe = false →
      x ∈ [ch! "map2", ch! "c", ch! "ty", ch! "val"] → UsesVariable c fields x
  /-- `default` on the struct -/
  | default : ReadsFields c → c.default ≠ .none → UsesVariable c fields (ch! "__default")

/-- A module like most: the prelude and the crates are what they usually are. -/
structure Usual (p : Place) : Prop where
  types : ∀ x ∈ [ch! "Option", ch! "Vec", ch! "String", ch! "str", ch! "usize", ch! "std", ch! "klickhouse"], p.types x
  variants : ∀ x ∈ [ch! "Some", ch! "None", ch! "Ok"], p.variants x
  macros : ∀ x ∈ [ch! "vec", ch! "format", ch! "assert_eq"], p.macros x
  traits : ∀ t ∈ [ch! "Into", ch! "Iterator", ch! "IntoIterator", ch! "Extend", ch! "ToString", ch! "Clone"], p.traits t

/-- No parameter of the struct has a name the generated code uses for something else. -/
structure ParamsApart (g : Generics) (fields : List SField) : Prop where
  types : ∀ x ∈ g.typeParams, x ∉ [ch! "Option", ch! "Vec", ch! "String", ch! "str", ch! "usize", ch! "std", ch! "klickhouse"]
  consts : ∀ x ∈ constParams g, x ∉ [ch! "Some", ch! "None", ch! "Ok"] ∧ ¬ VariableName fields x

end Klick.Spec
