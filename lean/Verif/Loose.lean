import Verif.Scope
/-
The names that the code generated by `#[derive(Row)]` writes without `::` in front, klickhouse_derive/src/row.rs and dummy.rs: what they
stand for is decided by the module in which the struct is declared, for the code is placed there (in an anonymous constant) and its
identifiers have the span of the call. Names that are generated from the struct (`Scope`) and names of methods that the types have
themselves are left out; attributes (`automatically_derived`, `allow`, `doc`) too.
-/
namespace Klick

/-- A bare name in the generated code, in the function before the `impl` (`outside`) or in it: of a type, or of the crate or module a
relative path starts with; of a variant used as a function or in a pattern; of a macro; a trait whose methods are called as methods, or,
for a flattened field, as functions of the field's type; a variable where it is declared (patterns look constants up first),
klickhouse_derive/src/row.rs:99-138. -/
inductive LooseName where
  | type (outside : Bool) (x : Str)
  | variant (outside : Bool) (x : Str)
  | macro (x : Str)
  | method (trait : Str)
  | binder (outside : Bool) (x : Str)
deriving DecidableEq

/-- Calling `#ty::column_names()` and `.serialize_row(..)` for a flattened field: `Row` has to be in scope unless the type is a parameter of
the struct, whose bounds then provide the method, klickhouse_derive/src/row.rs:218,310-313,555,608. -/
def rowMethod (g : Generics) (t : STy) : List LooseName :=
  match t with
  | .path (.mk false [.mk x .none]) => if x ∈ g.typeParams then [] else [.method (ch! "Row")]
  | _ => [.method (ch! "Row")]

/-- The binders of these names in the `impl`, klickhouse_derive/src/row.rs:112-135. -/
def binders (xs : List Str) : List LooseName := xs.map (.binder false)

/-- The signatures, klickhouse_derive/src/row.rs:109,119-133, with `::std::option::Option<usize>` before and in the `impl`. -/
def signatureLoose : List LooseName :=
  [.type true (ch! "usize"), .type false (ch! "usize"), .type false (ch! "Option"), .type false (ch! "Vec"), .type false (ch! "str"),
    .type false (ch! "String")] ++ binders [ch! "map", ch! "type_hints"]

/-- `serialize_length_body`, klickhouse_derive/src/row.rs:101-105,180-200. -/
def lengthLoose (c : ContainerAttrs) (fields : List SField) : List LooseName :=
  if anyFlat fields || c.typeInto.isSome then [.variant true (ch! "None")]
  else .variant true (ch! "Some") ::
    (fields.filter fun f => !f.attrs.skipSer && f.attrs.nested).flatMap fun _ =>
      [.variant true (ch! "Some"), .binder true (ch! "x"), .variant true (ch! "None")]

/-- `column_names_body`, klickhouse_derive/src/row.rs:202-225. -/
def namesLoose (g : Generics) (c : ContainerAttrs) (fields : List SField) : List LooseName :=
  if c.typeInto.isSome then [.variant false (ch! "None")]
  else binders [ch! "out"] ++ [.variant false (ch! "Some")] ++
    (fields.filter fun f => !f.attrs.skipSer).flatMap fun f =>
      if f.attrs.nested then [.method (ch! "Extend"), .method (ch! "IntoIterator"), .method (ch! "Iterator"), .macro (ch! "format")] ++ binders [ch! "x"]
      else if f.attrs.flatten then .method (ch! "Extend") :: rowMethod g f.ty
      else []

/-- `serialize_struct_visitor` for one field, klickhouse_derive/src/row.rs:257-325. -/
def writeFieldLoose (g : Generics) (f : SField) : List LooseName :=
  if f.attrs.skipSer || f.attrs.serWith.isSome then []
  else if f.attrs.nested then
    binders [ch! "inner_length", ch! "outputs", ch! "row", ch! "columns", ch! "i", ch! "name", ch! "value", ch! "column_names", ch! "values"] ++
      [.type false (ch! "str"), .variant false (ch! "None"), .variant false (ch! "Some"), .macro (ch! "assert_eq"), .macro (ch! "format"),
        .method (ch! "IntoIterator"), .method (ch! "Iterator"), .method (ch! "Into")]
  else if f.attrs.flatten then binders [ch! "inner_length"] ++ [.method (ch! "Extend")] ++ rowMethod g f.ty
  else []

/-- `serialize_body`, klickhouse_derive/src/row.rs:141-147,227-255: with `into` nothing is bare. -/
def serializeLoose (g : Generics) (c : ContainerAttrs) (fields : List SField) : List LooseName :=
  if c.typeInto.isSome then []
  else binders [ch! "out"] ++ [.macro (ch! "vec"), .variant false (ch! "Ok")] ++ fields.flatMap (writeFieldLoose g)

/-- The arms of a field that is read, and what becomes of it afterwards, klickhouse_derive/src/row.rs:398-513,578-594. -/
def readFieldLoose (flat : Bool) (f : SField) (i : Nat) : List LooseName :=
  if f.passed then []
  else .binder false (slotName i) ::
    if f.attrs.nested then
      binders ((nestedVars f.attrs.name).map Prod.fst) ++
        [.type false (ch! "Vec"), .type false (ch! "str"), .type false (ch! "usize"), .macro (ch! "format"), .variant false (ch! "None"),
          .variant false (ch! "Some"), .method (ch! "ToString"), .method (ch! "Clone"), .method (ch! "IntoIterator"), .method (ch! "Iterator")] ++
        binders [ch! "full_name", ch! "values", ch! "x", ch! "temp", ch! "name", ch! "type_", ch! "i", ch! "value"]
    else (match f.attrs.deWith with | none => binders [ch! "e"] | some _ => []) ++ if flat then [] else binders [ch! "x"]

/-- `pull_flatten` for one field, klickhouse_derive/src/row.rs:549-566. -/
def pullLoose (g : Generics) (f : SField) : List LooseName :=
  if f.attrs.flatten then
    binders [ch! "c", ch! "c2", ch! "idx", ch! "col", ch! "ty", ch! "val"] ++ [.method (ch! "Into"), .method (ch! "Iterator")] ++ rowMethod g f.ty
  else []

/-- `result` for one field, klickhouse_derive/src/row.rs:596-617: the flattened ones that are not skipped. -/
def refillLoose (g : Generics) (f : SField) : List LooseName :=
  if !f.attrs.skipDe && f.attrs.flatten then
    binders [ch! "map2", ch! "c", ch! "ty", ch! "val"] ++ [.macro (ch! "vec"), .type false (ch! "std"), .type false (ch! "str"),
      .type false (ch! "klickhouse")] ++ rowMethod g f.ty
  else []

/-- `deserialize_map`, klickhouse_derive/src/row.rs:383-651, with `let mut map`, `std::collections::HashMap::<&str, ..>` and the loop over the
columns, which are always there (row.rs:544-548,568-576). -/
def readLoose (g : Generics) (c : ContainerAttrs) (fields : List SField) : List LooseName :=
  (fields.zipIdx.flatMap fun (f, i) => readFieldLoose (anyFlat fields) f i) ++
    binders [ch! "map", ch! "map_flattened_fields", ch! "_field_index", ch! "_name", ch! "_type_", ch! "_value"] ++
    [.type false (ch! "std"), .type false (ch! "str"), .method (ch! "IntoIterator"), .method (ch! "Iterator")] ++
    fields.flatMap (pullLoose g) ++ fields.flatMap (refillLoose g) ++ (if c.default = .none then [] else binders [ch! "__default"])

/-- `deserialize_body`, klickhouse_derive/src/row.rs:336-364: with `from` nothing is bare, with `try_from` the variable of a closure. -/
def deserializeLoose (g : Generics) (c : ContainerAttrs) (fields : List SField) : List LooseName :=
  if c.typeFrom.isSome then []
  else if c.typeTryFrom.isSome then binders [ch! "v"]
  else readLoose g c fields

/-- All bare names of the generated code, klickhouse_derive/src/row.rs:81-139. -/
def looseCode (g : Generics) (c : ContainerAttrs) (fields : List SField) : List LooseName :=
  signatureLoose ++ lengthLoose c fields ++ namesLoose g c fields ++ serializeLoose g c fields ++ deserializeLoose g c fields

end Klick
