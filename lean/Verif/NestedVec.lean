import Verif.Bound
/-
Nested fields as `#[derive(Row)]` sees them when it generates code: klickhouse_derive/src/row.rs:149-177, and the places that ask for
the row type of a nested field.
-/
namespace Klick

/-- `unwrap_vec_type`, klickhouse_derive/src/row.rs:149-177. -/
def STy.unwrapVec : STy → Option STy
  | .path (.mk lead segs) =>
    if lead then none
    else match segs with
      | [.mk id args] =>
        if id = ch! "Vec" then
          match args with
          | .angle _ [.type t] => some t
          | _ => none
        else none
      | _ => none
  | _ => none

/-- Is some field's type needed and not there? `.expect("invalid non-Vec nested type")`, klickhouse_derive/src/row.rs:149-225. -/
def noVec (fields : List SField) (used : FieldAttrs → Bool) : Bool :=
  fields.any fun f => used f.attrs && f.attrs.nested && f.ty.unwrapVec.isNone

/-- `serialize_length_body`, klickhouse_derive/src/row.rs:180-200, called only without a flattened field (row.rs:101-105). -/
def lengthPanics (c : ContainerAttrs) (fields : List SField) : Bool :=
  !fields.any (fun f => f.attrs.flatten) && c.typeInto.isNone && noVec fields fun a => !a.skipSer

/-- `column_names_body`, klickhouse_derive/src/row.rs:202-225. -/
def namesPanics (c : ContainerAttrs) (fields : List SField) : Bool := c.typeInto.isNone && noVec fields fun a => !a.skipSer

/-- `serialize_body`, klickhouse_derive/src/row.rs:141-147,257-325. -/
def serPanics (c : ContainerAttrs) (fields : List SField) : Bool :=
  c.typeInto.isNone && noVec fields fun a => !a.skipSer && a.serWith.isNone

/-- `deserialize_body`, klickhouse_derive/src/row.rs:336-344,395,418-431: besides the type, `format_ident!` panics when the name is
no identifier; `part` says which characters may stand in one (`unicode_ident`, external). -/
def dePanics (part : Char → Bool) (c : ContainerAttrs) (fields : List SField) : Bool :=
  c.typeFrom.isNone && c.typeTryFrom.isNone &&
    (noVec fields (fun a => !(a.skipDe || a.flatten)) ||
     fields.any fun f => !(f.attrs.skipDe || f.attrs.flatten) && f.attrs.nested && !f.attrs.name.all part)

/-- Generating the code of a struct, klickhouse_derive/src/row.rs:95-105: the row types of the nested fields, or a panic. -/
def expandNested (part : Char → Bool) (c : ContainerAttrs) (fields : List SField) : Compiled (List (Option STy)) :=
  if dePanics part c fields || namesPanics c fields || serPanics c fields || lengthPanics c fields then .panic
  else .ok (fields.map fun f => if f.attrs.nested then f.ty.unwrapVec else none)

end Klick
