import Verif.NestedVec
/-
The names in the code that `#[derive(Row)]` generates, klickhouse_derive/src/row.rs: where the types of the fields are written, which
local variables there are, which functions are called by a path from an attribute, and which variants of `KlickhouseError` are named.
Other names without `::` in front are in `Loose`; names that stand for the same thing everywhere (`::std`, `::klickhouse`) are left out.
-/
namespace Klick

/-- A name of the struct's author, or of the crate, in the generated code: a type where a type is expected, in the function before the
`impl` (`outside`) or in it; a type in front of `::column_names()` where an expression is expected; a function, with the local variables
in scope there; a variant of `KlickhouseError`, klickhouse_derive/src/row.rs:81-139. -/
inductive Mention where
  | type (outside : Bool) (t : STy)
  | front (t : STy)
  | call (path : List Str) (locals : List Str)
  | variant (name : Str)

/-- The types of the local variables of `deserialize_row`: `Option<T>` for the value of field `i`, the names and types of nested columns,
their values, and numbers, klickhouse_derive/src/row.rs:398-439. -/
inductive LocalTy where
  | slot (i : Nat)
  | labels
  | values
  | number
deriving DecidableEq

/-- The generated code: its mentions, and the variables of `deserialize_row` in the order in which they are declared and, all after that,
used, klickhouse_derive/src/row.rs:81-139. -/
structure RowCode where
  mentions : List Mention
  decls : List (Str × LocalTy)
  uses : List (Str × LocalTy)

/-- `field_i`, klickhouse_derive/src/row.rs:379-381. -/
def slotName (i : Nat) : Str := ch! "__field" ++ dec i

/-- The variables of a nested field, klickhouse_derive/src/row.rs:427-432. -/
def nestedVars (name : Str) : List (Str × LocalTy) :=
  [(ch! "__" ++ name ++ ch! "_size", .number), (ch! "__ext_" ++ name, .labels), (ch! "__ext_" ++ name ++ ch! "_iter", .values),
    (ch! "__ext_" ++ name ++ ch! "_len", .number)]

/-- The row type of a nested field, klickhouse_derive/src/row.rs:149-177. -/
def SField.rows (f : SField) : List STy := f.ty.unwrapVec.toList

/-- Is any field flattened? klickhouse_derive/src/row.rs:93,529. -/
def anyFlat (fields : List SField) : Bool := fields.any fun f => f.attrs.flatten

/-- `serialize_length_body`, klickhouse_derive/src/row.rs:101-116,180-200: it stands in a function of its own, before the `impl`. -/
def lengthCode (c : ContainerAttrs) (fields : List SField) : List Mention :=
  if anyFlat fields || c.typeInto.isSome then []
  else (fields.filter fun f => !f.attrs.skipSer && f.attrs.nested).flatMap fun f => f.rows.map (.type true)

/-- `column_names_body`, klickhouse_derive/src/row.rs:202-225. -/
def namesCode (c : ContainerAttrs) (fields : List SField) : List Mention :=
  if c.typeInto.isSome then []
  else (fields.filter fun f => !f.attrs.skipSer).flatMap fun f =>
    if f.attrs.nested then f.rows.map (.type false)
    else if f.attrs.flatten then [.front f.ty]
    else []

/-- `serialize_struct_visitor`, klickhouse_derive/src/row.rs:257-325, from the local variables so far: that of a flattened field,
`inner_length`, stays in scope (row.rs:310-313). -/
def writeCode : List Str → List SField → List Mention
  | _, [] => []
  | vars, f :: fs =>
    if f.attrs.skipSer then writeCode vars fs
    else match f.attrs.serWith with
      | some p => .call p vars :: writeCode vars fs
      | none =>
        if f.attrs.nested then f.rows.map (.type false) ++ writeCode vars fs
        else if f.attrs.flatten then .front f.ty :: writeCode (ch! "inner_length" :: vars) fs
        else .type false f.ty :: writeCode vars fs

/-- `serialize_body`, klickhouse_derive/src/row.rs:124-133,141-147,227-255. -/
def serializeCode (c : ContainerAttrs) (fields : List SField) : List Mention :=
  if c.typeInto.isSome then [] else writeCode [ch! "out", ch! "type_hints", ch! "self"] fields

/-- `skip`, klickhouse_derive/src/row.rs:395. -/
def SField.passed (f : SField) : Bool := f.attrs.skipDe || f.attrs.flatten

/-- `let_values` and `nested_temp_decls`, klickhouse_derive/src/row.rs:398-407,434-439,636-637: the variables of the fields, in order. -/
def readVars (fields : List SField) : List (Str × LocalTy) :=
  (fields.zipIdx.flatMap fun (f, i) => if f.passed then [] else [(slotName i, .slot i)]) ++
    fields.flatMap fun f => if f.passed || !f.attrs.nested then [] else nestedVars f.attrs.name

/-- The local variables in scope after them: the argument, and `pull_flatten`, klickhouse_derive/src/row.rs:544-548. -/
def readScope (fields : List SField) : List Str := [ch! "map", ch! "map_flattened_fields"] ++ (readVars fields).map Prod.fst

/-- `visit`, klickhouse_derive/src/row.rs:487-513, in a name arm and in an index arm, where `x` is bound; the latter is there only
without a flattened field (row.rs:529-538). -/
def visitCode (flat : Bool) (scope : List Str) (a : FieldAttrs) (t : STy) : List Mention :=
  let row : List Str := [ch! "_field_index", ch! "_name", ch! "_type_", ch! "_value"]
  match a.deWith with
  | none => [.type false t]
  | some p => .call p (row ++ scope) :: if flat then [] else [.call p ([ch! "x"] ++ row ++ scope)]

/-- `expr_is_missing`, klickhouse_derive/src/row.rs:653-680. -/
def missingCode (scope : List Str) (c : ContainerAttrs) (a : FieldAttrs) : List Mention :=
  match a.default with
  | .default => []
  | .path p => [.call p (if c.default = .none then scope else ch! "__default" :: scope)]
  | .none => if c.default = .none then [.variant (ch! "MissingField")] else []

/-- `let_default`, klickhouse_derive/src/row.rs:619-631. -/
def defaultCode (scope : List Str) (c : ContainerAttrs) : List Mention :=
  match c.default with
  | .path p => [.call p scope]
  | _ => []

/-- `ignored_arm`, klickhouse_derive/src/row.rs:516-539: dropped with the index arms when a field is flattened. -/
def ignoredCode (c : ContainerAttrs) (fields : List SField) : List Mention :=
  if c.denyUnknown && !anyFlat fields then [.variant (ch! "UnknownField")] else []

/-- The arms of a field, klickhouse_derive/src/row.rs:398-513. -/
def armsCode (flat : Bool) (scope : List Str) (f : SField) : List Mention :=
  if f.passed then []
  else .type false f.ty ::
    if f.attrs.nested then
      f.rows.map (.type false) ++ [.variant (ch! "UnexpectedTypeWithColumn"), .variant (ch! "DeserializeError")]
    else visitCode flat scope f.attrs f.ty ++ [.variant (ch! "DuplicateField")]

/-- `pull_flatten`, klickhouse_derive/src/row.rs:544-566: for every flattened field, skipped or not. -/
def pullCode (f : SField) : List Mention :=
  if f.attrs.flatten then [.front f.ty, .variant (ch! "DeserializeError"), .variant (ch! "MissingField")] else []

/-- `extract_values` and `result`, klickhouse_derive/src/row.rs:578-617. -/
def resultCode (scope : List Str) (c : ContainerAttrs) (f : SField) : List Mention :=
  (if f.passed then [] else missingCode scope c f.attrs) ++
  if f.attrs.skipDe then missingCode scope c f.attrs
  else if f.attrs.flatten then [.front f.ty]
  else []

/-- `deserialize_map`, klickhouse_derive/src/row.rs:383-651. -/
def readCode (c : ContainerAttrs) (fields : List SField) : List Mention :=
  let scope := readScope fields
  fields.flatMap (armsCode (anyFlat fields) scope) ++ ignoredCode c fields ++ fields.flatMap pullCode ++ defaultCode scope c ++
    fields.flatMap (resultCode scope c)

/-- `deserialize_body`, klickhouse_derive/src/row.rs:336-364 (the type of `from` or `try_from` is written where a type is expected). -/
def rowCode (c : ContainerAttrs) (fields : List SField) : RowCode :=
  let shared := lengthCode c fields ++ namesCode c fields ++ serializeCode c fields
  if c.typeFrom.isSome || c.typeTryFrom.isSome then ⟨shared, [], []⟩
  else ⟨shared ++ readCode c fields, readVars fields, readVars fields⟩

/-- The variants of `KlickhouseError`, klickhouse/src/errors.rs:8-44. -/
def errorVariants : List Str :=
  [ch! "MissingRow", ch! "DoubleFetch", ch! "OutOfBounds", ch! "MissingField", ch! "DuplicateField", ch! "ProtocolError",
    ch! "TypeParseError", ch! "DeserializeError", ch! "SerializeError", ch! "DeserializeErrorWithColumn", ch! "ServerException",
    ch! "UnexpectedType", ch! "UnexpectedTypeWithColumn", ch! "Io", ch! "Utf8"]

/-- `expand_derive_serialize` after the attributes were read, klickhouse_derive/src/row.rs:81-139: `Self` is replaced, and the code is
generated or the macro panics. -/
def expandRow (part : Char → Bool) (name : Str) (g : Generics) (c : ContainerAttrs) (fields : List SField) : Compiled RowCode :=
  let fields' := (replaceReceiver name g fields).2
  match expandNested part c fields' with
  | .ok _ => .ok (rowCode c fields')
  | .errors es => .errors es
  | .panic => .panic

end Klick
