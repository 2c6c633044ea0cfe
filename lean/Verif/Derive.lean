import Verif.RawRow
import Verif.Block
/-
`#[derive(Row)]`: the code generated by klickhouse_derive/src/row.rs for a struct, as a function of its fields and
attributes. The parsing of attributes (attr.rs, ast.rs, ctxt.rs) is in Attr.lean, the generics (bound.rs, receiver.rs) in
Bound.lean: the model here starts from the parsed attributes. `deny_unknown_fields` is left out: the code it generates names
`KlickhouseError::UnknownField`, which does not exist, so such a struct compiles only when a field is flattened, and
then the attribute has no effect (row.rs:517-540). A field cannot be nested and flattened: a nested field is declared as
`Vec<T>` (row.rs:149-177), and `Vec<T>::column_names()`, which is generated for a flattened one (row.rs:218), does not parse.
-/
namespace Klick

/-- The trait `Row`, klickhouse/src/convert/mod.rs:47-60: `COLUMN_COUNT`, `column_names`, `deserialize_row`,
`serialize_row` of a type `α`. -/
structure RowImpl (α : Type) where
  columnCount : Option Nat
  columnNames : Option (List Str)
  de : List Cell → Res α
  ser : IMap Ty → α → Res (List (Str × Value))

/-- What a field is: a plain column, `#[klickhouse(nested)]` (a `Vec` of rows) or `#[klickhouse(flatten)]`. The
conversions of a plain field are those of its type, or `deserialize_with`; `annotate` says whether errors get the column name
(not with `deserialize_with`), klickhouse_derive/src/row.rs:316-320,487-497. On nested and flattened fields `deserialize_with`
has no effect (row.rs:482,595-614). -/
inductive Kind : Type → Type 1 where
  | plain {α : Type} (ser : Option Ty → α → Res Value) (de : Ty → Value → Res α) (annotate : Bool) : Kind α
  | nested {β : Type} (inner : RowImpl β) : Kind (List β)
  | flatten {α : Type} (inner : RowImpl α) : Kind α

/-- A field with its attributes: `name` is the column name after renaming, `ident` the Rust name, `default` the
field's own default, `serWith` the function given with `serialize_with`, which may be given for any kind of field
(klickhouse_derive/src/row.rs:269-274). -/
structure Field (α : Type) where
  name : Str
  ident : Str
  skipSer : Bool
  skipDe : Bool
  default : Option α
  kind : Kind α
  serWith : Option (α → Res Value)

/-- The variables of one field while reading: `__field{i}`, and for a nested one `__ext_{name}` together with
`__ext_{name}_iter` (column label, element type, values), klickhouse_derive/src/row.rs:398-407,434-439. Simplification: every field has its own, although two
nested fields of the same column name share theirs; such structs are not modelled (nor those whose variables clash, see Scope.lean). -/
structure FieldSlot (α : Type) where
  val : Option α
  ext : List (Str × Ty × List Value)

/-- The fields of a struct. The first index is the struct as a nest of pairs, the second its slots, klickhouse_derive/src/row.rs:383-393. -/
inductive Fields : Type → Type → Type 1 where
  | nil : Fields Unit Unit
  | cons {α σ τ : Type} (f : Field α) (fs : Fields σ τ) : Fields (α × σ) (FieldSlot α × τ)

namespace Field
variable {α : Type}

/-- `field.attrs.flatten()`, klickhouse_derive/src/row.rs:93. -/
def flattened (f : Field α) : Bool :=
  match f.kind with
  | .flatten _ => true
  | _ => false

/-- The closure `skip`, klickhouse_derive/src/row.rs:395. -/
def skip (f : Field α) : Bool := f.skipDe || f.flattened

/-- The text before the inner names of a nested field, klickhouse_derive/src/row.rs:426 (a nested field's name is also used as a Rust
identifier, so a name with a dot does not compile). -/
def dotted (f : Field α) : Str := f.name ++ ['.']

/-- `nested` field: the `COLUMN_COUNT` of its rows, klickhouse_derive/src/row.rs:435. -/
def innerCount (f : Field α) : Option Nat :=
  match f.kind with
  | .nested inner => inner.columnCount
  | _ => some 1

/-- How many positions the field takes in the order of columns, klickhouse_derive/src/row.rs:416,432,484. -/
def width (f : Field α) : Nat := f.innerCount.getD 0

/-- Does the name arm of the field match? If so: the label the column gets, klickhouse_derive/src/row.rs:440-451,498. -/
def matchName (f : Field α) (n : Str) : Option Str :=
  match f.kind with
  | .nested _ => if f.dotted.isPrefixOf n then some (n.drop f.dotted.length) else none
  | _ => if n = f.name then some n else none

/-- `Result::map_err(|e| e.with_column_name(name))`, klickhouse_derive/src/row.rs:487-497. -/
def annotated {β : Type} (n : Str) : Res β → Res β
  | .err e => .err (e.withColumn n)
  | r => r

/-- The message of klickhouse_derive/src/row.rs:446. -/
def lengthErr (n : Str) (expected got : Nat) : Err :=
  .deserialize (ch! "invalid length for nested columns, mismatches previous column " ++ n ++ ch! ": " ++ dec expected ++
    ch! " != " ++ dec got)

/-- `Type::unarray` and `strip_low_cardinality`, klickhouse_derive/src/row.rs:448,460. -/
def elemTy : Ty → Option Ty
  | .array t => some t.stripLowCardinality
  | _ => none

/-- `Value::unarray`, klickhouse/src/values/mod.rs:235-240. -/
def elemsOf : Value → Option (List Value)
  | .array xs => some xs
  | _ => none

/-- The body of a nested arm, klickhouse_derive/src/row.rs:441-463: `label` is the stripped name when matched by name,
the full name when matched by position. -/
def putNested {β : Type} (label : Str) (c : Cell) (s : FieldSlot β) : Res (FieldSlot β) :=
  match elemsOf c.2.2 with
  | none => .err (.unexpectedTypeWithColumn c.1 c.2.1)
  | some values =>
    match s.ext with
    | e :: _ =>
      if e.2.2.length ≠ values.length then .err (lengthErr c.1 e.2.2.length values.length)
      else match elemTy c.2.1 with
        | none => .err (.unexpectedTypeWithColumn c.1 c.2.1)
        | some t => .ok { s with ext := s.ext ++ [(label, t, values)] }
    | [] =>
      match elemTy c.2.1 with
      | none => .err (.unexpectedTypeWithColumn c.1 c.2.1)
      | some t => .ok { s with ext := s.ext ++ [(label, t, values)] }

/-- The body of an arm: plain klickhouse_derive/src/row.rs:487-513, nested 441-463. A flattened field has none. -/
def put (f : Field α) (label : Str) (c : Cell) (s : FieldSlot α) : Res (FieldSlot α) :=
  match f.kind with
  | .plain _ de annotate =>
    if s.val.isSome then .err (.duplicateField f.name)
    else
      (if annotate then annotated f.name (de c.2.1.stripLowCardinality c.2.2) else de c.2.1.stripLowCardinality c.2.2) >>= fun x =>
        .ok { s with val := some x }
  | .nested _ => putNested label c s
  | .flatten _ => .ok s

/-- Row `i` of the collected nested columns, klickhouse_derive/src/row.rs:467-479. -/
def nestedRow (ext : List (Str × Ty × List Value)) (i : Nat) : List Cell :=
  ext.map (fun e => (e.1, e.2.1, e.2.2.getD i .null))

/-- The loop that turns nested columns into rows, klickhouse_derive/src/row.rs:467-479. All columns have the length
of the first (checked when they were collected), so the loop runs that many times. Without any column it never
breaks: it either ends in the error of reading a row without columns or goes on until memory is exhausted, which
the model calls a panic. -/
def rectify1 {β : Type} (inner : RowImpl β) (ext : List (Str × Ty × List Value)) : Res (List β) :=
  match ext with
  | [] => inner.de [] >>= fun _ => .panic
  | e :: r => Res.mapL (fun i => inner.de (nestedRow (e :: r) i)) (List.range e.2.2.length)

/-- `nested_rectify` of one kind of field, klickhouse_derive/src/row.rs:464-481. -/
def rectifyKind {α : Type} : Kind α → FieldSlot α → Res (FieldSlot α)
  | .nested inner, s => rectify1 inner s.ext >>= fun rows => .ok { s with val := some rows }
  | .plain _ _ _, s => .ok s
  | .flatten _, s => .ok s

/-- `nested_rectify` of one field, klickhouse_derive/src/row.rs:464-481; skipped fields have none. -/
def rectify (f : Field α) (s : FieldSlot α) : Res (FieldSlot α) := if f.skip then .ok s else rectifyKind f.kind s

/-- `expr_is_missing`, klickhouse_derive/src/row.rs:653-680; `d` is the field of the container's default. -/
def missing (f : Field α) (d : Option α) : Res α :=
  match f.default with
  | some x => .ok x
  | none =>
    match d with
    | some x => .ok x
    | none => .err (.missingField f.name)

/-- `extract_values` of one field, klickhouse_derive/src/row.rs:578-591. -/
def settle (f : Field α) (d : Option α) (s : FieldSlot α) : Res (FieldSlot α) :=
  if f.skip then .ok s
  else match s.val with
    | some _ => .ok s
    | none => f.missing d >>= fun x => .ok { s with val := some x }

/-- Taking the columns of a flattened field out of the row, klickhouse_derive/src/row.rs:558-564: first occurrence,
`Vec::swap_remove`, then into the hash map. -/
def pullNames (ident : Str) : List Str → IMap (Ty × Value) → IMap (Ty × Value) → Res (IMap (Ty × Value) × IMap (Ty × Value))
  | [], cells, flat => .ok (cells, flat)
  | c :: cs, cells, flat =>
    match cells.swapRemove c with
    | (some x, rest) => pullNames ident cs rest (flat.insert c x)
    | (none, _) => .err (.missingField (ch! "Flattened field " ++ ident ++ ch! " has missing column"))

/-- One turn of `pull_flatten`, klickhouse_derive/src/row.rs:546-566. -/
def pull (f : Field α) (cells flat : IMap (Ty × Value)) : Res (IMap (Ty × Value) × IMap (Ty × Value)) :=
  match f.kind with
  | .flatten inner =>
    match inner.columnNames with
    | none => .err (.deserialize (ch! "Flattened field " ++ f.ident ++ ch! " should provide Row::column_names"))
    | some names => pullNames f.ident names cells flat
  | _ => .ok (cells, flat)

/-- The columns of a flattened field out of the hash map again, klickhouse_derive/src/row.rs:605-611; `unwrap`. -/
def gather : List Str → IMap (Ty × Value) → Res (List Cell × IMap (Ty × Value))
  | [], flat => .ok ([], flat)
  | c :: cs, flat =>
    match flat.swapRemove c with
    | (some x, rest) => gather cs rest >>= fun r => .ok ((c, x) :: r.1, r.2)
    | (none, _) => .panic

/-- The expression for one member of the struct, klickhouse_derive/src/row.rs:593-617. -/
def build (f : Field α) (d : Option α) (s : FieldSlot α) (flat : IMap (Ty × Value)) : Res (α × IMap (Ty × Value)) :=
  if f.skipDe then f.missing d >>= fun x => .ok (x, flat)
  else match f.kind with
    | .flatten inner =>
      match inner.columnNames with
      | none => .panic
      | some names => gather names flat >>= fun r => inner.de r.1 >>= fun x => .ok (x, r.2)
    | _ =>
      match s.val with
      | some x => .ok (x, flat)
      | none => .panic

/-- The columns of the nested rows, klickhouse_derive/src/row.rs:276-309: one output per inner column, named after
the first row, or after `column_names` when there is no row. The inner rows get the hints of the outer struct. -/
def serNested {β : Type} (name : Str) (inner : RowImpl β) (hints : IMap Ty) (rows : List β) : Res (List (Str × Value)) :=
  match inner.columnCount with
  | none => .panic
  | some n =>
    Res.mapL (fun row => inner.ser hints row >>= fun cols => if cols.length = n then .ok cols else .panic) rows >>= fun table =>
    (match table with
     | first :: _ => .ok (first.map Prod.fst)
     | [] =>
       if n = 0 then .ok []
       else match inner.columnNames with
         | none => .panic
         | some names => if names.length < n then .panic else .ok (names.take n)) >>= fun names =>
    .ok ((List.range n).map (fun i =>
      (name ++ '.' :: names.getD i [], .array (table.map (fun cols => (cols.map Prod.snd).getD i .null)))))

/-- What `serialize_row` does for one kind of field, klickhouse_derive/src/row.rs:269-322. -/
def serKind {α : Type} (name : Str) (hints : IMap Ty) : Kind α → α → Res (List (Str × Value))
  | .plain ser _ _, x => ser (hints.get name) x >>= fun v => .ok [(name, v)]
  | .nested inner, rows => serNested name inner hints rows
  | .flatten inner, x => if inner.columnNames.isNone then .panic else inner.ser hints x

/-- What `serialize_row` does for one field, klickhouse_derive/src/row.rs:257-325: with `serialize_with` one column, whatever the
kind of the field. -/
def ser (f : Field α) (hints : IMap Ty) (x : α) : Res (List (Str × Value)) :=
  if f.skipSer then .ok []
  else match f.serWith with
    | some g => g x >>= fun v => .ok [(f.name, v)]
    | none => serKind f.name hints f.kind x

/-- `column_names` of one field, klickhouse_derive/src/row.rs:206-219. -/
def names (f : Field α) : Option (List Str) :=
  if f.skipSer then some []
  else match f.kind with
    | .plain _ _ _ => some [f.name]
    | .nested inner => inner.columnNames.map (·.map (fun n => f.name ++ '.' :: n))
    | .flatten inner => inner.columnNames

/-- The field's part of `COLUMN_COUNT`, klickhouse_derive/src/row.rs:184-198. -/
def count (f : Field α) : Option Nat := if f.skipSer then some 0 else f.innerCount

end Field

namespace Fields

/-- Is any field flattened? klickhouse_derive/src/row.rs:93,529. -/
def anyFlatten : {σ τ : Type} → Fields σ τ → Bool
  | _, _, .nil => false
  | _, _, .cons f fs => f.flattened || fs.anyFlatten

/-- The slots before reading, klickhouse_derive/src/row.rs:398-407,434-439. -/
def empty : {σ τ : Type} → Fields σ τ → τ
  | _, _, .nil => ()
  | _, _, .cons _ fs => (⟨none, []⟩, fs.empty)

/-- `COLUMN_COUNT.expect(...)` of the nested fields, klickhouse_derive/src/row.rs:435. -/
def checkSizes : {σ τ : Type} → Fields σ τ → Res Unit
  | _, _, .nil => .ok ()
  | _, _, .cons f fs => if f.skip then fs.checkSizes else if f.innerCount.isNone then .panic else fs.checkSizes

/-- The name arms in order, klickhouse_derive/src/row.rs:440-451,498-505; `none` when no arm matches. -/
def byName : {σ τ : Type} → Fields σ τ → Cell → τ → Option (Res τ)
  | _, _, .nil, _, _ => none
  | _, _, .cons f fs, c, (s, ss) =>
    if f.skip then (fs.byName c ss).map (fun r => r >>= fun ss => .ok (s, ss))
    else match f.matchName c.1 with
      | some label => some (f.put label c s >>= fun s => .ok (s, ss))
      | none => (fs.byName c ss).map (fun r => r >>= fun ss => .ok (s, ss))

/-- The index arms in order, klickhouse_derive/src/row.rs:452-463,506-513; `i` is the index counted from the first
column of these fields. The catch-all ignores the column (row.rs:523-527). -/
def byIndex : {σ τ : Type} → Fields σ τ → Nat → Cell → τ → Res τ
  | _, _, .nil, _, _, t => .ok t
  | _, _, .cons f fs, i, c, (s, ss) =>
    if f.skip then fs.byIndex i c ss >>= fun ss => .ok (s, ss)
    else if i < f.width then f.put c.1 c s >>= fun s => .ok (s, ss)
    else fs.byIndex (i - f.width) c ss >>= fun ss => .ok (s, ss)

/-- The loop over the columns, klickhouse_derive/src/row.rs:568-576. -/
def absorb {σ τ : Type} (fs : Fields σ τ) : Nat → List Cell → τ → Res τ
  | _, [], t => .ok t
  | i, c :: cells, t =>
    (match fs.byName c t with
     | some r => r
     | none => if fs.anyFlatten then .ok t else fs.byIndex i c t) >>= fun t => fs.absorb (i + 1) cells t

/-- `pull_flatten` of all fields in order, klickhouse_derive/src/row.rs:541-566. -/
def pull : {σ τ : Type} → Fields σ τ → IMap (Ty × Value) → IMap (Ty × Value) → Res (IMap (Ty × Value) × IMap (Ty × Value))
  | _, _, .nil, cells, flat => .ok (cells, flat)
  | _, _, .cons f fs, cells, flat => f.pull cells flat >>= fun r => fs.pull r.1 r.2

/-- All `nested_rectify` blocks in order, klickhouse_derive/src/row.rs:464-481. -/
def rectify : {σ τ : Type} → Fields σ τ → τ → Res τ
  | _, _, .nil, _ => .ok ()
  | _, _, .cons f fs, (s, ss) => f.rectify s >>= fun s => fs.rectify ss >>= fun ss => .ok (s, ss)

/-- All `extract_values` in order; `d` is the container's default, klickhouse_derive/src/row.rs:578-591. -/
def settle : {σ τ : Type} → Fields σ τ → Option σ → τ → Res τ
  | _, _, .nil, _, _ => .ok ()
  | _, _, .cons f fs, d, (s, ss) =>
    f.settle (d.map Prod.fst) s >>= fun s => fs.settle (d.map Prod.snd) ss >>= fun ss => .ok (s, ss)

/-- The struct expression, klickhouse_derive/src/row.rs:593-617,633. -/
def build : {σ τ : Type} → Fields σ τ → Option σ → τ → IMap (Ty × Value) → Res σ
  | _, _, .nil, _, _, _ => .ok ()
  | _, _, .cons f fs, d, (s, ss), flat =>
    f.build (d.map Prod.fst) s flat >>= fun r => fs.build (d.map Prod.snd) ss r.2 >>= fun xs => .ok (r.1, xs)

/-- `deserialize_row` of a struct, klickhouse_derive/src/row.rs:383-651. -/
def de {σ τ : Type} (fs : Fields σ τ) (d : Option σ) (cells : List Cell) : Res σ :=
  fs.checkSizes >>= fun _ =>
  fs.pull cells [] >>= fun r =>
  fs.absorb 0 r.1 fs.empty >>= fun t =>
  fs.rectify t >>= fun t =>
  fs.settle d t >>= fun t =>
  fs.build d t r.2

/-- `serialize_row` of a struct, klickhouse_derive/src/row.rs:237-325. -/
def ser : {σ τ : Type} → Fields σ τ → IMap Ty → σ → Res (List (Str × Value))
  | _, _, .nil, _, _ => .ok []
  | _, _, .cons f fs, hints, (x, xs) => f.ser hints x >>= fun a => fs.ser hints xs >>= fun b => .ok (a ++ b)

/-- `column_names`, klickhouse_derive/src/row.rs:202-225. -/
def names : {σ τ : Type} → Fields σ τ → Option (List Str)
  | _, _, .nil => some []
  | _, _, .cons f fs =>
    match f.names, fs.names with
    | some a, some b => some (a ++ b)
    | _, _ => none

/-- The sum of `COLUMN_COUNT`, klickhouse_derive/src/row.rs:180-200. -/
def countSum : {σ τ : Type} → Fields σ τ → Option Nat
  | _, _, .nil => some 0
  | _, _, .cons f fs =>
    match f.count, fs.countSum with
    | some a, some b => some (a + b)
    | _, _ => none

/-- `COLUMN_COUNT`, klickhouse_derive/src/row.rs:101-105. -/
def count {σ τ : Type} (fs : Fields σ τ) : Option Nat := if fs.anyFlatten then none else fs.countSum

/-- `#[derive(Row)]` on a struct without `from`, `try_from` and `into`; `d` is the container's default, klickhouse_derive/src/row.rs:81-139. -/
def derive {σ τ : Type} (fs : Fields σ τ) (d : Option σ) : RowImpl σ := ⟨fs.count, fs.names, fs.de d, fs.ser⟩

end Fields

/-- `#[klickhouse(from = "B")]` or `try_from`, klickhouse_derive/src/row.rs:336-360: reading goes through the other
type; everything else is that of `self`. -/
def RowImpl.readVia {α β : Type} (self : RowImpl α) (other : RowImpl β) (conv : β → Res α) : RowImpl α :=
  { self with de := fun cells => other.de cells >>= conv }

/-- `#[klickhouse(into = "B")]`, klickhouse_derive/src/row.rs:141-147,181-182,203-204,227-235: writing goes through the other
type; the number and names of the columns are not declared. -/
def RowImpl.writeVia {α β : Type} (self : RowImpl α) (other : RowImpl β) (conv : α → β) : RowImpl α :=
  { self with columnCount := none, columnNames := none, ser := fun hints x => other.ser hints (conv x) }

end Klick
