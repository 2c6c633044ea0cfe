import Verif.Convert
/-
Rows without a declared shape, klickhouse/src/convert/raw_row.rs, and the column annotation of errors,
klickhouse/src/errors.rs:45-58.
-/
namespace Klick

/-- `KlickhouseError::with_column_name`, klickhouse/src/errors.rs:46-57. -/
def Err.withColumn (e : Err) (name : Str) : Err :=
  match e with
  | .deserialize m => .deserializeWithColumn name m
  | .unexpectedType t => .unexpectedTypeWithColumn name t
  | e => e

/-- A cell: column name, type and value, klickhouse/src/convert/raw_row.rs:8. -/
abbrev Cell := Str × Ty × Value

/-- `RawRow`, klickhouse/src/convert/raw_row.rs:8; a cell that was fetched is `none`. -/
abbrev RawRow := List (Option Cell)

/-- How a cell is addressed (`RowIndex` of `usize` and `str`), klickhouse/src/convert/raw_row.rs:38-59. -/
inductive CellIndex where
  | at (i : Nat)
  | named (n : Str)
deriving DecidableEq, Repr

/-- The name of a cell as the search sees it, klickhouse/src/convert/raw_row.rs:78,112. -/
def cellName : Option Cell → Str
  | some x => x.1
  | none => []

/-- The names as seen by `RowIndex::get`: a fetched cell has the empty name,
klickhouse/src/convert/raw_row.rs:76-78,109-112. -/
def RawRow.names (r : RawRow) : List Str := r.map cellName

/-- `RowIndex::get` for `usize` and `str`, klickhouse/src/convert/raw_row.rs:42-53; `&T` delegates. -/
def CellIndex.find : CellIndex → List Str → Option Nat
  | .at i, names => if names.length ≥ i then some i else none
  | .named n, names => names.findIdx? (fun x => x == n)

/-- `RawRow::deserialize_row`, klickhouse/src/convert/raw_row.rs:17-23. -/
def RawRow.ofCells (cells : List Cell) : RawRow := cells.map some

/-- `RawRow::serialize_row`, klickhouse/src/convert/raw_row.rs:25-35: `expect` panics on a fetched cell. -/
def RawRow.serialize (r : RawRow) : Res (List (Str × Value)) :=
  Res.mapL (fun c => match c with | some x => .ok (x.1, x.2.2) | none => .panic) r

/-- The first part of `RawRow::try_get`, klickhouse/src/convert/raw_row.rs:74-86: the outcome and the row
afterwards (`&mut self`). -/
def RawRow.take (r : RawRow) (ix : CellIndex) : Res (Ty × Value) × RawRow :=
  match ix.find r.names with
  | none => (.err .outOfBounds, r)
  | some i =>
    match r[i]? with
    | none => (.panic, r)
    | some none => (.err .doubleFetch, r)
    | some (some c) => (.ok c.2, r.set i none)

/-- `RawRow::try_get`, klickhouse/src/convert/raw_row.rs:73-88. -/
def RawRow.tryGet (t : RT) (r : RawRow) (ix : CellIndex) : Res t.den × RawRow :=
  ((r.take ix).1 >>= fun c => t.fromSql c.1 c.2, (r.take ix).2)

/-- `RawRow::get`, klickhouse/src/convert/raw_row.rs:94-96. -/
def RawRow.get (t : RT) (r : RawRow) (ix : CellIndex) : Res t.den × RawRow :=
  ((match (r.tryGet t ix).1 with | .err _ => .panic | x => x), (r.tryGet t ix).2)

/-- `type_.unwrap_or_else(|| value.guess_type())`, klickhouse/src/convert/raw_row.rs:107. -/
def setType (ty : Option Ty) (v : Value) : Res Ty :=
  match ty with
  | some T => .ok T
  | none => v.guessType

/-- `RawRow::try_set_typed`, klickhouse/src/convert/raw_row.rs:99-122: the outcome and the row afterwards.
`as_mut().unwrap()` panics on a fetched cell (found under the empty name). -/
def RawRow.trySetTyped (t : RT) (r : RawRow) (name : Str) (ty : Option Ty) (x : t.den) : Res Unit × RawRow :=
  match t.toSql ty x with
  | .err e => (.err e, r)
  | .panic => (.panic, r)
  | .ok v =>
    match setType ty v with
    | .err e => (.err e, r)
    | .panic => (.panic, r)
    | .ok T =>
      match r.names.findIdx? (fun n => n == name) with
      | some i =>
        match r[i]? with
        | some (some c) => (.ok (), r.set i (some (c.1, T, v)))
        | _ => (.panic, r)
      | none => (.ok (), r ++ [some (name, T, v)])

end Klick
