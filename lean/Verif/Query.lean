import Verif.Client
import Verif.Sql
/-
What the callers make of the items of their response channel: klickhouse/src/client.rs:391-534.
`T::deserialize_row` and `T::serialize_row` (trait `Row`, user or derived code) are parameters, and may panic.
-/
namespace Klick

/-- A row as `T::deserialize_row` gets it, klickhouse/src/convert/mod.rs:54. -/
abbrev TRow := List (Str × Ty × Value)

/-- More turns than any block has rows, klickhouse/src/block.rs:108-117. -/
def rowFuel (b : Block) : Nat := (b.columnData.map (fun e => e.2.length)).sum + 1

/-- The rows of one block, klickhouse/src/client.rs:479-485: all of them are converted when the block is polled, rows without columns are left
out. An element that is a panic stands for a poll that panics. -/
def blockStream {T : Type} (de : TRow → Res T) (b : Block) : List (Res T) :=
  match takeIterRows b (rowFuel b) with
  | .ok rows =>
    let xs := (rows.filter (fun r => !r.isEmpty)).map de
    if xs.any Res.isPanic then [.panic] else xs
  | _ => [.panic]

/-- The stream returned by `query`, klickhouse/src/client.rs:473-488, run to its end. -/
def queryStream {T : Type} (de : TRow → Res T) : List Item → List (Res T)
  | [] => []
  | .block b :: items => blockStream de b ++ queryStream de items
  | .error e :: items => .err e :: queryStream de items

/-- `query_collect`, klickhouse/src/client.rs:490-501. -/
def collectRows {T : Type} : List (Res T) → Res (List T)
  | [] => .ok []
  | x :: xs => x >>= fun y => collectRows xs >>= fun ys => .ok (y :: ys)

/-- `query_one`, klickhouse/src/client.rs:503-513. -/
def firstRow {T : Type} : List (Res T) → Res T
  | [] => .err .missingRow
  | x :: _ => x

/-- `query_opt`, klickhouse/src/client.rs:515-521. -/
def firstRow? {T : Type} : List (Res T) → Res (Option T)
  | [] => .ok none
  | x :: _ => x >>= fun y => .ok (some y)

/-- `execute`, klickhouse/src/client.rs:525-534. -/
def executeRows {T : Type} : List (Res T) → Res Unit
  | [] => .ok ()
  | x :: xs => x >>= fun _ => executeRows xs

/-! ### inserts -/

/-- Appending a value to a column, klickhouse/src/client.rs:439-443. -/
def pushValue (data : IMap (List Value)) (k : Str) (v : Value) : IMap (List Value) :=
  match data.get k with
  | some col => data.insert k (col ++ [v])
  | none => data.insert k [v]

/-- `Type::validate_value`, klickhouse/src/types/mod.rs:991-999. The error text of a value that does not fit shows the value
(`{value:?}`, the `Display` of values/mod.rs:333-461), and panics when that does. -/
def Ty.checkValue (cfg : Cfg) (ext : Ext) (t : Ty) (v : Value) : Res Unit :=
  if t.validate then
    if t.innerValidate cfg v then .ok () else if (v.text ext).isPanic then .panic else .err .typeParse
  else .err .typeParse

/-- The loop over one row, klickhouse/src/client.rs:432-444. -/
def insertRow (cfg : Cfg) (ext : Ext) (header : IMap Ty) : List (Str × Value) → IMap (List Value) → Res (IMap (List Value))
  | [], data => .ok data
  | (k, v) :: row, data =>
    match header.get k with
    | none => .err .protocol
    | some t => t.checkValue cfg ext v >>= fun _ => insertRow cfg ext header row (pushValue data k v)

/-- The loop over the rows, klickhouse/src/client.rs:422-446: a row whose `serialize_row` fails is
skipped; one whose `serialize_row` panics ends the call. -/
def insertRows (cfg : Cfg) (ext : Ext) (header : IMap Ty) : List (Res (List (Str × Value))) → IMap (List Value) → Res (IMap (List Value))
  | [], data => .ok data
  | .panic :: _, _ => .panic
  | .err _ :: rows, data => insertRows cfg ext header rows data
  | .ok row :: rows, data => insertRow cfg ext header row data >>= fun data => insertRows cfg ext header rows data

/-- The block made of a batch, klickhouse/src/client.rs:413-446. -/
def batchBlock (cfg : Cfg) (ext : Ext) (header : IMap Ty) (rows : List (Res (List (Str × Value)))) : Res Block :=
  insertRows cfg ext header rows [] >>= fun data => .ok ⟨BlockInfo.default, rows.length, header, data⟩

/-- The block that ends an insert, klickhouse/src/client.rs:449-454. -/
def endBlock : Block := ⟨BlockInfo.default, 0, [], []⟩

/-- The loop of `insert_native` over the batches, klickhouse/src/client.rs:412-455: the blocks handed to
the connection, in order, and the outcome. `acks` says how each `send_data` ends (acknowledged or not;
one that never ends does not occur here). -/
def insertBatches (cfg : Cfg) (ext : Ext) (header : IMap Ty) :
    List Bool → List (List (Res (List (Str × Value)))) → List Block × Res Unit
  | acks, [] => ([endBlock], if acks.head? = some true then .ok () else .err .protocol)
  | acks, [] :: batches => insertBatches cfg ext header acks batches
  | acks, (r :: rows) :: batches =>
    match batchBlock cfg ext header (r :: rows) with
    | .err e => ([], .err e)
    | .panic => ([], .panic)
    | .ok b =>
      match acks with
      | true :: acks => let rest := insertBatches cfg ext header acks batches; (b :: rest.1, rest.2)
      | _ => ([b], .err .protocol)

/-- `insert_native` after the query has been sent, klickhouse/src/client.rs:406-456; `first` is the first
item of its response channel (`none` when the channel closes before any). `serialize` is the
`serialize_row` of the row type. -/
def insertNative {R : Type} (cfg : Cfg) (ext : Ext) (serialize : IMap Ty → R → Res (List (Str × Value))) (first : Option Item)
    (acks : List Bool) (batches : List (List R)) : List Block × Res Unit :=
  match first with
  | none => ([], .err .protocol)
  | some (.error e) => ([], .err e)
  | some (.block hdr) => insertBatches cfg ext hdr.columnTypes acks (batches.map (·.map (serialize hdr.columnTypes)))

end Klick
