import Verif.Query
import Verif.Derive
/-
`insert_native_raw`, `insert_native_block`, `UnitValue` rows and `Json` values: klickhouse/src/client.rs:355-386,459-469,
klickhouse/src/convert/unit_value.rs, klickhouse/src/convert/json.rs.
-/
namespace Klick

/-- The loop of `insert_native_raw` after the query has been sent, klickhouse/src/client.rs:374-383: the caller's blocks are handed to
the connection as they are, then the block that ends the data. `acks` says how each `send_data` ends. -/
def insertRaw : List Bool → List Block → List Block × Res Unit
  | acks, [] => ([endBlock], if acks.head? = some true then .ok () else .err .protocol)
  | acks, b :: blocks =>
    match acks with
    | true :: acks => let rest := insertRaw acks blocks; (b :: rest.1, rest.2)
    | _ => ([b], .err .protocol)

/-- `insert_native_block`, klickhouse/src/client.rs:459-469: a stream of one batch. -/
def insertNativeBlock {R : Type} (cfg : Cfg) (ext : Ext) (serialize : IMap Ty → R → Res (List (Str × Value))) (first : Option Item)
    (acks : List Bool) (rows : List R) : List Block × Res Unit :=
  insertNative cfg ext serialize first acks [rows]

/-- `Row for UnitValue<T>`, klickhouse/src/convert/unit_value.rs:9-33. -/
def unitValueRow (t : RT) : RowImpl t.den where
  columnCount := some 1
  columnNames := none
  de := unitDeserialize t
  ser hints x := unitSerialize t (hints.map (·.2)) x

/-- serde and serde_json for a type (external): the text of a value, or none if it cannot be written; the value of a text,
klickhouse/src/convert/json.rs:9-27. -/
structure SerdeJson (α : Type) where
  toString : α → Option Str
  fromStr : Str → Option α

/-- `ToSql for Json<T>`, klickhouse/src/convert/json.rs:9-17. The hint is ignored. -/
def jsonToSql {α : Type} (j : SerdeJson α) (_hint : Option Ty) (x : α) : Res Value :=
  match j.toString x with
  | some s => .ok (.string (utf8Encode s))
  | none => .err .serialize

/-- `FromSql for Json<T>`, klickhouse/src/convert/json.rs:19-27; the text of the error is left out. -/
def jsonFromSql {α : Type} (j : SerdeJson α) (t : Ty) (v : Value) : Res α :=
  stringFromSql t v >>= fun s =>
  match j.fromStr s with
  | some x => .ok x
  | none => .err (.deserialize [])

end Klick
