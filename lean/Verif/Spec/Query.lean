import Verif.Query
import Verif.Spec.Block
import Verif.Spec.Client
/-
Specification vocabulary for query results and inserts (C36-C38).
-/
namespace Klick.Spec
open Klick

/-- Row `i` of a block, each value with its column's name and its column's type. -/
def typedRow (b : Block) (i : Nat) : TRow :=
  b.columnData.map fun e => (e.1, ((b.columnTypes.get e.1).getD .uint8).stripLowCardinality, (e.2[i]?).getD .null)

/-- The rows of a block; a block without columns has none. -/
def rowsIn (b : Block) : List TRow := if b.columnData.isEmpty then [] else (List.range b.rows).map (typedRow b)

/-- What the caller of a query should see, item by item. -/
def expected {T : Type} (de : TRow → Res T) : Item → List (Res T)
  | .block b => (rowsIn b).map de
  | .error e => [.err e]

/-- The blocks of a response are rectangular, every column has its type, and none announces rows beyond any number (2^57) that memory
could hold. -/
def GoodItems (items : List Item) : Prop := ∀ i ∈ items, ∀ b, i = .block b → Rectangular b ∧ Typed b ∧ b.rows ≤ 2 ^ 57

/-- The value a row gives for a column. -/
def valueFor (row : List (Str × Value)) (name : Str) : Option Value := (row.find? (fun e => e.1 == name)).map (·.2)

/-- A row that gives exactly one valid value for every column of the header, in any order. -/
structure Complete (cfg : Cfg) (header : IMap Ty) (row : List (Str × Value)) : Prop where
  once : (row.map (·.1)).Nodup
  same : ∀ name, name ∈ row.map (·.1) ↔ name ∈ header.keys
  valid : ∀ name v, (name, v) ∈ row → ∃ t, header.get name = some t ∧ t.validateValue cfg v = true

/-- Everything the rows that could be serialised give for a column, in order. -/
def givenFor (rows : List (Res (List (Str × Value)))) (name : Str) : List Value :=
  rows.flatMap fun r => match r with
    | .ok row => (row.filter (fun e => e.1 == name)).map (·.2)
    | _ => []

/-- A value that may not be sent: for no column of the header, or not valid for its column. -/
def Unsendable (cfg : Cfg) (header : IMap Ty) (e : Str × Value) : Prop :=
  ∀ t, header.get e.1 = some t → t.validateValue cfg e.2 = false

/-- The value can be shown in an error message (C27 says which cannot). -/
def Showable (ext : Ext) (v : Value) : Prop := v.text ext ≠ .panic

/-- What the caller `t` of an insert sees of its connection: the first item of its response, if any, and
how each of its blocks fared; and what it hands over. -/
structure InsertSeen {R : Type} (cfg : Cfg) (ext : Ext) (serialize : IMap Ty → R → Res (List (Str × Value))) (s : Conn) (t : Ticket)
    (batches : List (List R)) (outcome : Res Unit) : Prop where
  run : ∃ (first : Option Item) (ds : List Ticket) (blocks : List Block),
    readsOf t s.log = first.toList ∧
    (blocksSubmitted s.log).filter (fun e => e.2.1 == t) = (ds.zip blocks).map (fun e => (e.1, t, e.2)) ∧
    ds.length = blocks.length ∧
    insertNative cfg ext serialize first (ds.map fun d => decide (s.acks d = some .acked)) batches = (blocks, outcome)

end Klick.Spec
