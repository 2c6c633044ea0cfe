import Verif.Spec.Query
import Verif.Spec.Derive
/-
Specification vocabulary for rows that are inserted, stored by a server and selected again (C71).
-/
namespace Klick.Spec
open Klick

/-- The type a reader sees for a column. -/
def typeIn (header : IMap Ty) (name : Str) : Ty := ((header.get name).getD .uint8).stripLowCardinality

/-- Element by element. -/
def Each {α β : Type} (P : α → β → Prop) : List α → List β → Prop
  | [], [] => True
  | a :: as, b :: bs => P a b ∧ Each P as bs
  | _, _ => False

/-- What must be known of one row and its type: it is written as one valid value for every column of the header, each in the normal
form of its column (C06), and reading these columns, in any order, gives the row again. -/
def Survives {R : Type} (cfg : Cfg) (header : IMap Ty) (ser : IMap Ty → R → Res (List (Str × Value))) (de : TRow → Res R)
    (x : R) : Prop :=
  ∃ cols, ser header x = .ok cols ∧ Complete cfg header cols ∧
    (∀ name v t, (name, v) ∈ cols → header.get name = some t → canon t v = v) ∧
    ∀ cells : List Cell, cells.Perm (cellsOf (typeIn header) cols) → de cells = .ok x

/-- The same where reading, perhaps as another type and by other code, gives something that has the relation `Q` to the row. -/
def ReadAs {R S : Type} (cfg : Cfg) (header : IMap Ty) (ser : IMap Ty → R → Res (List (Str × Value))) (de : TRow → Res S) (Q : R → S → Prop)
    (x : R) : Prop :=
  ∃ cols, ser header x = .ok cols ∧ Complete cfg header cols ∧
    (∀ name v t, (name, v) ∈ cols → header.get name = some t → canon t v = v) ∧
    ∃ y, Q x y ∧ ∀ cells : List Cell, cells.Perm (cellsOf (typeIn header) cols) → de cells = .ok y

/-- The values rows give for a column. -/
def columnOf {R : Type} (header : IMap Ty) (ser : IMap Ty → R → Res (List (Str × Value))) (name : Str) (rows : List R) : List Value :=
  rows.map fun x => match ser header x with
    | .ok cols => (valueFor cols name).getD .null
    | _ => .null

/-- One side writes `b`, the other reads `b'`, with more bytes behind it or none. -/
def Travels (cfg : Cfg) (revision : Nat) (b b' : Block) : Prop :=
  ∃ bytes, b.write cfg revision = (bytes, .ok ()) ∧ ∃ rest, readBlock cfg revision (bytes ++ rest) = .ok (b', rest)

/-- A block a server may answer with: one the protocol can carry, with as many data columns as typed ones, all values in normal form. -/
structure AnswerOk (cfg : Cfg) (b : Block) : Prop where
  block : BlockOk cfg b
  columns : b.columnData.keys.Perm b.columnTypes.keys
  normal : ∀ name t vs, (name, t) ∈ b.columnTypes → b.columnData.get name = some vs → vs.map (canon t) = vs

/-- The same rows in the same order; the columns of a row may come in another order, and the rows may be cut into blocks differently. -/
def SameRows (a b : List Block) : Prop := Each List.Perm (a.flatMap rowsIn) (b.flatMap rowsIn)

end Klick.Spec
