import Verif.Block
import Verif.Spec.Column
import Verif.Spec.TypeText
/-
Specification vocabulary for blocks (C14-C17).
-/
namespace Klick.Spec
open Klick

/-- One column that can be sent: name and type text within the protocol's string limit, a well-formed
type with a faithful text, and storable values within the protocol's size limit. -/
structure Sendable (cfg : Cfg) (name : Str) (t : Ty) (vs : List Value) : Prop where
  name : (utf8Encode name).length ≤ maxStringSize
  text : TextOk cfg t
  textLen : (utf8Encode t.display).length ≤ maxStringSize
  wf : WellFormed cfg t
  storable : ∀ v ∈ vs, Storable cfg t v
  fits : Fits t vs

/-- The names of the typed columns, and of the data columns, are distinct (they are keys of maps). -/
def DistinctNames (b : Block) : Prop := b.columnTypes.keys.Nodup ∧ b.columnData.keys.Nodup

/-- A block that can be sent: every typed column has data of the block's row count. -/
structure BlockOk (cfg : Cfg) (b : Block) : Prop where
  names : DistinctNames b
  columns : b.columnTypes.length < 2 ^ 63
  rows : b.rows < 2 ^ 63
  cols : ∀ name t, (name, t) ∈ b.columnTypes →
    ∃ vs, b.columnData.get name = some vs ∧ vs.length = b.rows ∧ Sendable cfg name t vs

mutual
/-- Every value of the type occupies at least one byte (only `FixedString(0)` and tuples of such
types do not). -/
def occupies : Ty → Bool
  | .fixedString n => n != 0
  | .tuple ts => occupiesAny ts
  | _ => true
/-- Some member occupies a byte. -/
def occupiesAny : List Ty → Bool
  | [] => false
  | t :: ts => occupies t || occupiesAny ts
end

/-- Every column has the block's row count. -/
def Rectangular (b : Block) : Prop := ∀ e ∈ b.columnData, e.2.length = b.rows

/-- Every data column has a type. -/
def Typed (b : Block) : Prop := ∀ e ∈ b.columnData, ∃ t, b.columnTypes.get e.1 = some t

/-- Row `i` of a block read off its columns: each column's name with its `i`-th value, if any. -/
def rowAt (b : Block) (i : Nat) : List (Str × Option Value) := b.columnData.map (fun e => (e.1, e.2[i]?))

end Klick.Spec
