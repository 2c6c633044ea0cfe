import Verif.RawRow
/-
Specification vocabulary for raw rows (C53) and error annotation (C56).
-/
namespace Klick.Spec
open Klick

/-- Position `i` is the cell an index or a name addresses. -/
def Targets (cells : List Cell) (ix : CellIndex) (i : Nat) : Prop :=
  ∃ c, cells[i]? = some c ∧ (ix = .at i ∨ ix = .named c.1)

/-- The row after a history of fetches (each with the type it asked for). -/
def afterFetches (cells : List Cell) (hist : List (RT × CellIndex)) : RawRow :=
  hist.foldl (fun r f => (r.tryGet f.1 f.2).2) (RawRow.ofCells cells)

/-- Rows as they come from a block: the column names are distinct, and none is empty. -/
def ColumnsNamed (cells : List Cell) : Prop :=
  (∀ c ∈ cells, c.1 ≠ []) ∧ ∀ (i j : Nat) (c d : Cell), cells[i]? = some c → cells[j]? = some d → c.1 = d.1 → i = j

/-- The error of a second fetch: by index it is called a double fetch, by name the cell is not found any more. -/
def secondFetch : CellIndex → Err
  | .at _ => .doubleFetch
  | .named _ => .outOfBounds

end Klick.Spec
