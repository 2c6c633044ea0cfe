import Verif.Spec.Client
import Verif.Spec.Query
/-
Words for C102: what the answer of the server to a query holds.
-/
namespace Klick.Spec

/-- The first row of the answer `items` is `row`: it is the first row of the blocks in front of an exception, if there is one. -/
def FirstRow (items : List Item) (row : TRow) : Prop :=
  ∃ (bs : List Block) (more : List Item), items = bs.map .block ++ more ∧ (bs.flatMap rowsIn).head? = some row

/-- The answer to the query `t` is complete, holds no exception and no row. -/
def NoRow (s : Conn) (t : Ticket) : Prop :=
  t ∈ (view s.log).done ∧ ∃ bs : List Block, itemsOf t s.log = bs.map .block ∧ bs.flatMap rowsIn = []

end Klick.Spec
