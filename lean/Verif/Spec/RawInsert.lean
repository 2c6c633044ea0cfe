import Verif.RawInsert
import Verif.Spec.Storage
/-
Specification vocabulary for raw inserts (C74), unit rows (C75) and JSON values (C76).
-/
namespace Klick.Spec
open Klick

/-- The server takes the blocks of an insert up to the first one without columns. -/
def serverTakes : List Block → List Block
  | [] => []
  | b :: bs => if b.columnTypes.isEmpty then [] else b :: serverTakes bs

/-- Some block without columns was sent: the server knows the insert is complete. -/
def Ended (sent : List Block) : Prop := ∃ b ∈ sent, b.columnTypes.isEmpty = true

/-- serde_json's promise for a value. -/
def JsonKeeps {α : Type} (j : SerdeJson α) (x : α) : Prop := ∃ s, j.toString x = some s ∧ j.fromStr s = some x

end Klick.Spec
