import Verif.Spec.Lock
/-
Specification vocabulary for the tables of locks (C58): what the statements run so far leave.
-/
namespace Klick.Spec
open Klick

/-- The tables after the server has run these statements, one after the other: a table is created unless it exists, dropped if it does; other
statements change nothing. -/
def tablesAfter : List LockEv → List Str → List Str
  | [], ts => ts
  | .answer _ _ _ _ :: es, ts => tablesAfter es ts
  | .ran _ _ q :: es, ts =>
    match createdTable q, droppedTable q with
    | some t, _ => tablesAfter es (if t ∈ ts then ts else t :: ts)
    | none, some t => tablesAfter es (ts.filter (· != t))
    | none, none => tablesAfter es ts

end Klick.Spec
