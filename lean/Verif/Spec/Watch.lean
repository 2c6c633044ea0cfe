import Verif.Watch
import Verif.Spec.Handles
/-
Specification vocabulary for subscribers of progress (C87).
-/
namespace Klick.Spec
open Klick

/-- What a subscriber was told accounts for the beginning of the reports `all`, `rest` being still to come: each report in its place, and
each gap with its length. -/
inductive Accounts : List Told → List Report → List Report → Prop where
  | start {all} : Accounts [] all all
  | report {told r all rest} : Accounts told all rest → Accounts (.report r :: told) (r :: all) rest
  | missed {told gap all rest} : Accounts told all rest → Accounts (.missed gap.length :: told) (gap ++ all) rest
  | ended {told all rest} : Accounts told all rest → Accounts (.ended :: told) all rest

/-- What a subscriber is told next: the first report it has not got, unless more than `cap` are waiting, when it is told how many were
dropped; the end once it has got everything and there is no connection any more (`gone`). -/
def ToldNext (cap : Nat) (gone : Prop) (rest : List Report) : Told → Prop
  | .report r => rest.length ≤ cap ∧ rest.head? = some r
  | .missed n => cap < rest.length ∧ n = rest.length - cap
  | .ended => rest = [] ∧ gone

/-- The reports among what a subscriber was told. -/
def reportsIn (l : List Told) : List Report := l.filterMap fun | .report r => some r | _ => none

/-- The reports about a query. -/
def about (t : Ticket) (l : List Report) : List Progress := l.filterMap fun r => if r.1 = t then some r.2 else none

/-- States with subscribers. -/
def WatchReachable (cap : Nat) (s : Watched) : Prop := ∃ es, Watched.Run cap .init es s

end Klick.Spec
