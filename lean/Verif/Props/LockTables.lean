import Verif.Spec.LockTables
import Verif.Props.Lock
/-
C58: the tables that exist are what the statements run so far leave.
-/
namespace Klick
open Spec

theorem tablesAfter_append : ∀ (es fs : List LockEv) (ts : List Str), tablesAfter (es ++ fs) ts = tablesAfter fs (tablesAfter es ts)
  | [], _, _ => rfl
  | .answer _ _ _ _ :: es, fs, ts => by rw [List.cons_append, tablesAfter, tablesAfter_append es, tablesAfter]
  | .ran _ _ q :: es, fs, ts => by
    rw [List.cons_append, tablesAfter, tablesAfter]
    split <;> exact tablesAfter_append es fs _

theorem tablesAfter_ran (i : Nat) (p : Purpose) (q : Str) (pre post : Str) (v : Reply) (ts : List Str) :
    tablesAfter [.ran i p q] ts = (serverRun pre post v q ts).1 := by
  unfold serverRun
  rw [tablesAfter]
  cases createdTable q with
  | some t => dsimp only; split <;> rfl
  | none => cases droppedTable q <;> rfl

theorem step_tables (lex : Str → List Token) (c : Cloud) (s : CloudStep) (h : c.tables = tablesAfter c.log []) :
    (c.step lex s).tables = tablesAfter (c.step lex s).log [] := by
  cases s <;> simp only [Cloud.step, Cloud.spawn, Cloud.put, Cloud.spawns] <;> try exact h
  case serve i f =>
    split
    · split
      · rename_i pc _ p q _
        unfold Cloud.served
        cases f with
        | runs pre post v =>
          dsimp only
          split
          · exact h
          · dsimp only
            rw [tablesAfter_append, ← h, tablesAfter_ran i p q pre post v]
        | rejected e => exact h
        | lostBefore r => exact h
        | lostAfter r =>
          dsimp only
          rw [tablesAfter_append, ← h, tablesAfter_ran i p q [] [] (.ok ())]
      · exact h
    · exact h
  case recv i =>
    split
    · split
      · unfold Cloud.received
        dsimp only
        rw [tablesAfter_append, ← h]
        rfl
      · exact h
    · exact h
  all_goals
    repeat' split
    all_goals exact h

/-- **C58** (what a lock is): after every schedule, with deaths, cancellations and broken connections, the tables that exist are those that the
statements run so far leave, in the order in which the server ran them, including the ones whose answer was lost. -/
theorem C58_tables (lex : Str → List Token) (steps : List CloudStep) :
    (Cloud.init.run lex steps).tables = tablesAfter (Cloud.init.run lex steps).log [] := by
  suffices key : ∀ (ss : List CloudStep) (c : Cloud), c.tables = tablesAfter c.log [] → (c.run lex ss).tables = tablesAfter (c.run lex ss).log [] from
    key steps Cloud.init rfl
  intro ss
  induction ss with
  | nil => exact fun c h => h
  | cons s ss ih => exact fun c h => ih _ (step_tables lex c s h)

/-- A connection that breaks after the table was made: it is there. -/
example : (Cloud.init.run (fun _ => []) [.callTryLock exLock, .start 0, .serve 0 (.lostAfter (.error []))]).tables = [lockTable exLock] := by decide +kernel

end Klick
