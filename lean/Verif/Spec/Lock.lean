import Verif.Lock
/-
Specification vocabulary for the lock (C58) and migrations (C59).
-/
namespace Klick.Spec
open Klick

/-- The table that stands for a lock: `_lock_` and the lock's name (up to a space, if the name has one). -/
def lockTable (l : Lock) : Str := ch! "_lock_" ++ l.name.takeWhile (· != ' ')

/-- The task has the lock of table `T` at its disposal: its caller has the handle, or it is a migration executing a statement. -/
def HasLock (T : Str) (t : Task) : Prop :=
  (∃ l, t.pc = .holds l ∧ lockTable l = T) ∨ (∃ m n q rest scripts, t.pc = .mig m (.running n q rest scripts) ∧ lockTable m.lock = T)

/-- How often the server forcibly reset the lock of table `T`, at the request of `reset()` or of a migration that waited for
more than a minute. -/
def forcedResets (T : Str) (log : List LockEv) : Nat :=
  (log.filter (fun e => match e with | .ran _ .force q => decide (droppedTable q = some T) | _ => false)).length

/-- The statement does not itself create or drop table `T` the way a lock does. -/
def Innocent (T q : Str) : Prop := createdTable q ≠ some T ∧ droppedTable q ≠ some T

/-- No migration script in this step touches table `T`. -/
def InnocentStep (lex : Str → List Token) (T : Str) : CloudStep → Prop
  | .callMigrate m scripts => ∀ s ∈ scripts, ∀ q ∈ splitQueryStatements (lex s), Innocent T (m.prepare q)
  | _ => True

/-- The connection of the task's client has not broken. -/
def Connected (c : Cloud) (t : Task) : Prop := ∀ k, t.pc.client = some k → k ∉ c.dead

/-- A schedule in which no task dies or is cancelled, no request fails before it is run, and no connection breaks. -/
def Calm : CloudStep → Prop
  | .crash _ => False
  | .cancel _ => False
  | .serve _ (.rejected _) => False
  | .serve _ (.lostBefore _) => False
  | .serve _ (.lostAfter _) => False
  | _ => True

/-- The statements of a batch, in order: those of the first script, then those of the second, and so on. -/
def allStatements (lex : Str → List Token) (m : Migrator) (scripts : List Str) : List Str :=
  (scripts.map (fun s => (splitQueryStatements (lex s)).map m.prepare)).flatten

/-- The statements of task `i` the server ran, in order. -/
def ranBy (i : Nat) (log : List LockEv) : List Str :=
  log.filterMap (fun e => match e with | .ran j .statement q => if j = i then some q else none | _ => none)

/-- What task `i` learned about its statements, in order. -/
def answersTo (i : Nat) (log : List LockEv) : List (Str × Reply) :=
  log.filterMap (fun e => match e with | .answer j .statement q r => if j = i then some (q, r) else none | _ => none)

/-- What task `i` learned about its release of the lock. -/
def unlocksOf (i : Nat) (log : List LockEv) : List Reply :=
  log.filterMap (fun e => match e with | .answer j .unlock _ r => if j = i then some r else none | _ => none)

/-- Nothing is left to do for the task: it is not in a call and its caller has no handle. -/
def AtRest (t : Task) : Prop := t.pc.request = none ∧ (∀ l, t.pc ≠ .holds l)

end Klick.Spec
