import Verif.Spec.Lock
import Verif.Spec.Fair
/-
Specification vocabulary for waiting on a lock (C83): unbounded schedules, and what a waiting call may
expect of the executor, its connection and the clock.
-/
namespace Klick.Spec
open Klick

/-- An unbounded schedule of any number of clients and one server. -/
structure Schedule (lex : Str → List Token) where
  state : Nat → Cloud
  step : Nat → CloudStep
  start : state 0 = Cloud.init
  next : ∀ n, state (n + 1) = (state n).step lex (step n)

/-- Where task `i` is at instant `n`. -/
def Schedule.pcAt {lex : Str → List Token} (x : Schedule lex) (i n : Nat) : Option Pc := ((x.state n).tasks[i]?).map Task.pc

/-- The conditions on task `i`, its connection and the clock. -/
structure Served {lex : Str → List Token} (x : Schedule lex) (i : Nat) : Prop where
  /-- the task does not die, its caller does not give up, and no request of it fails -/
  unharmed : ∀ n, x.step n ≠ .crash i ∧ x.step n ≠ .cancel i ∧ (∀ e, x.step n ≠ .serve i (.rejected e)) ∧
    ∀ r, x.step n ≠ .serve i (.lostBefore r) ∧ x.step n ≠ .serve i (.lostAfter r)
  /-- its connection does not break, on this or another task's account -/
  alive : ∀ n t, (x.state n).tasks[i]? = some t → Connected (x.state n) t
  /-- the executor and the server turn to the task again and again -/
  starts : Often 0 fun n => x.step n = .start i
  serves : Often 0 fun n => ∃ pre post v, x.step n = .serve i (.runs pre post v)
  receives : Often 0 fun n => x.step n = .recv i
  /-- every sleep of the task ends -/
  wakes : ∀ n t, Eventually n fun m => x.step m = .wake i ∧ t ≤ (x.state m).now

/-- At instant `n` a task other than `i` obtains the lock of table `T`: the table appears. -/
def OthersObtain {lex : Str → List Token} (x : Schedule lex) (T : Str) (i n : Nat) : Prop :=
  T ∉ (x.state n).tables ∧ T ∈ (x.state (n + 1)).tables ∧ ∀ f, x.step n ≠ .serve i f

end Klick.Spec
