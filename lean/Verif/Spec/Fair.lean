import Verif.Spec.Client
/-
Specification vocabulary for what eventually happens on a connection (C82): unbounded executions and
the assumptions on executor, callers, transport and server under which progress is claimed.
-/
namespace Klick.Spec
open Klick

/-- An unbounded execution: at every instant one event happens (`some`), or nothing does (`none`). -/
structure Execution where
  state : Nat → Conn
  event : Nat → Option Event
  start : state 0 = Conn.init
  moves : ∀ n e, event n = some e → (state n).step e = some (state (n + 1))
  rests : ∀ n, event n = none → state (n + 1) = state n

/-- From instant `n` on, again and again. -/
def Often (n : Nat) (P : Nat → Prop) : Prop := ∀ m, n ≤ m → ∃ j, m ≤ j ∧ P j

/-- From instant `n` on, at some instant. -/
def Eventually (n : Nat) (P : Nat → Prop) : Prop := ∃ m, n ≤ m ∧ P m

/-- From instant `n` on, at every instant. -/
def Forever (n : Nat) (P : Nat → Prop) : Prop := ∀ m, n ≤ m → P m

/-- The conditions on executor, transport and server. -/
structure TaskFair (x : Execution) : Prop where
  /-- the connection task never ends -/
  alive : ∀ n, .died ∉ (x.state n).log
  /-- a send to a caller that could complete at any time does complete -/
  sends : ∀ n, Forever n (fun m => ∃ s, (x.state m).step (.deliver 2) = some s) →
    Eventually n fun m => ∃ k, x.event m = some (.deliver k)
  /-- a task that again and again could take a request takes one -/
  takes : ∀ n, Often n (fun m => (x.state m).phase = .idle ∧ (x.state m).queue ≠ []) →
    Eventually n fun m => ∃ k, x.event m = some (.handle k)
  /-- while a query is being executed and the task again and again waits for a packet, the server ends it -/
  answers : ∀ n t, Forever n (fun m => (view (x.state m).log).cur = some t) → Often n (fun m => (x.state m).phase = .idle) →
    Eventually n fun m => ∃ k p, x.event m = some (.packet k p) ∧ Terminator p

/-- The conditions under which progress is claimed. -/
structure Fair (x : Execution) : Prop extends TaskFair x where
  /-- a caller with something waiting in its channel takes it, or leaves -/
  reads : ∀ n t i buf o, (x.state n).slots t = some (.streaming (i :: buf) o) → (x.state n).listening t = true →
    Eventually n fun m => x.event m = some (.recv t) ∨ x.event m = some (.drop t)

/-- Nothing is left to do: the task runs and waits, no request and no query is open, and no caller has
anything left to read. -/
structure Quiet (s : Conn) : Prop where
  alive : .died ∉ s.log
  idle : s.phase = .idle
  noRequest : s.queue = []
  noQuery : (view s.log).cur = none
  allRead : ∀ t, s.listening t = true → readsOf t s.log = itemsOf t s.log

end Klick.Spec
