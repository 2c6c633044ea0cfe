import Verif.Spec.Link
import Verif.Spec.Fair
/-
Specification vocabulary for what eventually happens on a connection whose reader is fed bytes (C97): unbounded executions of the
connection task with its reader, and the assumptions on executor, callers, transport and server.
-/
namespace Klick.Spec
open Klick

/-- An unbounded execution: at every instant one event happens (`some`), or nothing does (`none`). -/
structure Wired (cfg : Cfg) (comp : Option Lz4) (revision : Nat) where
  state : Nat → Link
  event : Nat → Option LinkEvent
  start : state 0 = Link.init
  moves : ∀ n e, event n = some e → (state n).step cfg comp revision e = some (state (n + 1))
  rests : ∀ n, event n = none → state (n + 1) = state n

variable {cfg : Cfg} {comp : Option Lz4} {revision : Nat}

/-- What happened before instant `n`. -/
def Wired.past (x : Wired cfg comp revision) : Nat → List LinkEvent
  | 0 => []
  | n + 1 => x.past n ++ (x.event n).toList

/-- The bytes that have arrived before instant `n`. -/
def Wired.received (x : Wired cfg comp revision) (n : Nat) : Bytes := arrived (x.past n)

/-- How many queries have been sent before instant `n`. -/
def Wired.sent (x : Wired cfg comp revision) (n : Nat) : Nat := (sentOf (x.state n).conn.log).length

/-- The bytes of the replies to the first `n` queries. -/
def repliesTo (rs : Nat → Reply cfg comp revision) (n : Nat) : Bytes := (List.range n).flatMap fun i => (rs i).bytes

/-- The server writes reply `rs i` to the `i`-th query, after it was sent, and the transport brings every byte of it, in any portions and
as late as it likes; it never ends. -/
structure Serves (rs : Nat → Reply cfg comp revision) (x : Wired cfg comp revision) : Prop where
  /-- nothing else arrives -/
  only : ∀ n, x.received n <+: repliesTo rs (x.sent n)
  /-- all of it arrives -/
  all : ∀ n, Eventually n fun m => repliesTo rs (x.sent n) <+: x.received m
  /-- the transport does not end or fail -/
  open' : ∀ n, x.event n ≠ some .eof

/-- The conditions on the executor, and on the writing half of the transport. -/
structure Runs (x : Wired cfg comp revision) : Prop where
  /-- writes succeed -/
  writes : ∀ n k, x.event n = some (.poll k) ∨ x.event n = some (.request k) ∨ x.event n = some (.caller (.deliver k)) → 2 ≤ k
  /-- a send to a caller that could complete at any time does complete -/
  sends : ∀ n, Forever n (fun m => ∃ s, (x.state m).conn.step (.deliver 2) = some s) →
    Eventually n fun m => ∃ k, x.event m = some (.caller (.deliver k))
  /-- a task that again and again could take a request takes one -/
  takes : ∀ n, Often n (fun m => (x.state m).conn.phase = .idle ∧ (x.state m).conn.queue ≠ []) →
    Eventually n fun m => ∃ k, x.event m = some (.request k)
  /-- a task that again and again waits for a packet looks for one -/
  polls : ∀ n, Often n (fun m => (x.state m).conn.phase = .idle) → Eventually n fun m => ∃ k, x.event m = some (.poll k)

/-- The conditions on the callers: somebody keeps the client, and who has something waiting in its channel takes it, or leaves. -/
structure Attend (x : Wired cfg comp revision) : Prop where
  keep : ∀ n, x.event n ≠ some (.caller .close)
  reads : ∀ n t i buf o, (x.state n).conn.slots t = some (.streaming (i :: buf) o) → (x.state n).conn.listening t = true →
    Eventually n fun m => x.event m = some (.caller (.recv t)) ∨ x.event m = some (.caller (.drop t))

/-- No request is taken in the middle of a packet. -/
def NeverCut (x : Wired cfg comp revision) : Prop := ∀ n k, x.event n = some (.request k) → (x.state n).feed.taken = []

/-- Callers take turns, each query submitted when the ones before are answered, and no blocks are inserted. -/
structure InTurn (x : Wired cfg comp revision) : Prop where
  turns : ∀ n t text, x.event n = some (.caller (.submit t text)) → (view (x.state n).conn.log).done = submittedOf (x.state n).conn.log
  queries : ∀ n d o b, x.event n ≠ some (.caller (.submitData d o b))

end Klick.Spec
