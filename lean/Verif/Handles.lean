import Verif.Client
/-
Client handles: klickhouse/src/client.rs:182-208, 232-237, 313-350, 546-548.
-/
namespace Klick

/-- A connection and the number of `Client` handles to it. `Client` derives `Clone`, and every clone holds a sender of the request
channel (klickhouse/src/client.rs:232-237). -/
structure Owned where
  handles : Nat
  conn : Conn

/-- What `Client::connect` hands out: one handle (klickhouse/src/client.rs:301-309); the `SET` it executes first is left out. -/
def Owned.init : Owned := ⟨1, Conn.init⟩

/-- Cloning a handle, dropping one, or an event of the connection, klickhouse/src/client.rs:232-237. -/
inductive OwnedEvent where
  | clone
  | release
  | conn (e : Event)

/-- A call that still awaits the channel of its results: `query_raw` borrows the client until then (klickhouse/src/client.rs:313-332),
so the last handle cannot be dropped. The stream it returns borrows nothing (`ReceiverStream`; `query` says `use<T, I>`, line 476). -/
def Conn.calling (s : Conn) : Prop := ∃ t, s.slots t = some .waiting ∧ s.listening t = true

/-- One step. Submitting takes a handle; the request channel reports its end (`input.recv()` is `None`, klickhouse/src/client.rs:196-199)
only when no handle is left. -/
inductive Owned.Step : Owned → OwnedEvent → Owned → Prop where
  | clone {n c} : 0 < n → Owned.Step ⟨n, c⟩ .clone ⟨n + 1, c⟩
  | release {n c} : (n = 0 → ¬ c.calling) → Owned.Step ⟨n + 1, c⟩ .release ⟨n, c⟩
  | submit {n c t x c'} : 0 < n → c.step (.submit t x) = some c' → Owned.Step ⟨n, c⟩ (.conn (.submit t x)) ⟨n, c'⟩
  | submitData {n c d t b c'} : 0 < n → c.step (.submitData d t b) = some c' → Owned.Step ⟨n, c⟩ (.conn (.submitData d t b)) ⟨n, c'⟩
  | close {c c'} : c.step .close = some c' → Owned.Step ⟨0, c⟩ (.conn .close) ⟨0, c'⟩
  | handle {n c k c'} : c.step (.handle k) = some c' → Owned.Step ⟨n, c⟩ (.conn (.handle k)) ⟨n, c'⟩
  | packet {n c k p c'} : c.step (.packet k p) = some c' → Owned.Step ⟨n, c⟩ (.conn (.packet k p)) ⟨n, c'⟩
  | deliver {n c k c'} : c.step (.deliver k) = some c' → Owned.Step ⟨n, c⟩ (.conn (.deliver k)) ⟨n, c'⟩
  | recv {n c t c'} : c.step (.recv t) = some c' → Owned.Step ⟨n, c⟩ (.conn (.recv t)) ⟨n, c'⟩
  | drop {n c t c'} : c.step (.drop t) = some c' → Owned.Step ⟨n, c⟩ (.conn (.drop t)) ⟨n, c'⟩
  | fail {n c c'} : c.step .fail = some c' → Owned.Step ⟨n, c⟩ (.conn .fail) ⟨n, c'⟩

/-- A whole history, klickhouse/src/client.rs:182-208,232-237. -/
inductive Owned.Run : Owned → List OwnedEvent → Owned → Prop where
  | nil {s} : Owned.Run s [] s
  | cons {s e s' es s''} : Owned.Step s e s' → Owned.Run s' es s'' → Owned.Run s (e :: es) s''

/-- `Client::is_closed`, klickhouse/src/client.rs:546-548, and `has_broken` of the pool, klickhouse/src/manager.rs:48-50: the receiver of
requests is gone, i.e. the task has ended. -/
def Owned.isClosed (s : Owned) : Bool :=
  match s.conn.phase with
  | .dead => true
  | _ => false

end Klick
