import Verif.Client
import Verif.Cancel
/-
The connection task with its reader: klickhouse/src/client.rs:194-207. `Client` is the task over whole packets, `Cancel` the reader
under `select!`; here the reader's packets are the packets of the task, and a request taken by the task drops the read under way. As
in those, the model starts after the hello exchange, so the revision is fixed.
-/
namespace Klick

/-- The reader and the task, klickhouse/src/client.rs:36-43. -/
structure Link where
  feed : Feed
  conn : Conn

/-- What can happen, klickhouse/src/client.rs:194-207. -/
inductive LinkEvent where
  /-- bytes arrive from the server -/
  | arrive (bs : Bytes)
  /-- the task polls `receive_packet`; `k` as in `Event.packet` -/
  | poll (k : Nat)
  /-- the task takes a request -/
  | request (k : Nat)
  /-- an event of the callers, or a send to a caller that completes -/
  | caller (e : Event)
  /-- the transport ends or fails -/
  | eof

/-- Events that are neither requests taken nor packets received, klickhouse/src/client.rs:194-207. -/
def Event.outside : Event → Bool
  | .handle _ | .packet _ _ | .fail => false
  | _ => true

/-- After the hello exchange, klickhouse/src/client.rs:182-193. -/
def Link.init : Link := ⟨Feed.init, Conn.init⟩

/-- One turn, client.rs:194-207. A packet that cannot be read ends the task (`packet?`), as does a panic of the reader. -/
def Link.step (cfg : Cfg) (comp : Option Lz4) (revision : Nat) (w : Link) : LinkEvent → Option Link
  | .arrive bs => some { w with feed := w.feed.step cfg comp revision (.arrive bs) }
  | .poll k =>
    match w.conn.phase with
    | .idle =>
      match readPacket cfg comp revision (w.feed.taken ++ w.feed.avail) with
      | .ok (p, _) => (w.conn.step (.packet k p)).map fun c => ⟨w.feed.step cfg comp revision .poll, c⟩
      | .err .io => some { w with feed := w.feed.step cfg comp revision .poll }
      | _ => (w.conn.step .fail).map fun c => ⟨w.feed.step cfg comp revision .poll, c⟩
    | _ => none
  | .request k => (w.conn.step (.handle k)).map fun c => ⟨w.feed.step cfg comp revision .request, c⟩
  | .caller e => if e.outside then (w.conn.step e).map fun c => { w with conn := c } else none
  | .eof => (w.conn.step .fail).map fun c => { w with conn := c }

/-- A history, klickhouse/src/client.rs:182-208. -/
def Link.run (cfg : Cfg) (comp : Option Lz4) (revision : Nat) : Link → List LinkEvent → Option Link
  | w, [] => some w
  | w, e :: es => (w.step cfg comp revision e).bind fun w => w.run cfg comp revision es

end Klick
