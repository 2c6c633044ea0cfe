import Verif.Packets
/-
How the connection task reads packets: klickhouse/src/client.rs:194-207 (`select!` over the request
channel and `receive_packet`). The future of `receive_packet` is created anew in every turn of the
loop. While the packet is incomplete it has consumed every byte available (io.rs:19-52, each field is
read with `read_exact`, which keeps what it got inside the future); when the request branch wins, the
future is dropped and these bytes with it. Running out of bytes (`Err.io` of the readers over a finite
string) stands for "pending"; the end of the transport is not modelled here.
-/
namespace Klick

/-- The reading side: bytes arrived and not yet consumed, bytes consumed by the `receive_packet` under
way, the packets decoded so far, and whether decoding has failed (which ends the task), klickhouse/src/internal_client_in.rs:86-238. -/
structure Feed where
  avail : Bytes
  taken : Bytes
  out : List ServerPacket
  failed : Bool

/-- What can happen to the reading side, klickhouse/src/client.rs:194-207. -/
inductive FeedEvent where
  /-- bytes arrive from the server -/
  | arrive (bs : Bytes)
  /-- the task runs and polls `receive_packet` -/
  | poll
  /-- the task takes a request, dropping the `receive_packet` under way -/
  | request

/-- At the start of the loop, klickhouse/src/client.rs:190-194. -/
def Feed.init : Feed := ⟨[], [], [], false⟩

/-- One event, klickhouse/src/client.rs:194-207. -/
def Feed.step (cfg : Cfg) (comp : Option Lz4) (revision : Nat) (f : Feed) : FeedEvent → Feed
  | .arrive bs => { f with avail := f.avail ++ bs }
  | .poll =>
    if f.failed then f
    else
      match readPacket cfg comp revision (f.taken ++ f.avail) with
      | .ok (p, rest) => { f with avail := rest, taken := [], out := f.out ++ [p] }
      | .err .io => { f with avail := [], taken := f.taken ++ f.avail }
      | _ => { f with failed := true }
  | .request => { f with taken := [] }

/-- A history, klickhouse/src/client.rs:194-207. -/
def Feed.run (cfg : Cfg) (comp : Option Lz4) (revision : Nat) (f : Feed) (es : List FeedEvent) : Feed :=
  es.foldl (Feed.step cfg comp revision) f

end Klick
