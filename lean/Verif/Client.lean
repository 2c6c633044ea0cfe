import Verif.Packets
/-
The connection task and its callers: klickhouse/src/client.rs:36-226, 313-350.

The task is modelled as a state machine driven by events; a history is any list of events. Events of
the callers (submitting, reading, dropping) and of the task (taking a request, receiving a packet,
completing a send to a caller) interleave freely, as under `select!` and any executor. The model
starts after the hello exchange. Query identifiers (`Uuid::new_v4`) are identified with the ticket of
the query. Subscribers of the progress broadcast are in `Watch`.
-/
namespace Klick

/-- Names a submitted query (or, in `SendData`, a submitted block), klickhouse/src/client.rs:217-230. -/
abbrev Ticket := Nat

/-- `Result<Block>`, what goes through a query's response channel, klickhouse/src/client.rs:89. -/
inductive Item where
  | block (b : Block)
  | error (e : Err)

/-- `ClientRequestData`, klickhouse/src/client.rs:217-230. `owner` is the insert a block belongs to; the
code does not carry it, and nothing below depends on it. -/
inductive Req where
  | query (t : Ticket) (text : Str)
  | data (d owner : Ticket) (b : Block)

/-- The caller's side of a query: awaiting the `oneshot` that hands out the response channel; holding
the channel (`sender` says whether the task still holds its sending half); or the `oneshot` was
dropped unanswered (an error to the caller), klickhouse/src/client.rs:313-332. -/
inductive Caller where
  | waiting
  | streaming (buf : List Item) (sender : Bool)
  | failed

/-- The caller's side of a `SendData`: awaiting the acknowledgement, acknowledged, or dropped, klickhouse/src/client.rs:334-350. -/
inductive Ack where
  | waiting
  | acked
  | failed
deriving DecidableEq

/-- What the task is doing: between two turns of the `select!` loop, inside `current.send(item).await`
(`last` when the sender was taken out of `executing_query`, i.e. for an exception), or ended, klickhouse/src/client.rs:128-208. -/
inductive Phase where
  | idle
  | sending (t : Ticket) (i : Item) (last : Bool)
  | dead

/-- Observable effects, in order, klickhouse/src/client.rs:62-180. -/
inductive Obs where
  | submitted (t : Ticket) (text : Str)
  | dataSubmitted (d owner : Ticket) (b : Block)
  | sentQuery (t : Ticket) (text : Str)
  | sentEmpty (t : Ticket)
  | sentData (d owner : Ticket) (b : Block)
  | got (p : ServerPacket)
  | read (t : Ticket) (i : Item)
  | progress (t : Ticket) (p : Progress)
  | died

/-- `InnerClient` (client.rs:36-43), the request channel, the response channels, and the history. -/
structure Conn where
  phase : Phase
  queue : List Req
  pending : List (Ticket × Str)
  executing : Option Ticket
  slots : Ticket → Option Caller
  listening : Ticket → Bool
  acks : Ticket → Option Ack
  log : List Obs

/-- A fresh connection after the hello exchange, klickhouse/src/client.rs:50-60. -/
def Conn.init : Conn := ⟨.idle, [], [], none, fun _ => none, fun _ => false, fun _ => none, []⟩

/-- Point update. -/
def upd {α : Type} (f : Ticket → α) (t : Ticket) (a : α) : Ticket → α := fun t' => if t' = t then a else f t'

/-- Record an observable effect. -/
def Conn.note (s : Conn) (o : Obs) : Conn := { s with log := s.log ++ [o] }

/-- Dropping an unanswered `oneshot` sender, klickhouse/src/client.rs:210-230. -/
def failSlot : Option Caller → Option Caller
  | some .waiting => some .failed
  | x => x

/-- Dropping the sending half of a response channel, klickhouse/src/client.rs:137-170. -/
def closeSlot : Option Caller → Option Caller
  | some (.streaming buf _) => some (.streaming buf false)
  | x => x

/-- Dropping a request: its `oneshot` is dropped, klickhouse/src/client.rs:217-230. -/
def dropReq (s : Conn) : Req → Conn
  | .query t _ => { s with slots := upd s.slots t (failSlot (s.slots t)) }
  | .data d _ _ => { s with acks := upd s.acks d (some .failed) }

/-- Dropping a queued query, klickhouse/src/client.rs:36-43. -/
def dropPending (s : Conn) (q : Ticket × Str) : Conn := { s with slots := upd s.slots q.1 (failSlot (s.slots q.1)) }

/-- Dropping the sender of the executing query, klickhouse/src/client.rs:36-43. -/
def dropExecuting (s : Conn) : Conn :=
  match s.executing with
  | some t => { s with slots := upd s.slots t (closeSlot (s.slots t)), executing := none }
  | none => s

/-- The task ends (client.rs:210-214): `InnerClient` and the receiver of requests are dropped, with
everything in them. -/
def Conn.kill (s : Conn) : Conn :=
  let s := s.queue.foldl dropReq { s with queue := [] }
  let s := s.pending.foldl dropPending { s with pending := [] }
  { (dropExecuting s).note .died with phase := .dead }

/-- `dispatch_query`, client.rs:62-106. `k` is how many of its two writes (the query, the empty block)
the transport accepts before failing. -/
def dispatch (k : Nat) (t : Ticket) (text : Str) (s : Conn) : Conn :=
  match k with
  | 0 => Conn.kill { s with slots := upd s.slots t (failSlot (s.slots t)) }
  | k + 1 =>
    let s := { s.note (.sentQuery t text) with slots := upd s.slots t (some (.streaming [] true)), executing := some t }
    match k with
    | 0 => s.kill
    | _ + 1 => s.note (.sentEmpty t)

/-- Taking the next queued query, client.rs:147-149, 166-168. -/
def dispatchNext (k : Nat) (s : Conn) : Conn :=
  match s.pending with
  | [] => s
  | (t, text) :: ps => dispatch k t text { s with pending := ps }

/-- `handle_request`, client.rs:108-126. `k` as in `dispatch`; for a block, `0` stands for a write or
serialisation failure. -/
def handleRequest (k : Nat) (r : Req) (s : Conn) : Conn :=
  match r with
  | .query t text =>
    if s.pending.isEmpty && s.executing.isNone then dispatch k t text s
    else { s with pending := s.pending ++ [(t, text)] }
  | .data d owner b =>
    match k with
    | 0 => Conn.kill { s with acks := upd s.acks d (some .failed) }
    | _ + 1 => { s.note (.sentData d owner b) with acks := upd s.acks d (some .acked) }

/-- `receive_packet`, client.rs:128-180, up to the point where it awaits room in a caller's channel. -/
def receivePacket (k : Nat) (p : ServerPacket) (s : Conn) : Conn :=
  match p with
  | .hello _ => s.kill
  | .data _ b =>
    match s.executing with
    | some t => { s with phase := .sending t (.block b) false }
    | none => s.kill
  | .exception e =>
    match s.executing with
    | some t => { s with executing := none, phase := .sending t (.error e.emit) true }
    | none => s.kill
  | .progress pr =>
    match s.executing with
    | some t => s.note (.progress t pr)
    | none => s
  | .endOfStream =>
    match s.executing with
    | some _ => dispatchNext k (dropExecuting s)
    | none => s.kill
  | _ => s

/-- Capacity of a response channel, client.rs:89. -/
def responseCapacity : Nat := 32
/-- Capacity of the request channel, client.rs:301. -/
def requestCapacity : Nat := 1024

/-- A send to a caller completes: there is room, or the caller has dropped its end (`.ok()`). Then, for
an exception, the sender is dropped and the next query dispatched, klickhouse/src/client.rs:128-180. -/
def deliver (k : Nat) (t : Ticket) (i : Item) (last : Bool) (s : Conn) : Option Conn :=
  let go (s : Conn) : Conn :=
    let s := { s with phase := .idle }
    if last then dispatchNext k { s with slots := upd s.slots t (closeSlot (s.slots t)) } else s
  if s.listening t then
    match s.slots t with
    | some (.streaming buf o) =>
      if buf.length < responseCapacity then some (go { s with slots := upd s.slots t (some (.streaming (buf ++ [i]) o)) })
      else none
    | _ => none
  else some (go s)

/-- What can happen, klickhouse/src/client.rs:182-214,313-350. -/
inductive Event where
  /-- a caller sends a query request (`query_raw`, client.rs:313-332; the start of an insert) -/
  | submit (t : Ticket) (text : Str)
  /-- an insert that has been given its response channel sends a block (`send_data`, client.rs:334-350) -/
  | submitData (d owner : Ticket) (b : Block)
  /-- the task takes a request -/
  | handle (k : Nat)
  /-- the task receives a packet -/
  | packet (k : Nat) (p : ServerPacket)
  /-- a send to a caller completes -/
  | deliver (k : Nat)
  /-- a caller takes an item from its channel -/
  | recv (t : Ticket)
  /-- a caller drops its end (the future or the stream) -/
  | drop (t : Ticket)
  /-- reading from the transport fails -/
  | fail
  /-- all `Client` handles are gone: `recv` returns `None` (client.rs:196-199) -/
  | close

/-- One step; `none` when the event cannot happen now, klickhouse/src/client.rs:182-214,313-350. -/
def Conn.step (s : Conn) : Event → Option Conn
  | .submit t text =>
    match s.phase, s.slots t with
    | .dead, _ => none
    | _, some _ => none
    | _, none =>
      if s.queue.length < requestCapacity then
        some { s.note (.submitted t text) with
          queue := s.queue ++ [.query t text], slots := upd s.slots t (some .waiting), listening := upd s.listening t true }
      else none
  | .submitData d owner b =>
    match s.phase, s.slots owner, s.acks d with
    | .dead, _, _ => none
    | _, some (.streaming _ _), none =>
      if s.queue.length < requestCapacity then
        some { s.note (.dataSubmitted d owner b) with queue := s.queue ++ [.data d owner b], acks := upd s.acks d (some .waiting) }
      else none
    | _, _, _ => none
  | .handle k =>
    match s.phase, s.queue with
    | .idle, r :: rest => some (handleRequest k r { s with queue := rest })
    | _, _ => none
  | .packet k p =>
    match s.phase with
    | .idle => some (receivePacket k p (s.note (.got p)))
    | _ => none
  | .deliver k =>
    match s.phase with
    | .sending t i last => deliver k t i last s
    | _ => none
  | .recv t =>
    match s.slots t, s.listening t with
    | some (.streaming (i :: buf) o), true =>
      some { s.note (.read t i) with slots := upd s.slots t (some (.streaming buf o)) }
    | _, _ => none
  | .drop t =>
    match s.slots t with
    | some _ => some { s with listening := upd s.listening t false }
    | none => none
  | .fail =>
    match s.phase with
    | .idle => some s.kill
    | _ => none
  | .close =>
    match s.phase, s.queue with
    | .idle, [] => some s.kill
    | _, _ => none

/-- A whole history, klickhouse/src/client.rs:182-214. -/
def Conn.run : Conn → List Event → Option Conn
  | s, [] => some s
  | s, e :: es => (s.step e).bind fun s => s.run es

end Klick
