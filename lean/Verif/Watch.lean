import Verif.Handles
/-
Subscribers of progress: klickhouse/src/client.rs:33-34, 42, 58, 154-158, 236, 300-304, 550-558.

The channel is `tokio::sync::broadcast` (external), modelled from its documentation: it keeps at least as many of the latest values as
asked for (`cap` is how many it keeps, a parameter); a receiver starts with the values sent after it subscribed, gets them in order, is
told how many it missed when the oldest were dropped before it got to them (`RecvError::Lagged`), and is told that the channel is closed
when it has got everything and no sender is left (`RecvError::Closed`). Without receivers a value is not kept; that is not modelled, as
nobody could tell.
-/
namespace Klick

/-- `(Uuid, Progress)`, klickhouse/src/client.rs:42. -/
abbrev Report := Ticket × Progress

/-- `PROGRESS_CAPACITY`, klickhouse/src/client.rs:34. -/
def progressCapacity : Nat := 100

/-- The channel: how many reports have been sent, and the latest of them, klickhouse/src/client.rs:42,301-309. -/
structure Board where
  sent : Nat
  kept : List Report

/-- `broadcast::Sender::send`, called in klickhouse/src/client.rs:156. -/
def Board.send (cap : Nat) (b : Board) (r : Report) : Board :=
  ⟨b.sent + 1, (b.kept ++ [r]).drop ((b.kept ++ [r]).length - cap)⟩

/-- What a receiver is told, klickhouse/src/client.rs:556-558. -/
inductive Told where
  | report (r : Report)
  | missed (n : Nat)
  | ended

/-- `broadcast::Receiver::recv` while there are senders: `none` when it waits. `next` counts the reports the receiver is through with,
klickhouse/src/client.rs:556-558. -/
def Board.recv (b : Board) (next : Nat) : Option (Told × Nat) :=
  if next < b.sent - b.kept.length then some (.missed (b.sent - b.kept.length - next), b.sent - b.kept.length)
  else
    match b.kept[next - (b.sent - b.kept.length)]? with
    | some r => some (.report r, next + 1)
    | none => none

/-- A receiver. `since` and `told` are its history: how much had happened on the connection when it subscribed, and what it was told,
klickhouse/src/client.rs:556-558. -/
structure Watcher where
  next : Nat
  since : Nat
  told : List Told

/-- A connection, its handles and its receivers of progress, klickhouse/src/client.rs:36-43,556-558. -/
structure Watched where
  owned : Owned
  board : Board
  watchers : Nat → Option Watcher

/-- `Client::connect`, klickhouse/src/client.rs:297-309 with 58. -/
def Watched.init : Watched := ⟨.init, ⟨0, []⟩, fun _ => none⟩

/-- The reports the connection sends in a step, klickhouse/src/client.rs:154-158. -/
def newReports (before after : List Obs) : List Report :=
  (after.drop before.length).filterMap fun
    | .progress t p => some (t, p)
    | _ => none

/-- What can happen, klickhouse/src/client.rs:154-158,556-558. -/
inductive WatchEvent where
  | owned (e : OwnedEvent)
  | subscribe (w : Nat)
  | hear (w : Nat) (x : Told)
  | leave (w : Nat)

/-- One step. `subscribe_progress` (klickhouse/src/client.rs:556-558) needs a handle. Senders are held by the task (line 42) and by every
handle (line 236), not by the result streams. -/
inductive Watched.Step (cap : Nat) : Watched → WatchEvent → Watched → Prop where
  | owned {o b ws e o'} : Owned.Step o e o' →
      Watched.Step cap ⟨o, b, ws⟩ (.owned e) ⟨o', (newReports o.conn.log o'.conn.log).foldl (Board.send cap) b, ws⟩
  | subscribe {o b ws w} : 0 < o.handles → ws w = none →
      Watched.Step cap ⟨o, b, ws⟩ (.subscribe w) ⟨o, b, upd ws w (some ⟨b.sent, o.conn.log.length, []⟩)⟩
  | hear {o b ws w next since told x next'} : ws w = some ⟨next, since, told⟩ → b.recv next = some (x, next') →
      Watched.Step cap ⟨o, b, ws⟩ (.hear w x) ⟨o, b, upd ws w (some ⟨next', since, told ++ [x]⟩)⟩
  | ended {o b ws w next since told} : ws w = some ⟨next, since, told⟩ → b.recv next = none → o.handles = 0 → o.isClosed = true →
      Watched.Step cap ⟨o, b, ws⟩ (.hear w .ended) ⟨o, b, upd ws w (some ⟨next, since, told ++ [.ended]⟩)⟩
  | leave {o b ws w} : Watched.Step cap ⟨o, b, ws⟩ (.leave w) ⟨o, b, upd ws w none⟩

/-- A whole history, klickhouse/src/client.rs:154-158,556-558. -/
inductive Watched.Run (cap : Nat) : Watched → List WatchEvent → Watched → Prop where
  | nil {s} : Watched.Run cap s [] s
  | cons {s e s' es s''} : Watched.Step cap s e s' → Watched.Run cap s' es s'' → Watched.Run cap s (e :: es) s''

end Klick
