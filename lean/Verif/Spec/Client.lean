import Verif.Client
/-
Specification vocabulary for connections (C29-C34): what an outside observer concludes from the order
of observable events alone.
-/
namespace Klick.Spec
open Klick

/-- Tickets of the submitted queries, in order. -/
def submittedOf (l : List Obs) : List Ticket := l.filterMap fun | .submitted t _ => some t | _ => none
/-- Tickets of the queries sent to the server, in order. -/
def sentOf (l : List Obs) : List Ticket := l.filterMap fun | .sentQuery t _ => some t | _ => none
/-- Blocks handed to the connection, in order. -/
def blocksSubmitted (l : List Obs) : List (Ticket × Ticket × Block) :=
  l.filterMap fun | .dataSubmitted d o b => some (d, o, b) | _ => none
/-- Blocks written to the server, in order. -/
def blocksSent (l : List Obs) : List (Ticket × Ticket × Block) :=
  l.filterMap fun | .sentData d o b => some (d, o, b) | _ => none
/-- Queries submitted, with their texts. -/
def queriesSubmitted (l : List Obs) : List (Ticket × Str) := l.filterMap fun | .submitted t x => some (t, x) | _ => none
/-- Queries sent, with their texts. -/
def queriesSent (l : List Obs) : List (Ticket × Str) := l.filterMap fun | .sentQuery t x => some (t, x) | _ => none
/-- Items the caller of `t` has read, in order. -/
def readsOf (t : Ticket) (l : List Obs) : List Item :=
  l.filterMap fun | .read t' i => if t' = t then some i else none | _ => none
/-- Progress reports broadcast, with the query they were attributed to. -/
def broadcastOf (l : List Obs) : List (Ticket × Progress) := l.filterMap fun | .progress t p => some (t, p) | _ => none

/-- What the traffic with the server means: the query awaiting its end (if any), the items that belong
to each query, the progress that belongs to each query, and the queries that have been answered to the end. -/
structure View where
  cur : Option Ticket
  items : List (Ticket × Item)
  progress : List (Ticket × Progress)
  done : List Ticket

/-- A query sent becomes the current one; data, progress and exceptions belong to the current query;
an exception or an end of stream ends it. -/
def View.next (v : View) : Obs → View
  | .sentQuery t _ => { v with cur := some t }
  | .got (.data _ b) =>
    match v.cur with
    | some t => { v with items := v.items ++ [(t, .block b)] }
    | none => v
  | .got (.exception e) =>
    match v.cur with
    | some t => { v with items := v.items ++ [(t, .error e.emit)], done := v.done ++ [t], cur := none }
    | none => v
  | .got .endOfStream =>
    match v.cur with
    | some t => { v with done := v.done ++ [t], cur := none }
    | none => v
  | .got (.progress p) =>
    match v.cur with
    | some t => { v with progress := v.progress ++ [(t, p)] }
    | none => v
  | _ => v

/-- The meaning of a whole history. -/
def view (l : List Obs) : View := l.foldl View.next ⟨none, [], [], []⟩

/-- The items that belong to query `t`. -/
def itemsOf (t : Ticket) (l : List Obs) : List Item :=
  (view l).items.filterMap fun p => if p.1 = t then some p.2 else none

/-- Every event of the history satisfies `P` together with the history before it. -/
def Always (P : List Obs → Obs → Prop) (l : List Obs) : Prop := ∀ l1 o l2, l = l1 ++ o :: l2 → P l1 o

/-- The states a connection can be in. -/
def Reachable (s : Conn) : Prop := ∃ es, Conn.init.run es = some s

/-- Packets that are illegal after the history `l`. -/
def Illegal (l : List Obs) : ServerPacket → Prop
  | .hello _ => True
  | .data _ _ | .exception _ | .endOfStream => (view l).cur = none
  | _ => False

/-- Packets that end a query. -/
def Terminator : ServerPacket → Prop
  | .exception _ | .endOfStream => True
  | _ => False

/-- Steps that need nobody but the connection task with a working transport, or a caller reading its
own channel. -/
def Unaided : Event → Prop
  | .handle k | .deliver k => 2 ≤ k
  | .recv _ => True
  | _ => False

end Klick.Spec
