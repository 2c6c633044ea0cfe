import Verif.Session
/-
What the calls of a client return, as far as a connection has come: klickhouse/src/client.rs:490-543. `execute` and `query_one` are in
`Session`.
-/
namespace Klick

/-- The outcome of a call of `query_collect` with ticket `t`, klickhouse/src/client.rs:490-501: `none` while it is under way. The request
cannot be sent when the task has ended; an unanswered request is an error; then the stream is read to its end or first error. -/
def collectOutcome {T : Type} (de : TRow → Res T) (s : Conn) (t : Ticket) : Option (Res (List T)) :=
  match s.slots t with
  | none => match s.phase with | .dead => some (.err .protocol) | _ => none
  | some .waiting => none
  | some .failed => some (.err .protocol)
  | some (.streaming buf sender) =>
    match collectRows (queryStream de (s.log.filterMap fun | .read t' i => if t' = t then some i else none | _ => none)) with
    | .panic => some .panic
    | .err e => some (.err e)
    | .ok rows => if buf.isEmpty && !sender then some (.ok rows) else none

/-- The outcome of a call of `query_opt` with ticket `t`, klickhouse/src/client.rs:515-521: the first row or error of its stream, `None`
when the stream ends without any. -/
def queryOptOutcome {T : Type} (de : TRow → Res T) (s : Conn) (t : Ticket) : Option (Res (Option T)) :=
  match s.slots t with
  | none => match s.phase with | .dead => some (.err .protocol) | _ => none
  | some .waiting => none
  | some .failed => some (.err .protocol)
  | some (.streaming buf sender) =>
    match queryStream de (s.log.filterMap fun | .read t' i => if t' = t then some i else none | _ => none) with
    | [] => if buf.isEmpty && !sender then some (.ok none) else none
    | x :: _ => some (x >>= fun y => .ok (some y))

/-- The outcome of a call of `execute_now` with ticket `t`, klickhouse/src/client.rs:537-543: success as soon as the connection has handed
out the response channel, which it does after writing the query (client.rs:64-90). -/
def executeNowOutcome (s : Conn) (t : Ticket) : Option (Res Unit) :=
  match s.slots t with
  | none => match s.phase with | .dead => some (.err .protocol) | _ => none
  | some .waiting => none
  | some .failed => some (.err .protocol)
  | some (.streaming _ _) => some (.ok ())

end Klick
