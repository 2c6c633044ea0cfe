import Verif.Handles
import Verif.Spec.Client
/-
Specification vocabulary for client handles (C85).
-/
namespace Klick.Spec
open Klick

/-- The states of a connection with its handles. -/
def OwnedReachable (s : Owned) : Prop := ∃ es, Owned.Run .init es s

/-- A step that is the transport's or the server's fault: the stream fails, a write fails, or a packet has no business being there. -/
def Outside (l : List Obs) : OwnedEvent → Prop
  | .conn .fail => True
  | .conn (.packet k p) => Illegal l p ∨ k < 2
  | .conn (.handle k) => k < 2
  | .conn (.deliver k) => k < 2
  | _ => False

/-- A history in which neither the transport nor the server is at fault. -/
inductive Blameless : Owned → List OwnedEvent → Owned → Prop where
  | done {s} : Blameless s [] s
  | more {s e s' es s''} : Owned.Step s e s' → ¬ Outside s.conn.log e → Blameless s' es s'' → Blameless s (e :: es) s''

/-- The caller of `t` has come to the end of its stream. -/
def ReadToEnd (c : Conn) (t : Ticket) : Prop := c.listening t = true ∧ c.slots t = some (.streaming [] false)

end Klick.Spec
