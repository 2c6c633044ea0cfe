import Verif.Link
import Verif.Spec.Client
import Verif.Spec.Cancel
/-
Specification vocabulary for C80: what the n-th caller should read, from the server's side.
-/
namespace Klick.Spec
open Klick

/-- Does the packet end the response to a query? -/
def ends : ServerPacket → Bool
  | .exception _ | .endOfStream => true
  | _ => false

/-- The n-th response in a sequence of packets: what stands between the n-th and the next packet that ends a response, with the latter. -/
def response : Nat → List ServerPacket → List ServerPacket
  | _, [] => []
  | 0, p :: ps => if ends p then [p] else p :: response 0 ps
  | n + 1, p :: ps => if ends p then response n ps else response (n + 1) ps

/-- What a caller should see of a response: its blocks, and the exception. -/
def itemsIn (ps : List ServerPacket) : List Item :=
  ps.filterMap fun
    | .data _ b => some (.block b)
    | .exception e => some (.error e.emit)
    | _ => none

/-- The packets received, in order. -/
def gotOf (l : List Obs) : List ServerPacket := l.filterMap fun | .got p => some p | _ => none

/-- The bytes that arrived in a history. -/
def arrived (es : List LinkEvent) : Bytes := es.flatMap fun | .arrive bs => bs | _ => []

/-- No request is taken in the middle of a packet. -/
def Uncut (cfg : Cfg) (comp : Option Lz4) (revision : Nat) (w : Link) (es : List LinkEvent) : Prop :=
  ∀ es1 k es2 w', es = es1 ++ .request k :: es2 → w.run cfg comp revision es1 = some w' → w'.feed.taken = []

/-- A response as a server sends it: any packets but hello and those that end a response, then one that does. -/
def IsResponse (ps : List ServerPacket) : Prop :=
  ∃ body last, ps = body ++ [last] ∧ ends last = true ∧ ∀ p ∈ body, ends p = false ∧ ∀ h, p ≠ .hello h

/-- A response and the bytes the server writes for it. -/
structure Reply (cfg : Cfg) (comp : Option Lz4) (revision : Nat) where
  packets : List ServerPacket
  bytes : Bytes
  ok : IsResponse packets
  decodes : Decodes cfg comp revision bytes packets []

/-- The bytes of the first `n` replies. -/
def written {cfg : Cfg} {comp : Option Lz4} {revision : Nat} (rs : List (Reply cfg comp revision)) (n : Nat) : Bytes :=
  (rs.take n).flatMap Reply.bytes

/-- Callers take turns, each query submitted when the ones before are answered, and no blocks are inserted; and the server writes only
what answers queries it was sent. -/
def TakingTurns {cfg : Cfg} {comp : Option Lz4} {revision : Nat} (rs : List (Reply cfg comp revision)) (es : List LinkEvent) : Prop :=
  (∀ es1 e es2 w, es = es1 ++ .caller e :: es2 → Link.init.run cfg comp revision es1 = some w →
    (∀ t x, e = .submit t x → (view w.conn.log).done = submittedOf w.conn.log) ∧ ∀ d o b, e ≠ .submitData d o b) ∧
  (∀ es1 bs es2 w, es = es1 ++ .arrive bs :: es2 → Link.init.run cfg comp revision es1 = some w →
    (arrived es1 ++ bs) <+: written rs (sentOf w.conn.log).length)

end Klick.Spec
