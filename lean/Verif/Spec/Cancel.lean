import Verif.Cancel
/-
Specification vocabulary for C35.
-/
namespace Klick.Spec
open Klick

/-- The bytes that arrived in a history. -/
def arrivals (es : List FeedEvent) : Bytes := (es.map fun | .arrive bs => bs | _ => []).flatten

/-- `bytes` is the packets `ps` one after the other, then `rest`. -/
inductive Decodes (cfg : Cfg) (comp : Option Lz4) (revision : Nat) : Bytes → List ServerPacket → Bytes → Prop where
  | nil (bytes) : Decodes cfg comp revision bytes [] bytes
  | cons {bytes p mid ps rest} : readPacket cfg comp revision bytes = .ok (p, mid) → Decodes cfg comp revision mid ps rest →
      Decodes cfg comp revision bytes (p :: ps) rest

/-- Everything that arrived has been looked at. -/
def Settled (cfg : Cfg) (comp : Option Lz4) (revision : Nat) (f : Feed) : Prop :=
  f.failed = true ∨ f.avail = [] ∧ readPacket cfg comp revision f.taken = .err .io

/-- No request is taken in the middle of a packet. -/
def Undisturbed (cfg : Cfg) (comp : Option Lz4) (revision : Nat) : Feed → List FeedEvent → Prop
  | _, [] => True
  | f, e :: es => (∀ _ : e = .request, f.taken = []) ∧ Undisturbed cfg comp revision (f.step cfg comp revision e) es

end Klick.Spec
