import Verif.Basic
/-
Specification vocabulary: readers whose behaviour does not depend on the bytes that follow.
-/
namespace Klick.Spec
open Klick

/-- The same outcome with `t` added to the bytes left. -/
def extend {α : Type} (t : Bytes) : Res (α × Bytes) → Res (α × Bytes)
  | .ok (a, r) => .ok (a, r ++ t)
  | .err e => .err e
  | .panic => .panic

/-- On a longer input the reader does exactly the same and leaves the addition untouched, unless it ran
out of bytes. -/
def Steady {α : Type} (x : Rd α) : Prop := ∀ s t, x s = .err .io ∨ x (s ++ t) = extend t (x s)

end Klick.Spec
