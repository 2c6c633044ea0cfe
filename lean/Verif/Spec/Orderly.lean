import Verif.Codec
/-
Specification vocabulary for C08: columns whose offsets never decrease and whose dictionary columns are as long as announced.
-/
namespace Klick.Spec
open Klick

/-- The `n` offsets at the head of `s` do not decrease, and what follows them, with the last offset as row count, satisfies `inner`. -/
def OffsetsThen (inner : Nat → Bytes → Prop) (n : Nat) (s : Bytes) : Prop :=
  n ≠ 0 → ∀ offs rest, Rd.rep n readU64 s = .ok (offs, rest) → offs.Pairwise (· ≤ ·) ∧ inner (offs.getLastD 0) rest

mutual
/-- The `n` rows of type `t` at the head of `s`: at every level array and map offsets do not decrease, and map columns of dictionary
type hold as many entries as there are keys. Says nothing where the bytes end early or cannot be read. -/
def Orderly (cfg : Cfg) : Ty → Nat → Bytes → Prop
  | .array t => OffsetsThen (Orderly cfg t)
  | .map k v => OffsetsThen fun total s =>
      Orderly cfg k total s ∧ ∀ ks s1, deCol cfg k total s = .ok (ks, s1) →
        ks.length = total ∧ Orderly cfg v total s1 ∧ ∀ vs s2, deCol cfg v total s1 = .ok (vs, s2) → vs.length = total
  | .tuple ts => OrderlyAll cfg ts
  | .nullable t => fun n s => Orderly cfg t n (s.drop n)
  | .ring => OffsetsThen fun _ _ => True
  | .polygon => OffsetsThen (OffsetsThen fun _ _ => True)
  | .multiPolygon => OffsetsThen (OffsetsThen (OffsetsThen fun _ _ => True))
  | _ => fun _ _ => True
/-- Column after column. -/
def OrderlyAll (cfg : Cfg) : List Ty → Nat → Bytes → Prop
  | [] => fun _ _ => True
  | t :: ts => fun n s => Orderly cfg t n s ∧ ∀ vs s1, deCol cfg t n s = .ok (vs, s1) → OrderlyAll cfg ts n s1
end

end Klick.Spec
