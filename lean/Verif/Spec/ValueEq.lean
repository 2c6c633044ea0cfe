import Verif.Values
/-
Which coordinates occur in a value, and the two kinds of coordinates that make trouble.
-/
namespace Klick.Spec

/-- The 64-bit float `c` is a not-a-number: exponent all ones, fraction not zero (IEEE 754). -/
def IsNaN (c : BitVec 64) : Prop := c.toNat / 2 ^ 52 % 2 ^ 11 = 2047 ∧ c.toNat % 2 ^ 52 ≠ 0

/-- The 64-bit float `c` is one of the two zeros. -/
def IsZero (c : BitVec 64) : Prop := c = 0#64 ∨ c = 0x8000000000000000#64

/-- `c` is a coordinate of the point `p`. -/
def CoordOf (c : BitVec 64) (p : Pt) : Prop := c = p.x ∨ c = p.y

/-- `c` is a coordinate of a geometric value somewhere inside `v`. -/
inductive HasCoord (c : BitVec 64) : Value → Prop where
  | point {p : Pt} (h : CoordOf c p) : HasCoord c (.point p)
  | ring {r : List Pt} {p : Pt} (hp : p ∈ r) (h : CoordOf c p) : HasCoord c (.ring r)
  | polygon {rs : List (List Pt)} {r : List Pt} {p : Pt} (hr : r ∈ rs) (hp : p ∈ r) (h : CoordOf c p) : HasCoord c (.polygon rs)
  | multiPolygon {ms : List (List (List Pt))} {rs : List (List Pt)} {r : List Pt} {p : Pt} (hm : rs ∈ ms) (hr : r ∈ rs) (hp : p ∈ r)
      (h : CoordOf c p) : HasCoord c (.multiPolygon ms)
  | array {xs : List Value} {v : Value} (hv : v ∈ xs) (h : HasCoord c v) : HasCoord c (.array xs)
  | tuple {xs : List Value} {v : Value} (hv : v ∈ xs) (h : HasCoord c v) : HasCoord c (.tuple xs)
  | key {ks vs : List Value} {v : Value} (hv : v ∈ ks) (h : HasCoord c v) : HasCoord c (.map ks vs)
  | val {ks vs : List Value} {v : Value} (hv : v ∈ vs) (h : HasCoord c v) : HasCoord c (.map ks vs)

end Klick.Spec
