import Verif.Values
/-
Specification vocabulary for geometric values. ClickHouse stores a Point as Tuple(Float64, Float64), a Ring as
Array(Point), a Polygon as Array(Ring), a MultiPolygon as Array(Polygon).
-/
namespace Klick
namespace Spec

/-- A point as the tuple ClickHouse stores. -/
def pointTuple (p : Pt) : Value := .tuple [.float64 p.x, .float64 p.y]
/-- A ring as an array of tuples. -/
def ringArray (r : List Pt) : Value := .array (r.map pointTuple)
/-- A polygon as an array of rings. -/
def polygonArray (p : List (List Pt)) : Value := .array (p.map ringArray)
/-- A multipolygon as an array of polygons. -/
def multiArray (m : List (List (List Pt))) : Value := .array (m.map polygonArray)

/-- The column types they are stored in. -/
def pointType : Ty := .tuple [.float64, .float64]
def ringType : Ty := .array pointType
def polygonType : Ty := .array ringType
def multiType : Ty := .array polygonType

/-- Is the number not a NaN? (exponent bits all ones and a fraction other than zero) -/
def NotNan (x : BitVec 64) : Prop := x.toNat % 2 ^ 63 ≤ 0x7FF0000000000000

/-- A ring that ends where it starts, at a point whose coordinates are numbers. -/
def ClosedRing (r : List Pt) : Prop := r = [] ∨ ∃ p rest, r = p :: rest ∧ (p :: rest).getLast? = some p ∧ NotNan p.x ∧ NotNan p.y

end Spec
end Klick
