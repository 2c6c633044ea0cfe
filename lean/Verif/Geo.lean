import Verif.Convert
/-
Conversions to and from the crate `geo-types`: klickhouse/src/values/geo.rs:74-203 (feature `geo-types`).
`geo_types::Coord` and `geo_types::Point` are a pair of `f64`, here `Pt` again; `geo_types::LineString` is a list of
them. `Point` to `Coord`/`Point` and back (geo.rs:98-125) copy x and y and are the identity on `Pt`.
-/
namespace Klick

/-- `geo_types::Polygon`: its `exterior()` and `interiors()`. The fields are private, so every polygon comes
from `Polygon::new` (or the methods that close rings again), klickhouse/src/values/geo.rs:146-176. -/
structure GeoPolygon where
  exterior : List Pt
  interiors : List (List Pt)
deriving DecidableEq, Repr

/-- `LineString::is_closed` (crate `geo-types`, external): `self.0.first() == self.0.last()` with IEEE equality
of the coordinates; the empty one is closed, klickhouse/src/values/geo.rs:140-176. -/
def lineClosed (l : List Pt) : Bool :=
  match l.head?, l.getLast? with
  | some a, some b => a.eqv b
  | _, _ => true

/-- `LineString::close` (external): append the first point unless closed, klickhouse/src/values/geo.rs:140-176. -/
def lineClose (l : List Pt) : List Pt := if lineClosed l then l else l ++ l.head?.toList

/-- `geo_types::Polygon::new` (external): closes the exterior and every interior, klickhouse/src/values/geo.rs:140-176. -/
def GeoPolygon.new (exterior : List Pt) (interiors : List (List Pt)) : GeoPolygon :=
  ⟨lineClose exterior, interiors.map lineClose⟩

/-- `From<geo_types::LineString> for Ring` and back, klickhouse/src/values/geo.rs:127-136: point by point. -/
def ringOfLine (l : List Pt) : List Pt := l.map (fun p => ⟨p.x, p.y⟩)

/-- `From<Ring> for geo_types::Polygon`, klickhouse/src/values/geo.rs:140-144. -/
def geoOfRing (r : List Pt) : GeoPolygon := .new r []

/-- `From<geo_types::Polygon> for Polygon`, klickhouse/src/values/geo.rs:146-160. -/
def polygonOfGeo (g : GeoPolygon) : List (List Pt) := ringOfLine g.exterior :: g.interiors.map ringOfLine

/-- `From<Polygon> for geo_types::Polygon`, klickhouse/src/values/geo.rs:161-176. -/
def geoOfPolygon : List (List Pt) → GeoPolygon
  | [] => .new [] []
  | e :: r => .new (ringOfLine e) (r.map ringOfLine)

/-- `From<MultiPolygon> for geo_types::MultiPolygon`, klickhouse/src/values/geo.rs:179-183. -/
def geoOfMulti (m : List (List (List Pt))) : List GeoPolygon := m.map geoOfPolygon
/-- `From<geo_types::MultiPolygon> for MultiPolygon`, klickhouse/src/values/geo.rs:184-188. -/
def multiOfGeo (m : List GeoPolygon) : List (List (List Pt)) := m.map polygonOfGeo

/-- `ToSql` of the four `geo_types` types, klickhouse/src/values/geo.rs:80-84. -/
def geoPolygonToSql (g : GeoPolygon) : Res Value := .ok (.polygon (polygonOfGeo g))
/-- `ToSql for geo_types::MultiPolygon`, klickhouse/src/values/geo.rs:80-84,189. -/
def geoMultiToSql (m : List GeoPolygon) : Res Value := .ok (.multiPolygon (multiOfGeo m))
/-- `ToSql for geo_types::LineString`, klickhouse/src/values/geo.rs:80-84,137. -/
def geoLineToSql (l : List Pt) : Res Value := .ok (.ring (ringOfLine l))

/-- `FromSql for geo_types::Polygon`, klickhouse/src/values/geo.rs:85-95,177. -/
def geoPolygonFromSql (t : Ty) (v : Value) : Res GeoPolygon :=
  Prim.fromSql .polygon t v >>= fun (p : List (List Pt)) => .ok (geoOfPolygon p)
/-- `FromSql for geo_types::MultiPolygon`, klickhouse/src/values/geo.rs:85-95,189. -/
def geoMultiFromSql (t : Ty) (v : Value) : Res (List GeoPolygon) :=
  Prim.fromSql .multiPolygon t v >>= fun (m : List (List (List Pt))) => .ok (geoOfMulti m)
/-- `FromSql for geo_types::LineString`, klickhouse/src/values/geo.rs:85-95,137. -/
def geoLineFromSql (t : Ty) (v : Value) : Res (List Pt) :=
  Prim.fromSql .ring t v >>= fun (r : List Pt) => .ok (ringOfLine r)

end Klick
