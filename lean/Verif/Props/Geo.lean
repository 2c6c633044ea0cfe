import Verif.Geo
import Verif.Spec.Geo
import Verif.Props.Convert
import Verif.Props.Numeric
/-
C61: geometric values.
-/
namespace Klick
open Spec Props

theorem f64Eq_self {x : BitVec 64} (h : NotNan x) : f64Eq x x = true := by
  have : ¬ (x.toNat % 2 ^ 63 > 0x7FF0000000000000) := by unfold NotNan at h; omega
  simp only [f64Eq, beq_self_eq_true, Bool.true_or, Bool.and_true, Bool.and_self, Bool.not_eq_true', decide_eq_false_iff_not]
  exact this

theorem lineClose_closed {r : List Pt} (h : ClosedRing r) : lineClose r = r := by
  rcases h with rfl | ⟨p, rest, rfl, h1, h2, h3⟩
  · rfl
  · have : lineClosed (p :: rest) = true := by
      unfold lineClosed
      rw [h1]
      show Pt.eqv p p = true
      simp only [Pt.eqv, f64Eq_self h2, f64Eq_self h3, Bool.and_self]
    unfold lineClose
    rw [if_pos this]

theorem ringOfLine_id (r : List Pt) : ringOfLine r = r := by
  unfold ringOfLine
  conv => rhs; rw [← List.map_id r]
  rfl

theorem map_ringOfLine (rs : List (List Pt)) : rs.map ringOfLine = rs := by
  rw [List.map_congr_left (g := id) (fun r _ => ringOfLine_id r), List.map_id]

/-! ### the crate's own types -/

theorem shape_wire (cfg : Cfg) (p : Prim) (T : Ty) (hc : Column p T) (hw : WellFormed cfg T)
    (hst : ∀ x : p.den, Storable cfg T (p.toValue x)) (hcan : ∀ x : p.den, canon T (p.toValue x) = p.toValue x)
    (hint : Option Ty) (xs : List p.den) (hf : Fits T (xs.map p.toValue)) :
    ∃ vs bytes, Res.mapL (RT.toSql (.prim p) hint) xs = .ok vs ∧ serCol cfg T vs = .ok bytes ∧
      ∀ rest, deCol cfg T xs.length (bytes ++ rest) = .ok (vs, rest) ∧ Res.mapL (RT.fromSql (.prim p) T) vs = .ok xs := by
  have hv : ∀ v ∈ xs.map p.toValue, Storable cfg T v := by
    intro v hv
    obtain ⟨x, _, rfl⟩ := List.mem_map.mp hv
    exact hst x
  obtain ⟨b, h1, h2⟩ := col_rt cfg T hw _ hv hf
  refine ⟨xs.map p.toValue, b, Res.mapL_ok_of_forall (fun x _ => rfl), h1, fun rest => ⟨?_, ?_⟩⟩
  · have := h2 rest
    rw [List.length_map] at this
    rw [this, List.map_map]
    congr 2
    exact List.map_congr_left (fun x _ => hcan x)
  · have key : Res.mapL (fun x : p.den => p.fromSql T (p.toValue x)) xs = .ok (xs.map id) := by
      apply Res.mapL_ok_of_forall
      intro x _
      rw [Prim.fromSql, if_pos ((accepts_iff p T).mpr hc), ofValue_toValue]; rfl
    rw [List.map_id] at key
    exact (mapL_map (p.fromSql T) p.toValue xs).trans key

/-- C61, points: a column of points is converted, written, read and converted back to the same points. -/
theorem C61_points (cfg : Cfg) (hint : Option Ty) (xs : List Pt) (hn : xs.length ≤ 2 ^ 30) :
    ∃ vs bytes, Res.mapL (RT.toSql (.prim .point) hint) xs = .ok vs ∧ serCol cfg .point vs = .ok bytes ∧
      ∀ rest, deCol cfg .point xs.length (bytes ++ rest) = .ok (vs, rest) ∧ Res.mapL (RT.fromSql (.prim .point) .point) vs = .ok xs :=
  shape_wire cfg .point .point .point .point (fun x => ⟨x, rfl⟩) (fun x => rfl) hint xs (Nat.le_trans (Nat.le_of_eq (List.length_map ..)) hn)

/-- C61, rings. The size limits are the protocol's: at most 2^30 rings and 2^30 points in a column. -/
theorem C61_rings (cfg : Cfg) (hint : Option Ty) (xs : List (List Pt)) (hn : xs.length ≤ 2 ^ 30) (hp : xs.flatten.length ≤ 2 ^ 30) :
    ∃ vs bytes, Res.mapL (RT.toSql (.prim .ring) hint) xs = .ok vs ∧ serCol cfg .ring vs = .ok bytes ∧
      ∀ rest, deCol cfg .ring xs.length (bytes ++ rest) = .ok (vs, rest) ∧ Res.mapL (RT.fromSql (.prim .ring) .ring) vs = .ok xs := by
  refine shape_wire cfg .ring .ring .ring .ring (fun x => ⟨x, rfl⟩) (fun x => rfl) hint xs ?_
  refine ⟨Nat.le_trans (Nat.le_of_eq (List.length_map ..)) hn, ?_⟩
  have : (xs.map Value.ring).flatMap ringOf = xs.flatten := by
    rw [List.flatMap_map]; exact List.flatMap_id
  refine Eq.subst (motive := fun l => l.length ≤ 2 ^ 30) this.symm ?_
  exact hp

/-- C61, polygons. -/
theorem C61_polygons (cfg : Cfg) (hint : Option Ty) (xs : List (List (List Pt))) (hn : xs.length ≤ 2 ^ 30)
    (hr : xs.flatten.length ≤ 2 ^ 30) (hp : xs.flatten.flatten.length ≤ 2 ^ 30) :
    ∃ vs bytes, Res.mapL (RT.toSql (.prim .polygon) hint) xs = .ok vs ∧ serCol cfg .polygon vs = .ok bytes ∧
      ∀ rest, deCol cfg .polygon xs.length (bytes ++ rest) = .ok (vs, rest) ∧
        Res.mapL (RT.fromSql (.prim .polygon) .polygon) vs = .ok xs := by
  refine shape_wire cfg .polygon .polygon .polygon .polygon (fun x => ⟨x, rfl⟩) (fun x => rfl) hint xs ?_
  refine ⟨Nat.le_trans (Nat.le_of_eq (List.length_map ..)) hn, ?_⟩
  have : (xs.map Value.polygon).flatMap polygonOf = xs.flatten := by
    rw [List.flatMap_map]; exact List.flatMap_id
  refine Eq.subst (motive := fun l => l.length ≤ 2 ^ 30 ∧ l.flatten.length ≤ 2 ^ 30) this.symm ?_
  exact ⟨hr, hp⟩

/-- C61, multipolygons. -/
theorem C61_multipolygons (cfg : Cfg) (hint : Option Ty) (xs : List (List (List (List Pt)))) (hn : xs.length ≤ 2 ^ 30)
    (hq : xs.flatten.length ≤ 2 ^ 30) (hr : xs.flatten.flatten.length ≤ 2 ^ 30) (hp : xs.flatten.flatten.flatten.length ≤ 2 ^ 30) :
    ∃ vs bytes, Res.mapL (RT.toSql (.prim .multiPolygon) hint) xs = .ok vs ∧ serCol cfg .multiPolygon vs = .ok bytes ∧
      ∀ rest, deCol cfg .multiPolygon xs.length (bytes ++ rest) = .ok (vs, rest) ∧
        Res.mapL (RT.fromSql (.prim .multiPolygon) .multiPolygon) vs = .ok xs := by
  refine shape_wire cfg .multiPolygon .multiPolygon .multiPolygon .multiPolygon (fun x => ⟨x, rfl⟩) (fun x => rfl) hint xs ?_
  refine ⟨Nat.le_trans (Nat.le_of_eq (List.length_map ..)) hn, ?_⟩
  have : (xs.map Value.multiPolygon).flatMap multiOf = xs.flatten := by
    rw [List.flatMap_map]; exact List.flatMap_id
  refine Eq.subst (motive := fun l => l.length ≤ 2 ^ 30 ∧ l.flatten.length ≤ 2 ^ 30 ∧ l.flatten.flatten.length ≤ 2 ^ 30) this.symm ?_
  exact ⟨hq, hr, hp⟩

/-! ### the layout is the one of the nested arrays of tuples ClickHouse documents -/

theorem mapL_unwrap {α β : Type} {f : α → Res β} {g : β → α} (h : ∀ b, f (g b) = .ok b) (xs : List β) :
    Res.mapL f (xs.map g) = .ok xs := by
  rw [mapL_map]
  have := Res.mapL_ok_of_forall (f := fun x => f (g x)) (g := id) (xs := xs) (fun x _ => h x)
  rw [List.map_id] at this
  exact this

theorem pushRows_points : ∀ (ps : List Pt) (a b : List Value),
    pushRows [a, b] (ps.map (fun p => [Value.float64 p.x, Value.float64 p.y])) =
      .ok [a ++ ps.map (fun p => .float64 p.x), b ++ ps.map (fun p => .float64 p.y)]
  | [], a, b => by simp [pushRows]
  | p :: ps, a, b => by
    simp only [List.map_cons, pushRows, pushRow, Res.bind_ok]
    rw [pushRows_points ps]
    simp

theorem serFloats (cfg : Cfg) (xs : List (BitVec 64)) :
    serCol cfg .float64 (xs.map .float64) = .ok (xs.map (fun x => le 8 x.toNat)).flatten := by
  show serSized cfg .float64 _ = _
  unfold serSized
  rw [mapL_map]
  have : Res.mapL (fun a : BitVec 64 => Value.justifyNull cfg Ty.float64 (Value.float64 a) >>= serSized1 cfg) xs =
      .ok (xs.map (fun x => le 8 x.toNat)) := Res.mapL_ok_of_forall (fun x _ => rfl)
  rw [this]
  rfl

theorem serCol_pointType (cfg : Cfg) (ps : List Pt) : serCol cfg pointType (ps.map pointTuple) = .ok (serPts ps) := by
  have h1 : Res.mapL Value.unwrapTuple (ps.map pointTuple) = .ok (ps.map (fun p => [Value.float64 p.x, Value.float64 p.y])) := by
    rw [mapL_map]
    exact Res.mapL_ok_of_forall (fun x _ => rfl)
  have hx := serFloats cfg (ps.map Pt.x)
  have hy := serFloats cfg (ps.map Pt.y)
  simp only [List.map_map] at hx hy
  simp only [pointType, serCol, h1, Res.bind_ok]
  show (pushRows [[], []] _ >>= _) = _
  rw [pushRows_points]
  simp only [List.nil_append, Res.bind_ok]
  show (serCol cfg .float64 _ >>= _) = _
  rw [show ps.map (fun p => Value.float64 p.x) = ps.map (Value.float64 ∘ Pt.x) from rfl, hx, Res.bind_ok]
  show (serCol cfg .float64 _ >>= _) >>= _ = _
  rw [show ps.map (fun p => Value.float64 p.y) = ps.map (Value.float64 ∘ Pt.y) from rfl, hy]
  simp only [Res.bind_ok, serCols, List.append_nil]
  rfl

theorem serCol_arrays {α : Type} (cfg : Cfg) (t : Ty) (f : α → Value) (inner : List α → Bytes)
    (h : ∀ xs, serCol cfg t (xs.map f) = .ok (inner xs)) (xss : List (List α)) :
    serCol cfg (.array t) (xss.map (fun xs => .array (xs.map f))) = .ok (serArr inner xss) := by
  have h1 : Res.mapL Value.unwrapArray (xss.map (fun xs => Value.array (xs.map f))) = .ok (xss.map (List.map f)) := by
    rw [mapL_map]
    exact Res.mapL_ok_of_forall (fun x _ => rfl)
  simp only [serCol, h1, Res.bind_ok]
  rw [show (xss.map (List.map f)).flatten = xss.flatten.map f from (List.map_flatten).symm, h]
  simp [serArr, Function.comp_def]

/-- C61, layout: a column of points, rings, polygons or multipolygons is written exactly as ClickHouse's
Tuple(Float64, Float64) and the arrays of it: first x of every point, then y, rings and polygons as offsets. -/
theorem C61_layout (cfg : Cfg) :
    (∀ xs : List Pt, serCol cfg .point (xs.map .point) = serCol cfg pointType (xs.map pointTuple)) ∧
    (∀ xs : List (List Pt), serCol cfg .ring (xs.map .ring) = serCol cfg ringType (xs.map ringArray)) ∧
    (∀ xs : List (List (List Pt)), serCol cfg .polygon (xs.map .polygon) = serCol cfg polygonType (xs.map polygonArray)) ∧
    (∀ xs : List (List (List (List Pt))), serCol cfg .multiPolygon (xs.map .multiPolygon) = serCol cfg multiType (xs.map multiArray)) := by
  have p := serCol_pointType cfg
  have r : ∀ xs : List (List Pt), serCol cfg ringType (xs.map ringArray) = .ok (serArr serPts xs) := serCol_arrays cfg _ _ _ p
  have q : ∀ xs : List (List (List Pt)), serCol cfg polygonType (xs.map polygonArray) = .ok (serArr (serArr serPts) xs) := serCol_arrays cfg _ _ _ r
  have m : ∀ xs : List (List (List (List Pt))), serCol cfg multiType (xs.map multiArray) = .ok (serArr (serArr (serArr serPts)) xs) := serCol_arrays cfg _ _ _ q
  refine ⟨fun xs => ?_, fun xs => ?_, fun xs => ?_, fun xs => ?_⟩
  · rw [p]; simp only [serCol, mapL_unwrap (f := Value.unwrapPoint) (g := Value.point) (fun _ => rfl), Res.bind_ok]
  · rw [r]; simp only [serCol, mapL_unwrap (f := Value.unwrapRing) (g := Value.ring) (fun _ => rfl), Res.bind_ok]
  · rw [q]; simp only [serCol, mapL_unwrap (f := Value.unwrapPolygon) (g := Value.polygon) (fun _ => rfl), Res.bind_ok]
  · rw [m]; simp only [serCol, mapL_unwrap (f := Value.unwrapMultiPolygon) (g := Value.multiPolygon) (fun _ => rfl), Res.bind_ok]

/-- A polygon with a hole and an empty one, on the wire. -/
example : serCol cfgDebug .polygon [.polygon [[⟨1, 2⟩, ⟨3, 4⟩], [⟨5, 6⟩]], .polygon []] =
    .ok (le 8 2 ++ le 8 2 ++ (le 8 2 ++ le 8 3) ++ (le 8 1 ++ le 8 3 ++ le 8 5) ++ (le 8 2 ++ le 8 4 ++ le 8 6)) := rfl

/-! ### the `geo-types` crate -/

/-- C61 for `geo_types`: a line string survives as a ring. -/
theorem C61_geo_line (l : List Pt) : (geoLineToSql l >>= geoLineFromSql .ring) = .ok l := by
  show Res.ok (ringOfLine (ringOfLine l)) = _
  rw [ringOfLine_id, ringOfLine_id]

/-- C61 for `geo_types`: a polygon whose rings are closed (as the crate's own invariant has it) and start at
numbers survives with all its rings in order. -/
theorem C61_geo_polygon_partial (g : GeoPolygon) (he : ClosedRing g.exterior) (hi : ∀ r ∈ g.interiors, ClosedRing r) :
    (geoPolygonToSql g >>= geoPolygonFromSql .polygon) = .ok g := by
  show Res.ok (geoOfPolygon (polygonOfGeo g)) = _
  simp only [polygonOfGeo, map_ringOfLine, ringOfLine_id, geoOfPolygon, GeoPolygon.new, lineClose_closed he]
  rw [List.map_congr_left (f := lineClose) (g := id) (fun r hr => lineClose_closed (hi r hr)), List.map_id]

/-- C61 for `geo_types`: multipolygons likewise. -/
theorem C61_geo_multi_partial (m : List GeoPolygon) (h : ∀ g ∈ m, ClosedRing g.exterior ∧ ∀ r ∈ g.interiors, ClosedRing r) :
    (geoMultiToSql m >>= geoMultiFromSql .multiPolygon) = .ok m := by
  show Res.ok (geoOfMulti (multiOfGeo m)) = _
  simp only [geoOfMulti, multiOfGeo, List.map_map]
  rw [List.map_congr_left (g := id), List.map_id]
  intro g hg
  exact Res.ok.inj (C61_geo_polygon_partial g (h g hg).1 (h g hg).2)

/-- C61 in the other direction: a ClickHouse polygon with at least one ring, all closed, read as a `geo_types`
polygon and written again is the same. -/
theorem C61_geo_back_partial (e : List Pt) (rs : List (List Pt)) (he : ClosedRing e) (hi : ∀ r ∈ rs, ClosedRing r) :
    (geoPolygonFromSql .polygon (.polygon (e :: rs)) >>= geoPolygonToSql) = .ok (.polygon (e :: rs)) := by
  show Res.ok (Value.polygon (polygonOfGeo (geoOfPolygon (e :: rs)))) = _
  simp only [polygonOfGeo, map_ringOfLine, ringOfLine_id, geoOfPolygon, GeoPolygon.new, lineClose_closed he]
  rw [List.map_congr_left (f := lineClose) (g := id) (fun r hr => lineClose_closed (hi r hr)), List.map_id]

/-- What a ring becomes in general: itself, or itself with its first point once more at the end; no coordinate
is changed, dropped or moved. -/
theorem C61_geo_ring_prefix (e : List Pt) (rs : List (List Pt)) (g : GeoPolygon)
    (h : geoPolygonFromSql .polygon (.polygon (e :: rs)) = .ok g) :
    (g.exterior = e ∨ ∃ p, e.head? = some p ∧ g.exterior = e ++ [p]) ∧ g.interiors.length = rs.length ∧
      ∀ (i : Nat) r, rs[i]? = some r → ∃ r', g.interiors[i]? = some r' ∧ (r' = r ∨ ∃ p, r.head? = some p ∧ r' = r ++ [p]) := by
  have hc : ∀ r : List Pt, lineClose r = r ∨ ∃ p, r.head? = some p ∧ lineClose r = r ++ [p] := by
    intro r
    unfold lineClose
    split
    · exact .inl rfl
    · cases r with
      | nil => exact .inl rfl
      | cons p r => exact .inr ⟨p, rfl, rfl⟩
  have hg : g = geoOfPolygon (e :: rs) := (Res.ok.inj h).symm
  subst hg
  simp only [geoOfPolygon, GeoPolygon.new, ringOfLine_id, map_ringOfLine]
  refine ⟨hc e, by simp, ?_⟩
  intro i r hr
  exact ⟨lineClose r, by rw [List.getElem?_map, hr]; rfl, hc r⟩

/-- A ring becomes a polygon with that ring as its exterior and no holes. -/
theorem C61_geo_ring (r : List Pt) : (geoOfRing r).interiors = [] ∧
    ((geoOfRing r).exterior = r ∨ ∃ p, r.head? = some p ∧ (geoOfRing r).exterior = r ++ [p]) := by
  refine ⟨rfl, ?_⟩
  show lineClose r = r ∨ ∃ p, r.head? = some p ∧ lineClose r = r ++ [p]
  unfold lineClose
  split
  · exact .inl rfl
  · cases r with
    | nil => exact .inl rfl
    | cons p r => exact .inr ⟨p, rfl, rfl⟩

/-- Not in full: an open ring read as a `geo_types` polygon gains a point, and a polygon without rings comes
back with one empty ring. -/
theorem C61_geo_back_false :
    (geoPolygonFromSql .polygon (.polygon [[⟨1, 0⟩, ⟨2, 0⟩]]) >>= geoPolygonToSql) =
      .ok (.polygon [[⟨1, 0⟩, ⟨2, 0⟩, ⟨1, 0⟩]]) ∧
    (geoPolygonFromSql .polygon (.polygon []) >>= geoPolygonToSql) = .ok (.polygon [[]]) := ⟨rfl, rfl⟩

/-- A NaN start point is never "closed": the round trip adds a point each time. -/
theorem C61_geo_nan_false :
    let nan : BitVec 64 := 0x7FF8000000000000
    let g : GeoPolygon := GeoPolygon.new [⟨nan, 0⟩] []
    (geoPolygonToSql g >>= geoPolygonFromSql .polygon) = .ok ⟨[⟨nan, 0⟩, ⟨nan, 0⟩, ⟨nan, 0⟩], []⟩ := rfl

/-- A triangle is closed. -/
example : ClosedRing [⟨1, 2⟩, ⟨3, 4⟩, ⟨1, 2⟩] :=
  .inr ⟨_, _, rfl, rfl, by unfold NotNan; decide, by unfold NotNan; decide⟩

end Klick
