import Verif.Model.Polygon

/-!
# Model of obstacles/starshaped_polygon.py (without the kernel computation)

`np.argsort` (which is not stable) is an argument; what it must do is `Spec.IsArgsort`. The intersection of a
segment with a ring, computed by shapely, is an argument as well; its meaning is `Spec.GeomIs`.
-/

namespace Starworlds

open Real

/-! ## Polygon.line_intersection -/

/-- The kinds of geometries shapely returns for the intersection of two line geometries. -/
inductive Geom where
  | empty
  | point (p : Pt ℝ)
  | multiPoint (l : List (Pt ℝ))
  | lineString (l : List (Pt ℝ))
  | multiLineString (ls : List (List (Pt ℝ)))
  | collection

/-- obstacles/polygon.py:77-88: the points taken from the geometry; a GeometryCollection is printed and then
`intersection_points_obstacle` is unbound. -/
def geomPoints : Geom → Except PyErr (List (Pt ℝ))
  | .empty => .ok []
  | .point p => .ok [p]
  | .multiPoint l => .ok l
  | .lineString l => .ok l
  | .multiLineString ls => .ok ls.flatten
  | .collection => .error .unboundLocalError

/-- obstacles/polygon.py:73-89 `line_intersection`; `ix a b` is the geometry
`LineString([a, b]).intersection(self._polygon.exterior)`. -/
noncomputable def polygonLineIntersection (mm : Option Pose) (ix : Pt ℝ → Pt ℝ → Geom) (l0 l1 : Pt ℝ)
    (fin fout : Frame) : Except PyErr (List (Pt ℝ)) := do
  let a ← transform mm l0 fin .obstacle
  let b ← transform mm l1 fin .obstacle
  let pts ← geomPoints (ix a b)
  pts.mapM fun p => transform mm p .obstacle fout

/-! ## State -/

/-- The fields of a StarshapedPolygon used below: `ring` is `_polygon.exterior.coords` without the repeated
vertex, `ball` is `enclosing_ball_diameter`. -/
structure StarPoly where
  mm : Option Pose
  ring : List (Pt ℝ)
  xr : Pt ℝ
  vertices : List (Pt ℝ)
  vertexAngles : List ℝ
  ball : ℝ

/-- `np.arctan2(p[1] - xr[1], p[0] - xr[0])`. -/
noncomputable def angleAbout (xr p : Pt ℝ) : ℝ := arctan2 (p.2 - xr.2) (p.1 - xr.1)

/-- obstacles/starshaped_polygon.py:177-183 `_update_vertex_angles`. (`circular_vertices` is `ringOf vertices`.) -/
noncomputable def StarPoly.update (argsort : List ℝ → List Nat) (s : StarPoly) : StarPoly :=
  let angles := s.vertices.map (angleAbout s.xr)
  let idcs := argsort angles
  let angles := idcs.map fun i => angles.getD i 0
  let vertices := idcs.map (ptAt s.vertices)
  { s with
    vertices := vertices
    vertexAngles := angles ++ [angles.getD 0 0 + 2 * π] }

/-- The width and the height of the bounding box. -/
noncomputable def extent : List (Pt ℝ) → Pt ℝ
  | [] => (0, 0)
  | a :: l => ((boundsOf a l).2.2.1 - (boundsOf a l).1, (boundsOf a l).2.2.2 - (boundsOf a l).2.1)

/-- obstacles/starshaped_polygon.py:10-22 constructor with a given `xr` (`None` is replaced by a point of the
kernel); `ring` are the oriented vertices (obstacles/polygon.py:13-17). -/
noncomputable def StarPoly.make (argsort : List ℝ → List Nat) (mm : Option Pose) (ring : List (Pt ℝ)) (xr : Pt ℝ) :
    StarPoly :=
  StarPoly.update argsort ⟨mm, ring, xr, ring, [], (extent ring).1 + (extent ring).2⟩

/-- obstacles/starshaped_polygon.py:30-40 `dilated_obstacle`; `buffered` is the exterior of
`_polygon.buffer(padding, ...)`. -/
noncomputable def StarPoly.dilated (argsort : List ℝ → List Nat) (s : StarPoly) (buffered : List (Pt ℝ)) : StarPoly :=
  let cp := StarPoly.make argsort s.mm s.ring s.xr
  StarPoly.update argsort
    { cp with
      ring := buffered
      vertices := buffered
      ball := max (extent buffered).1 (extent buffered).2 }

/-- obstacles/starshaped_polygon.py:158-160 `set_xr` with obstacles/starshaped_obstacle.py:19-26. With `safe_set`
the call always raises (see `setXr` in Model/Obstacle.lean), before the angles are updated. -/
noncomputable def StarPoly.setXr (argsort : List ℝ → List Nat) (s : StarPoly) (x : Pt ℝ) (fin : Frame)
    (safeSet : Bool) : Except PyErr Unit × StarPoly :=
  match transform s.mm x fin .obstacle with
  | .error e => (.error e, s)
  | .ok y => if safeSet then (.error .attributeError, s) else (.ok (), StarPoly.update argsort { s with xr := y })

/-- What a caller can do: set the reference point, move the obstacle, replace its motion model. -/
inductive StarOp where
  | setXr (x : Pt ℝ) (f : Frame) (safeSet : Bool)
  | setPose (p : Pose)
  | setMotionModel (mm : Option Pose)

/-- The state after one call; a raised exception is caught by the caller. -/
noncomputable def StarPoly.step (argsort : List ℝ → List Nat) (s : StarPoly) : StarOp → StarPoly
  | .setXr x f safe => (s.setXr argsort x f safe).2
  | .setPose p => { s with mm := s.mm.map fun _ => p }
  | .setMotionModel mm => { s with mm := mm }

/-- The state after a history of calls. -/
noncomputable def StarPoly.run (argsort : List ℝ → List Nat) (s : StarPoly) (ops : List StarOp) : StarPoly :=
  ops.foldl (StarPoly.step argsort) s

/-! ## normal -/

open scoped Classical in
/-- `np.argmax(l > t)`: the first index with `l[i] > t`, or 0 if there is none. -/
noncomputable def firstAbove (l : List ℝ) (t : ℝ) : Nat :=
  if l.findIdx (fun a => decide (a > t)) < l.length then l.findIdx (fun a => decide (a > t)) else 0

/-- The `type` argument of `normal`. -/
inductive NormalType where
  | edge
  | weightedEdges
  | other

open scoped Classical in
/-- The point of the segment from `a` to `b` nearest to `x` (`shapely.ops.nearest_points`). -/
noncomputable def nearestOnSegment (a b x : Pt ℝ) : Pt ℝ :=
  let d := b - a
  let q := d.1 ^ 2 + d.2 ^ 2
  if q = 0 then a
  else a + max 0 (min 1 (((x.1 - a.1) * d.1 + (x.2 - a.2) * d.2) / q)) • d

/-- obstacles/starshaped_polygon.py:71-74: the index of the vertex after the direction of `x`. -/
noncomputable def vertexIndex (s : StarPoly) (x : Pt ℝ) : Nat :=
  let i := firstAbove s.vertexAngles (angleAbout s.xr x)
  if i = s.vertices.length then 0 else i

/-- The vector `(b[1] - a[1], a[0] - b[0])`. -/
def edgeNormal (a b : Pt ℝ) : Pt ℝ := (b.2 - a.2, a.1 - b.1)

open scoped Classical in
/-- obstacles/starshaped_polygon.py:68-90 `normal`. A zero edge gives a division by zero. An unknown type leaves
`n_obstacle` unbound. -/
noncomputable def StarPoly.normal (s : StarPoly) (x : Pt ℝ) (fin fout : Frame) (type : NormalType) :
    Except PyErr (Pt ℝ) := do
  let y ← transform s.mm x fin .obstacle
  let n := s.vertices.length
  let i := vertexIndex s y
  match type with
  | .edge =>
    let m := edgeNormal (ptAt s.vertices ((i + n - 1) % n)) (ptAt s.vertices i)
    if norm2 m = 0 then .error .nonFinite
    else rotate s.mm (m.1 / norm2 m, m.2 / norm2 m) .obstacle fout
  | .weightedEdges =>
    let edges := (List.range 3).map fun k =>
      (ptAt s.vertices ((i + 2 * n - 2 + k) % n), ptAt s.vertices ((i + 2 * n - 1 + k) % n))
    let w := edges.map fun e => 1 / (norm2 (nearestOnSegment e.1 e.2 y - y) + 1 / 10 ^ 6)
    let sum := w.sum
    let v := ((edges.zip w).map fun e => (e.2 / sum) • edgeNormal e.1.1 e.1.2).sum
    rotate s.mm v .obstacle fout
  | .other => .error .unboundLocalError

/-! ## boundary_mapping and distance_function -/

open scoped Classical in
/-- obstacles/starshaped_polygon.py:54-66 `boundary_mapping`; `ix` as in `polygonLineIntersection`. -/
noncomputable def StarPoly.boundaryMapping (s : StarPoly) (ix : Pt ℝ → Pt ℝ → Geom) (x : Pt ℝ) (fin fout : Frame) :
    Except PyErr (Option (Pt ℝ)) := do
  let y ← transform s.mm x fin .obstacle
  let d ← referenceDirection s.mm s.xr y .obstacle .obstacle
  let pts ← polygonLineIntersection s.mm ix s.xr (s.xr + (11 / 10 * s.ball) • d) .obstacle .obstacle
  match pts with
  | [] => .ok none
  | [p] => (transform s.mm p .obstacle fout).map some
  | p :: q :: _ =>
    if norm2 (p - y) < norm2 (q - y) then (transform s.mm p .obstacle fout).map some
    else (transform s.mm q .obstacle fout).map some

open scoped Classical in
/-- obstacles/starshaped_polygon.py:42-51 `distance_function`; `None - xr` raises TypeError, a zero local radius
is a division by zero only in the first branch, which is not taken then. -/
noncomputable def StarPoly.distanceFunction (s : StarPoly) (ix : Pt ℝ → Pt ℝ → Geom) (x : Pt ℝ) (fin : Frame) :
    Except PyErr ℝ := do
  let y ← transform s.mm x fin .obstacle
  let distCenter := norm2 (y - s.xr)
  match ← s.boundaryMapping ix y .obstacle .obstacle with
  | none => .error .typeError
  | some b =>
    let localRadius := norm2 (b - s.xr)
    if distCenter < localRadius then .ok ((distCenter / localRadius) ^ 2)
    else .ok (((distCenter - localRadius) + 1) ^ 2)

end Starworlds
