import Verif.Model.StarPolygon

/-!
# Model of obstacles/starshaped_primitive_combination.py

The member obstacles are given by the methods that the combination calls, each a function that may raise; the hull
by the answers of shapely. The combination has no pose of its own ("Local == Global frame").
-/

namespace Starworlds

open Real

/-- What the combination uses of a member obstacle, in the global frame. -/
structure Member where
  pointLocation : Pt ℝ → Except PyErr ℝ
  lineIntersection : Pt ℝ → Pt ℝ → Except PyErr (List (Pt ℝ))
  tangentPoints : Pt ℝ → Except PyErr (List (Pt ℝ))
  vel : Pt ℝ → Except PyErr (Pt ℝ)
  normal : Pt ℝ → Except PyErr (Pt ℝ)

/-- The hull: `contains`, `disjoint` of a point and the intersection of a segment with `exterior`; `exterior` is
missing for a MultiPolygon. -/
structure HullGeom where
  contains : Pt ℝ → Bool
  disjoint : Pt ℝ → Bool
  exterior : Option (Pt ℝ → Pt ℝ → Geom)

/-- The fields of the combination. -/
structure Combination where
  members : List Member
  hull : Option HullGeom
  xr : Pt ℝ

/-! ## point_location -/

/-- obstacles/starshaped_primitive_combination.py:182-190 `_hull_cluster_point_location`. -/
def Combination.hullLocation (c : Combination) (x : Pt ℝ) : ℝ :=
  match c.hull with
  | none => 1
  | some h => if h.contains x then -1 else if h.disjoint x then 1 else 0

open scoped Classical in
/-- obstacles/starshaped_primitive_combination.py:27-37 `point_location`. -/
noncomputable def Combination.pointLocation (c : Combination) (x : Pt ℝ) : Except PyErr ℝ := do
  let locs ← c.members.mapM fun o => o.pointLocation x
  let locs := locs ++ [c.hullLocation x]
  if locs.any fun l => decide (l < 0) then .ok (-1)
  else if locs.any fun l => decide (l = 0) then .ok 0
  else .ok 1

/-! ## line_intersection -/

/-- obstacles/starshaped_primitive_combination.py:192-210 `_hull_cluster_line_intersections`; `none` is the `None`
returned after printing when the geometry kind is not covered. -/
def Combination.hullIntersections (c : Combination) (a b : Pt ℝ) : Except PyErr (Option (List (Pt ℝ))) :=
  match c.hull with
  | none => .ok (some [])
  | some h =>
    match h.exterior with
    | none => .error .attributeError
    | some ix =>
      match ix a b with
      | .empty => .ok (some [])
      | .point p => .ok (some [p])
      | .multiPoint l => .ok (some l)
      | .lineString l => .ok (some l)
      | .multiLineString ls => .ok (some ls.flatten)
      | .collection => .ok none

/-- obstacles/starshaped_primitive_combination.py:39-44 `line_intersection`; adding `None` to a list raises
TypeError. -/
def Combination.lineIntersection (c : Combination) (a b : Pt ℝ) : Except PyErr (List (Pt ℝ)) := do
  let ps ← c.members.mapM fun o => o.lineIntersection a b
  match ← c.hullIntersections a b with
  | none => .error .typeError
  | some hs => .ok (ps.flatten ++ hs)

/-! ## boundary_mapping -/

/-- The end of the test segment, `self._xr + 10*(x - self._xr)`. -/
def Combination.testEnd (c : Combination) (x : Pt ℝ) : Pt ℝ := c.xr + (10 : ℝ) • (x - c.xr)

/-- obstacles/starshaped_primitive_combination.py:63-69 `boundary_mapping`. -/
noncomputable def Combination.boundaryMapping (c : Combination) (x : Pt ℝ) : Except PyErr (Option (Pt ℝ)) := do
  let pts ← c.lineIntersection c.xr (c.testEnd x)
  match pts with
  | [] => .ok none
  | _ => .ok (some (ptAt pts (argmaxIdx (pts.map fun p => norm2 (p - c.xr)))))

/-- obstacles/starshaped_obstacle.py:35-40 `distance_function`, which the combination inherits. -/
noncomputable def Combination.distanceFunction (c : Combination) (x : Pt ℝ) : Except PyErr ℝ := do
  match ← c.boundaryMapping x with
  | none => .error .typeError
  | some b =>
    if norm2 (b - c.xr) = 0 then .error .nonFinite
    else .ok ((norm2 (x - c.xr) / norm2 (b - c.xr)) ^ 2)

/-! ## vel_intertial_frame -/

/-- obstacles/starshaped_primitive_combination.py:75 for one point `ps`: the loop variable `p` runs over its two
coordinates, and `p - self._xr` subtracts both coordinates of `xr` from one number. -/
noncomputable def coordDist (xr ps : Pt ℝ) : ℝ :=
  max (max (norm2 (ps.1 - xr.1, ps.1 - xr.2)) (norm2 (ps.2 - xr.1, ps.2 - xr.2))) (-1)

open scoped Classical in
/-- obstacles/starshaped_primitive_combination.py:72-78: the loop; `i` is the index, `best` the pair of
`boundary_obs_idx` and `max_dist`. -/
noncomputable def velLoop (xr : Pt ℝ) : List (Pt ℝ) → Nat → Nat × ℝ → Nat
  | [], _, best => best.1
  | p :: l, i, best => velLoop xr l (i + 1) (if coordDist xr p > best.2 then (i, coordDist xr p) else best)

/-- obstacles/starshaped_primitive_combination.py:71-81 `vel_intertial_frame`. -/
noncomputable def Combination.vel (c : Combination) (x : Pt ℝ) : Except PyErr (Pt ℝ) := do
  let pts ← c.lineIntersection c.xr (c.testEnd x)
  let i := velLoop c.xr pts 0 (0, -1)
  let i := if i ≥ c.members.length then i - c.members.length else i
  match c.members[i]? with
  | none => .error .indexError
  | some o => o.vel x

/-! ## tangent_points -/

/-- obstacles/starshaped_primitive_combination.py:47-55 `tangent_points`. -/
noncomputable def Combination.tangentPoints (c : Combination) (x : Pt ℝ) : Except PyErr (List (Pt ℝ)) := do
  let cs ← c.members.mapM fun o => o.tangentPoints x
  let tp := cs.flatten
  let others := fun i => ((List.range tp.length).filter fun j => j != i)
  let keep := (List.range tp.length).filter fun i =>
    ((others i).all fun j => isCcw x (ptAt tp i) (ptAt tp j)) || ((others i).all fun j => isCw x (ptAt tp i) (ptAt tp j))
  .ok (keep.map (ptAt tp))

end Starworlds
