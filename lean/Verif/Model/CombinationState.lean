import Verif.Model.Combination

/-!
# Model of obstacles/starshaped_primitive_combination.py: normal, set_xr and the arrays they use

The motion model is None, as in all calls in /repo ("Local == Global frame"). A shapely Polygon is given by the
vertices of its exterior, without the repeated one.
-/

namespace Starworlds

open Real

/-- The fields. `hullRing` are the vertices of `_hull_cluster.exterior`; `polygon` is `_polygon`, None until
`polygon()` is called, then its exterior, which a MultiPolygon does not have; `arrays` are `vertices` and
`vertex_angles`, None at first. -/
structure CombState where
  comb : Combination
  hullRing : Option (List (Pt ℝ))
  polygon : Option (Option (List (Pt ℝ)))
  arrays : Option (List (Pt ℝ) × List ℝ)

/-- obstacles/starshaped_primitive_combination.py:10-16 constructor. -/
def CombState.make (c : Combination) (hullRing : Option (List (Pt ℝ))) : CombState := ⟨c, hullRing, none, none⟩

/-- obstacles/obstacle.py:72-77 `polygon()` without motion model: `union` is the exterior of the union of the
polygons of the members and the hull at the time of the call (lines 222-226), which is only computed once. -/
def CombState.computePolygon (s : CombState) (union : Option (List (Pt ℝ))) : CombState :=
  { s with polygon := some (s.polygon.getD union) }

/-- `xr`, the vertices and angles sorted about it. -/
noncomputable def sortedAbout (argsort : List ℝ → List Nat) (ring : List (Pt ℝ)) (xr : Pt ℝ) : StarPoly :=
  StarPoly.update argsort ⟨none, ring, xr, ring, [], 0⟩

/-- obstacles/starshaped_primitive_combination.py:212-220 `_update_vertex_angles`. (`circular_vertices` is never
read.) -/
noncomputable def CombState.update (argsort : List ℝ → List Nat) (s : CombState) : Except PyErr Unit × CombState :=
  match s.polygon with
  | some (some ring) =>
    (.ok (), { s with arrays := some ((sortedAbout argsort ring s.comb.xr).vertices,
                                     (sortedAbout argsort ring s.comb.xr).vertexAngles) })
  | _ => (.error .attributeError, s)

/-- obstacles/starshaped_primitive_combination.py:153-155 `set_xr` with obstacles/starshaped_obstacle.py:19-26.
With `safe_set` the kernel is computed (lines 57-58), and with it the polygon, and then AttributeError is raised, as a shapely
polygon has no `exterior_point`. Simplified: an exception of another kind raised while the kernel is computed is also
represented by AttributeError, and the cached kernel is left out. -/
noncomputable def CombState.setXr (argsort : List ℝ → List Nat) (s : CombState) (x : Pt ℝ) (safeSet : Bool)
    (union : Option (List (Pt ℝ))) : Except PyErr Unit × CombState :=
  if safeSet then (.error .attributeError, s.computePolygon union)
  else CombState.update argsort { s with comb := { s.comb with xr := x } }

/-! ## normal -/

open scoped Classical in
/-- obstacles/starshaped_primitive_combination.py:90-94 and 98-102: the points of part `i`; `best` is the pair of
`boundary_obs_idx` and `max_dist`. -/
noncomputable def farLoop (xr : Pt ℝ) (i : Nat) : List (Pt ℝ) → Nat × ℝ → Nat × ℝ
  | [], best => best
  | p :: l, best => farLoop xr i l (if norm2 (p - xr) > best.2 then (i, norm2 (p - xr)) else best)

/-- obstacles/starshaped_primitive_combination.py:88-94: the members, numbered from `i`. -/
noncomputable def farMembers (xr b : Pt ℝ) : List Member → Nat → Nat × ℝ → Except PyErr (Nat × ℝ)
  | [], _, best => .ok best
  | o :: os, i, best => do
    let pts ← o.lineIntersection xr b
    farMembers xr b os (i + 1) (farLoop xr i pts best)

open scoped Classical in
/-- obstacles/starshaped_primitive_combination.py:107-123: the normal of the hull. Index -1 of the circular arrays
is the position of the repeated vertex. -/
noncomputable def hullNormal (argsort : List ℝ → List Nat) (ring : List (Pt ℝ)) (xr x : Pt ℝ) : Except PyErr (Pt ℝ) :=
  let s := sortedAbout argsort ring xr
  let circular := s.vertices ++ [ptAt s.vertices 0]
  let i := firstAbove s.vertexAngles (angleAbout xr x)
  let i := if i = 0 then circular.length - 1 else i
  let m := edgeNormal (ptAt circular (i - 1)) (ptAt circular i)
  if norm2 m = 0 then .error .nonFinite else .ok (m.1 / norm2 m, m.2 / norm2 m)

/-- obstacles/starshaped_primitive_combination.py:84-123 `normal` with `type='sub_normal'`. -/
noncomputable def CombState.subNormal (argsort : List ℝ → List Nat) (s : CombState) (x : Pt ℝ) :
    Except PyErr (Pt ℝ) := do
  let c := s.comb
  let best ← farMembers c.xr (c.testEnd x) c.members 0 (0, -1)
  let hull ← c.hullIntersections c.xr (c.testEnd x)
  let best := farLoop c.xr c.members.length (hull.getD []) best
  match c.members[best.1]? with
  | some o => o.normal x
  | none => match s.hullRing with
    | none => .error .attributeError
    | some ring => hullNormal argsort ring c.xr x

/-- The `type` argument of `normal` that selects the polygon. -/
inductive ApproxType where
  | polygonApprox
  | weighted

open scoped Classical in
/-- obstacles/starshaped_primitive_combination.py:127-151: the vector from the arrays. -/
noncomputable def approxFrom (vertices : List (Pt ℝ)) (angles : List ℝ) (xr x : Pt ℝ) (type : ApproxType) :
    Except PyErr (Pt ℝ) :=
  let n := vertices.length
  let i := firstAbove angles (angleAbout xr x)
  let i := if i = n then 0 else i
  let m := match type with
    | .polygonApprox => edgeNormal (ptAt vertices ((i + n - 1) % n)) (ptAt vertices i)
    | .weighted =>
      let edges := (List.range 3).map fun k =>
        (ptAt vertices ((i + 2 * n - 2 + k) % n), ptAt vertices ((i + 2 * n - 1 + k) % n))
      let w := edges.map fun e => 1 / (norm2 (nearestOnSegment e.1 e.2 x - x) + 1 / 10 ^ 10)
      ((edges.zip w).map fun e => (e.2 / w.sum) • edgeNormal e.1.1 e.1.2).sum
  if norm2 m = 0 then .error .nonFinite else .ok (m.1 / norm2 m, m.2 / norm2 m)

/-- obstacles/starshaped_primitive_combination.py:124-151 `normal` with `type='polygon_approx'` or
`'weigthed_polygon_approx'` (the default). -/
noncomputable def CombState.approxNormal (argsort : List ℝ → List Nat) (s : CombState) (x : Pt ℝ) (type : ApproxType) :
    Except PyErr (Pt ℝ) × CombState :=
  match s.arrays with
  | some a => (approxFrom a.1 a.2 s.comb.xr x type, s)
  | none =>
    let u := s.update argsort
    match u.1, u.2.arrays with
    | .ok _, some a => (approxFrom a.1 a.2 s.comb.xr x type, u.2)
    | .ok _, none => (.error .typeError, u.2)
    | .error e, _ => (.error e, u.2)

/-! ## Histories -/

/-- What can happen to a combination; `union` as in `computePolygon`. The members are the objects the caller handed
in (line 11 keeps the references), so when the caller moves them, their answers change: `moved`. -/
inductive CombOp where
  | moved (members : List Member)
  | polygon (union : Option (List (Pt ℝ)))
  | setXr (x : Pt ℝ) (safeSet : Bool) (union : Option (List (Pt ℝ)))
  | normal (x : Pt ℝ) (type : ApproxType)

/-- The state after one call; a raised exception is caught by the caller. -/
noncomputable def CombState.step (argsort : List ℝ → List Nat) (s : CombState) : CombOp → CombState
  | .moved ms => { s with comb := { s.comb with members := ms } }
  | .polygon u => s.computePolygon u
  | .setXr x safe u => (s.setXr argsort x safe u).2
  | .normal x t => (s.approxNormal argsort x t).2

/-- The state after a history of calls. -/
noncomputable def CombState.run (argsort : List ℝ → List Nat) (s : CombState) (ops : List CombOp) : CombState :=
  ops.foldl (CombState.step argsort) s

end Starworlds
