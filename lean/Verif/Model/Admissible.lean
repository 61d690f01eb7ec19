import Verif.Model.CgReal
import Verif.Model.Starify

/-!
# Model of the admissible kernel of a cluster

utils/cg.py `Cone.intersection` and `Cone.list_intersection` up to shapely polygons, and
starshaped_hull/cluster_and_starify.py:196-225, 242, 340-359. The shapely operations are oracles. The dictionaries of
cones are read with the ids of the obstacles; here every obstacle is given its own cone, which is the same when the ids
are different.
-/

namespace Starworlds

/-- The shapely operations on the polygons of cones. -/
structure ConeGeo (G : Type) where
  /-- `shapely.geometry.Polygon(vertices)` -/
  polygon : List (Pt ℝ) → G
  /-- `a.intersection(b)` -/
  intersection : G → G → G
  /-- `shapely.ops.unary_union(l)` -/
  unaryUnion : List G → G
  /-- `g.is_empty or g.area < 1e-6` -/
  negligible : G → Bool

variable {G : Type}

/-- utils/cg.py:295-347 `Cone.polygon`. The walk over the corners of the box ends within four steps
(`C16_corner_walk`). -/
noncomputable def coneShape (geo : ConeGeo G) (c : Cone ℝ) : Except PyErr G := do
  let v ← conePolygon c 4
  .ok (geo.polygon (v.getD []))

/-- utils/cg.py:355-363 `Cone.intersection`. -/
noncomputable def coneIntersection (geo : ConeGeo G) (self other : Cone ℝ) (sameApex : Bool) : Except PyErr G :=
  if sameApex then
    match self.intersectionSameApex other with
    | [c] => coneShape geo c
    | l => do
      let ps ← l.mapM (coneShape geo)
      .ok (geo.unaryUnion ps)
  else do
    let a ← coneShape geo self
    let b ← coneShape geo other
    .ok (geo.intersection a b)

/-- utils/cg.py:388-392: the loop of `Cone.list_intersection` without `same_apex`. -/
noncomputable def coneListLoop (geo : ConeGeo G) (cur : G) : List (Cone ℝ) → Except PyErr G
  | [] => .ok cur
  | c :: cs => do
    let p ← coneShape geo c
    coneListLoop geo (geo.intersection cur p) cs

/-- utils/cg.py:386-411 `Cone.list_intersection`. -/
noncomputable def coneListIntersection (geo : ConeGeo G) (cones : List (Cone ℝ)) (sameApex : Bool) : Except PyErr G :=
  if sameApex then do
    match ← Cone.listIntersection cones with
    | [] => .ok (geo.polygon [])
    | [c] => coneShape geo c
    | l =>
      let ps ← l.mapM (coneShape geo)
      .ok (geo.unaryUnion ps)
  else
    match cones with
    | [] => .error .indexError
    | c :: cs => do
      let p ← coneShape geo c
      coneListLoop geo p cs

/-- starshaped_hull/cluster_and_starify.py:201-202: the cone of an obstacle for robot or goal. Where it is `None` the
program has returned before (lines 204-213). -/
noncomputable def coneOf (y : Pt ℝ) (o : ConvObs) : Except PyErr (Cone ℝ) := do
  match ← admissibleKernel o.tangentPoints y with
  | none => .error .attributeError
  | some c => .ok c

/-- starshaped_hull/cluster_and_starify.py:242: the admissible kernel of a single obstacle. -/
noncomputable def admissibleFirst (geo : ConeGeo G) (x xg : Pt ℝ) (o : ConvObs) : Except PyErr G := do
  let r ← coneOf x o
  let g ← coneOf xg o
  coneIntersection geo r g false

/-- starshaped_hull/cluster_and_starify.py:340-359: the admissible kernel of a cluster. `excluded` are the polygons
`adm_ker_obstacles[o.id()][o_ex.id()]` that are not `None`, in the order of the loops, and none if `exclude_obstacles`
is False. A negligible kernel makes the program return at line 344-348; this is decided by `admEmpty` of the clustering
model. -/
noncomputable def admissibleLoop (geo : ConeGeo G) (x xg : Pt ℝ) (excluded : List G) (obs : List ConvObs) :
    Except PyErr G := do
  let rs ← obs.mapM (coneOf x)
  let a ← coneListIntersection geo rs true
  let gs ← obs.mapM (coneOf xg)
  let b ← coneListIntersection geo gs true
  let A := geo.intersection a b
  let B := excluded.foldl geo.intersection A
  .ok (if geo.negligible B then A else B)

/-- The admissible kernels that `compute_kernel_points` is given, without `exclude_obstacles`: line 242 in the first iteration,
which has the number 0 and one obstacle in every cluster, and lines 340-342 in the others. -/
noncomputable def admissibleKernels (geo : ConeGeo G) (x xg : Pt ℝ) : Nat → List ConvObs → Except PyErr G
  | 0, [o] => admissibleFirst geo x xg o
  | _, obs => admissibleLoop geo x xg [] obs

end Starworlds
