import Mathlib.Data.Set.Basic
import Verif.Model.World
import Verif.Model.Obstacle

/-!
# Model of `dilated_obstacle` of Polygon and StarshapedPolygon among other calls

obstacles/polygon.py:51-70, obstacles/starshaped_polygon.py:24-40, obstacles/obstacle.py:40-44, 73-102. The obstacles of
a program share motion models, which are poses in a heap. A shapely polygon is the set of its points; what shapely
computes is a record of arguments, with the laws `Spec.PadOk`. What is left out: ids and names, the vertex arrays and
the reference point (`StarPoly.dilated` in Model/StarPolygon.lean), the cached answer of `is_convex` (Model/Flags.lean).
The polygon that the constructor puts into the cache is left out as well: it is stored without a pose, so it is never
read. A buffer that is empty or not a polygon, for which `.exterior` fails, is left out.
-/

namespace Starworlds

open Real

/-- What shapely computes: `buffer`, `bounds` (xmin, ymin, xmax, ymax), `contains` of a point, `exterior.contains` of a
point. -/
structure PadGeo where
  buffer : Set (Pt ℝ) → ℝ → Set (Pt ℝ)
  bounds : Set (Pt ℝ) → Pt ℝ × Pt ℝ
  contains : Set (Pt ℝ) → Pt ℝ → Bool
  onExterior : Set (Pt ℝ) → Pt ℝ → Bool

/-- A Polygon (`kind = .deep`) or a StarshapedPolygon (`kind = .rebuild`): `_polygon`, `_pol_bounds`,
the reference to `_motion_model`, and the pair of `_polygon_global_pose` and `_polygon_global`. -/
structure PadObj where
  kind : CopyKind
  region : Set (Pt ℝ)
  polBounds : Pt ℝ × Pt ℝ
  ref : Option Nat
  cache : Option (Pose × Set (Pt ℝ))

/-- The motion models and the obstacles of a program. -/
structure PadWorld where
  heap : List Pose
  obs : List PadObj

/-- What a program can do. -/
inductive PadOp where
  /-- `Polygon(...)` or `StarshapedPolygon(...)` -/
  | construct (kind : CopyKind) (region : Set (Pt ℝ)) (mm : MMArg Pose)
  /-- `o.polygon()` -/
  | polygon (j : Nat)
  /-- `o.dilated_obstacle(padding)` -/
  | dilate (j : Nat) (padding : ℝ)
  /-- a movement of motion model number `m` -/
  | setPose (m : Nat) (p : Pose)
  /-- `o.set_motion_model(...)` -/
  | setMotionModel (j : Nat) (mm : MMArg Pose)

/-- The pose of an obstacle; `none` is `_motion_model is None`. -/
def PadWorld.poseOf (w : PadWorld) (o : PadObj) : Option Pose := o.ref.bind fun r => w.heap[r]?

/-- shapely's `affine_transform` with the matrix of a pose (obstacles/obstacle.py:83-86). -/
noncomputable def moveRegion (p : Pose) (s : Set (Pt ℝ)) : Set (Pt ℝ) :=
  (fun x => (cos p.rot * x.1 + -sin p.rot * x.2 + p.pos.1, sin p.rot * x.1 + cos p.rot * x.2 + p.pos.2)) '' s

open scoped Classical in
/-- obstacles/obstacle.py:73-87 `polygon()` in the global frame: the answer, and the obstacle afterwards. -/
noncomputable def PadObj.polygon (o : PadObj) (mm : Option Pose) : Set (Pt ℝ) × PadObj :=
  match mm with
  | none => (o.region, o)
  | some p =>
    match o.cache with
    | some (q, s) => if q = p then (s, o) else (moveRegion p o.region, { o with cache := some (p, moveRegion p o.region) })
    | none => (moveRegion p o.region, { o with cache := some (p, moveRegion p o.region) })

open scoped Classical in
/-- obstacles/polygon.py:62-71 `point_location` in the global frame. -/
noncomputable def PadObj.pointLocation (G : PadGeo) (o : PadObj) (mm : Option Pose) (x : Pt ℝ) : Except PyErr Int := do
  let y ← transform mm x .global .obstacle
  if ¬ (o.polBounds.1.1 < y.1 ∧ y.1 < o.polBounds.2.1 ∧ o.polBounds.1.2 < y.2 ∧ y.2 < o.polBounds.2.2) then .ok 1
  else if G.contains o.region y then .ok (-1)
  else if G.onExterior o.region y then .ok 0
  else .ok 1

/-- `copy`: obstacles/obstacle.py:41 copies all fields of a Polygon; obstacles/starshaped_polygon.py:27 constructs a
StarshapedPolygon from the polygon, without the cached one. -/
def PadObj.copy (G : PadGeo) (o : PadObj) (ref : Option Nat) : PadObj :=
  match o.kind with
  | .deep => { o with ref := ref }
  | .rebuild => ⟨.rebuild, o.region, G.bounds o.region, ref, none⟩

/-- obstacles/polygon.py:53-58, obstacles/starshaped_polygon.py:32-38: what `dilated_obstacle` does to the copy. -/
def PadObj.pad (G : PadGeo) (cp : PadObj) (padding : ℝ) : PadObj :=
  let cp := { cp with region := G.buffer cp.region padding }
  let cp := { cp with polBounds := G.bounds cp.region }
  { cp with cache := none }

/-- One call. A call on an object that does not exist does nothing. -/
noncomputable def PadWorld.step (G : PadGeo) (w : PadWorld) : PadOp → PadWorld
  | .construct kind region mm =>
    ⟨(allocMM w.heap mm).1, w.obs ++ [⟨kind, region, G.bounds region, (allocMM w.heap mm).2, none⟩]⟩
  | .polygon j =>
    match w.obs[j]? with
    | none => w
    | some o => { w with obs := w.obs.set j (o.polygon (w.poseOf o)).2 }
  | .dilate j r =>
    match w.obs[j]? with
    | none => w
    | some o => ⟨(copyMM w.heap o.kind o.ref).1, w.obs ++ [(o.copy G (copyMM w.heap o.kind o.ref).2).pad G r]⟩
  | .setPose m p => { w with heap := w.heap.set m p }
  | .setMotionModel j mm =>
    ⟨(allocMM w.heap mm).1, w.obs.modify j fun o => { o with ref := (allocMM w.heap mm).2 }⟩

/-- The state after a program. -/
noncomputable def PadWorld.run (G : PadGeo) (w : PadWorld) (ops : List PadOp) : PadWorld := ops.foldl (PadWorld.step G) w

/-- The start of a program. -/
def PadWorld.empty : PadWorld := ⟨[], []⟩

/-- The pose of obstacle `j`. -/
def PadWorld.pose (w : PadWorld) (j : Nat) : Option Pose := (w.obs[j]?).bind w.poseOf

/-- The answer of `polygon()` of obstacle `j` (empty if there is no such obstacle). -/
noncomputable def PadWorld.polygonAt (w : PadWorld) (j : Nat) : Set (Pt ℝ) :=
  match w.obs[j]? with
  | none => ∅
  | some o => (o.polygon (w.poseOf o)).1

/-- The answer of `point_location(x)` of obstacle `j`. -/
noncomputable def PadWorld.locationAt (G : PadGeo) (w : PadWorld) (j : Nat) (x : Pt ℝ) : Option (Except PyErr Int) :=
  (w.obs[j]?).map fun o => o.pointLocation G (w.poseOf o) x

end Starworlds
