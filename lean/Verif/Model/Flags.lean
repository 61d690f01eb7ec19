import Verif.Model.Polygon
import Verif.Model.Combination
import Verif.Model.Ellipse

/-!
# Model of the shape flags and point predicates of obstacles/obstacle.py

`is_convex`, `is_starshaped` with their cached answers, what `copy` and `dilated_obstacle` do to the cached answers,
and `interior_point`, `exterior_point`, `boundary_point`.
-/

namespace Starworlds

/-! ## is_convex and is_starshaped -/

/-- The classes with their own `_check_convexity`, except StarshapedPrimitiveCombination. -/
inductive FlagClass where
  | polygon
  | starPolygon
  | ellipse
  deriving DecidableEq

/-- Whether the class is derived from StarshapedObstacle. -/
def FlagClass.isStar : FlagClass → Bool
  | .polygon => false
  | _ => true

/-- The fields that `is_convex` and `is_starshaped` use. `verts` is `_polygon.exterior.coords` without the repeated vertex
(unused for ellipses). -/
structure Flags (K : Type*) where
  cls : FlagClass
  verts : List (Pt K)
  isConvex : Option Bool
  isStarshaped : Option Bool

variable {K : Type*} [Field K] [LinearOrder K]

/-- obstacles/obstacle.py:24-27 and obstacles/starshaped_obstacle.py:9-10: the flags after construction; `convexArg`, `starArg`
are the keyword arguments `is_convex` and `is_starshaped`. The star-shaped classes pass `is_starshaped=True` on, so giving it
raises TypeError (multiple values). -/
def Flags.make (cls : FlagClass) (verts : List (Pt K)) (convexArg starArg : Option Bool) : Except PyErr (Flags K) :=
  if cls.isStar then
    match starArg with
    | some _ => .error .typeError
    | none => .ok ⟨cls, verts, convexArg, some true⟩
  else .ok ⟨cls, verts, convexArg, starArg⟩

/-- `_check_convexity`: obstacles/polygon.py:141-154 (also used by StarshapedPolygon), obstacles/ellipse.py:206-207. -/
def Flags.check (s : Flags K) : Except PyErr Bool :=
  match s.cls with
  | .ellipse => .ok true
  | _ => checkConvexity s.verts

/-- obstacles/obstacle.py:114-118 `is_convex`: the answer and the state after it. -/
def Flags.isConvexCall (s : Flags K) : Except PyErr Bool × Flags K :=
  match s.isConvex with
  | some b => (.ok b, s)
  | none =>
    match s.check with
    | .error e => (.error e, s)
    | .ok b => (.ok b, { s with isConvex := some b })

/-- obstacles/obstacle.py:120-127 `is_starshaped`. -/
def Flags.isStarshapedCall (s : Flags K) : Except PyErr Bool × Flags K :=
  match s.isStarshaped with
  | some b => (.ok b, s)
  | none =>
    match s.isConvexCall with
    | (.error e, s) => (.error e, s)
    | (.ok b, s) => if b then (.ok true, { s with isStarshaped := some true }) else (.ok false, { s with isStarshaped := some false })

/-- `copy`: obstacles/obstacle.py:40-44 (Polygon: deepcopy) and obstacles/ellipse.py:20-23,
obstacles/starshaped_polygon.py:24-27 (a new object, without the keyword argument `is_convex`). -/
def Flags.copy (s : Flags K) : Flags K :=
  if s.cls.isStar then ⟨s.cls, s.verts, none, some true⟩ else s

/-- `dilated_obstacle`: obstacles/polygon.py:52-60, obstacles/starshaped_polygon.py:30-40, obstacles/ellipse.py:25-35: a copy
with another polygon; `buffered` is the exterior of `_polygon.buffer(padding)`. -/
def Flags.dilated (s : Flags K) (buffered : List (Pt K)) : Flags K := { s.copy with verts := buffered }

/-- What a caller can do with one obstacle; after `copy` and `dilate` the caller goes on with the new object. -/
inductive FlagOp (K : Type*) where
  | isConvex
  | isStarshaped
  | copy
  | dilate (buffered : List (Pt K))

/-- The state after one call; a raised exception is caught by the caller. -/
def Flags.step (s : Flags K) : FlagOp K → Flags K
  | .isConvex => s.isConvexCall.2
  | .isStarshaped => s.isStarshapedCall.2
  | .copy => s.copy
  | .dilate b => s.dilated b

/-- The state after a history of calls. -/
def Flags.run (s : Flags K) (ops : List (FlagOp K)) : Flags K := ops.foldl Flags.step s

/-! ## interior_point, exterior_point, boundary_point -/

/-- obstacles/obstacle.py:58-59 `interior_point`, from the value of `point_location`. -/
noncomputable def interiorPoint (loc : Except PyErr ℝ) : Except PyErr Bool := do
  let l ← loc
  .ok (decide (l < 0))

/-- obstacles/obstacle.py:61-62 `exterior_point`, from the value of `point_location`. -/
noncomputable def exteriorPoint (loc : Except PyErr ℝ) : Except PyErr Bool := do
  let l ← loc
  .ok (decide (0 < l))

/-- obstacles/obstacle.py:64-65 `boundary_point`, from the value of `point_location`; `np.isclose` with its default tolerances. -/
noncomputable def boundaryPoint (loc : Except PyErr ℝ) : Except PyErr Bool := do
  let l ← loc
  .ok (isClose l 0 (1 / 10 ^ 5) (1 / 10 ^ 8))

/-- `point_location` of a Polygon as a number. -/
noncomputable def polygonLoc (mm : Option Pose) (v : List (Pt ℝ)) (x : Pt ℝ) (fin : Frame) : Except PyErr ℝ := do
  let l ← polygonPointLocation mm v x fin
  .ok (l : ℝ)

end Starworlds
