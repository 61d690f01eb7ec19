import Verif.Model.CombinationState
import Verif.Model.KernelPolygon

/-!
# Model of obstacles/starshaped_primitive_combination.py: kernel and is_convex

The motion model is None. The calls of `Model/CombinationState.lean` are extended by the two cached values.
-/

namespace Starworlds

/-- The combination with `_kernel`, given by its vertices, and `_is_convex`; both are None at first. (Simplified: `is_convex` is
not handed to the constructor, as nowhere in /repo.) -/
structure CombKernel where
  state : CombState
  kernel : Option (List (Pt ℝ))
  isConvex : Option Bool

/-- obstacles/starshaped_primitive_combination.py:10-16 and obstacles/starshaped_obstacle.py:12 constructor. -/
def CombKernel.make (c : Combination) (hullRing : Option (List (Pt ℝ))) : CombKernel := ⟨CombState.make c hullRing, none, none⟩

/-- The polygon of the temporary StarshapedPolygon, lines 58 and 61 with obstacles/polygon.py:13-14: the cached union,
counterclockwise. shapely.geometry.Polygon of a MultiPolygon raises TypeError. (Simplified: holes are left out, as the kernel and
the convexity are computed from the exterior.) -/
noncomputable def CombKernel.temp (s : CombState) : Except PyErr (List (Pt ℝ)) :=
  match s.polygon with
  | some (some ring) => .ok (orientRing ring)
  | _ => .error .typeError

/-- obstacles/starshaped_obstacle.py:46-50 `kernel()` with obstacles/starshaped_primitive_combination.py:57-58
`_compute_kernel`: None is returned, and nothing cached, if the polygon has no kernel. `union` as in `computePolygon`, `ops` are
the functions used by the kernel of a StarshapedPolygon. -/
noncomputable def CombKernel.kernelCall (ops : KernelOps (Pt ℝ)) (s : CombKernel) (union : Option (List (Pt ℝ))) :
    Except PyErr (Option (List (Pt ℝ))) × CombKernel :=
  match s.kernel with
  | some k => (.ok (some k), s)
  | none =>
    let s' := { s with state := s.state.computePolygon union }
    match CombKernel.temp s'.state >>= polygonKernel ops false with
    | .ok k => (.ok k, { s' with kernel := k })
    | .error e => (.error e, s')

/-- obstacles/obstacle.py:114-118 `is_convex()` with obstacles/starshaped_primitive_combination.py:60-61 `_check_convexity`. -/
noncomputable def CombKernel.isConvexCall (s : CombKernel) (union : Option (List (Pt ℝ))) : Except PyErr Bool × CombKernel :=
  match s.isConvex with
  | some b => (.ok b, s)
  | none =>
    let s' := { s with state := s.state.computePolygon union }
    match CombKernel.temp s'.state >>= checkConvexity with
    | .ok b => (.ok b, { s' with isConvex := some b })
    | .error e => (.error e, s')

/-- What can happen to a combination: the calls of `CombOp` and the two calls above. -/
inductive CombCall where
  | base (op : CombOp)
  | kernel (union : Option (List (Pt ℝ)))
  | isConvex (union : Option (List (Pt ℝ)))

/-- The state after one call; a raised exception is caught by the caller. `set_xr` with `safe_set` calls `kernel()`
(obstacles/starshaped_obstacle.py:21-23) and raises AttributeError. -/
noncomputable def CombKernel.step (ops : KernelOps (Pt ℝ)) (argsort : List ℝ → List Nat) (s : CombKernel) : CombCall → CombKernel
  | .base (.setXr _ true u) => (s.kernelCall ops u).2
  | .base op => { s with state := s.state.step argsort op }
  | .kernel u => (s.kernelCall ops u).2
  | .isConvex u => (s.isConvexCall u).2

/-- The state after a history of calls. -/
noncomputable def CombKernel.run (ops : KernelOps (Pt ℝ)) (argsort : List ℝ → List Nat) (s : CombKernel) (calls : List CombCall) :
    CombKernel :=
  calls.foldl (CombKernel.step ops argsort) s

end Starworlds
