import Verif.Model.Cg
import Mathlib.Data.Real.Basic

/-!
# Model of starshaped_hull/starshaped_hull.py

`admissible_kernel`, `kernel_starshaped_hull` and `convex_kernel_starshaped_hull`. An obstacle is represented by its
`tangent_points` method with both frames global. A shapely polygon is its vertex list, `[]` the empty polygon; the
union of a list of polygons is kept as the list. `polygon_kernel_starshaped_hull` (lines 49-206, for polygons that are
not convex) is an oracle here.
-/

namespace Starworlds

variable {K : Type*} [Field K] [LinearOrder K]

/-- starshaped_hull/starshaped_hull.py:8-14 `admissible_kernel`. -/
def admissibleKernel (tangentPoints : Pt K → Except PyErr (List (Pt K))) (x : Pt K) : Except PyErr (Option (Cone K)) := do
  match ← tangentPoints x with
  | [] => .ok none
  | [_] => .error .indexError
  | t :: s :: _ => .ok (some ⟨x, x - t, x - s⟩)

/-- starshaped_hull/starshaped_hull.py:35-45 `convex_kernel_starshaped_hull`; `unique` is `np.unique(., axis=0)`,
`none` means that `convex_hull` has not finished within `fuel` rounds. -/
def convexKernelHull (unique : List (Pt K) → List (Pt K)) (tangentPoints : Pt K → Except PyErr (List (Pt K)))
    (ks : List (Pt K)) (fuel : Nat) : Except PyErr (Option (List (Pt K))) := do
  let tps ← ks.mapM tangentPoints
  match tps.flatten with
  | [] => .ok (some [])
  | l => .ok (convexHullPts (unique l ++ ks) fuel)

/-- What `kernel_starshaped_hull` looks at: a convex obstacle with its tangent points, another polygon with the result
of `polygon_kernel_starshaped_hull` for the kernel points, or anything else. -/
inductive HullObs (K : Type*) where
  | convex (tangentPoints : Pt K → Except PyErr (List (Pt K)))
  | polygon (hull : List (Pt K) → Except PyErr (Option (List (Pt K))))
  | other

/-- starshaped_hull/starshaped_hull.py:18-26, 28 `kernel_starshaped_hull` of one obstacle: for an obstacle that is
neither convex nor a polygon the message is printed and iterating over the obstacle raises TypeError. -/
def kernelHullOne (unique : List (Pt K) → List (Pt K)) (ks : List (Pt K)) (fuel : Nat) :
    HullObs K → Except PyErr (Option (List (Pt K)))
  | .convex tp => convexKernelHull unique tp ks fuel
  | .polygon hull => hull ks
  | .other => .error .typeError

/-- starshaped_hull/starshaped_hull.py:28-32 `kernel_starshaped_hull` of a list: the polygons whose union is returned,
`some none` for the result None, `none` when some hull computation does not finish. -/
def kernelHull (unique : List (Pt K) → List (Pt K)) (obs : List (HullObs K)) (ks : List (Pt K)) (fuel : Nat) :
    Except PyErr (Option (Option (List (List (Pt K))))) := do
  let subs ← obs.mapM (kernelHullOne unique ks fuel)
  if subs.any (·.isNone) then .ok none
  else
    let pols := subs.filterMap id
    if pols.all (·.isEmpty) then .ok (some none) else .ok (some (some pols))

end Starworlds
