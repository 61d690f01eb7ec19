import Verif.Model.KernelPolygon
import Verif.Model.StarPolygon

/-!
# Model of the StarshapedPolygon constructor without reference point

The shapely operations on the kernel polygon are arguments; what they must do is `Spec.IsArea`.
-/

namespace Starworlds

/-- The shapely operations on a polygon, given by the list of its vertices, that the constructor uses. -/
structure AreaOps where
  /-- `polygon.contains(Point(p))` -/
  contains : List (Pt ℝ) → Pt ℝ → Bool
  /-- `polygon.centroid.coords[0]` -/
  centroid : List (Pt ℝ) → Pt ℝ
  /-- `polygon.representative_point().coords[0]` -/
  representative : List (Pt ℝ) → Pt ℝ

/-- obstacles/starshaped_polygon.py:14-17: the reference point chosen in the kernel. -/
def defaultXr (geo : AreaOps) (k : List (Pt ℝ)) : Pt ℝ :=
  if geo.contains k (geo.centroid k) then geo.centroid k else geo.representative k

/-- obstacles/starshaped_polygon.py:10-22 constructor with `xr=None`; `ring` are the oriented vertices
(obstacles/polygon.py:13-17). -/
noncomputable def constructDefault (geo : AreaOps) (argsort : List ℝ → List Nat) (mm : Option Pose) (ring : List (Pt ℝ)) :
    Except PyErr StarPoly := do
  let k ← constructKernel realOps ring
  .ok (StarPoly.make argsort mm ring (defaultXr geo k))

end Starworlds
