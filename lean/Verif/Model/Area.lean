import Verif.Model.KernelPolygon

/-!
# Model of `area`

obstacles/polygon.py:137-138 and the two classes without it. The property `area` of a shapely polygon is half of the absolute
value of the sum over the edges of its ring.
-/

namespace Starworlds

variable {K : Type} [Field K] [LinearOrder K]

/-- The `area` of a shapely polygon with the vertices `v` and without holes. -/
def shapelyArea (v : List (Pt K)) : K := |signedArea2 v| / 2

/-- What the method `area` looks at. -/
inductive Measured (K : Type) where
  /-- obstacles/polygon.py:13-19 `Polygon(v)` and its subclass obstacles/starshaped_polygon.py:12-21 `StarshapedPolygon(v)` -/
  | polygon (v : List (Pt K))
  /-- obstacles/ellipse.py:9-24 `Ellipse(a)`, with the half axes `a` -/
  | ellipse (a : Pt K)
  /-- obstacles/starshaped_primitive_combination.py:9 `StarshapedPrimitiveCombination` -/
  | combination

/-- obstacles/polygon.py:137-138 `area`, for the local polygon of lines 15-16; the motion model is not used. In
obstacles/ellipse.py:202-203 the method is a comment, and the class of combinations and obstacles/obstacle.py have none. -/
def obstacleArea : Measured K → Except PyErr K
  | .polygon v => .ok (shapelyArea (orientRing v))
  | .ellipse _ => .error .attributeError
  | .combination => .error .attributeError

/-- tests/test_cluster_and_starify.py:39, tests/test_timing.py:48 `sum([o.area() for o in obstacles])`. -/
def totalArea (os : List (Measured K)) : Except PyErr K := do
  let as ← os.mapM obstacleArea
  .ok as.sum

end Starworlds
