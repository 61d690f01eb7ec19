import Verif.Model.Admissible
import Verif.Spec.ConeRegion
import Verif.Spec.Kernel
import Verif.Spec.Starify

/-! # Specification: the shapely operations on cones, and what is needed of cones and of tangent points -/

namespace Starworlds.Spec

variable {G : Type}

/-- `gpts g` are the points of the geometry `g`. Shapely is used as intended: the rings accepted by it (`valid`) enclose
their filled region, and the operations are the set operations. -/
structure ConeGeoOk (geo : ConeGeo G) (gpts : G → Set (Pt ℝ)) (valid : List (Pt ℝ) → Prop) : Prop where
  polygon : ∀ v, valid v → gpts (geo.polygon v) = filled v
  empty : gpts (geo.polygon []) = ∅
  inter : ∀ a b, gpts (geo.intersection a b) = gpts a ∩ gpts b
  union : ∀ l, gpts (geo.unaryUnion l) = {p | ∃ g ∈ l, p ∈ gpts g}

/-- The apex is at least 1 from the border of the box, the directions are not too short. -/
structure ConeOk (c : Cone ℝ) : Prop where
  x : |c.apex.1| ≤ 10 ^ 6 - 1
  y : |c.apex.2| ≤ 10 ^ 6 - 1
  len1 : (1 / 10 ^ 9) ^ 2 ≤ normSq c.dir1
  len2 : (1 / 10 ^ 9) ^ 2 ≤ normSq c.dir2

/-- Beyond the threshold of the orientation test: a convex cone, a non-convex cone or a half plane. -/
def NotThin (c : Cone ℝ) : Prop :=
  1 / 10 ^ 10 < cross c.dir1 c.dir2 ∨ cross c.dir1 c.dir2 < 0 ∨ (cross c.dir1 c.dir2 = 0 ∧ dot c.dir1 c.dir2 < 0)

/-- The points of a cone. -/
def conePts (c : Cone ℝ) : Set (Pt ℝ) := {p | p - c.apex ∈ sweep c.dir1 c.dir2}

/-- The point `y` is outside of the convex obstacle `O` and sees it between its tangent points `t` on the left and `s` on the
right, which are not too near. -/
structure ViewOk (O : Set (Pt ℝ)) (tp : Pt ℝ → Except PyErr (List (Pt ℝ))) (y t s : Pt ℝ) : Prop where
  convex : Convex ℝ O
  inner : (interior O).Nonempty
  outside : y ∉ O
  tangents : tp y = .ok [t, s]
  seen : SeenBetween O y t s
  left : (1 / 10 ^ 9) ^ 2 ≤ normSq (y - t)
  right : (1 / 10 ^ 9) ^ 2 ≤ normSq (y - s)

end Starworlds.Spec
