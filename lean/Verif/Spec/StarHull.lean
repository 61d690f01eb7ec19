import Verif.Spec.Plane
import Verif.Model.Cg
import Mathlib.Analysis.Convex.Star
import Mathlib.Analysis.Convex.Hull
import Mathlib.Data.Real.Basic

/-! # Specification: tangents of convex sets and hulls -/

namespace Starworlds.Spec

/-- From `k`, the set `O` is seen between `s` on the right and `t` on the left, which are points of `O`. -/
structure SeenBetween (O : Set (Pt ℝ)) (k t s : Pt ℝ) : Prop where
  left_mem : t ∈ O
  right_mem : s ∈ O
  right : ∀ q ∈ O, 0 ≤ cross (s - k) (q - k)
  left : ∀ q ∈ O, 0 ≤ cross (q - k) (t - k)

/-- What is needed of the tangent points of an obstacle `O` from `k`: they are points of `O`, and for `k` outside of
`O` they contain two points between which `O` is seen, in either order. -/
def TangentsOk (tangentPoints : Pt ℝ → Except PyErr (List (Pt ℝ))) (O : Set (Pt ℝ)) (k : Pt ℝ) : Prop :=
  ∃ L, tangentPoints k = .ok L ∧ (∀ p ∈ L, p ∈ O) ∧ (k ∉ O → ∃ t ∈ L, ∃ s ∈ L, SeenBetween O k t s)

/-- What `np.unique(., axis=0)` does, up to the order. -/
def IsUnique (unique : List (Pt ℝ) → List (Pt ℝ)) : Prop := ∀ l, (unique l).Nodup ∧ ∀ p, p ∈ unique l ↔ p ∈ l

/-- The region of a convex polygon, given by its vertices; empty if there are none. -/
def region (v : List (Pt ℝ)) : Set (Pt ℝ) := convexHull ℝ {p | p ∈ v}

/-- The region of a union of polygons. -/
def regions (vs : List (List (Pt ℝ))) : Set (Pt ℝ) := {p | ∃ v ∈ vs, p ∈ region v}

/-- No three points of the list are near collinear. -/
def GeneralPosition (pts : List (Pt ℝ)) : Prop :=
  ∀ i j k, i < pts.length → j < pts.length → k < pts.length → i ≠ j → j ≠ k → i ≠ k →
    1 / 10 ^ 10 < |cross (pts.getD j 0 - pts.getD i 0) (pts.getD k 0 - pts.getD i 0)|

end Starworlds.Spec
