import Verif.Model.EllipseDilation
import Verif.Spec.Plane

/-! # What is assumed of shapely's `buffer` for convex polygons -/

namespace Starworlds.Spec

/-- The buffer contains the polygon and, along each edge, the rectangle of height `r` on the outside; it contains
no point that is farther than `r` from the polygon.  Nothing is said of the round joins, which shapely approximates
from inside. -/
structure BufferOk (buffer : Set (Pt ℝ) → ℝ → Set (Pt ℝ)) : Prop where
  within : ∀ s r, 0 ≤ r → ∀ x ∈ buffer s r, ∃ y ∈ s, normSq (x - y) ≤ r ^ 2
  contains : ∀ s r, 0 ≤ r → s ⊆ buffer s r
  edge : ∀ s r, Convex ℝ s → 0 ≤ r → ∀ a ∈ s, ∀ b ∈ s, a ≠ b → ∀ n : Pt ℝ, normSq n = 1 → dot n a = dot n b → (∀ z ∈ s, dot n z ≤ dot n a) →
    ∀ t h : ℝ, 0 ≤ t → t ≤ 1 → 0 ≤ h → h ≤ r → a + t • (b - a) + h • n ∈ buffer s r

/-- The sum of the paddings of a history. -/
def totalPadding : List EllOp → ℝ
  | [] => 0
  | .polygon :: l => totalPadding l
  | .dilate r :: l => r + totalPadding l

end Starworlds.Spec
