import Verif.Spec.StarPolygon

/-! # Specification: intersections of segments with boundaries -/

namespace Starworlds.Spec

/-- The list `L` describes where the segment from `a` to `b` meets the set `B`: its points are such points, and
among them is one that is at least as far from `a` as any given such point. (For an overlap of positive length only
its ends are listed.) -/
def Crossings (B : Set (Pt ℝ)) (a b : Pt ℝ) (L : List (Pt ℝ)) : Prop :=
  (∀ p ∈ L, OnSegment a b p ∧ p ∈ B) ∧ ∀ q ∈ B, OnSegment a b q → ∃ p ∈ L, len (q - a) ≤ len (p - a)

end Starworlds.Spec
