import Verif.Spec.Polygon

/-! # Specification: polygons that turn once around -/

namespace Starworlds.Spec

open Real

/-- The edges can be given directions that change by less than a half turn from edge to edge and by one full turn to
the left in total. Every simple polygon with counter-clockwise vertices without reversals does this; polygons that wind
twice do not. -/
def OnceAround (v : List (Pt ℝ)) : Prop :=
  ∃ ψ : ℕ → ℝ, (∀ i < v.length, ∃ r : ℝ, 0 < r ∧ corner v (i + 1) - corner v i = r • ((cos (ψ i), sin (ψ i)) : Pt ℝ)) ∧
    (∀ i < v.length, |ψ (i + 1) - ψ i| < π) ∧ ψ v.length = ψ 0 + 2 * π

end Starworlds.Spec
