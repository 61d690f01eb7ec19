import Verif.Spec.Polygon

/-! # The region of a cone: what is swept by turning one direction into the other -/

namespace Starworlds.Spec

/-- The vector of length `r` at angle `t`. -/
noncomputable def atAngle (r t : ℝ) : Pt ℝ := (r * Real.cos t, r * Real.sin t)

/-- The vectors swept when the direction of `d1` is turned counter-clockwise until it is the direction of `d2`, by more
than zero and at most a full turn. -/
def sweep (d1 d2 : Pt ℝ) : Set (Pt ℝ) :=
  {v | ∃ r s t φ β α : ℝ, 0 < r ∧ 0 < s ∧ 0 ≤ t ∧ 0 ≤ β ∧ β ≤ α ∧ 0 < α ∧ α ≤ 2 * Real.pi ∧
    d1 = atAngle r φ ∧ d2 = atAngle s (φ + α) ∧ v = atAngle t (φ + β)}

/-- The points strictly inside the square `[-10^6, 10^6]²`. -/
def InBox (p : Pt ℝ) : Prop := |p.1| < 10 ^ 6 ∧ |p.2| < 10 ^ 6

end Starworlds.Spec
