import Verif.Model.Basic
import Mathlib.MeasureTheory.Integral.IntervalIntegral.Basic
import Mathlib.Analysis.SpecialFunctions.Trigonometric.Basic

/-! # Specification: the curve of a velocity that oscillates -/

namespace Starworlds.Spec

open Real

/-- A velocity with magnitude `m` and period `p` at time `t`; without a period it is constant. -/
noncomputable def oscillation (m p t : ℝ) : ℝ := if p = 0 then m else m * cos (2 * π * t / p)

/-- How far one gets with it from time `a` to time `b`. -/
noncomputable def travelled (m p a b : ℝ) : ℝ := ∫ t in a..b, oscillation m p t

/-- The heading at time `t`, if it is `r` at time `a` and turns with an oscillating velocity. -/
noncomputable def headingAt (m p a r t : ℝ) : ℝ := r + travelled m p a t

/-- How far one gets from time `a` to time `b` with an oscillating speed in the direction of the heading. -/
noncomputable def drivenTo (m1 p1 m2 p2 a r b : ℝ) : Pt ℝ :=
  (∫ t in a..b, oscillation m1 p1 t * cos (headingAt m2 p2 a r t), ∫ t in a..b, oscillation m1 p1 t * sin (headingAt m2 p2 a r t))

/-- The greatest rate at which an oscillating velocity changes. -/
noncomputable def jerk (m p : ℝ) : ℝ := if p = 0 then 0 else |m| * (2 * π / |p|)

/-- The sum of the squares of the steps. -/
noncomputable def sumSq (l : List ℝ) : ℝ := (l.map fun d => d ^ 2).sum

end Starworlds.Spec
