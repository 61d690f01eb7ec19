import Verif.Spec.Ellipse

/-! # Specification: distances relative to an ellipse -/

namespace Starworlds.Spec

/-- For the ellipse with half axes `a` and a point `c` of it: the square of the number `k` for which `y` is on the boundary of the
ellipse scaled by `k` with centre `c`, in closed form. -/
noncomputable def ellGauge (a c y : Pt ℝ) : ℝ :=
  let B := c.1 * (y.1 - c.1) / a.1 ^ 2 + c.2 * (y.2 - c.2) / a.2 ^ 2
  ((B + √(B ^ 2 + (1 - ellForm a c) * ellForm a (y - c))) / (1 - ellForm a c)) ^ 2

end Starworlds.Spec
