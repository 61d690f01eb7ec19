import Verif.Model.Obstacle
import Verif.Spec.Plane

/-! # Specification: placed points and ellipses -/

namespace Starworlds.Spec

open Real

/-- Where the local point `p` of an obstacle is in the world: rotated by the angle and shifted by the
position of the pose; without a motion model the two frames are the same. -/
noncomputable def worldOf (mm : Option Pose) (p : Pt ℝ) : Pt ℝ :=
  match mm with
  | none => p
  | some q => (cos q.rot * p.1 - sin q.rot * p.2 + q.pos.1, sin q.rot * p.1 + cos q.rot * p.2 + q.pos.2)

/-- The coordinates of the local point `p` in a frame. -/
noncomputable def inFrame (mm : Option Pose) (f : Frame) (p : Pt ℝ) : Pt ℝ :=
  match f with
  | .obstacle => p
  | _ => worldOf mm p

/-- The quadratic form of the ellipse with half axes `a`: less than, equal to, more than 1 inside, on,
outside. -/
noncomputable def ellForm (a p : Pt ℝ) : ℝ := p.1 ^ 2 / a.1 ^ 2 + p.2 ^ 2 / a.2 ^ 2

end Starworlds.Spec
