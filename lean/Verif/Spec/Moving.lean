import Verif.Spec.Ellipse

/-! # Specification: answers of a moved obstacle -/

namespace Starworlds.Spec

/-- The components of the local direction `d` in a frame. -/
noncomputable def dirFrame (mm : Option Pose) (f : Frame) (d : Pt ℝ) : Pt ℝ := inFrame mm f d - inFrame mm f (0, 0)

/-- The same answer, an exception or a value, with the value in the coordinates of a frame. -/
def answerIn {A : Type} (conv : A → A) (r : Except PyErr A) : Except PyErr A :=
  match r with
  | .ok a => .ok (conv a)
  | .error e => .error e

end Starworlds.Spec
