import Verif.Model.Motion

/-!
# Moves of a motion model with velocity queries in between

`StarshapedObstacle.vel_intertial_frame` (obstacles/starshaped_obstacle.py:63-68) asks the motion model for
`lin_vel()`; for `Waypoints` (obstacles/motion_model.py:107-116) this advances the index of the waypoint.
-/

namespace Starworlds

/-- What can be done to the motion model of an obstacle: `move`, `vel_intertial_frame` or `lin_vel`,
`set_pos`, `set_rot`. -/
inductive MotionOp where
  | move (dt : ℝ)
  | query
  | setPos (p : Pt ℝ)
  | setRot (r : ℝ)

/-- One operation; of a query only the effect on the motion model is kept. -/
noncomputable def stepMotion (k : MotionKind) (s : MotionState) : MotionOp → Except PyErr MotionState
  | .move dt => motionMove k s dt
  | .query => match linVel k s with
    | .error e => .error e
    | .ok (_, s') => .ok s'
  | .setPos p => .ok { s with pos := p }
  | .setRot r => .ok { s with rot := r }

/-- A history of operations, stopped by the first error. -/
noncomputable def runMotion (k : MotionKind) (s : MotionState) : List MotionOp → Except PyErr MotionState
  | [] => .ok s
  | op :: ops =>
    match stepMotion k s op with
    | .error e => .error e
    | .ok s' => runMotion k s' ops

end Starworlds
