import Verif.Spec.Schedule
import Verif.Spec.Waypoints

/-! # Specification: near a schedule -/

namespace Starworlds.Spec

/-- The velocity from the `k`-th scheduled point to the next. -/
noncomputable def legVel (p0 : Pt ℝ) (tp : List (ℝ × Pt ℝ)) (k : ℕ) : Pt ℝ :=
  (((schedPos p0 tp (k + 1)).1 - (schedPos p0 tp k).1) / (schedTime tp (k + 1) - schedTime tp k),
    ((schedPos p0 tp (k + 1)).2 - (schedPos p0 tp k).2) / (schedTime tp (k + 1) - schedTime tp k))

/-- By how much a velocity has changed up to leg `k`, all changes added. -/
noncomputable def changes (v : ℕ → ℝ) : ℕ → ℝ
  | 0 => 0
  | k + 1 => changes v k + |v (k + 1) - v k|

/-- The speed from the last but one scheduled point to the last. -/
noncomputable def lastSpeed (p0 : Pt ℝ) (tp : List (ℝ × Pt ℝ)) : ℝ :=
  gap (schedPos p0 tp (tp.length - 1)) (schedPos p0 tp tp.length) / (schedTime tp tp.length - schedTime tp (tp.length - 1))

end Starworlds.Spec
