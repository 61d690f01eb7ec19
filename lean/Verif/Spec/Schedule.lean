import Mathlib.Data.Real.Basic
import Mathlib.Algebra.BigOperators.Group.List.Basic
import Verif.Spec.Plane

/-! # Specification of a timed schedule of points -/

namespace Starworlds

/-- Time of the `k`-th scheduled point: the sum of the first `k` durations. -/
noncomputable def schedTime (timePos : List (ℝ × Pt ℝ)) (k : Nat) : ℝ := ((timePos.map Prod.fst).take k).sum

/-- The `k`-th scheduled point; the `0`-th is the initial position. -/
def schedPos (initPos : Pt ℝ) (timePos : List (ℝ × Pt ℝ)) (k : Nat) : Pt ℝ :=
  (initPos :: timePos.map Prod.snd).getD k 0

/-- The scheduled position at time `t`: linear interpolation between consecutive scheduled points. -/
def OnSchedule (p0 : Pt ℝ) (tp : List (ℝ × Pt ℝ)) (t : ℝ) (p : Pt ℝ) : Prop :=
  ∃ k, k < tp.length ∧ schedTime tp k ≤ t ∧ t ≤ schedTime tp (k + 1) ∧
    p = schedPos p0 tp k + ((t - schedTime tp k) / (schedTime tp (k + 1) - schedTime tp k)) •
      (schedPos p0 tp (k + 1) - schedPos p0 tp k)

end Starworlds
