import Verif.Spec.Plane
import Mathlib.Analysis.Real.Sqrt
import Mathlib.Data.List.Infix

/-! # Specification: following a path -/

namespace Starworlds.Spec

open Real

/-- The distance of two points. -/
noncomputable def gap (p q : Pt ℝ) : ℝ := √((q.1 - p.1) ^ 2 + (q.2 - p.2) ^ 2)

/-- The length of the path through these points. -/
noncomputable def pathLength : List (Pt ℝ) → ℝ
  | [] => 0
  | [_] => 0
  | a :: b :: l => gap a b + pathLength (b :: l)

/-- A point of the path. -/
def OnPath (l : List (Pt ℝ)) (q : Pt ℝ) : Prop := q ∈ l ∨ ∃ a b, [a, b] <:+: l ∧ OnSegment a b q

/-- The track comes nearer than `r` to each of the points, in this order, not before time `k`. -/
def VisitsFrom (r : ℝ) (track : ℕ → Pt ℝ) : ℕ → List (Pt ℝ) → Prop
  | _, [] => True
  | k, w :: ws => ∃ k', k ≤ k' ∧ gap (track k') w < r ∧ VisitsFrom r track k' ws

end Starworlds.Spec
