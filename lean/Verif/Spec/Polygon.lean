import Verif.Spec.Plane
import Mathlib.Data.List.GetD
import Mathlib.Data.Nat.ModEq
import Mathlib.Analysis.SpecialFunctions.Trigonometric.Basic

/-! # Specification: polygons given by their vertices -/

namespace Starworlds.Spec

variable {K : Type*} [Field K] [LinearOrder K]

/-- The vertex with cyclic index `i`. -/
def corner (v : List (Pt K)) (i : Nat) : Pt K := v.getD (i % v.length) 0

/-- The turn at vertex `j`: the cross product of the incoming and the outgoing edge; positive is to the left. -/
def turn (v : List (Pt K)) (j : Nat) : K :=
  cross (corner v j - corner v (j + v.length - 1)) (corner v (j + 1) - corner v j)

/-- `p` is on the boundary of the polygon: on one of its edges. -/
def OnRing (v : List (Pt K)) (p : Pt K) : Prop := ∃ i < v.length, OnSegment (corner v i) (corner v (i + 1)) p

/-- The horizontal ray to the right of `p` crosses the edge from `a` to `b` (which is half open, so that a
corner counts once). -/
def RayCrosses (a b p : Pt K) : Prop :=
  ((a.2 ≤ p.2 ∧ p.2 < b.2) ∨ (b.2 ≤ p.2 ∧ p.2 < a.2)) ∧ ∃ q, OnLine a b q ∧ q.2 = p.2 ∧ p.1 < q.1

open scoped Classical in
/-- `p` is in the interior of the polygon: not on the boundary, and the ray crosses an odd number of edges. -/
def Inside (v : List (Pt K)) (p : Pt K) : Prop :=
  ¬ OnRing v p ∧
    ((List.range v.length).filter fun i => decide (RayCrosses (corner v i) (corner v (i + 1)) p)).length % 2 = 1

/-- `p` is seen from `x` in the direction of angle `t`. -/
def SeenAt (x p : Pt ℝ) (t : ℝ) : Prop := ∃ r : ℝ, 0 ≤ r ∧ p = x + r • ((Real.cos t, Real.sin t) : Pt ℝ)

end Starworlds.Spec
