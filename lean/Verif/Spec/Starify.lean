import Verif.Model.Starify

/-! # Specification: what the returned clusters should be -/

namespace Starworlds.Spec

/-- The points of a cluster obstacle when the points of the obstacles are `pts`. -/
def clusterRegion (pts : ConvObs → Set (Pt ℝ)) (s : ClusterObs) : Set (Pt ℝ) :=
  {p | ∃ o ∈ s.members, p ∈ pts o} ∪ s.hull.getD ∅

/-- The points from which every way to a point of `O` avoids `y`. -/
def freeFrom (O : Set (Pt ℝ)) (y : Pt ℝ) : Set (Pt ℝ) := {k | ∀ q ∈ O, ¬ OnSegment k q y}

/-- What is needed of the kernel points chosen for a list of obstacles. -/
structure SelectionOk (cfg : StarCfg) (pts : ConvObs → Set (Pt ℝ)) (obs : List ConvObs) (T : Triple) : Prop where
  tangents : ∀ o ∈ obs, ∀ k ∈ T.points, TangentsOk o.tangentPoints (pts o) k
  position : ∀ o ∈ obs, ∀ tps, T.points.mapM o.tangentPoints = .ok tps →
    GeneralPosition (cfg.unique tps.flatten ++ T.points) ∧ (cfg.unique tps.flatten ++ T.points).length ≤ cfg.hullFuel
  robot : ∀ o ∈ obs, region T.points ⊆ freeFrom (pts o) cfg.x
  goal : ∀ o ∈ obs, region T.points ⊆ freeFrom (pts o) cfg.xg

end Starworlds.Spec
