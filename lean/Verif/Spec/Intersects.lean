import Verif.Model.Intersects
import Verif.Spec.Ellipse
import Verif.Spec.Kernel

/-! # Specification: obstacles with a common point -/

namespace Starworlds.Spec

/-- A simple polygon: at least three vertices, and two edges have no common point except for the vertex between
neighbouring edges. -/
def SimpleRing (v : List (Pt ℝ)) : Prop :=
  3 ≤ v.length ∧ ∀ i j, i < j → j < v.length → ∀ p, OnSegment (corner v i) (corner v (i + 1)) p →
    OnSegment (corner v j) (corner v (j + 1)) p →
    (j = i + 1 ∧ p = corner v j) ∨ (i = 0 ∧ j + 1 = v.length ∧ p = corner v 0)

/-- Law of shapely's `intersects` for simple polygons. -/
def InterOk (inter : Shape → Shape → Bool) : Prop :=
  ∀ v w, SimpleRing v → SimpleRing w → (inter v w = true ↔ ∃ p, p ∈ filled v ∧ p ∈ filled w)

/-- The points of the world that a local set covers at a pose. -/
def placed (mm : Option Pose) (S : Set (Pt ℝ)) : Set (Pt ℝ) := {x | ∃ p ∈ S, x = worldOf mm p}

/-- The pose of obstacle `i` after a history: the last one that was set. -/
def lastPose (i : Nat) : Option Pose → List PairOp → Option Pose
  | mm, [] => mm
  | mm, .on k (.setMotionModel m) :: ops => lastPose i (if k = i then m else mm) ops
  | mm, .on k (.setPose p) :: ops => lastPose i (if k = i then mm.map fun _ => p else mm) ops
  | mm, _ :: ops => lastPose i mm ops

end Starworlds.Spec
