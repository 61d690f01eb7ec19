import Verif.Spec.Polygon
import Verif.Spec.StarHull

/-! # Specification: the kernel of a polygon -/

namespace Starworlds.Spec

/-- The polygon as a set: its interior and its boundary. -/
def filled (v : List (Pt ℝ)) : Set (Pt ℝ) := {p | Inside v p ∨ OnRing v p}

/-- The points from which all of the set is visible. -/
def visKernel (S : Set (Pt ℝ)) : Set (Pt ℝ) := {p | p ∈ S ∧ ∀ q ∈ S, ∀ r, OnSegment p q r → r ∈ S}

/-- The points that are not to the right of any edge. For a simple polygon with counter-clockwise vertices these are the
points from which all of it is visible. -/
def leftKernel (v : List (Pt ℝ)) : Set (Pt ℝ) :=
  {p | ∀ i < v.length, 0 ≤ cross (corner v (i + 1) - corner v i) (p - corner v i)}

end Starworlds.Spec
