import Verif.Spec.PolygonHull
import Verif.Spec.Kernel
import Verif.Spec.StarPolygon
import Mathlib.Analysis.Convex.Star
import Mathlib.Analysis.Convex.Hull

/-! # Specification: star-shaped hulls of polygons -/

namespace Starworlds.Spec

/-- What shapely's geometries mean: `m` is the point set `S`. -/
def MeetIs (m : Meet) (S : Set (Pt ℝ)) : Prop :=
  match m with
  | .empty => S = ∅
  | .point p => S = {p}
  | .multiPoint l => S = {p | p ∈ l} ∧ l ≠ []
  | .lineString l => S = pathPoints l ∧ ∃ p ∈ l, ∃ q ∈ l, p ≠ q
  | .multiLineString ls => S = {p | ∃ l ∈ ls, p ∈ pathPoints l} ∧ ls ≠ [] ∧ ∀ l ∈ ls, ∃ p ∈ l, ∃ q ∈ l, p ≠ q
  | .collection ps ls => S = {p | p ∈ ps ∨ ∃ l ∈ ls, p ∈ pathPoints l} ∧ (ps ≠ [] ∨ ls ≠ []) ∧
      ∀ l ∈ ls, ∃ p ∈ l, ∃ q ∈ l, p ≠ q

/-- The shapely operations mean what they should for the polygon with the points `S` and the kernel points `ks`. -/
structure HullMeaning (ops : HullOps) (S : Set (Pt ℝ)) (ks : List (Pt ℝ)) : Prop where
  disjoint : ∀ a b, ops.disjoint a b = true ↔ ∀ x, OnSegment a b x → x ∉ S
  polygon : ∀ a b, MeetIs (ops.meetPolygon a b) {x | OnSegment a b x ∧ x ∈ S}
  line : ∀ s t, MeetIs (ops.meetLine s t) {x | OnSegment s.1 s.2 x ∧ OnSegment t.1 t.2 x}
  kernel : ∀ p, ops.kernelContains p = true ↔ p ∈ interior (convexHull ℝ {k | k ∈ ks})

/-- `m` is the plain description of `S`: two different points make a MultiPoint, and a collection consists of lines and isolated points. -/
def MeetPlain (m : Meet) (S : Set (Pt ℝ)) : Prop :=
  match m with
  | .multiPoint l => ∃ p ∈ l, ∃ q ∈ l, p ≠ q
  | .collection ps ls => ps ≠ [] ∧ ls ≠ [] ∧ ∀ p ∈ ps, ∃ ε > 0, ∀ x ∈ S, dist x p < ε → x = p
  | _ => True

/-- The shapely operations return plain descriptions and put no nodes in the interior of the polygon. -/
structure HullPlain (ops : HullOps) (S : Set (Pt ℝ)) : Prop where
  polygon : ∀ a b, MeetPlain (ops.meetPolygon a b) {x | OnSegment a b x ∧ x ∈ S}
  line : ∀ s t, MeetPlain (ops.meetLine s t) {x | OnSegment s.1 s.2 x ∧ OnSegment t.1 t.2 x}
  nodes : ∀ a b, ∀ p ∈ nodesOf (ops.meetPolygon a b), p = a ∨ p = b ∨ p ∈ frontier S

/-- `H` is the smallest set that contains `S` and is star-shaped about all of the kernel points. -/
structure IsStarHull (S : Set (Pt ℝ)) (ks : List (Pt ℝ)) (H : Set (Pt ℝ)) : Prop where
  contains : S ⊆ H
  star : ∀ k ∈ ks, k ∈ visKernel H
  least : ∀ T : Set (Pt ℝ), S ⊆ T → (∀ k ∈ ks, k ∈ T ∧ StarConvex ℝ k T) → H ⊆ T

end Starworlds.Spec
