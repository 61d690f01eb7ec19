import Verif.Model.StarPolygon
import Verif.Spec.Polygon

/-! # Specification: star-shaped polygons and the trusted library calls they use -/

namespace Starworlds.Spec

open Real

/-- What `np.argsort` does: a permutation of the indices that puts the values in order. -/
structure IsArgsort (f : List ℝ → List Nat) : Prop where
  perm : ∀ l, (f l).Perm (List.range l.length)
  sorted : ∀ l, ((f l).map fun i => l.getD i 0).Pairwise (· ≤ ·)

/-- The points of a path: those on a segment between consecutive nodes. -/
def pathPoints (l : List (Pt ℝ)) : Set (Pt ℝ) :=
  {p | ∃ i, i + 1 < l.length ∧ OnSegment (l.getD i 0) (l.getD (i + 1) 0) p}

/-- What shapely's geometries mean: `g` is the point set `S`. -/
def GeomIs (g : Geom) (S : Set (Pt ℝ)) : Prop :=
  match g with
  | .empty => S = ∅
  | .point p => S = {p}
  | .multiPoint l => S = {p | p ∈ l} ∧ l.Nodup ∧ 2 ≤ l.length
  | .lineString l => S = pathPoints l ∧ ∃ p ∈ l, ∃ q ∈ l, p ≠ q
  | .multiLineString ls => S = {p | ∃ l ∈ ls, p ∈ pathPoints l} ∧ ls ≠ [] ∧ ∀ l ∈ ls, ∃ p ∈ l, ∃ q ∈ l, p ≠ q
  | .collection => S.Infinite

/-- The points that the segment from `a` to `b` has in common with the ring. -/
def hits (v : List (Pt ℝ)) (a b : Pt ℝ) : Set (Pt ℝ) := {p | OnSegment a b p ∧ OnRing v p}

/-- Length. -/
noncomputable def len (v : Pt ℝ) : ℝ := √(normSq v)

/-- The ring is star-shaped about `c` in counter-clockwise order: the corners can be given angles about `c` that
increase by less than a half turn from corner to corner and by a full turn in total. -/
def StarAbout (c : Pt ℝ) (v : List (Pt ℝ)) : Prop :=
  ∃ φ : ℕ → ℝ, (∀ i < v.length, SeenAt c (corner v i) (φ i) ∧ corner v i ≠ c) ∧
    (∀ i < v.length, φ i < φ (i + 1) ∧ φ (i + 1) < φ i + π) ∧ φ v.length = φ 0 + 2 * π

end Starworlds.Spec
