import Verif.Spec.KernelPoints
import Mathlib.Analysis.Convex.Hull

/-! # Specification: calls in an unchanged scene -/

namespace Starworlds.Spec

/-- The centre of three points. -/
noncomputable def centreOf (T : Pt ℝ × Pt ℝ × Pt ℝ) : Pt ℝ := (1 / 3 : ℝ) • (T.1 + T.2.1 + T.2.2)

variable {G : Type}

/-- What is known of `shapely.ops.split`, centroids and nearest points: the parts of the selection set `S` are within it,
the centroid of a part is in its convex hull, and the point nearest to a centroid that is in the admissible kernel is
the centroid. -/
structure PartsOk (geo : PolyOps G) (pts : G → Set (Pt ℝ)) (adm S : G) (parts : List G) (cen : G → Pt ℝ) : Prop where
  sub : ∀ g ∈ parts, pts g ⊆ pts S
  centroid : ∀ g ∈ parts, geo.centroid g = .ok (cen g)
  hull : ∀ g ∈ parts, cen g ∈ convexHull ℝ (pts g)
  nearest : ∀ g ∈ parts, cen g ∈ pts adm → geo.nearestToCentroid adm g = .ok (cen g)

/-- `c` is a point of symmetry of `S`, and so its centroid. -/
def Symmetric (S : Set (Pt ℝ)) (c : Pt ℝ) : Prop := ∀ p ∈ S, (2 : ℝ) • c - p ∈ S

/-- `q` is the point of `S` nearest to `c`. -/
def NearestIn (S : Set (Pt ℝ)) (c q : Pt ℝ) : Prop := q ∈ S ∧ ∀ p ∈ S, normSq (q - c) ≤ normSq (p - c)

end Starworlds.Spec
