import Mathlib.Topology.Instances.Real.Lemmas
import Mathlib.Analysis.Convex.Star
import Verif.Model.Dilation
import Verif.Spec.Ellipse
import Verif.Spec.Plane

/-! # Spec: a set with its padding -/

namespace Starworlds.Spec

/-- The points that are at most `r` away from a point of `s`. -/
def padded (s : Set (Pt ℝ)) (r : ℝ) : Set (Pt ℝ) := {x | ∃ y ∈ s, normSq (x - y) ≤ r ^ 2}

/-- What is assumed of shapely, for polygons, which are compact sets. The buffer of a polygon with round joins is made
of chords of the circles, so it is between the exact ones with the radius times `ρ` and with the full radius (`ρ = 1`:
exact circles). The bounds are a box around the polygon; a point is contained if it is an interior point; the exterior
ring consists of points of the polygon. -/
structure PadOk (G : PadGeo) (ρ : ℝ) : Prop where
  pos : 0 < ρ
  le_one : ρ ≤ 1
  compact : ∀ s r, IsCompact s → IsCompact (G.buffer s r)
  within : ∀ s r, 0 ≤ r → G.buffer s r ⊆ padded s r
  covers : ∀ s r, 0 ≤ r → padded s (ρ * r) ⊆ G.buffer s r
  bounds : ∀ s x, IsCompact s → x ∈ interior s → (G.bounds s).1.1 < x.1 ∧ x.1 < (G.bounds s).2.1 ∧
    (G.bounds s).1.2 < x.2 ∧ x.2 < (G.bounds s).2.2
  contains : ∀ s x, G.contains s x = true ↔ x ∈ interior s
  onExterior : ∀ s x, IsCompact s → G.onExterior s x = true → x ∈ s

/-- The polygons that a program constructs are compact. -/
def CompactOp : PadOp → Prop
  | .construct _ s _ => IsCompact s
  | _ => True

/-- The `k`-th obstacle is the `j`-th one with its padding: in the answers of `polygon()`, and in the answers of
`point_location`. -/
def IsPadded (G : PadGeo) (ρ r : ℝ) (w : PadWorld) (j k : Nat) : Prop :=
  w.polygonAt k ⊆ padded (w.polygonAt j) r ∧ padded (w.polygonAt j) (ρ * r) ⊆ w.polygonAt k ∧
    (∀ x y, y ∈ w.polygonAt j → normSq (x - y) < (ρ * r) ^ 2 → w.locationAt G k x = some (.ok (-1))) ∧
    ∀ x, (∀ y ∈ w.polygonAt j, r ^ 2 < normSq (x - y)) → w.locationAt G k x = some (.ok 1)

/-- An operation that does not give a new motion model to obstacle `j` or `k`. -/
def KeepsModels (j k : Nat) : PadOp → Prop
  | .setMotionModel i _ => i ≠ j ∧ i ≠ k
  | _ => True

/-- An operation that moves no motion model and gives none to obstacle `j` or `k`. -/
def KeepsPoses (j k : Nat) : PadOp → Prop
  | .setPose _ _ => False
  | op => KeepsModels j k op

end Starworlds.Spec
