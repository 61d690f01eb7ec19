import Verif.Model.Starify

/-! # Specification: a scene that is moved as a whole -/

namespace Starworlds.Spec

/-- An obstacle moved by `d`: seen from a moved point, the tangent points have moved with it. -/
def movedObs (d : Pt ℝ) (o : ConvObs) : ConvObs where
  id := o.id
  hasKernel := o.hasKernel
  tangentPoints k := match o.tangentPoints (k - d) with
    | .ok l => .ok (l.map (· + d))
    | .error e => .error e
  polygon := (· + d) '' o.polygon

/-- Three points moved by `d`. -/
def movedTriple (d : Pt ℝ) (T : Triple) : Triple := (T.1 + d, T.2.1 + d, T.2.2 + d)

/-- A cluster obstacle moved by `d`. -/
def movedStar (d : Pt ℝ) (s : ClusterObs) : ClusterObs :=
  ⟨s.members.map (movedObs d), s.hull.map fun h => (· + d) '' h, s.xr.map (· + d)⟩

/-- A cluster moved by `d`. -/
def movedCluster (d : Pt ℝ) (c : Cl ConvObs ClusterObs Triple (Set (Pt ℝ))) : Cl ConvObs ClusterObs Triple (Set (Pt ℝ)) where
  name := c.name
  obstacles := c.obstacles.map (movedObs d)
  star := c.star.map (movedStar d)
  kernelPoints := c.kernelPoints.map (movedTriple d)
  polygon := c.polygon.map fun h => (· + d) '' h

def movedHistory (d : Pt ℝ) : HistVal ConvObs ClusterObs Triple (Set (Pt ℝ)) → HistVal ConvObs ClusterObs Triple (Set (Pt ℝ))
  | .flat l => .flat (l.map (movedCluster d))
  | .iters l => .iters (l.map (List.map (movedCluster d)))

/-- The result of a call, moved by `d`: flag and number of iterations are the same. -/
def movedResult (d : Pt ℝ) (r : Res ConvObs ClusterObs Triple (Set (Pt ℝ))) : Res ConvObs ClusterObs Triple (Set (Pt ℝ)) where
  clusters := r.clusters.map (movedCluster d)
  flag := r.flag
  nIter := r.nIter
  history := r.history.map (movedHistory d)

/-- Shapely is used as intended: geometries are sets of points, the operations are those of sets, and what is computed of a
moved geometry is what is computed of the geometry, moved. A centroid in `a` is the nearest point of `a`. -/
structure MovesWith (d : Pt ℝ) (geo : PolyOps (Set (Pt ℝ))) : Prop where
  difference : ∀ a b, geo.difference a b = a \ b
  intersection : ∀ a b, geo.intersection a b = a ∩ b
  within : ∀ a b, geo.within ((· + d) '' a) ((· + d) '' b) = geo.within a b
  area : ∀ a, geo.area ((· + d) '' a) = geo.area a
  centroid : ∀ a, geo.centroid ((· + d) '' a) = (geo.centroid a).map (· + d)
  nearest : ∀ a b c, geo.centroid b = .ok c → c ∈ a → geo.nearestToCentroid a b = .ok c
  contains : ∀ a p, geo.contains ((· + d) '' a) (p + d) = geo.contains a p
  split : ∀ a p q, geo.split ((· + d) '' a) (p + d) (q + d) = (geo.split a p q).map (List.map fun h => (· + d) '' h)
  isPolygon : ∀ a, geo.isPolygon ((· + d) '' a) = geo.isPolygon a
  geoms : ∀ a, geo.geoms ((· + d) '' a) = (geo.geoms a).map fun h => (· + d) '' h
  exteriorDistance : ∀ a p, geo.exteriorDistance ((· + d) '' a) (p + d) = geo.exteriorDistance a p

/-- The selection set is cut out of the kernels `ks` of the obstacles, or out of their polygon `poly`: what `B` has in common
with them is large enough. -/
def CutOut (area : Set (Pt ℝ) → ℝ) (B poly : Set (Pt ℝ)) (ks : List (Set (Pt ℝ))) : Prop :=
  1e-6 < area {p | p ∈ B ∧ ∀ k ∈ ks, p ∈ k} ∨ (area {p | p ∈ B ∧ ∀ k ∈ ks, p ∈ k} < 1e-6 ∧ 1e-6 < area (B ∩ poly))

/-- Different obstacles of the call, at least one: what a cluster can be made of. -/
structure Part (obstacles l : List ConvObs) : Prop where
  nonempty : l ≠ []
  nodup : (l.map (·.id)).Nodup
  sub : ∀ o ∈ l, o ∈ obstacles

/-- The points of several obstacles. -/
def unionOf (l : List ConvObs) : Set (Pt ℝ) := {p | ∃ o ∈ l, p ∈ o.polygon}

end Starworlds.Spec
