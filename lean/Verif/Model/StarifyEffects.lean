import Verif.Model.Starify

/-!
# Model of starshaped_hull/cluster_and_starify.py: the reference points of the obstacle objects

`cluster_and_starify` stores the reference point in an obstacle of the caller if this obstacle becomes its own cluster
obstacle (line 261). The reference points are a map from the addresses of the objects, in the global frame; the frames of
`set_xr` (obstacles/starshaped_obstacle.py:16-26) are in `Model/Obstacle.lean`. Nothing in the call reads them:
`compute_kernel_points` uses the kernel points of the previous clusters, and line 432 reads the point that line 261 has
stored in the same call.
-/

namespace Starworlds

/-- The reference points of the obstacle objects by their addresses. -/
abbrev Refs := Nat → Pt ℝ

/-- starshaped_hull/cluster_and_starify.py:259-261: a cluster without hull extension is the obstacle itself, and its
reference point is set. -/
def writeXr (key : ConvObs → Nat) (o : ConvObs) (c : Cl ConvObs ClusterObs Triple (Set (Pt ℝ))) (m : Refs) : Refs :=
  match c.star with
  | some ⟨_, none, some xr⟩ => fun k => if k = key o then xr else m k
  | _ => m

/-- Lines 234-275, the loop over the obstacles: the clusters or the error, and the reference points at its end. -/
noncomputable def firstLoop (cfg : StarCfg) (key : ConvObs → Nat) (prev : Option (List (Cl ConvObs ClusterObs Triple (Set (Pt ℝ))))) :
    List ConvObs → Refs → Except PyErr (List (Cl ConvObs ClusterObs Triple (Set (Pt ℝ)))) × Refs
  | [], m => (.ok [], m)
  | o :: l, m =>
    match firstCluster (starGeo cfg) prev o with
    | .error e => (.error e, m)
    | .ok c =>
      let r := firstLoop cfg key prev l (writeXr key o c m)
      (r.1.map (c :: ·), r.2)

/-- Lines 168-449: the reference points after the call. Lines 276-449 set none. -/
noncomputable def refsAfter (cfg : StarCfg) (key : ConvObs → Nat) (prev : Option (List (Cl ConvObs ClusterObs Triple (Set (Pt ℝ)))))
    (obstacles : List ConvObs) (m : Refs) : Refs :=
  match initLoop (starGeo cfg) 0 obstacles with
  | .ok true => (firstLoop cfg key prev obstacles m).2
  | _ => m

/-- `cluster_obstacle.xr()` of a returned cluster obstacle: a cluster obstacle without hull and with one member is this
obstacle itself (lines 13 and 260). -/
def ClusterObs.currentXr (key : ConvObs → Nat) (m : Refs) (s : ClusterObs) : Option (Pt ℝ) :=
  match s.members, s.hull with
  | [o], none => some (m (key o))
  | _, _ => s.xr

end Starworlds
