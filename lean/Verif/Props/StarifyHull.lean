import Verif.Props.StarifySelect
import Verif.Props.Cluster
import Verif.Props.TriangleCentre

/-! # C54, C74, C85: what the cluster obstacles of `cluster_and_starify` are made of -/

namespace Starworlds

open Real Spec

variable {cfg : StarCfg} {par : Params} {prev : Option (List (Cl ConvObs ClusterObs Triple (Set (Pt ℝ))))}
  {fuel : Nat} {obstacles : List ConvObs} {r : Res ConvObs ClusterObs Triple (Set (Pt ℝ))}

/-- A cluster hull has been computed by `kernel_starshaped_hull`; if that fails there is no cluster hull. -/
theorem clusterHull_computed {obs : List ConvObs} {T : Triple} {h : Option (Set (Pt ℝ))} (hh : clusterHull cfg obs T = .ok h) :
    ∃ l, kernelHull cfg.unique (obs.map fun o => .convex o.tangentPoints) [T.1, T.2.1, T.2.2] cfg.hullFuel = .ok (some l) ∧
      h = l.map Spec.regions := by
  simp only [clusterHull, Triple.points] at hh
  split at hh
  · cases hh
  · cases hh
  · rename_i l hl
    injection hh with hh
    exact ⟨l, hl, hh.symm⟩

theorem made_hull {c : Cl ConvObs ClusterObs Triple (Set (Pt ℝ))} (hm : Made (starGeo cfg) c) :
    ∃ T s, c.kernelPoints = some T ∧ c.star = some s ∧ s.members = c.obstacles ∧
      s.xr = some ((1 / 3 : ℝ) • (T.1 + T.2.1 + T.2.2)) ∧ clusterHull cfg c.obstacles T = .ok s.hull := by
  obtain ⟨T, s, hk, hs, ⟨o, prev, ho, -, hst⟩ | ⟨n, prev, -, -, hst⟩⟩ := hm
  · simp only [starGeo, bind, Except.bind] at hst
    rw [← ho] at hst
    cases hh : clusterHull cfg c.obstacles T with
    | error e => rw [hh] at hst; cases hst
    | ok r =>
      rw [hh] at hst
      have hs' : s = ⟨c.obstacles, r, some T.mean⟩ := by
        cases r with
        | none =>
          simp only at hst
          split at hst
          · injection hst with hst; exact hst.symm
          · cases hst
        | some H => simp only at hst; injection hst with hst; exact hst.symm
      subst hs'
      exact ⟨T, _, hk, hs, rfl, rfl, hh⟩
  · simp only [starGeo, bind, Except.bind] at hst
    cases hh : clusterHull cfg c.obstacles T with
    | error e => rw [hh] at hst; cases hst
    | ok r =>
      rw [hh] at hst
      simp only at hst
      injection hst with hst
      subst hst
      exact ⟨T, _, hk, hs, rfl, rfl, hh⟩

/-- C85: every obstacle that a complete call without iteration limit and without `make_convex` returns consists of the
obstacles of the cluster and of a hull, and the hull is the value of a successful call of `kernel_starshaped_hull` for
these obstacles and the kernel points of the cluster: a failing hull computation is never passed over. -/
theorem C85_hull_computed (hs : IsSetList cfg.setList) (hmax : par.maxIterations = none) (hmc : par.makeConvex = false)
    (h : clusterAndStarify (starGeo cfg) par prev fuel obstacles = some (.ok r)) (hf : r.flag ≠ .incomplete) :
    ∀ c ∈ r.clusters, ∃ T s l, c.kernelPoints = some T ∧ c.star = some s ∧ s.members = c.obstacles ∧
      kernelHull cfg.unique (c.obstacles.map fun o => .convex o.tangentPoints) [T.1, T.2.1, T.2.2] cfg.hullFuel = .ok (some l) ∧
      s.hull = l.map Spec.regions := by
  obtain ⟨cls, -, hmade, -, -, hcl, -, -⟩ := clusterAndStarify_made (g := starGeo cfg) hs hmax h hf
  rw [hcl hmc]
  intro c hc
  obtain ⟨T, s, h1, h2, h3, -, h4⟩ := made_hull (hmade c hc)
  obtain ⟨l, h5, h6⟩ := clusterHull_computed h4
  exact ⟨T, s, l, h1, h2, h3, h5, h6⟩

/-- C54: an INCOMPLETE call returns, in order, obstacles that occupy what the input obstacles occupy. -/
theorem C54_polygons (h : clusterAndStarify (starGeo cfg) par prev fuel obstacles = some (.ok r)) (hf : r.flag = .incomplete) :
    r.clusters.map (fun c => c.star.map ClusterObs.polygon) = obstacles.map (fun o => some o.polygon) ∧
    r.clusters.map (fun c => c.star.map ClusterObs.xr) = obstacles.map (fun _ => some none) := by
  obtain ⟨-, h2, -⟩ := C54_singletons (starGeo cfg) par prev fuel obstacles r h hf
  have e : ∀ {α : Type} (f : ClusterObs → α), r.clusters.map (fun c => c.star.map f) =
      obstacles.map (fun o => some (f ((starGeo cfg).prim o))) := by
    intro α f
    have := congrArg (List.map (Option.map f)) h2
    simpa [List.map_map, Function.comp_def] using this
  refine ⟨?_, ?_⟩
  · rw [e]
    refine List.map_congr_left fun o _ => ?_
    simp [starGeo, ClusterObs.polygon]
  · rw [e]
    rfl

/-- C74: in the call for a cluster with a previous cluster, a previous centre that is still inside of the selection set
and not near the line from robot to goal is the centre of the new kernel points as well. -/
theorem C74_program_kept {G : Type} (geo : PolyOps G) (adm : Nat → List ConvObs → Except PyErr G) (poly : List ConvObs → G)
    (ws : G) (kernelOf : ConvObs → G) (x xg : Pt ℝ) (eps : ℝ) (draws : Nat → List ConvObs → List (Pt ℝ))
    (clock : Nat → List ConvObs → Clock) (n : Nat) (obs : List ConvObs) (S T : Triple) (A : G) (hA : adm n obs = .ok A)
    (hc : geo.contains (selectionSet geo A (poly obs) ws (some (obs.map kernelOf))) ((1 / 3 : ℝ) • (S.1 + S.2.1 + S.2.2)) = true)
    (hn : ¬ NearLine x xg ((1 / 3 : ℝ) • (S.1 + S.2.1 + S.2.2)))
    (h : selectPoints geo adm poly ws kernelOf x xg eps draws clock n obs (some S) = .ok T) :
    (1 / 3 : ℝ) • (T.1 + T.2.1 + T.2.2) = (1 / 3 : ℝ) • (S.1 + S.2.1 + S.2.2) := by
  simp only [selectPoints, bind, Except.bind, hA, Option.map_some, Triple.mean] at h
  split at h
  · cases h
  · rename_i res hres
    split at h
    · cases h
    · injection h with h
      subst h
      obtain ⟨tc, h1, h2⟩ := compute_steps hres
      rw [C74_kept geo A _ x xg _ _ hc hn] at h1
      injection h1 with h1
      injection h1 with h1
      subst h1
      simp only [kernelTriangle, bind, Except.bind] at h2
      split at h2
      · cases h2
      · injection h2 with h2
        rw [← h2]
        exact (C10_centroid_partial _ _ 0 (Or.inl rfl)).1

/-- The initial kernel points of an obstacle fail when the hull fails: the error is the error of the call. -/
theorem C85_hull_fails {o : ConvObs} {T : Triple} {e : PyErr}
    (h : kernelHull cfg.unique [.convex o.tangentPoints] [T.1, T.2.1, T.2.2] cfg.hullFuel = .error e) :
    (starGeo cfg).firstStar o T = .error e ∧ ∀ n, (starGeo cfg).loopStar n [o] T = .error e := by
  have e1 : clusterHull cfg [o] T = .error e := by
    simp [clusterHull, Triple.points, h]
  simp [starGeo, bind, Except.bind, e1]

end Starworlds
