import Verif.Props.Starify
import Verif.Spec.HullMeaning

/-! # C132: the star-shaped hull of convex obstacles is the smallest one -/

namespace Starworlds

open Spec

/-- Everything between a convex set and the kernel points belongs to every set that contains the convex set and is star-shaped about
the kernel points. -/
theorem join_least {O S : Set (Pt ℝ)} (hO : Convex ℝ O) (hn : O.Nonempty) (hOS : O ⊆ S) {ks : List (Pt ℝ)}
    (hk : ∀ k ∈ ks, StarConvex ℝ k S) : convexHull ℝ (O ∪ {k | k ∈ ks}) ⊆ S := by
  intro p hp
  rcases Set.eq_empty_or_nonempty {k | k ∈ ks} with he | hne
  · rw [he, Set.union_empty, hO.convexHull_eq] at hp
    exact hOS hp
  · rw [convexHull_union hn hne, hO.convexHull_eq] at hp
    obtain ⟨o, ho, k, hkk, hp⟩ := mem_convexJoin.1 hp
    have hs : StarConvex ℝ k S := convexHull_min (s := {k | k ∈ ks}) (t := {k | StarConvex ℝ k S}) hk (kernel_convex S) hkk
    obtain ⟨a, b, ha, hb, hab, rfl⟩ := hp
    rw [add_comm]
    exact hs (hOS ho) hb ha (by linarith)

/-- The polygon of `convex_kernel_starshaped_hull` lies between the obstacle and the kernel points. -/
theorem hull_between {unique : List (Pt ℝ) → List (Pt ℝ)} (hu : IsUnique unique) {tp : Pt ℝ → Except PyErr (List (Pt ℝ))}
    {O : Set (Pt ℝ)} {ks : List (Pt ℝ)} (ht : ∀ k ∈ ks, ∀ L, tp k = .ok L → ∀ p ∈ L, p ∈ O) {fuel : Nat} {pol : List (Pt ℝ)}
    (h : convexKernelHull unique tp ks fuel = .ok (some pol)) :
    pol = [] ∨ O.Nonempty ∧ region pol ⊆ convexHull ℝ (O ∪ {k | k ∈ ks}) := by
  simp only [convexKernelHull, bind, Except.bind] at h
  cases hm : ks.mapM tp with
  | error e => rw [hm] at h; simp at h
  | ok tps =>
    rw [hm] at h
    simp only at h
    obtain ⟨tps', h1, h2, _⟩ := mapM_exists tp ks (mapM_error _ _ ⟨tps, hm⟩)
    rw [hm] at h1
    simp only [Except.ok.injEq] at h1
    subst h1
    have hsub : ∀ p ∈ tps.flatten, p ∈ O := by
      intro p hp
      obtain ⟨l, hl, hp⟩ := List.mem_flatten.1 hp
      obtain ⟨k, hk, e⟩ := (h2 l).1 hl
      exact ht k hk l e p hp
    cases hfl : tps.flatten with
    | nil =>
      rw [hfl] at h
      simp only [Except.ok.injEq, Option.some.injEq] at h
      exact Or.inl h.symm
    | cons a l =>
      rw [hfl] at h hsub
      simp only [Except.ok.injEq] at h
      have ha : a ∈ unique (a :: l) := ((hu _).2 a).2 List.mem_cons_self
      refine Or.inr ⟨⟨a, hsub a List.mem_cons_self⟩, ?_⟩
      have hne : unique (a :: l) ++ ks ≠ [] := fun h0 => by
        rw [List.append_eq_nil_iff] at h0
        rw [h0.1] at ha
        simp at ha
      refine convexHull_mono fun p hp => ?_
      rcases List.mem_append.1 (hull_subset hne h p hp) with hp | hp
      · exact Or.inl (hsub p (((hu _).2 p).1 hp))
      · exact Or.inr hp

/-- The polygons returned for a list of convex obstacles are those of the obstacles. -/
theorem kernelHull_convex {unique : List (Pt ℝ) → List (Pt ℝ)} {obs : List ((Pt ℝ → Except PyErr (List (Pt ℝ))) × Set (Pt ℝ))}
    {ks : List (Pt ℝ)} {fuel : Nat} {r : Option (List (List (Pt ℝ)))}
    (h : kernelHull unique (obs.map fun o => .convex o.1) ks fuel = .ok (some r)) :
    ∀ pol ∈ r.getD [], ∃ o ∈ obs, convexKernelHull unique o.1 ks fuel = .ok (some pol) := by
  intro pol hpol
  cases r with
  | none => simp at hpol
  | some pols =>
    simp only [Option.getD_some] at hpol
    simp only [kernelHull, bind, Except.bind] at h
    cases hm : (obs.map fun o => HullObs.convex o.1).mapM (kernelHullOne unique ks fuel) with
    | error e => rw [hm] at h; simp at h
    | ok subs =>
      rw [hm] at h
      simp only at h
      split at h
      · simp at h
      · split at h
        · simp at h
        · simp only [Except.ok.injEq, Option.some.injEq] at h
          subst h
          have hps : some pol ∈ subs := by simpa [List.mem_filterMap] using hpol
          obtain ⟨subs', hs1, hs2, _⟩ := mapM_exists (kernelHullOne unique ks fuel)
            (obs.map fun o => .convex o.1) (mapM_error _ _ ⟨subs, hm⟩)
          rw [hm] at hs1
          simp only [Except.ok.injEq] at hs1
          subst hs1
          obtain ⟨a, ha, e⟩ := (hs2 _).1 hps
          obtain ⟨o, ho, rfl⟩ := List.mem_map.1 ha
          exact ⟨o, ho, e⟩

/-- C132 (partial): whatever `kernel_starshaped_hull` returns for a list of convex obstacles whose tangent points belong to them, it
is not too large: it belongs to every set that contains the obstacles and is star-shaped about the kernel points. No general position
is needed. Missing: that the hull is large enough, see `C132_partial`. -/
theorem C132_least_partial (unique : List (Pt ℝ) → List (Pt ℝ)) (hu : IsUnique unique)
    (obs : List ((Pt ℝ → Except PyErr (List (Pt ℝ))) × Set (Pt ℝ))) (ks : List (Pt ℝ)) (fuel : Nat)
    (hO : ∀ o ∈ obs, Convex ℝ o.2) (ht : ∀ o ∈ obs, ∀ k ∈ ks, ∀ L, o.1 k = .ok L → ∀ p ∈ L, p ∈ o.2)
    (r : Option (List (List (Pt ℝ)))) (h : kernelHull unique (obs.map fun o => .convex o.1) ks fuel = .ok (some r))
    (S : Set (Pt ℝ)) (hS : ∀ o ∈ obs, o.2 ⊆ S) (hk : ∀ k ∈ ks, StarConvex ℝ k S) : regions (r.getD []) ⊆ S := by
  rintro p ⟨pol, hpol, hp⟩
  obtain ⟨o, ho, hc⟩ := kernelHull_convex h pol hpol
  rcases hull_between hu (ht o ho) hc with rfl | ⟨hn, hb⟩
  · rw [region_nil] at hp; exact hp.elim
  · exact join_least (hO o ho) hn (hS o ho) hk (hb hp)

/-- C132 (partial): for a list of convex obstacles and kernel points, `kernel_starshaped_hull` returns, together with the obstacles,
the smallest set that contains the obstacles and is star-shaped about the kernel points; it consists of the convex hulls of each
obstacle with the kernel points. Missing: tangent and kernel points that are not in general position (`C132_false`). -/
theorem C132_partial (unique : List (Pt ℝ) → List (Pt ℝ)) (hu : IsUnique unique)
    (obs : List ((Pt ℝ → Except PyErr (List (Pt ℝ))) × Set (Pt ℝ))) (hne : obs ≠ []) (ks : List (Pt ℝ)) (fuel : Nat)
    (hO : ∀ o ∈ obs, Convex ℝ o.2) (hn : ∀ o ∈ obs, o.2.Nonempty) (ht : ∀ o ∈ obs, ∀ k ∈ ks, TangentsOk o.1 o.2 k)
    (hg : ∀ o ∈ obs, ∀ tps, ks.mapM o.1 = .ok tps →
      GeneralPosition (unique tps.flatten ++ ks) ∧ (unique tps.flatten ++ ks).length ≤ fuel) :
    ∃ r, kernelHull unique (obs.map fun o => .convex o.1) ks fuel = .ok (some r) ∧
      IsStarHull {p | ∃ o ∈ obs, p ∈ o.2} ks ({p | ∃ o ∈ obs, p ∈ o.2} ∪ regions (r.getD [])) ∧
      {p | ∃ o ∈ obs, p ∈ o.2} ∪ regions (r.getD []) = {p | ∃ o ∈ obs, p ∈ convexHull ℝ (o.2 ∪ {k | k ∈ ks})} := by
  have ht' : ∀ o ∈ obs, ∀ k ∈ ks, ∀ L, o.1 k = .ok L → ∀ p ∈ L, p ∈ o.2 := by
    intro o ho k hk L hL p hp
    obtain ⟨L', hL', hsub, _⟩ := ht o ho k hk
    rw [hL] at hL'
    injection hL' with e
    exact hsub p (e ▸ hp)
  obtain ⟨r, hr, _, _, hstar⟩ := C59_list_partial unique hu obs ks fuel hO ht hg
  have hstar' : ∀ k ∈ ks, StarConvex ℝ k ({p | ∃ o ∈ obs, p ∈ o.2} ∪ regions (r.getD [])) := fun k hk =>
    hstar k (subset_convexHull ℝ _ hk)
  have hsub : ∀ o ∈ obs, o.2 ⊆ {p | ∃ o ∈ obs, p ∈ o.2} ∪ regions (r.getD []) := fun o ho p hp => Or.inl ⟨o, ho, hp⟩
  refine ⟨r, hr, ⟨fun p hp => Or.inl hp, ?_, ?_⟩, ?_⟩
  · intro k hk
    obtain ⟨o, ho⟩ := List.exists_mem_of_ne_nil obs hne
    obtain ⟨q, hq⟩ := hn o ho
    refine ⟨(hstar' k hk).mem ⟨q, hsub o ho hq⟩, ?_⟩
    rintro q hq p ⟨t, h0, h1, rfl⟩
    have := hstar' k hk hq (a := 1 - t) (b := t) (by linarith) h0 (by ring)
    rwa [show (1 - t) • k + t • q = k + t • (q - k) by rw [sub_smul, one_smul, smul_sub]; abel] at this
  · rintro T hT hk p (hp | hp)
    · exact hT hp
    · exact C132_least_partial unique hu obs ks fuel hO ht' r hr T (fun o ho q hq => hT ⟨o, ho, hq⟩) (fun k h => (hk k h).2) hp
  · ext p
    constructor
    · rintro (⟨o, ho, hp⟩ | ⟨pol, hpol, hp⟩)
      · exact ⟨o, ho, subset_convexHull ℝ _ (Or.inl hp)⟩
      · obtain ⟨o, ho, hc⟩ := kernelHull_convex hr pol hpol
        rcases hull_between hu (ht' o ho) hc with rfl | ⟨_, hb⟩
        · rw [region_nil] at hp; exact hp.elim
        · exact ⟨o, ho, hb hp⟩
    · rintro ⟨o, ho, hp⟩
      exact join_least (hO o ho) (hn o ho) (hsub o ho) hstar' hp

/-- C132 (partial): more obstacles, larger obstacles or more kernel points never make the hull of convex obstacles smaller. Missing:
general position is needed for the larger call. -/
theorem C132_grows_partial (unique : List (Pt ℝ) → List (Pt ℝ)) (hu : IsUnique unique)
    (obs obs' : List ((Pt ℝ → Except PyErr (List (Pt ℝ))) × Set (Pt ℝ))) (ks ks' : List (Pt ℝ)) (fuel fuel' : Nat)
    (hO : ∀ o ∈ obs, Convex ℝ o.2) (ht : ∀ o ∈ obs, ∀ k ∈ ks, ∀ L, o.1 k = .ok L → ∀ p ∈ L, p ∈ o.2)
    (hO' : ∀ o ∈ obs', Convex ℝ o.2) (ht' : ∀ o ∈ obs', ∀ k ∈ ks', TangentsOk o.1 o.2 k)
    (hg' : ∀ o ∈ obs', ∀ tps, ks'.mapM o.1 = .ok tps →
      GeneralPosition (unique tps.flatten ++ ks') ∧ (unique tps.flatten ++ ks').length ≤ fuel')
    (hsub : ∀ o ∈ obs, ∃ o' ∈ obs', o.2 ⊆ o'.2) (hks : ks ⊆ ks') (r r' : Option (List (List (Pt ℝ))))
    (h : kernelHull unique (obs.map fun o => .convex o.1) ks fuel = .ok (some r))
    (h' : kernelHull unique (obs'.map fun o => .convex o.1) ks' fuel' = .ok (some r')) :
    {p | ∃ o ∈ obs, p ∈ o.2} ∪ regions (r.getD []) ⊆ {p | ∃ o ∈ obs', p ∈ o.2} ∪ regions (r'.getD []) := by
  obtain ⟨r2, hr2, _, _, hstar⟩ := C59_list_partial unique hu obs' ks' fuel' hO' ht' hg'
  rw [h'] at hr2
  simp only [Except.ok.injEq, Option.some.injEq] at hr2
  subst hr2
  have hin : ∀ o ∈ obs, o.2 ⊆ {p | ∃ o ∈ obs', p ∈ o.2} ∪ regions (r'.getD []) := by
    intro o ho p hp
    obtain ⟨o', ho', hs⟩ := hsub o ho
    exact Or.inl ⟨o', ho', hs hp⟩
  rintro p (⟨o, ho, hp⟩ | hp)
  · exact hin o ho hp
  · exact C132_least_partial unique hu obs ks fuel hO ht r h _ hin (fun k hk => hstar k (subset_convexHull ℝ _ (hks hk))) hp

/-- The obstacles of a cluster with its hull. -/
theorem clusterHull_least {cfg : StarCfg} (hu : IsUnique cfg.unique) {pts : ConvObs → Set (Pt ℝ)} {obs : List ConvObs}
    (hne : obs ≠ []) (hO : ∀ o ∈ obs, Convex ℝ (pts o)) {T : Triple} (hT : SelectionOk cfg pts obs T)
    {r : Option (Set (Pt ℝ))} (h : clusterHull cfg obs T = .ok r) :
    IsStarHull {p | ∃ o ∈ obs, p ∈ pts o} T.points ({p | ∃ o ∈ obs, p ∈ pts o} ∪ r.getD ∅) := by
  have e1 : ((obs.map fun o => (o.tangentPoints, pts o)).map fun o => HullObs.convex o.1) =
      obs.map fun o => HullObs.convex o.tangentPoints := by simp [Function.comp_def]
  have e2 : {p | ∃ o ∈ obs.map fun o => (o.tangentPoints, pts o), p ∈ o.2} = {p | ∃ o ∈ obs, p ∈ pts o} := by
    ext p; simp
  obtain ⟨R, hR, hH, _⟩ := C132_partial cfg.unique hu (obs.map fun o => (o.tangentPoints, pts o)) (by simpa using hne) T.points
    cfg.hullFuel (by simpa using hO)
    (by
      intro a ha
      obtain ⟨o, ho, rfl⟩ := List.mem_map.1 ha
      obtain ⟨L, _, hsub, hex⟩ := hT.tangents o ho T.1 (by simp [Triple.points])
      by_cases hk : T.1 ∈ pts o
      · exact ⟨_, hk⟩
      · obtain ⟨t, ht, _⟩ := hex hk
        exact ⟨t, hsub t ht⟩)
    (by
      intro a ha
      obtain ⟨o, ho, rfl⟩ := List.mem_map.1 ha
      exact hT.tangents o ho)
    (by
      intro a ha
      obtain ⟨o, ho, rfl⟩ := List.mem_map.1 ha
      exact hT.position o ho)
  rw [e1] at hR
  rw [e2] at hH
  have hr : r = R.map regions := by
    simp only [clusterHull, hR, Except.ok.injEq] at h
    exact h.symm
  have hget : r.getD ∅ = regions (R.getD []) := by
    subst hr
    cases R with
    | none => simp [regions]
    | some pols => rfl
  rw [hget]
  exact hH

/-- A cluster obstacle is made of the obstacles of the cluster and their hull for the kernel points. -/
theorem made_least {cfg : StarCfg} {c : Cl ConvObs ClusterObs Triple (Set (Pt ℝ))} (hm : Made (starGeo cfg) c) :
    ∃ T r n prev, c.kernelPoints = some T ∧ cfg.select n c.obstacles prev = .ok T ∧ clusterHull cfg c.obstacles T = .ok r ∧
      c.star = some ⟨c.obstacles, r, some T.mean⟩ := by
  have hsel : ∀ {n prev T}, (starGeo cfg).kernelSel n c.obstacles prev = .ok T → cfg.select n c.obstacles prev = .ok T := by
    intro n prev T h
    simp only [starGeo] at h
    split at h
    · exact h
    · cases h
  obtain ⟨T, s, hk, hs, ⟨o, prev, ho, hsk, hst⟩ | ⟨n, prev, _, hsk, hst⟩⟩ := hm
  · rw [← ho] at hsk
    simp only [starGeo, bind, Except.bind] at hst
    rw [← ho] at hst
    cases hh : clusterHull cfg c.obstacles T with
    | error e => rw [hh] at hst; cases hst
    | ok r =>
      rw [hh] at hst
      have hs' : s = ⟨c.obstacles, r, some T.mean⟩ := by
        cases r with
        | none =>
          simp only at hst
          split at hst
          · injection hst with hst; exact hst.symm
          · cases hst
        | some H => simp only at hst; injection hst with hst; exact hst.symm
      subst hs'
      exact ⟨T, r, _, _, hk, hsel hsk, hh, hs⟩
  · simp only [starGeo, bind, Except.bind] at hst
    cases hh : clusterHull cfg c.obstacles T with
    | error e => rw [hh] at hst; cases hst
    | ok r =>
      rw [hh] at hst
      simp only at hst
      injection hst with hst
      subst hst
      exact ⟨T, r, _, _, hk, hsel hsk, hh, hs⟩

/-- C132 (partial): every obstacle returned by a call of `cluster_and_starify` for convex obstacles that is not INCOMPLETE is the
smallest set that contains the obstacles of its cluster and is star-shaped about its kernel points. Missing: `make_convex`, which is
meant to give larger obstacles, calls with an iteration limit, and kernel points that are not in general position with the tangent
points. -/
theorem C132_call_partial {cfg : StarCfg} {pts : ConvObs → Set (Pt ℝ)} {par : Params}
    {prev : Option (List (Cl ConvObs ClusterObs Triple (Set (Pt ℝ))))} {fuel : Nat} {obstacles : List ConvObs}
    {r : Res ConvObs ClusterObs Triple (Set (Pt ℝ))}
    (hs : IsSetList cfg.setList) (hu : IsUnique cfg.unique) (hmax : par.maxIterations = none)
    (hmc : par.makeConvex = false) (hO : ∀ o ∈ obstacles, Convex ℝ (pts o))
    (hsel : ∀ c ∈ r.clusters, ∀ n pr T, (∀ o ∈ c.obstacles, o ∈ obstacles) → c.kernelPoints = some T →
      cfg.select n c.obstacles pr = .ok T → SelectionOk cfg pts c.obstacles T)
    (h : clusterAndStarify (starGeo cfg) par prev fuel obstacles = some (.ok r)) (hf : r.flag ≠ .incomplete) :
    ∀ c ∈ r.clusters, ∃ T s, c.kernelPoints = some T ∧ c.star = some s ∧
      IsStarHull {p | ∃ o ∈ c.obstacles, p ∈ pts o} [T.1, T.2.1, T.2.2] (clusterRegion pts s) := by
  obtain ⟨cls, hfin, hmade, _, _, hcl, _, _⟩ := clusterAndStarify_made (g := starGeo cfg) hs hmax h hf
  rw [hcl hmc] at hsel ⊢
  intro c hc
  obtain ⟨hg, _⟩ := hfin.good c hc
  obtain ⟨T, R, n, pr, h1, h2, h3, h4⟩ := made_least (hmade c hc)
  exact ⟨T, _, h1, h4, clusterHull_least hu hg.nonempty (fun o ho => hO o (hg.sub o ho)) (hsel c hc n pr T hg.sub h1 h2) h3⟩

/-- C132 is false when tangent points and kernel points are not in general position: there is a convex obstacle with right tangent
points, and three kernel points that are not collinear, for which no hull is returned, although there is a smallest one. -/
theorem C132_false :
    ∃ (O : Set (Pt ℝ)) (tp : Pt ℝ → Except PyErr (List (Pt ℝ))) (ks : List (Pt ℝ)), Convex ℝ O ∧ ks.length = 3 ∧
      (∀ k ∈ ks, TangentsOk tp O k) ∧ (∃ H, IsStarHull O ks H) ∧
      ∃ T, (∀ p, p ∈ T ↔ ∃ k ∈ ks, ∃ L, tp k = .ok L ∧ p ∈ L) ∧
        ∀ unique : List (Pt ℝ) → List (Pt ℝ), unique T = T → ∀ fuel r, kernelHull unique [.convex tp] ks fuel ≠ .ok (some r) := by
  obtain ⟨O, tp, k1, k2, k3, hO, ht, hc, T, hT, hh⟩ := C59_hang_false
  refine ⟨O, tp, [k1, k2, k3], hO, rfl, ht, ⟨{p | ∀ S, O ⊆ S → (∀ k ∈ [k1, k2, k3], k ∈ S ∧ StarConvex ℝ k S) → p ∈ S}, ?_, ?_, ?_⟩,
    T, hT, ?_⟩
  · exact fun p hp S hS _ => hS hp
  · intro k hk
    refine ⟨fun S _ h => (h k hk).1, ?_⟩
    rintro q hq p ⟨t, h0, h1, rfl⟩ S hS h
    have hs : StarConvex ℝ k S := (h k hk).2
    have := hs (hq S hS h) (a := 1 - t) (b := t) (by linarith) h0 (by ring)
    rwa [show (1 - t) • k + t • q = k + t • (q - k) by rw [sub_smul, one_smul, smul_sub]; abel] at this
  · exact fun S hS h p hp => hp S hS h
  · intro unique hu fuel r h
    simp [kernelHull, kernelHullOne, hh unique hu fuel, bind, Except.bind, pure, Except.pure] at h

/-- The box and the kernel point (-1, -1): box and hull are the convex hull of the box and the kernel point. -/
example (unique : List (Pt ℝ) → List (Pt ℝ)) (hu : IsUnique unique) :
    ∃ r, kernelHull unique [.convex fun x => polygonTangentPoints none nearBox x .global .global] [(-1, -1)] 10 = .ok (some r) ∧
      polyRegion none nearBox ∪ regions (r.getD []) = convexHull ℝ (polyRegion none nearBox ∪ {(-1, -1)}) := by
  obtain ⟨s, h1, hgp, hf⟩ := nearBox_corner unique hu
  obtain ⟨r, hr, _, he⟩ := C132_partial unique hu
    [(fun x => polygonTangentPoints none nearBox x .global .global, polyRegion none nearBox)] (by simp) [(-1, -1)] 10
    (by simpa using polyRegion_convex none nearBox)
    (by
      simp only [List.mem_singleton, forall_eq]
      exact ⟨_, mem_polyRegion.2 (subset_convexHull ℝ _ (List.getElem_mem (l := nearBox) (n := 0) (by simp [nearBox])))⟩)
    (by
      simp only [List.mem_singleton, forall_eq]
      exact (C59_polygon none nearBox (by simp [nearBox]) _).2)
    (by
      simp only [List.mem_singleton, forall_eq]
      intro tps htps
      simp only [List.mapM_cons, List.mapM_nil, h1, bind, Except.bind, pure, Except.pure, Except.ok.injEq] at htps
      subst htps
      exact ⟨hgp, hf⟩)
  refine ⟨r, hr, ?_⟩
  simpa using he

end Starworlds
