import Verif.Props.StarHull
import Verif.Proofs.ClusterMade
import Verif.Spec.Starify

/-! # C85: what `cluster_and_starify` returns for convex obstacles -/

namespace Starworlds

open Real Spec

theorem mean_mem (T : Triple) : T.mean ∈ region T.points := by
  have h1 : T.1 ∈ region T.points := subset_convexHull ℝ _ (by simp [Triple.points])
  have h2 : T.2.1 ∈ region T.points := subset_convexHull ℝ _ (by simp [Triple.points])
  have h3 : T.2.2 ∈ region T.points := subset_convexHull ℝ _ (by simp [Triple.points])
  have hc : Convex ℝ (region T.points) := convex_convexHull ℝ _
  have h12 := hc h1 h2 (by norm_num : (0 : ℝ) ≤ 1 / 2) (by norm_num : (0 : ℝ) ≤ 1 / 2) (by norm_num)
  have := hc h12 h3 (by norm_num : (0 : ℝ) ≤ 2 / 3) (by norm_num : (0 : ℝ) ≤ 1 / 3) (by norm_num)
  have e : T.mean = (2 / 3 : ℝ) • ((1 / 2 : ℝ) • T.1 + (1 / 2 : ℝ) • T.2.1) + (1 / 3 : ℝ) • T.2.2 := by
    ext <;> simp [Triple.mean] <;> ring
  rw [e]; exact this

/-- A point that no way from the kernel points to the obstacle meets is not in the hull. -/
theorem hull_free {unique : List (Pt ℝ) → List (Pt ℝ)} (hu : IsUnique unique)
    {tp : Pt ℝ → Except PyErr (List (Pt ℝ))} {O : Set (Pt ℝ)} (hO : Convex ℝ O) {ks : List (Pt ℝ)} (hks : ks ≠ [])
    (ht : ∀ k ∈ ks, TangentsOk tp O k) {x : Pt ℝ} (hfree : region ks ⊆ freeFrom O x)
    {fuel : Nat} {pol : List (Pt ℝ)} (h : convexKernelHull unique tp ks fuel = .ok (some pol)) :
    x ∉ O ∪ region pol := by
  have hkn : (region ks).Nonempty := by
    obtain ⟨a, ha⟩ := List.exists_mem_of_ne_nil ks hks
    exact ⟨a, subset_convexHull ℝ _ ha⟩
  have hxO : x ∉ O := by
    intro hx
    obtain ⟨k, hk⟩ := hkn
    exact hfree hk x hx ⟨1, by norm_num, le_rfl, by rw [one_smul]; abel⟩
  rintro (hx | hxp)
  · exact hxO hx
  have hsub : {p | p ∈ pol} ⊆ O ∪ region ks := by
    intro p hp
    rcases hull_vertices hu ht h p hp with hp | hp
    · exact Or.inl hp
    · exact Or.inr (subset_convexHull ℝ _ hp)
  have hxU := convexHull_mono hsub hxp
  by_cases hOn : O.Nonempty
  · have hcu := Convex.convexHull_union (s := O) (t := region ks) hO (convex_convexHull ℝ _) hOn hkn
    rw [hcu, mem_convexJoin] at hxU
    obtain ⟨o, ho, k, hk, hseg⟩ := hxU
    obtain ⟨a, b, ha, hb, hab, e⟩ := hseg
    refine hfree hk o ho ⟨a, ha, by linarith, ?_⟩
    rw [← e]
    have : b = 1 - a := by linarith
    rw [this, sub_smul, one_smul, smul_sub]; abel
  · -- an empty obstacle has no tangent points, so that there is no hull
    have hO0 : O = ∅ := Set.not_nonempty_iff_eq_empty.1 hOn
    obtain ⟨a, ha⟩ := List.exists_mem_of_ne_nil ks hks
    obtain ⟨L, _, hL, hex⟩ := ht a ha
    obtain ⟨t, htL, _⟩ := hex (by rw [hO0]; exact Set.notMem_empty _)
    have := hL t htL
    rw [hO0] at this
    exact this

/-- The obstacles with the hull of `kernel_starshaped_hull`. -/
theorem clusterHull_spec {cfg : StarCfg} (hu : IsUnique cfg.unique) {pts : ConvObs → Set (Pt ℝ)} {obs : List ConvObs}
    (hne : obs ≠ []) (hO : ∀ o ∈ obs, Convex ℝ (pts o)) {T : Triple} (hT : SelectionOk cfg pts obs T)
    {r : Option (Set (Pt ℝ))} (h : clusterHull cfg obs T = .ok r) :
    (∀ k ∈ region T.points, k ∈ {p | ∃ o ∈ obs, p ∈ pts o} ∪ r.getD ∅ ∧
      StarConvex ℝ k ({p | ∃ o ∈ obs, p ∈ pts o} ∪ r.getD ∅)) ∧
    cfg.x ∉ {p | ∃ o ∈ obs, p ∈ pts o} ∪ r.getD ∅ ∧ cfg.xg ∉ {p | ∃ o ∈ obs, p ∈ pts o} ∪ r.getD ∅ := by
  have hks : T.points ≠ [] := by simp [Triple.points]
  have e1 : ((obs.map fun o => (o.tangentPoints, pts o)).map fun o => HullObs.convex o.1) =
      obs.map fun o => HullObs.convex o.tangentPoints := by simp [Function.comp_def]
  have e2 : {p | ∃ o ∈ obs.map fun o => (o.tangentPoints, pts o), p ∈ o.2} = {p | ∃ o ∈ obs, p ∈ pts o} := by
    ext p; simp
  obtain ⟨R, hR, hnone, hsome, hstar⟩ := C59_list_partial cfg.unique hu (obs.map fun o => (o.tangentPoints, pts o)) T.points
    cfg.hullFuel (by simpa using hO)
    (by
      intro a ha
      obtain ⟨o, ho, rfl⟩ := List.mem_map.1 ha
      exact hT.tangents o ho)
    (by
      intro a ha
      obtain ⟨o, ho, rfl⟩ := List.mem_map.1 ha
      exact hT.position o ho)
  rw [e1] at hR
  rw [e2] at hstar
  have hr : r = R.map regions := by
    simp only [clusterHull, hR, Except.ok.injEq] at h
    exact h.symm
  have hget : r.getD ∅ = regions (R.getD []) := by
    subst hr
    cases R with
    | none => simp [regions]
    | some pols => rfl
  rw [hget]
  have hmem0 : ∀ k ∈ T.points, k ∈ {p | ∃ o ∈ obs, p ∈ pts o} ∪ regions (R.getD []) := by
    intro k hk
    cases hRc : R with
    | none =>
      obtain ⟨o, ho⟩ := List.exists_mem_of_ne_nil obs hne
      exact Or.inl ⟨o, ho, hnone hRc (o.tangentPoints, pts o) (List.mem_map.2 ⟨o, ho, rfl⟩) k hk⟩
    | some pols => exact Or.inr (hsome pols hRc k hk)
  have hnon : ({p | ∃ o ∈ obs, p ∈ pts o} ∪ regions (R.getD [])).Nonempty := ⟨_, hmem0 T.1 (by simp [Triple.points])⟩
  have hfree : ∀ y, (∀ o ∈ obs, region T.points ⊆ freeFrom (pts o) y) →
      y ∉ {p | ∃ o ∈ obs, p ∈ pts o} ∪ regions (R.getD []) := by
    intro y hy hmem
    have hyO : ∀ o ∈ obs, y ∉ pts o := by
      intro o ho hyo
      exact hy o ho (mean_mem T) y hyo ⟨1, by norm_num, le_rfl, by rw [one_smul]; abel⟩
    rcases hmem with ⟨o, ho, hyo⟩ | ⟨pol, hpol, hyp⟩
    · exact hyO o ho hyo
    cases hRc : R with
    | none => rw [hRc] at hpol; simp at hpol
    | some pols =>
      rw [hRc] at hpol hR
      simp only [Option.getD_some] at hpol
      simp only [kernelHull, bind, Except.bind] at hR
      cases hm : (obs.map fun o => HullObs.convex o.tangentPoints).mapM (kernelHullOne cfg.unique T.points cfg.hullFuel) with
      | error e => rw [hm] at hR; simp at hR
      | ok subs =>
        rw [hm] at hR
        simp only at hR
        split at hR
        · simp at hR
        · split at hR
          · simp at hR
          · simp only [Except.ok.injEq, Option.some.injEq] at hR
            subst hR
            have hps : some pol ∈ subs := by simpa [List.mem_filterMap] using hpol
            obtain ⟨subs', hs1, hs2, _⟩ := mapM_exists (kernelHullOne cfg.unique T.points cfg.hullFuel)
              (obs.map fun o => .convex o.tangentPoints) (mapM_error _ _ ⟨subs, hm⟩)
            rw [hm] at hs1
            simp only [Except.ok.injEq] at hs1
            subst hs1
            obtain ⟨a, ha, e⟩ := (hs2 _).1 hps
            obtain ⟨o, ho, rfl⟩ := List.mem_map.1 ha
            exact hull_free hu (hO o ho) hks (hT.tangents o ho) (hy o ho) e (Or.inr hyp)
  exact ⟨fun k hk => ⟨(hstar k hk).mem hnon, hstar k hk⟩, hfree _ hT.robot, hfree _ hT.goal⟩

/-- What a cluster obstacle made for a cluster is. -/
theorem made_star {cfg : StarCfg} (hu : IsUnique cfg.unique) {pts : ConvObs → Set (Pt ℝ)}
    {c : Cl ConvObs ClusterObs Triple (Set (Pt ℝ))} (hne : c.obstacles ≠ []) (hO : ∀ o ∈ c.obstacles, Convex ℝ (pts o))
    (hsel : ∀ n prev T, c.kernelPoints = some T → cfg.select n c.obstacles prev = .ok T → SelectionOk cfg pts c.obstacles T)
    (hm : Made (starGeo cfg) c) :
    ∃ T s, c.kernelPoints = some T ∧ c.star = some s ∧ s.xr = some T.mean ∧ s.members = c.obstacles ∧
      (∀ k ∈ region T.points, k ∈ clusterRegion pts s ∧ StarConvex ℝ k (clusterRegion pts s)) ∧
      (∀ o ∈ c.obstacles, pts o ⊆ clusterRegion pts s) ∧ cfg.x ∉ clusterRegion pts s ∧ cfg.xg ∉ clusterRegion pts s := by
  have hsel' : ∀ n prev T, c.kernelPoints = some T → (starGeo cfg).kernelSel n c.obstacles prev = .ok T → SelectionOk cfg pts c.obstacles T := by
    intro n prev T hk h
    simp only [starGeo] at h
    split at h
    · exact hsel n prev T hk h
    · cases h
  have hfin : ∀ (T : Triple) (r : Option (Set (Pt ℝ))), SelectionOk cfg pts c.obstacles T → clusterHull cfg c.obstacles T = .ok r →
      (∀ k ∈ region T.points, k ∈ clusterRegion pts ⟨c.obstacles, r, some T.mean⟩ ∧
        StarConvex ℝ k (clusterRegion pts ⟨c.obstacles, r, some T.mean⟩)) ∧
      (∀ o ∈ c.obstacles, pts o ⊆ clusterRegion pts ⟨c.obstacles, r, some T.mean⟩) ∧
      cfg.x ∉ clusterRegion pts ⟨c.obstacles, r, some T.mean⟩ ∧ cfg.xg ∉ clusterRegion pts ⟨c.obstacles, r, some T.mean⟩ := by
    intro T r hT hr
    obtain ⟨h1, h2, h3⟩ := clusterHull_spec hu hne hO hT hr
    exact ⟨h1, fun o ho p hp => Or.inl ⟨o, ho, hp⟩, h2, h3⟩
  obtain ⟨T, s, hk, hs, ⟨o, prev, ho, hsk, hst⟩ | ⟨n, prev, _, hsk, hst⟩⟩ := hm
  · rw [← ho] at hsk
    have hT := hsel' _ _ _ hk hsk
    simp only [starGeo, bind, Except.bind] at hst
    rw [← ho] at hst
    cases hh : clusterHull cfg c.obstacles T with
    | error e => rw [hh] at hst; cases hst
    | ok r =>
      rw [hh] at hst
      have hs' : s = ⟨c.obstacles, r, some T.mean⟩ := by
        cases r with
        | none =>
          simp only at hst
          split at hst
          · injection hst with hst; exact hst.symm
          · cases hst
        | some H => simp only at hst; injection hst with hst; exact hst.symm
      subst hs'
      exact ⟨T, _, hk, hs, rfl, rfl, hfin T r hT hh⟩
  · have hT := hsel' _ _ _ hk hsk
    simp only [starGeo, bind, Except.bind] at hst
    cases hh : clusterHull cfg c.obstacles T with
    | error e => rw [hh] at hst; cases hst
    | ok r =>
      rw [hh] at hst
      simp only at hst
      injection hst with hst
      subst hst
      exact ⟨T, _, hk, hs, rfl, rfl, hfin T r hT hh⟩

variable {cfg : StarCfg} {pts : ConvObs → Set (Pt ℝ)} {par : Params}
  {prev : Option (List (Cl ConvObs ClusterObs Triple (Set (Pt ℝ))))} {fuel : Nat} {obstacles : List ConvObs}
  {r : Res ConvObs ClusterObs Triple (Set (Pt ℝ))}

/-- C85 (partial): a call for convex obstacles without iteration limit and without `make_convex` that is not INCOMPLETE
returns obstacles that are star-shaped about every convex combination of their kernel points, the reference point being
their mean; each contains the obstacles of its cluster, and neither robot nor goal; every obstacle is in one of them.
Missing: kernel points that are not in general position with the tangent points, or on the border of the admissible
kernel, and failing calls (C86). -/
theorem C85_star_partial (hs : IsSetList cfg.setList) (hu : IsUnique cfg.unique) (hmax : par.maxIterations = none)
    (hmc : par.makeConvex = false) (hO : ∀ o ∈ obstacles, Convex ℝ (pts o))
    (hsel : ∀ c ∈ r.clusters, ∀ n pr T, (∀ o ∈ c.obstacles, o ∈ obstacles) → c.kernelPoints = some T →
      cfg.select n c.obstacles pr = .ok T → SelectionOk cfg pts c.obstacles T)
    (h : clusterAndStarify (starGeo cfg) par prev fuel obstacles = some (.ok r)) (hf : r.flag ≠ .incomplete) :
    (∀ c ∈ r.clusters, ∃ T s, c.kernelPoints = some T ∧ c.star = some s ∧ s.xr = some ((1 / 3 : ℝ) • (T.1 + T.2.1 + T.2.2)) ∧
      (∀ k ∈ convexHull ℝ {T.1, T.2.1, T.2.2}, StarConvex ℝ k (clusterRegion pts s)) ∧
      (1 / 3 : ℝ) • (T.1 + T.2.1 + T.2.2) ∈ clusterRegion pts s ∧
      (∀ o ∈ c.obstacles, pts o ⊆ clusterRegion pts s) ∧ cfg.x ∉ clusterRegion pts s ∧ cfg.xg ∉ clusterRegion pts s) ∧
    ((obstacles.map (·.id)).Nodup → List.Perm (r.clusters.flatMap (·.obstacles)) obstacles) := by
  obtain ⟨cls, hfin, hmade, _, _, hcl, _, _⟩ := clusterAndStarify_made (g := starGeo cfg) hs hmax h hf
  rw [hcl hmc] at hsel ⊢
  refine ⟨fun c hc => ?_, hfin.perm⟩
  obtain ⟨hg, _⟩ := hfin.good c hc
  obtain ⟨T, s, h1, h2, h3, _, h4, h5, h6, h7⟩ := made_star hu (pts := pts) hg.nonempty (fun o ho => hO o (hg.sub o ho))
    (fun n pr T hk hT => hsel c hc n pr T hg.sub hk hT) (hmade c hc)
  have e : ({T.1, T.2.1, T.2.2} : Set (Pt ℝ)) = {p | p ∈ T.points} := by
    ext p; simp [Triple.points]
  exact ⟨T, s, h1, h2, h3, fun k hk => (h4 k (by rw [region, ← e]; exact hk)).2, (h4 _ (mean_mem T)).1, h5, h6, h7⟩

/-- C85 (partial): the same with `make_convex`, for obstacles that are what their polygons show: the obstacles returned
are star-shaped and contain the obstacles of their clusters; robot and goal are not inside of them, but possibly on
their border (`C85_border_false`). -/
theorem C85_convex_partial (hs : IsSetList cfg.setList) (hu : IsUnique cfg.unique) (hmax : par.maxIterations = none)
    (hO : ∀ o ∈ obstacles, Convex ℝ (pts o)) (hpoly : ∀ o ∈ obstacles, o.polygon = pts o)
    (hsel : ∀ c ∈ r.clusters, ∀ n pr T, (∀ o ∈ c.obstacles, o ∈ obstacles) → c.kernelPoints = some T →
      cfg.select n c.obstacles pr = .ok T → SelectionOk cfg pts c.obstacles T)
    (h : clusterAndStarify (starGeo cfg) par prev fuel obstacles = some (.ok r)) (hf : r.flag ≠ .incomplete) :
    ∀ c ∈ r.clusters, ∃ T s, c.kernelPoints = some T ∧ c.star = some s ∧ s.xr = some ((1 / 3 : ℝ) • (T.1 + T.2.1 + T.2.2)) ∧
      (∀ k ∈ convexHull ℝ {T.1, T.2.1, T.2.2}, StarConvex ℝ k (clusterRegion pts s)) ∧
      (1 / 3 : ℝ) • (T.1 + T.2.1 + T.2.2) ∈ clusterRegion pts s ∧
      (∀ o ∈ c.obstacles, pts o ⊆ clusterRegion pts s) ∧
      cfg.x ∉ interior (clusterRegion pts s) ∧ cfg.xg ∉ interior (clusterRegion pts s) := by
  obtain ⟨cls, hfin, hmade, hstrip, hconv, _, hkeep, _⟩ := clusterAndStarify_made (g := starGeo cfg) hs hmax h hf
  intro c hc
  obtain ⟨i, hi⟩ := List.getElem?_of_mem hc
  obtain ⟨d, hd, hds⟩ := strip_getElem hstrip.symm i hi
  have hdm := List.mem_of_getElem? hd
  obtain ⟨hg, hdp⟩ := hfin.good d hdm
  have hko : c.obstacles = d.obstacles := by
    have := congrArg (fun t => t.2.1) hds
    simpa [Cl.strip] using this.symm
  have hkk : c.kernelPoints = d.kernelPoints := by
    have := congrArg (fun t => t.2.2.1) hds
    simpa [Cl.strip] using this.symm
  obtain ⟨T, s, h1, h2, h3, hmem, h4, h5, h6, h7⟩ := made_star hu (pts := pts) hg.nonempty (fun o ho => hO o (hg.sub o ho))
    (fun n pr T hk hT => by
      have := hsel c hc n pr T
      rw [hko, hkk] at this
      exact this hg.sub hk hT) (hmade d hdm)
  have e : ({T.1, T.2.1, T.2.2} : Set (Pt ℝ)) = {p | p ∈ T.points} := by
    ext p; simp [Triple.points]
  have hx : c.star.map (·.xr) = d.star.map (·.xr) := by
    have := congrArg (fun l => l[i]?) (hkeep _ (fun s => s.xr) (fun _ _ => rfl))
    simpa [List.getElem?_map, hi, hd] using this
  rw [h2, Option.map_some] at hx
  rw [hko, hkk]
  rcases hconv i c hi with hs' | ⟨d', p, H, st, hd', hp, hH, hb, _, hs'⟩
  · rw [hd, Option.map_some, Option.some.injEq] at hs'
    refine ⟨T, s, h1, by rw [← hs', h2], h3, fun k hk => (h4 k (by rw [region, ← e]; exact hk)).2, (h4 _ (mean_mem T)).1, h5,
      fun hx => h6 (interior_subset hx), fun hx => h7 (interior_subset hx)⟩
  · rw [hd, Option.some.injEq] at hd'
    subst hd'
    rw [hdp, h2, Option.map_some, Option.some.injEq] at hp
    have hpr : p = clusterRegion pts s := by
      rw [← hp]
      change s.polygon = _
      unfold ClusterObs.polygon clusterRegion
      congr 1
      ext q
      simp only [Set.mem_ofPred_eq]
      constructor
      · rintro ⟨o, ho, hq⟩
        exact ⟨o, ho, by rw [← hpoly o (hg.sub o (hmem ▸ ho))]; exact hq⟩
      · rintro ⟨o, ho, hq⟩
        exact ⟨o, ho, by rw [hpoly o (hg.sub o (hmem ▸ ho))]; exact hq⟩
    have hHr : clusterRegion pts ((starGeo cfg).hullStar H st) = convexHull ℝ (clusterRegion pts s) := by
      have : (starGeo cfg).hullOf p = .ok (convexHull ℝ p) := rfl
      rw [this] at hH
      injection hH with hH
      rw [← hpr, hH]
      simp [clusterRegion, starGeo]
    have hb' : ¬ (cfg.x ∈ interior H ∨ cfg.xg ∈ interior H) := by
      simpa [starGeo] using hb
    have hHH : H = clusterRegion pts ((starGeo cfg).hullStar H st) := by simp [clusterRegion, starGeo]
    have hxr : ((starGeo cfg).hullStar H st).xr = s.xr := by
      rw [hs', Option.map_some, Option.some.injEq] at hx
      exact hx
    have hsub := subset_convexHull ℝ (clusterRegion pts s)
    refine ⟨T, _, h1, hs', by rw [hxr, h3]; rfl, ?_, ?_, ?_, ?_, ?_⟩
    · intro k hk
      rw [hHr]
      exact (convex_convexHull ℝ _).starConvex (hsub (h4 k (by rw [region, ← e]; exact hk)).1)
    · rw [hHr]; exact hsub (h4 _ (mean_mem T)).1
    · intro o ho
      rw [hHr]; exact (h5 o ho).trans hsub
    · rw [← hHH]; exact fun hx => hb' (Or.inl hx)
    · rw [← hHH]; exact fun hx => hb' (Or.inr hx)

end Starworlds
