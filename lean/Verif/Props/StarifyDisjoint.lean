import Verif.Props.StarifyTotal
import Verif.Proofs.PlaneHull

/-! # C87: the obstacles returned are disjoint -/

namespace Starworlds

open Real Spec

variable {cfg : StarCfg} {pts : ConvObs → Set (Pt ℝ)} {par : Params}
  {prev : Option (List (Cl ConvObs ClusterObs Triple (Set (Pt ℝ))))} {fuel : Nat} {obstacles : List ConvObs}
  {r : Res ConvObs ClusterObs Triple (Set (Pt ℝ))}

/-- C87 (partial): for obstacles that are what their polygons show, the obstacles that a call without iteration limit
returns are disjoint, with and without `make_convex`: although the convex hull of a cluster is only compared with the
polygons that the other clusters had before, two convex hulls do not meet. Missing: obstacles that differ from their
polygons (`C87_ellipse_false`). -/
theorem C87_disjoint_partial (hs : IsSetList cfg.setList) (hu : IsUnique cfg.unique) (hmax : par.maxIterations = none)
    (hO : ∀ o ∈ obstacles, Convex ℝ (pts o)) (hpoly : ∀ o ∈ obstacles, o.polygon = pts o)
    (hsel : ∀ c ∈ r.clusters, ∀ n pr T, (∀ o ∈ c.obstacles, o ∈ obstacles) → c.kernelPoints = some T →
      cfg.select n c.obstacles pr = .ok T → SelectionOk cfg pts c.obstacles T)
    (h : clusterAndStarify (starGeo cfg) par prev fuel obstacles = some (.ok r)) (hf : r.flag ≠ .incomplete)
    (i j : Nat) (c d : Cl ConvObs ClusterObs Triple (Set (Pt ℝ))) (hij : i ≠ j) (hi : r.clusters[i]? = some c)
    (hj : r.clusters[j]? = some d) :
    ∃ s t, c.star = some s ∧ d.star = some t ∧ ∀ p ∈ clusterRegion pts s, p ∉ clusterRegion pts t := by
  obtain ⟨cls, hfin, hmade, hstrip, hconv, _, _, _⟩ := clusterAndStarify_made (g := starGeo cfg) hs hmax h hf
  -- every cluster before `make_convex` is a star-shaped region, its polygon is the region
  have hbase : ∀ (i : Nat) (e : Cl ConvObs ClusterObs Triple (Set (Pt ℝ))), cls[i]? = some e → ∃ s T, e.star = some s ∧ e.polygon = some (clusterRegion pts s) ∧
      StarConvex ℝ (Triple.mean T) (clusterRegion pts s) := by
    intro i e he
    have hm := List.mem_of_getElem? he
    obtain ⟨hg, hp⟩ := hfin.good e hm
    obtain ⟨c, hc, hds⟩ := strip_getElem hstrip i he
    have hko : c.obstacles = e.obstacles := by
      have := congrArg (fun t => t.2.1) hds
      simpa [Cl.strip] using this
    have hkk : c.kernelPoints = e.kernelPoints := by
      have := congrArg (fun t => t.2.2.1) hds
      simpa [Cl.strip] using this
    obtain ⟨T, s, h1, h2, h3, hmem, h4, -⟩ := made_star hu (pts := pts) hg.nonempty (fun o ho => hO o (hg.sub o ho))
      (fun n pr T hk hT => by
        have := hsel c (List.mem_of_getElem? hc) n pr T
        rw [hko, hkk] at this
        exact this hg.sub hk hT) (hmade e hm)
    refine ⟨s, T, h2, ?_, (h4 _ (mean_mem T)).2⟩
    rw [hp, h2, Option.map_some]
    congr 1
    change s.polygon = _
    unfold ClusterObs.polygon clusterRegion
    congr 1
    ext q
    simp only [Set.mem_ofPred_eq]
    constructor
    · rintro ⟨o, ho, hq⟩
      exact ⟨o, ho, by rw [← hpoly o (hg.sub o (hmem ▸ ho))]; exact hq⟩
    · rintro ⟨o, ho, hq⟩
      exact ⟨o, ho, by rw [hpoly o (hg.sub o (hmem ▸ ho))]; exact hq⟩
  -- what the stage makes of it
  have hend : ∀ (i : Nat) (e : Cl ConvObs ClusterObs Triple (Set (Pt ℝ))), r.clusters[i]? = some e → ∃ b s t T, cls[i]? = some b ∧ b.polygon = some (clusterRegion pts s) ∧
      StarConvex ℝ (Triple.mean T) (clusterRegion pts s) ∧ e.star = some t ∧
      (clusterRegion pts t = clusterRegion pts s ∨ clusterRegion pts t = convexHull ℝ (clusterRegion pts s) ∧
        ∀ (m : Nat) (d : Cl ConvObs ClusterObs Triple (Set (Pt ℝ))) q, m ≠ i → cls[m]? = some d → d.polygon = some q → ∀ p ∈ clusterRegion pts t, p ∉ q) := by
    intro i e he
    obtain ⟨b, hb, -⟩ := strip_getElem hstrip.symm i he
    obtain ⟨s, T, h1, h2, h3⟩ := hbase i b hb
    rcases hconv i e he with hs' | ⟨d', p, H, st, hd', hp, hH, _, hmeet, hs'⟩
    · rw [hb, Option.map_some, Option.some.injEq, h1] at hs'
      exact ⟨b, s, s, T, hb, h2, h3, hs'.symm, Or.inl rfl⟩
    · rw [hb, Option.some.injEq] at hd'
      subst hd'
      rw [h2, Option.some.injEq] at hp
      have hHr : H = convexHull ℝ (clusterRegion pts s) := by
        have : (starGeo cfg).hullOf p = .ok (convexHull ℝ p) := rfl
        rw [this] at hH
        injection hH with hH
        rw [← hH, hp]
      have hreg : clusterRegion pts ((starGeo cfg).hullStar H st) = H := by simp [clusterRegion, starGeo]
      refine ⟨b, s, _, T, hb, h2, h3, hs', Or.inr ⟨by rw [hreg, hHr], ?_⟩⟩
      intro m d q hm hd hq p hpm hpq
      have := hmeet m d q hm hd hq
      rw [hreg] at hpm
      have hn : ¬ (H ∩ q).Nonempty := by simpa [starGeo] using this
      exact hn ⟨p, hpm, hpq⟩
  have hsep : ∀ (i j : Nat) (a b : Cl ConvObs ClusterObs Triple (Set (Pt ℝ))) p q, i ≠ j → cls[i]? = some a → cls[j]? = some b → a.polygon = some p → b.polygon = some q →
      ∀ x ∈ p, x ∉ q := by
    have key : ∀ (i j : Nat) (a b : Cl ConvObs ClusterObs Triple (Set (Pt ℝ))) p q, i < j → cls[i]? = some a → cls[j]? = some b → a.polygon = some p → b.polygon = some q →
        ∀ x ∈ p, x ∉ q := by
      intro i j a b p q hlt ha hb hp hq x hx hx'
      have := hfin.sep i j hlt (List.getElem?_eq_some_iff.1 hb).1
      simp only [interIdx, ha, hb, hp, hq] at this
      have hn : ¬ (p ∩ q).Nonempty := by simpa [starGeo] using this
      exact hn ⟨x, hx, hx'⟩
    intro i j a b p q hne ha hb hp hq x hx hx'
    rcases Nat.lt_or_gt_of_ne hne with hlt | hlt
    · exact key i j a b p q hlt ha hb hp hq x hx hx'
    · exact key j i b a q p hlt hb ha hq hp x hx' hx
  obtain ⟨b1, s1, t1, T1, g1, g2, g3, g4, g5⟩ := hend i c hi
  obtain ⟨b2, s2, t2, T2, k1, k2, k3, k4, k5⟩ := hend j d hj
  refine ⟨t1, t2, g4, k4, ?_⟩
  rcases g5 with g5 | ⟨g5, g6⟩
  · rcases k5 with k5 | ⟨k5, k6⟩
    · rw [g5, k5]
      exact hsep i j b1 b2 _ _ hij g1 k1 g2 k2
    · intro p hp hp'
      rw [g5] at hp
      exact k6 i b1 _ hij g1 g2 p hp' hp
  · rcases k5 with k5 | ⟨k5, k6⟩
    · rw [k5]
      exact g6 j b2 _ hij.symm k1 k2
    · rw [g5, k5]
      refine star_hulls_disjoint g3 k3 ?_ ?_
      · rw [← g5]; exact g6 j b2 _ hij.symm k1 k2
      · rw [← k5]; exact k6 i b1 _ hij g1 g2

/-- A call for two obstacles with disjoint polygons and kernel points inside. -/
theorem two_apart (cfg : StarCfg) (o1 o2 : ConvObs) (T1 T2 : Triple) (fuel : Nat) (hk1 : o1.hasKernel = true) (hk2 : o2.hasKernel = true)
    (hr1 : (starGeo cfg).robotFree o1 = .ok true) (hr2 : (starGeo cfg).robotFree o2 = .ok true)
    (hg1 : (starGeo cfg).goalFree o1 = .ok true) (hg2 : (starGeo cfg).goalFree o2 = .ok true)
    (hs1 : cfg.select 0 [o1] none = .ok T1) (hs2 : cfg.select 0 [o2] none = .ok T2)
    (hh1 : clusterHull cfg [o1] T1 = .ok none) (hh2 : clusterHull cfg [o2] T2 = .ok none)
    (ht : ∀ n, cfg.timeoutInit n = false) (hd : ∀ p ∈ o1.polygon, p ∉ o2.polygon) :
    clusterAndStarify (starGeo cfg) ⟨none, false, false⟩ none fuel [o1, o2] = some (.ok
      ⟨[⟨clusterName [o1.id], [o1], some ⟨[o1], none, some T1.mean⟩, some T1, some (ClusterObs.polygon ⟨[o1], none, some T1.mean⟩)⟩,
        ⟨clusterName [o2.id], [o2], some ⟨[o2], none, some T2.mean⟩, some T2, some (ClusterObs.polygon ⟨[o2], none, some T2.mean⟩)⟩],
        .complete, 1, none⟩) := by
  have hi : initLoop (starGeo cfg) 0 [o1, o2] = .ok true := by
    have r3 : ∀ i, (starGeo cfg).timeoutInit i = false := ht
    have r4 : ∀ o, (starGeo cfg).exclude o = .ok () := fun _ => rfl
    simp [initLoop, hr1, hr2, hg1, hg2, r3, r4, bind, Except.bind]
  have hm : [o1, o2].mapM (firstCluster (starGeo cfg) none) =
      .ok [⟨clusterName [o1.id], [o1], some ⟨[o1], none, some T1.mean⟩, some T1, none⟩,
        ⟨clusterName [o2.id], [o2], some ⟨[o2], none, some T2.mean⟩, some T2, none⟩] := by
    simp [firstCluster, starGeo, hh1, hh2, bind, Except.bind, pure, Except.pure, newCluster, extractCluster,
      computeKernelPoints, prevId, hs1, hs2, hk1, hk2]
  have hg : getIntersectionClusters (starGeo cfg)
      [⟨clusterName [o1.id], [o1], some ⟨[o1], none, some T1.mean⟩, some T1, none⟩,
        ⟨clusterName [o2.id], [o2], some ⟨[o2], none, some T2.mean⟩, some T2, none⟩] =
      .ok ([⟨clusterName [o1.id], [o1], some ⟨[o1], none, some T1.mean⟩, some T1, some (ClusterObs.polygon ⟨[o1], none, some T1.mean⟩)⟩,
        ⟨clusterName [o2.id], [o2], some ⟨[o2], none, some T2.mean⟩, some T2, some (ClusterObs.polygon ⟨[o2], none, some T2.mean⟩)⟩], false) := by
    have hn : ¬ (o1.polygon ∩ o2.polygon).Nonempty := fun ⟨p, h1, h2⟩ => hd p h1 h2
    simp [getIntersectionClusters, cachePolygon, starGeo, ClusterObs.polygon, initIdcs, interIdx, hn, List.range_succ]
  simp only [clusterAndStarify, hi, hm, hg]
  cases fuel <;> simp [clusterLoop]

/-- Kernel points inside of all obstacles fit. -/
theorem selection_inside {cfg : StarCfg} (hu : IsUnique cfg.unique) {obs : List ConvObs} {T : Triple}
    (hO : ∀ o ∈ obs, Convex ℝ o.polygon) (ht : ∀ o ∈ obs, ∀ k ∈ T.points, o.tangentPoints k = .ok [] ∧ k ∈ o.polygon)
    (hp : GeneralPosition T.points) (hf : 3 ≤ cfg.hullFuel) (hx : ∀ o ∈ obs, cfg.x ∉ o.polygon ∧ cfg.xg ∉ o.polygon) :
    SelectionOk cfg (·.polygon) obs T := by
  refine ⟨?_, ?_, ?_, ?_⟩
  · intro o ho k hk
    exact ⟨[], (ht o ho k hk).1, by simp, fun h => absurd (ht o ho k hk).2 h⟩
  · intro o ho tps htps
    have a1 := (ht o ho T.1 (by simp [Triple.points])).1
    have a2 := (ht o ho T.2.1 (by simp [Triple.points])).1
    have a3 := (ht o ho T.2.2 (by simp [Triple.points])).1
    have : tps = [[], [], []] := by
      simp [Triple.points, a1, a2, a3, bind, Except.bind, pure, Except.pure] at htps
      exact htps.symm
    subst this
    have hu : cfg.unique ([[], [], []] : List (List (Pt ℝ))).flatten = [] := by
      rw [List.eq_nil_iff_forall_not_mem]
      intro p hpm
      have := ((hu _).2 p).1 hpm
      simp at this
    rw [hu, List.nil_append]
    exact ⟨hp, by simpa [Triple.points] using hf⟩
  · exact fun o ho => free_of_mem (hO o ho) (fun k hk => (ht o ho k hk).2) (hx o ho).1
  · exact fun o ho => free_of_mem (hO o ho) (fun k hk => (ht o ho k hk).2) (hx o ho).2

/-- The lying box, moved up by 5. -/
def boxD : List (Pt ℝ) := [(0, 5), (3, 5), (3, 6), (0, 6)]
noncomputable def obsD : ConvObs := polygonObs (some 1) true none boxD
noncomputable def upTriple : Triple := ((1 / 5, 26 / 5), (4 / 5, 26 / 5), (1 / 2, 57 / 10))

theorem boxD_le {q : Pt ℝ} (h : q ∈ polyRegion none boxD) : 5 ≤ q.2 ∧ q.2 ≤ 6 ∧ q.1 ≤ 3 := by
  rw [polyRegion_none] at h
  have hc : Convex ℝ {q : Pt ℝ | 5 ≤ q.2 ∧ q.2 ≤ 6 ∧ q.1 ≤ 3} := by
    intro a ha b hb r w hr hw hrw
    simp only [Set.mem_ofPred_eq, Prod.fst_add, Prod.smul_fst, Prod.snd_add, Prod.smul_snd, smul_eq_mul] at *
    have : r = 1 - w := by linarith
    subst this
    refine ⟨?_, ?_, ?_⟩ <;> nlinarith
  refine convexHull_min ?_ hc h
  intro p hp
  simp only [Set.mem_ofPred_eq, boxD, List.mem_cons, List.not_mem_nil, or_false] at hp ⊢
  rcases hp with rfl | rfl | rfl | rfl <;> norm_num

theorem up_inside : ∀ k ∈ upTriple.points, StarAbout k boxD := by
  intro k hk
  simp only [upTriple, Triple.points, List.mem_cons, List.not_mem_nil, or_false] at hk
  rcases hk with rfl | rfl | rfl
  · have h1 := starAbout_rat (c := (1 / 5, 26 / 5)) (v := [(0, 5), (3, 5), (3, 6), (0, 6)]) (by decide +kernel)
    simpa [toReal, boxD] using h1
  · have h1 := starAbout_rat (c := (4 / 5, 26 / 5)) (v := [(0, 5), (3, 5), (3, 6), (0, 6)]) (by decide +kernel)
    simpa [toReal, boxD] using h1
  · have h1 := starAbout_rat (c := (1 / 2, 57 / 10)) (v := [(0, 5), (3, 5), (3, 6), (0, 6)]) (by decide +kernel)
    simpa [toReal, boxD] using h1

theorem up_points : GeneralPosition upTriple.points := by
  intro i j k hi hj hk hij hjk hik
  simp only [upTriple, Triple.points, List.length_cons, List.length_nil] at hi hj hk
  interval_cases i <;> interval_cases j <;> first | (exact absurd rfl hij) | skip
  all_goals interval_cases k <;> first | (exact absurd rfl hjk) | (exact absurd rfl hik) | skip
  all_goals
    simp only [upTriple, Triple.points, List.getD_cons_zero, List.getD_cons_succ, cross, Prod.mk_sub_mk]
    rw [lt_abs]
    norm_num

/-- Robot at (2, 2), goal at (5, 5), kernel points for each of the two boxes. -/
noncomputable def apartCfg : StarCfg :=
  { cornerCfg with
    select := fun _ obs _ =>
      if obs.map (·.id) = [some 0] then .ok cornerTriple
      else if obs.map (·.id) = [some 1] then .ok upTriple else .error .runtimeError }

/-- The two boxes that are apart are returned as two disjoint obstacles. -/
example : ∃ c d s t, clusterAndStarify (starGeo apartCfg) ⟨none, false, false⟩ none 2 [obsA, obsD] = some (.ok ⟨[c, d], .complete, 1, none⟩) ∧
    c.star = some s ∧ d.star = some t ∧ ((3, 1) : Pt ℝ) ∈ clusterRegion (·.polygon) s ∧ ((3, 5) : Pt ℝ) ∈ clusterRegion (·.polygon) t ∧
    ∀ p ∈ clusterRegion (·.polygon) s, p ∉ clusterRegion (·.polygon) t := by
  have tA : ∀ k ∈ cornerTriple.points, obsA.tangentPoints k = .ok [] := fun k hk => (corner_none k hk).1
  have tD : ∀ k ∈ upTriple.points, obsD.tangentPoints k = .ok [] := fun k hk =>
    C38_inside none boxD (by simp [boxD]) .global .global (Or.inl rfl) (Or.inl rfl) k (up_inside k hk)
  have xA : ∀ x : Pt ℝ, 1 < x.2 → x ∉ obsA.polygon := fun x hx h => by have := boxA_le h; linarith [this.2.2.2]
  have xD : ∀ x : Pt ℝ, x.2 < 5 ∨ 3 < x.1 → x ∉ obsD.polygon := fun x hx h => by
    have := boxD_le h
    rcases hx with hx | hx
    · linarith [this.1]
    · linarith [this.2.2]
  have hr := two_apart apartCfg obsA obsD cornerTriple upTriple 2 rfl rfl
    (admissible_some (by simp [boxA]) (xA (2, 2) (by norm_num))) (admissible_some (by simp [boxD]) (xD (2, 2) (by norm_num)))
    (admissible_some (by simp [boxA]) (xA (5, 5) (by norm_num))) (admissible_some (by simp [boxD]) (xD (5, 5) (by norm_num)))
    (by simp [apartCfg, obsA, polygonObs]) (by simp [apartCfg, obsD, polygonObs])
    (clusterHull_none _ _ _ fun o ho => by rw [List.mem_singleton.1 ho]; exact tA)
    (clusterHull_none _ _ _ fun o ho => by rw [List.mem_singleton.1 ho]; exact tD) (fun _ => rfl)
    (fun p h1 h2 => by have h1 := boxA_le h1; have h2 := boxD_le h2; linarith [h1.2.2.2, h2.1])
  have hconv : ∀ o ∈ [obsA, obsD], Convex ℝ o.polygon := by
    intro o ho
    simp only [List.mem_cons, List.not_mem_nil, or_false] at ho
    rcases ho with rfl | rfl
    · exact polyRegion_convex none boxA
    · exact polyRegion_convex none boxD
  obtain ⟨s, t, h1, h2, h3⟩ := C87_disjoint_partial (pts := (·.polygon)) isSetList_dedup isUnique_dedup rfl hconv (fun _ _ => rfl) (by
    intro c' _ n pr T hobs _ hT
    generalize c'.obstacles = obs at hobs hT ⊢
    have hsel : (obs.map (·.id) = [some 0] ∧ T = cornerTriple) ∨ (obs.map (·.id) = [some 1] ∧ T = upTriple) := by
      simp only [apartCfg] at hT
      split at hT
      · rename_i h; injection hT with hT; exact Or.inl ⟨h, hT.symm⟩
      · split at hT
        · rename_i h; injection hT with hT; exact Or.inr ⟨h, hT.symm⟩
        · cases hT
    have hid : ∀ o ∈ obs, ∀ a, obs.map (·.id) = [a] → o.id = a := by
      intro o ho a ha
      have := List.mem_map_of_mem (f := (·.id)) ho
      rw [ha] at this
      exact List.mem_singleton.1 this
    have iA : obsA.id = some 0 := rfl
    have iD : obsD.id = some 1 := rfl
    rcases hsel with ⟨hm, rfl⟩ | ⟨hm, rfl⟩
    · have hA : ∀ o ∈ obs, o = obsA := by
        intro o ho
        have h1 := hid o ho _ hm
        have h2 := hobs o ho
        simp only [List.mem_cons, List.not_mem_nil, or_false] at h2
        rcases h2 with h2 | h2
        · exact h2
        · rw [h2, iD] at h1; simp at h1
      refine selection_inside isUnique_dedup (fun o ho => hconv o (hobs o ho)) ?_ corner_points (by simp [apartCfg, cornerCfg]) ?_
      · intro o ho k hk
        rw [hA o ho]
        have e : obsA.polygon = region boxA := polyRegion_none boxA
        exact ⟨tA k hk, by rw [e]; exact centre_mem_region (corner_inside k hk).1⟩
      · intro o ho
        rw [hA o ho]
        exact ⟨xA _ (by norm_num [apartCfg, cornerCfg]), xA _ (by norm_num [apartCfg, cornerCfg])⟩
    · have hA : ∀ o ∈ obs, o = obsD := by
        intro o ho
        have h1 := hid o ho _ hm
        have h2 := hobs o ho
        simp only [List.mem_cons, List.not_mem_nil, or_false] at h2
        rcases h2 with h2 | h2
        · rw [h2, iA] at h1; simp at h1
        · exact h2
      refine selection_inside isUnique_dedup (fun o ho => hconv o (hobs o ho)) ?_ up_points (by simp [apartCfg, cornerCfg]) ?_
      · intro o ho k hk
        rw [hA o ho]
        have e : obsD.polygon = region boxD := polyRegion_none boxD
        exact ⟨tD k hk, by rw [e]; exact centre_mem_region (up_inside k hk)⟩
      · intro o ho
        rw [hA o ho]
        exact ⟨xD _ (by norm_num [apartCfg, cornerCfg]), xD _ (by norm_num [apartCfg, cornerCfg])⟩) hr (by simp) 0 1 _ _
    (by norm_num) rfl rfl
  refine ⟨_, _, s, t, hr, h1, h2, ?_, ?_, h3⟩
  · simp only [Option.some.injEq] at h1
    rw [← h1]
    exact Or.inl ⟨obsA, by simp, box_mem (by simp [boxA])⟩
  · simp only [Option.some.injEq] at h2
    rw [← h2]
    exact Or.inl ⟨obsD, by simp, box_mem (by simp [boxD])⟩

/-! ## Two circles that overlap -/

/-- A circle of radius 1 with centre (c, 0), turned so that an edge of its polygon is upright on the right. -/
noncomputable def turnedCircle (c : ℝ) : Ell := ⟨(1, 1), (0, 0), 20, some ⟨(c, 0), -(π / 20)⟩⟩

/-- An ellipse as an obstacle. -/
noncomputable def ellipseObs (id : Option Nat) (e : Ell) : ConvObs :=
  ⟨id, true, fun x => e.tangentPoints x .global .global, polyRegion e.mm e.polygonVertices⟩

theorem cos_twentieth : cos (π / 20) ≤ 1 - 1 / 200 := by
  have h := Real.cos_le_one_sub_mul_cos_sq (x := π / 20) (by rw [abs_of_pos (by positivity)]; linarith [pi_pos])
  have e : 2 / π ^ 2 * (π / 20) ^ 2 = 1 / 200 := by
    have := pi_ne_zero
    field_simp; norm_num
  linarith

theorem cos_odd (k : ℕ) (hk : k < 20) : |cos (k * (2 * π / 20) - π / 20)| ≤ cos (π / 20) := by
  have hp := pi_pos
  have e : (k : ℝ) * (2 * π / 20) - π / 20 = (2 * k - 1) * (π / 20) := by ring
  rw [e]
  have hc0 : 0 ≤ cos (π / 20) := cos_nonneg_of_mem_Icc ⟨by linarith, by linarith⟩
  have base : ∀ t : ℝ, π / 20 ≤ t → t ≤ π - π / 20 → |cos t| ≤ cos (π / 20) := by
    intro t h1 h2
    rw [abs_le]
    constructor
    · rw [← cos_pi_sub]
      exact cos_le_cos_of_nonneg_of_le_pi (by linarith) (by linarith) h2
    · exact cos_le_cos_of_nonneg_of_le_pi (by linarith) (by linarith) h1
  rcases Nat.eq_zero_or_pos k with rfl | hpos
  · have : (2 * ((0 : ℕ) : ℝ) - 1) * (π / 20) = -(π / 20) := by push_cast; ring
    rw [this, cos_neg, abs_of_nonneg hc0]
  · have k1 : (1 : ℝ) ≤ k := by exact_mod_cast hpos
    rcases Nat.lt_or_ge k 11 with h | h
    · have k2 : (k : ℝ) ≤ 10 := by exact_mod_cast (by omega : k ≤ 10)
      exact base _ (by nlinarith) (by nlinarith)
    · have k2 : (11 : ℝ) ≤ k := by exact_mod_cast h
      have k3 : (k : ℝ) ≤ 19 := by exact_mod_cast (by omega : k ≤ 19)
      rw [← abs_neg, ← cos_sub_pi]
      exact base _ (by nlinarith) (by nlinarith)

/-- The x coordinates of the polygon. -/
theorem turned_polygon (c : ℝ) {q : Pt ℝ} (h : q ∈ polyRegion (turnedCircle c).mm (turnedCircle c).polygonVertices) :
    |q.1 - c| ≤ 996 / 1000 := by
  obtain ⟨p, hp, rfl⟩ := h
  have hc : Convex ℝ {p : Pt ℝ | |cos (π / 20) * p.1 + sin (π / 20) * p.2| ≤ 996 / 1000} := by
    intro a ha b hb r w hr hw hrw
    simp only [Set.mem_ofPred_eq, Prod.fst_add, Prod.smul_fst, Prod.snd_add, Prod.smul_snd, smul_eq_mul, abs_le] at *
    have : r = 1 - w := by linarith
    subst this
    constructor <;> nlinarith
  have := convexHull_min (s := {p | p ∈ (turnedCircle c).polygonVertices}) ?_ hc hp
  · simp only [turnedCircle, inFrame, worldOf, cos_neg, sin_neg]
    simp only [Set.mem_ofPred_eq] at this
    convert this using 2
    ring
  · intro v hv
    simp only [Set.mem_ofPred_eq, Ell.polygonVertices, turnedCircle, List.mem_map, List.mem_range] at hv
    obtain ⟨k, hk, rfl⟩ := hv
    have e : cos (π / 20) * ((1 + 1 / 10 ^ 3) * cos (k * (2 * π / (20 : ℕ)))) + sin (π / 20) * ((1 + 1 / 10 ^ 3) * sin (k * (2 * π / (20 : ℕ)))) =
        (1 + 1 / 10 ^ 3) * cos (k * (2 * π / 20) - π / 20) := by
      rw [cos_sub]; push_cast; ring
    simp only [Set.mem_ofPred_eq]
    rw [e, abs_mul, abs_of_pos (by norm_num)]
    have h1 := cos_odd k hk
    have h2 := cos_twentieth
    nlinarith

theorem turned_world (c y : ℝ) : inFrame (turnedCircle c).mm .global (cos (π / 20) * (y - c), sin (π / 20) * (y - c)) = (y, 0) := by
  have := sin_sq_add_cos_sq (π / 20)
  simp only [turnedCircle, inFrame, worldOf, cos_neg, sin_neg]
  ext
  · simp only; linear_combination (y - c) * this
  · simp only; ring

theorem turned_form (c y : ℝ) : ellForm (turnedCircle c).a (cos (π / 20) * (y - c), sin (π / 20) * (y - c)) = (y - c) ^ 2 := by
  have := sin_sq_add_cos_sq (π / 20)
  simp only [turnedCircle, ellForm]
  linear_combination (y - c) ^ 2 * this

/-- Points of the circle on the x axis. -/
theorem turned_mem (c y : ℝ) (h : |y - c| ≤ 1) : ((y, 0) : Pt ℝ) ∈ ellPoints (turnedCircle c) := by
  rw [← turned_world c y, mem_ellPoints, turned_form]
  rw [abs_le] at h
  nlinarith

theorem turned_free (id : Option Nat) (c y : ℝ) (h : 2 ≤ |y - c|) :
    (admissibleKernel (ellipseObs id (turnedCircle c)).tangentPoints (y, 0)).map (·.isSome) = .ok true := by
  have h0 : 0 < (turnedCircle c).a.1 := by norm_num [turnedCircle]
  have h1 : 0 < (turnedCircle c).a.2 := by norm_num [turnedCircle]
  have hs : 4 ≤ (y - c) ^ 2 := by rw [← sq_abs]; nlinarith
  have hcos : 9 / 10 ≤ cos (π / 20) := by
    have := one_sub_sq_div_two_le_cos (x := π / 20)
    have h3 := pi_le_four
    have h4 := pi_pos
    nlinarith
  obtain ⟨t, s, _, hts⟩ := C32_points (turnedCircle c) h0 h1 .global .global (Or.inl rfl) (Or.inl rfl)
    (cos (π / 20) * (y - c), sin (π / 20) * (y - c)) (by rw [turned_form]; linarith) (Or.inl (by
      simp only [turnedCircle]
      have : 3 ≤ (cos (π / 20) * (y - c)) ^ 2 := by
        have : 81 / 100 ≤ cos (π / 20) ^ 2 := by nlinarith
        rw [mul_pow]; nlinarith
      rw [abs_sub_comm, abs_of_nonneg (by linarith)]
      norm_num
      linarith))
  rw [turned_world] at hts
  rcases hts with hts | hts <;> simp [admissibleKernel, ellipseObs, hts, bind, Except.bind, Except.map]

/-- Kernel points near the centre. -/
noncomputable def nearCentre (c : ℝ) : Triple :=
  (inFrame (turnedCircle c).mm .global (0, 1 / 2), inFrame (turnedCircle c).mm .global (1 / 2, 0),
    inFrame (turnedCircle c).mm .global (-(1 / 2), -(1 / 2)))

theorem nearCentre_none (id : Option Nat) (c : ℝ) : ∀ k ∈ (nearCentre c).points, (ellipseObs id (turnedCircle c)).tangentPoints k = .ok [] := by
  have h0 : 0 < (turnedCircle c).a.1 := by norm_num [turnedCircle]
  have h1 : 0 < (turnedCircle c).a.2 := by norm_num [turnedCircle]
  intro k hk
  simp only [Triple.points, nearCentre, List.mem_cons, List.not_mem_nil, or_false] at hk
  rcases hk with rfl | rfl | rfl
  all_goals exact C32_empty (turnedCircle c) h0 h1 .global .global (Or.inl rfl) _ (by norm_num [turnedCircle, ellForm])

/-- Robot at (-10, 0), goal at (20, 0), kernel points near the centre of the circle. -/
noncomputable def circleCfg : StarCfg where
  x := (-10, 0)
  xg := (20, 0)
  unique := List.dedup
  hullFuel := 10
  setList := List.dedup
  timeoutInit _ := false
  timeoutIter _ := false
  timeoutConvex _ := false
  admEmpty _ _ := .ok false
  select _ obs _ := .ok (if obs.map (·.id) = [some 0] then nearCentre 0 else nearCentre (1995 / 1000))
  isConvex _ := true

/-- C87 is false for ellipses: two circles of radius 1 with the default 20 polygon corners and with centres at the distance
1.995 overlap, but they are returned as two clusters with the flag COMPLETE. -/
theorem C87_ellipse_false : ∃ (cfg : StarCfg) (e1 e2 : Ell) (p : Pt ℝ), IsSetList cfg.setList ∧ IsUnique cfg.unique ∧
    e1.nPol = 20 ∧ e2.nPol = 20 ∧ p ∈ ellPoints e1 ∧ p ∈ ellPoints e2 ∧
    ∃ r c d, clusterAndStarify (starGeo cfg) ⟨none, false, false⟩ none 2 [ellipseObs (some 0) e1, ellipseObs (some 1) e2] = some (.ok r) ∧
      r.flag = .complete ∧ r.clusters = [c, d] ∧ c.obstacles = [ellipseObs (some 0) e1] ∧ d.obstacles = [ellipseObs (some 1) e2] := by
  refine ⟨circleCfg, turnedCircle 0, turnedCircle (1995 / 1000), (9975 / 10000, 0), isSetList_dedup, isUnique_dedup, rfl, rfl,
    turned_mem _ _ (by rw [abs_le]; norm_num), turned_mem _ _ (by rw [abs_le]; norm_num), ?_⟩
  have free : ∀ id c y, 2 ≤ |y - c| → (admissibleKernel (ellipseObs id (turnedCircle c)).tangentPoints (y, 0)).map (·.isSome) = .ok true :=
    turned_free
  have hr := two_apart circleCfg (ellipseObs (some 0) (turnedCircle 0)) (ellipseObs (some 1) (turnedCircle (1995 / 1000)))
    (nearCentre 0) (nearCentre (1995 / 1000)) 2 rfl rfl
    (free (some 0) 0 (-10) (by norm_num)) (free (some 1) (1995 / 1000) (-10) (by norm_num [abs_of_neg]))
    (free (some 0) 0 20 (by norm_num)) (free (some 1) (1995 / 1000) 20 (by norm_num))
    (by simp [circleCfg, ellipseObs]) (by simp [circleCfg, ellipseObs])
    (clusterHull_none _ _ _ fun o ho => by
      rw [List.mem_singleton] at ho
      rw [ho]; exact nearCentre_none _ _)
    (clusterHull_none _ _ _ fun o ho => by
      rw [List.mem_singleton] at ho
      rw [ho]; exact nearCentre_none _ _) (fun _ => rfl) (by
      intro p h1 h2
      have h1 := abs_le.1 (turned_polygon 0 h1)
      have h2 := abs_le.1 (turned_polygon (1995 / 1000) h2)
      linarith [h1.2, h2.1])
  exact ⟨_, _, _, hr, rfl, rfl, rfl, rfl⟩

end Starworlds
