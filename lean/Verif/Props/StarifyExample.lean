import Verif.Props.StarifySelect
import Verif.Props.PolygonVisible
import Verif.Props.Cluster
import Verif.Proofs.KernelCertificate
import Verif.Proofs.StarConvex

/-! # C85: an L-shaped cluster -/

namespace Starworlds

open Real Spec

/-- A convex polygon as an obstacle: a `StarshapedPolygon`, or with `hasKernel = false` a `Polygon`. -/
noncomputable def polygonObs (id : Option Nat) (hasKernel : Bool) (mm : Option Pose) (v : List (Pt ℝ)) : ConvObs :=
  ⟨id, hasKernel, fun x => polygonTangentPoints mm v x .global .global, polyRegion mm v⟩

/-- A lying box. -/
def boxA : List (Pt ℝ) := [(0, 0), (3, 0), (3, 1), (0, 1)]

/-- A standing box. -/
def boxB : List (Pt ℝ) := [(0, 0), (1, 0), (1, 3), (0, 3)]

noncomputable def obsA : ConvObs := polygonObs (some 0) true none boxA
noncomputable def obsB : ConvObs := polygonObs (some 1) true none boxB

/-- Kernel points in both boxes. -/
noncomputable def cornerTriple : Triple := ((1 / 5, 1 / 5), (4 / 5, 1 / 5), (1 / 2, 7 / 10))

/-- Robot at (2, 2), goal at (5, 5), and the kernel points above. -/
noncomputable def cornerCfg : StarCfg where
  x := (2, 2)
  xg := (5, 5)
  unique := List.dedup
  hullFuel := 10
  setList := List.dedup
  timeoutInit _ := false
  timeoutIter _ := false
  timeoutConvex _ := false
  admEmpty _ _ := .ok false
  select _ _ _ := .ok cornerTriple
  isConvex _ := false

theorem box_mem {v : List (Pt ℝ)} {p : Pt ℝ} (h : p ∈ v) : p ∈ polyRegion none v := ⟨p, subset_convexHull ℝ _ h, rfl⟩

theorem polyRegion_none (v : List (Pt ℝ)) : polyRegion none v = convexHull ℝ {p | p ∈ v} := by
  ext p
  constructor
  · rintro ⟨q, hq, rfl⟩; exact hq
  · intro h; exact ⟨p, h, rfl⟩

/-- The box is between its sides. -/
theorem boxA_le {q : Pt ℝ} (h : q ∈ polyRegion none boxA) : 0 ≤ q.1 ∧ q.1 ≤ 3 ∧ 0 ≤ q.2 ∧ q.2 ≤ 1 := by
  rw [polyRegion_none] at h
  have hc : Convex ℝ {q : Pt ℝ | 0 ≤ q.1 ∧ q.1 ≤ 3 ∧ 0 ≤ q.2 ∧ q.2 ≤ 1} := by
    intro a ha b hb r w hr hw hrw
    simp only [Set.mem_ofPred_eq, Prod.fst_add, Prod.smul_fst, Prod.snd_add, Prod.smul_snd, smul_eq_mul] at *
    have : r = 1 - w := by linarith
    subst this
    refine ⟨?_, ?_, ?_, ?_⟩ <;> nlinarith
  refine convexHull_min ?_ hc h
  intro p hp
  simp only [Set.mem_ofPred_eq, boxA, List.mem_cons, List.not_mem_nil, or_false] at hp ⊢
  rcases hp with rfl | rfl | rfl | rfl <;> norm_num

theorem boxB_le {q : Pt ℝ} (h : q ∈ polyRegion none boxB) : 0 ≤ q.1 ∧ q.1 ≤ 1 ∧ 0 ≤ q.2 ∧ q.2 ≤ 3 := by
  rw [polyRegion_none] at h
  have hc : Convex ℝ {q : Pt ℝ | 0 ≤ q.1 ∧ q.1 ≤ 1 ∧ 0 ≤ q.2 ∧ q.2 ≤ 3} := by
    intro a ha b hb r w hr hw hrw
    simp only [Set.mem_ofPred_eq, Prod.fst_add, Prod.smul_fst, Prod.snd_add, Prod.smul_snd, smul_eq_mul] at *
    have : r = 1 - w := by linarith
    subst this
    refine ⟨?_, ?_, ?_, ?_⟩ <;> nlinarith
  refine convexHull_min ?_ hc h
  intro p hp
  simp only [Set.mem_ofPred_eq, boxB, List.mem_cons, List.not_mem_nil, or_false] at hp ⊢
  rcases hp with rfl | rfl | rfl | rfl <;> norm_num

/-- From an outside point there are tangent points. -/
theorem admissible_some {v : List (Pt ℝ)} (hv : v ≠ []) {x : Pt ℝ} (hx : x ∉ polyRegion none v) :
    (admissibleKernel (fun x => polygonTangentPoints none v x .global .global) x).map (·.isSome) = .ok true := by
  rw [polyRegion_none] at hx
  obtain ⟨t, s, h, _⟩ := polygon_seen none v hv x hx
  have e : inFrame none .global x = x := rfl
  rw [e] at h
  simp [admissibleKernel, h, bind, Except.bind, Except.map]

theorem corner_inside : ∀ k ∈ cornerTriple.points, StarAbout k boxA ∧ StarAbout k boxB := by
  intro k hk
  simp only [cornerTriple, Triple.points, List.mem_cons, List.not_mem_nil, or_false] at hk
  rcases hk with rfl | rfl | rfl
  · have h1 := starAbout_rat (c := (1 / 5, 1 / 5)) (v := [(0, 0), (3, 0), (3, 1), (0, 1)]) (by decide +kernel)
    have h2 := starAbout_rat (c := (1 / 5, 1 / 5)) (v := [(0, 0), (1, 0), (1, 3), (0, 3)]) (by decide +kernel)
    exact ⟨by simpa [toReal, boxA] using h1, by simpa [toReal, boxB] using h2⟩
  · have h1 := starAbout_rat (c := (4 / 5, 1 / 5)) (v := [(0, 0), (3, 0), (3, 1), (0, 1)]) (by decide +kernel)
    have h2 := starAbout_rat (c := (4 / 5, 1 / 5)) (v := [(0, 0), (1, 0), (1, 3), (0, 3)]) (by decide +kernel)
    exact ⟨by simpa [toReal, boxA] using h1, by simpa [toReal, boxB] using h2⟩
  · have h1 := starAbout_rat (c := (1 / 2, 7 / 10)) (v := [(0, 0), (3, 0), (3, 1), (0, 1)]) (by decide +kernel)
    have h2 := starAbout_rat (c := (1 / 2, 7 / 10)) (v := [(0, 0), (1, 0), (1, 3), (0, 3)]) (by decide +kernel)
    exact ⟨by simpa [toReal, boxA] using h1, by simpa [toReal, boxB] using h2⟩

theorem corner_none : ∀ k ∈ cornerTriple.points, obsA.tangentPoints k = .ok [] ∧ obsB.tangentPoints k = .ok [] := by
  intro k hk
  obtain ⟨h1, h2⟩ := corner_inside k hk
  exact ⟨C38_inside none boxA (by simp [boxA]) .global .global (Or.inl rfl) (Or.inl rfl) k h1,
    C38_inside none boxB (by simp [boxB]) .global .global (Or.inl rfl) (Or.inl rfl) k h2⟩

/-- Without tangent points there is no hull. -/
theorem clusterHull_none (cfg : StarCfg) (T : Triple) (obs : List ConvObs)
    (h : ∀ o ∈ obs, ∀ k ∈ T.points, o.tangentPoints k = .ok []) : clusterHull cfg obs T = .ok none := by
  have h1 : ∀ o ∈ obs, kernelHullOne cfg.unique T.points cfg.hullFuel (.convex o.tangentPoints) = .ok (some []) := by
    intro o ho
    have a1 := h o ho T.1 (by simp [Triple.points])
    have a2 := h o ho T.2.1 (by simp [Triple.points])
    have a3 := h o ho T.2.2 (by simp [Triple.points])
    simp [kernelHullOne, convexKernelHull, Triple.points, a1, a2, a3, bind, Except.bind, pure, Except.pure]
  have h2 : ∀ obs : List ConvObs, (∀ o ∈ obs, kernelHullOne cfg.unique T.points cfg.hullFuel (.convex o.tangentPoints) = .ok (some [])) →
      (obs.map fun o => HullObs.convex o.tangentPoints).mapM (kernelHullOne cfg.unique T.points cfg.hullFuel) =
        .ok (obs.map fun _ => some []) := by
    intro obs
    induction obs with
    | nil => intro _; rfl
    | cons o l ih =>
      intro hl
      rw [List.map_cons, List.mapM_cons, hl o (by simp), ih (fun a ha => hl a (List.mem_cons_of_mem _ ha))]
      rfl
  simp only [clusterHull, kernelHull, bind, Except.bind, h2 obs h1]
  simp

/-- The cluster of both boxes. -/
noncomputable def cornerStar : ClusterObs := ⟨[obsA, obsB], none, some cornerTriple.mean⟩

theorem corner_meet : (polyRegion none boxA ∩ polyRegion none boxB).Nonempty :=
  ⟨(0, 0), box_mem (by simp [boxA]), box_mem (by simp [boxB])⟩

theorem corner_init : initLoop (starGeo cornerCfg) 0 [obsA, obsB] = .ok true := by
  have hA : ∀ x : Pt ℝ, 1 < x.2 → (admissibleKernel obsA.tangentPoints x).map (·.isSome) = .ok true :=
    fun x hx => admissible_some (by simp [boxA]) fun h => by have := boxA_le h; linarith [this.2.2.2]
  have hB : ∀ x : Pt ℝ, 1 < x.1 → (admissibleKernel obsB.tangentPoints x).map (·.isSome) = .ok true :=
    fun x hx => admissible_some (by simp [boxB]) fun h => by have := boxB_le h; linarith [this.2.1]
  have h1 := hA (2, 2) (by norm_num)
  have h2 := hA (5, 5) (by norm_num)
  have h3 := hB (2, 2) (by norm_num)
  have h4 := hB (5, 5) (by norm_num)
  simp [initLoop, starGeo, cornerCfg, h1, h2, h3, h4, bind, Except.bind]

/-- The clusters of the first iteration. -/
noncomputable def cornerFirst : List (Cl ConvObs ClusterObs Triple (Set (Pt ℝ))) :=
  [⟨clusterName [some 0], [obsA], some ⟨[obsA], none, some cornerTriple.mean⟩, some cornerTriple, none⟩,
      ⟨clusterName [some 1], [obsB], some ⟨[obsB], none, some cornerTriple.mean⟩, some cornerTriple, none⟩]

theorem corner_first : [obsA, obsB].mapM (firstCluster (starGeo cornerCfg) none) =
    .ok cornerFirst := by
  have hA := clusterHull_none cornerCfg cornerTriple [obsA] (by
    intro o ho; rw [List.mem_singleton.1 ho]; exact fun k hk => (corner_none k hk).1)
  have hB := clusterHull_none cornerCfg cornerTriple [obsB] (by
    intro o ho; rw [List.mem_singleton.1 ho]; exact fun k hk => (corner_none k hk).2)
  have hs : ∀ n obs p, cornerCfg.select n obs p = .ok cornerTriple := fun _ _ _ => rfl
  have kA : obsA.hasKernel = true := rfl
  have kB : obsB.hasKernel = true := rfl
  have iA : obsA.id = some 0 := rfl
  have iB : obsB.id = some 1 := rfl
  simp [cornerFirst, firstCluster, starGeo, hA, hB, bind, Except.bind, pure, Except.pure, newCluster, extractCluster,
    computeKernelPoints, prevId, hs, kA, kB, iA, iB]

theorem corner_merge : getIntersectionClusters (starGeo cornerCfg)
    cornerFirst =
    .ok ([⟨clusterName [some 0, some 1], [obsA, obsB], none, none, none⟩], true) := by
  have iA : obsA.id = some 0 := rfl
  have iB : obsB.id = some 1 := rfl
  have hm : ((obsA.polygon) ∩ (obsB.polygon)).Nonempty := corner_meet
  have hsl : cornerCfg.setList [0, 1, 1] = [0, 1] := by
    change List.dedup [0, 1, 1] = [0, 1]
    decide
  simp [cornerFirst, getIntersectionClusters, cachePolygon, starGeo, ClusterObs.polygon, initIdcs, interIdx, mergedGroups, mergeOuter,
    mergeInner, setIdx, obstaclesAt, newCluster, hm, hsl, iA, iB, List.range_succ]

theorem corner_sum {q : Pt ℝ} (h : q ∈ convexHull ℝ cornerStar.polygon) : q.1 + q.2 ≤ 4 := by
  have hc : Convex ℝ {q : Pt ℝ | q.1 + q.2 ≤ 4} := by
    intro a ha b hb r w hr hw hrw
    simp only [Set.mem_ofPred_eq, Prod.fst_add, Prod.smul_fst, Prod.snd_add, Prod.smul_snd, smul_eq_mul] at *
    have : r = 1 - w := by linarith
    subst this
    nlinarith
  refine convexHull_min ?_ hc h
  rintro p (⟨o, ho, hp⟩ | hp)
  · simp only [cornerStar, List.mem_cons, List.not_mem_nil, or_false] at ho
    rcases ho with rfl | rfl
    · have := boxA_le hp
      exact (by linarith [this.2.1, this.2.2.2] : p.1 + p.2 ≤ 4)
    · have := boxB_le hp
      exact (by linarith [this.2.1, this.2.2.2] : p.1 + p.2 ≤ 4)
  · simp [cornerStar] at hp

/-- The robot is on the border of the convex hull. -/
theorem corner_border : ((2, 2) : Pt ℝ) ∉ interior (convexHull ℝ cornerStar.polygon) := by
  intro h
  have ho : IsOpen ((fun t : ℝ => ((2 + t, 2 + t) : Pt ℝ)) ⁻¹' interior (convexHull ℝ cornerStar.polygon)) :=
    isOpen_interior.preimage (by fun_prop)
  obtain ⟨e, he, hb⟩ := Metric.isOpen_iff.1 ho 0 (by simpa using h)
  have := corner_sum (interior_subset (hb (show e / 2 ∈ Metric.ball 0 e by
    rw [Metric.mem_ball, Real.dist_eq, sub_zero, abs_of_pos] <;> linarith)))
  simp only at this
  linarith

theorem corner_hull : ((2, 2) : Pt ℝ) ∈ convexHull ℝ cornerStar.polygon := by
  have h1 : ((3, 1) : Pt ℝ) ∈ cornerStar.polygon := Or.inl ⟨obsA, by simp [cornerStar], box_mem (by simp [boxA])⟩
  have h2 : ((1, 3) : Pt ℝ) ∈ cornerStar.polygon := Or.inl ⟨obsB, by simp [cornerStar], box_mem (by simp [boxB])⟩
  have := (convex_convexHull ℝ cornerStar.polygon) (subset_convexHull ℝ _ h1) (subset_convexHull ℝ _ h2)
    (by norm_num : (0 : ℝ) ≤ 1 / 2) (by norm_num : (0 : ℝ) ≤ 1 / 2) (by norm_num)
  convert this using 1
  ext <;> norm_num

theorem corner_result (mk : Bool) : clusterAndStarify (starGeo cornerCfg) ⟨none, mk, false⟩ none 1 [obsA, obsB] =
    some (.ok ⟨[⟨clusterName [some 0, some 1], [obsA, obsB],
      some (if mk then ⟨[], some (convexHull ℝ cornerStar.polygon), some cornerTriple.mean⟩ else cornerStar),
      some cornerTriple, some cornerStar.polygon⟩], .complete, 2, none⟩) := by
  have hh := clusterHull_none cornerCfg cornerTriple [obsA, obsB] (by
    intro o ho
    simp only [List.mem_cons, List.not_mem_nil, or_false] at ho
    rcases ho with rfl | rfl
    · exact fun k hk => (corner_none k hk).1
    · exact fun k hk => (corner_none k hk).2)
  have hs : ∀ n obs p, cornerCfg.select n obs p = .ok cornerTriple := fun _ _ _ => rfl
  have ha : ∀ n obs, cornerCfg.admEmpty n obs = .ok false := fun _ _ => rfl
  have ht : ∀ n, cornerCfg.timeoutIter n = false := fun _ => rfl
  have kA : obsA.hasKernel = true := rfl
  have kB : obsB.hasKernel = true := rfl
  have n1 : clusterName [some 0, some 1] ≠ clusterName [some 0] := by decide
  have n2 : clusterName [some 0, some 1] ≠ clusterName [some 1] := by decide
  have hP : (starGeo cornerCfg).starPoly cornerStar = cornerStar.polygon := rfl
  have hstar : ∀ h : History ConvObs ClusterObs Triple (Set (Pt ℝ)), h (clusterName [some 0, some 1]) = none →
      ∃ h', starifyAll (starGeo cornerCfg) none 1 [⟨clusterName [some 0, some 1], [obsA, obsB], none, none, none⟩] h =
        .ok (.inr ([⟨clusterName [some 0, some 1], [obsA, obsB], some cornerStar, some cornerTriple, some cornerStar.polygon⟩], h')) := by
    intro h hn
    refine ⟨h.insert ⟨clusterName [some 0, some 1], [obsA, obsB], some cornerStar, some cornerTriple, some cornerStar.polygon⟩, ?_⟩
    simp [starifyAll, hn, starifyCluster, starGeo, hh, hs, ha, kA, kB, bind, Except.bind, lastCluster, computeKernelPoints,
      prevId, cachePolygon, consStarified, cornerStar]
  obtain ⟨h', hstar⟩ := hstar (firstHistory cornerFirst) (by
    simp only [cornerFirst, firstHistory, List.foldl, History.insert, if_neg n1, if_neg n2])
  have hgic : getIntersectionClusters (starGeo cornerCfg)
      [⟨clusterName [some 0, some 1], [obsA, obsB], some cornerStar, some cornerTriple, some cornerStar.polygon⟩] =
      .ok ([⟨clusterName [some 0, some 1], [obsA, obsB], some cornerStar, some cornerTriple, some cornerStar.polygon⟩], false) := by
    simp [getIntersectionClusters, cachePolygon, initIdcs]
  have hloop : ∀ it, clusterLoop (starGeo cornerCfg) ⟨none, mk, false⟩ none 1
      [⟨clusterName [some 0, some 1], [obsA, obsB], none, none, none⟩] true
      (firstHistory cornerFirst) 1 it =
      some (.ok (.done [⟨clusterName [some 0, some 1], [obsA, obsB], some cornerStar, some cornerTriple, some cornerStar.polygon⟩] 2 it)) := by
    intro it
    have ht' : (starGeo cornerCfg).timeoutIter 1 = false := rfl
    rw [clusterLoop, ht', if_neg (by simp), hstar]
    simp only [hgic]
    simp [reachedMax, clusterLoop]
  simp only [clusterAndStarify, corner_init, corner_first, corner_merge, hloop]
  cases mk with
  | false => simp
  | true =>
    have hb : (starGeo cornerCfg).blocked (convexHull ℝ cornerStar.polygon) = false := by
      have hn : ¬ (((2, 2) : Pt ℝ) ∈ interior (convexHull ℝ cornerStar.polygon) ∨
          ((5, 5) : Pt ℝ) ∈ interior (convexHull ℝ cornerStar.polygon)) := by
        rintro (h | h)
        · exact corner_border h
        · have := corner_sum (interior_subset h)
          norm_num at this
      rw [Bool.eq_false_iff]
      intro h
      simp only [starGeo, decide_eq_true_eq] at h
      exact hn h
    have hc : ∀ s, (starGeo cornerCfg).isConvex s = false := fun _ => rfl
    have htc : ∀ n, (starGeo cornerCfg).timeoutConvex n = false := fun _ => rfl
    have hho : ∀ p, (starGeo cornerCfg).hullOf p = .ok (convexHull ℝ p) := fun _ => rfl
    simp [makeConvexLoop, hc, htc, cachePolygon, hho, hb, meetsOther]
    simp [starGeo, cornerStar]

/-- Kernel points in a convex set see all of it without looking at a point outside. -/
theorem free_of_mem {O : Set (Pt ℝ)} (hO : Convex ℝ O) {T : Triple} (hT : ∀ k ∈ T.points, k ∈ O) {y : Pt ℝ} (hy : y ∉ O) :
    region T.points ⊆ freeFrom O y := by
  intro k hk q hq ⟨t, h0, h1, e⟩
  have hkO : k ∈ O := convexHull_min hT hO hk
  refine hy ?_
  have := hO hkO hq (by linarith : 0 ≤ 1 - t) h0 (by ring)
  rw [e]
  convert this using 1
  rw [sub_smul, one_smul, smul_sub]; abel

theorem corner_points : GeneralPosition cornerTriple.points := by
  intro i j k hi hj hk hij hjk hik
  simp only [cornerTriple, Triple.points, List.length_cons, List.length_nil] at hi hj hk
  interval_cases i <;> interval_cases j <;> first | (exact absurd rfl hij) | skip
  all_goals interval_cases k <;> first | (exact absurd rfl hjk) | (exact absurd rfl hik) | skip
  all_goals
    simp only [cornerTriple, Triple.points, List.getD_cons_zero, List.getD_cons_succ, cross, Prod.mk_sub_mk]
    rw [lt_abs]
    norm_num

/-- The kernel points of the example fit. -/
theorem corner_selection (obs : List ConvObs) (hobs : ∀ o ∈ obs, o ∈ [obsA, obsB]) :
    SelectionOk cornerCfg (·.polygon) obs cornerTriple := by
  have hA : Convex ℝ obsA.polygon := polyRegion_convex none boxA
  have hB : Convex ℝ obsB.polygon := polyRegion_convex none boxB
  have hmem : ∀ o ∈ obs, o = obsA ∨ o = obsB := fun o ho => by simpa using hobs o ho
  have kmem : ∀ k ∈ cornerTriple.points, k ∈ obsA.polygon ∧ k ∈ obsB.polygon := by
    intro k hk
    obtain ⟨h1, h2⟩ := corner_inside k hk
    have e1 : obsA.polygon = region boxA := polyRegion_none boxA
    have e2 : obsB.polygon = region boxB := polyRegion_none boxB
    rw [e1, e2]
    exact ⟨centre_mem_region h1, centre_mem_region h2⟩
  have out : ∀ y : Pt ℝ, 1 < y.1 → 1 < y.2 → ∀ o ∈ obs, y ∉ o.polygon := by
    intro y h1 h2 o ho hy
    rcases hmem o ho with rfl | rfl
    · have := boxA_le hy; linarith [this.2.2.2]
    · have := boxB_le hy; linarith [this.2.1]
  have hconv : ∀ o ∈ obs, Convex ℝ o.polygon := fun o ho => by
    rcases hmem o ho with rfl | rfl
    · exact hA
    · exact hB
  have hk : ∀ o ∈ obs, ∀ k ∈ cornerTriple.points, k ∈ o.polygon := fun o ho k hk => by
    rcases hmem o ho with rfl | rfl
    · exact (kmem k hk).1
    · exact (kmem k hk).2
  refine ⟨?_, ?_, ?_, ?_⟩
  · intro o ho k _
    rcases hmem o ho with rfl | rfl
    · exact (C59_polygon none boxA (by simp [boxA]) k).2
    · exact (C59_polygon none boxB (by simp [boxB]) k).2
  · intro o ho tps htps
    have h0 : ∀ k ∈ cornerTriple.points, o.tangentPoints k = .ok [] := fun k hk => by
      rcases hmem o ho with rfl | rfl
      · exact (corner_none k hk).1
      · exact (corner_none k hk).2
    have a1 := h0 cornerTriple.1 (by simp [Triple.points])
    have a2 := h0 cornerTriple.2.1 (by simp [Triple.points])
    have a3 := h0 cornerTriple.2.2 (by simp [Triple.points])
    have : tps = [[], [], []] := by
      simp [Triple.points, a1, a2, a3, bind, Except.bind, pure, Except.pure] at htps
      exact htps.symm
    subst this
    have hu : cornerCfg.unique ([[], [], []] : List (List (Pt ℝ))).flatten = [] := by simp [cornerCfg]
    rw [hu, List.nil_append]
    exact ⟨corner_points, by simp [Triple.points, cornerCfg]⟩
  · exact fun o ho => free_of_mem (hconv o ho) (hk o ho) (out _ (by norm_num [cornerCfg]) (by norm_num [cornerCfg]) o ho)
  · exact fun o ho => free_of_mem (hconv o ho) (hk o ho) (out _ (by norm_num [cornerCfg]) (by norm_num [cornerCfg]) o ho)

theorem corner_obstacles : ∀ o ∈ [obsA, obsB], Convex ℝ o.polygon := by
  intro o ho
  simp only [List.mem_cons, List.not_mem_nil, or_false] at ho
  rcases ho with rfl | rfl
  · exact polyRegion_convex none boxA
  · exact polyRegion_convex none boxB

theorem isUnique_dedup : IsUnique (fun l : List (Pt ℝ) => l.dedup) :=
  fun l => ⟨List.nodup_dedup l, fun _ => List.mem_dedup⟩

/-- The two boxes are returned as one obstacle that is star-shaped about (1/2, 11/30), the mean of the kernel points, and
not convex. -/
example : ∃ c s, clusterAndStarify (starGeo cornerCfg) ⟨none, false, false⟩ none 1 [obsA, obsB] = some (.ok ⟨[c], .complete, 2, none⟩) ∧
    c.star = some s ∧ s.xr = some (1 / 2, 11 / 30) ∧ StarConvex ℝ (1 / 2, 11 / 30) (clusterRegion (·.polygon) s) ∧
    ((3, 1) : Pt ℝ) ∈ clusterRegion (·.polygon) s ∧ ((1, 3) : Pt ℝ) ∈ clusterRegion (·.polygon) s ∧
    ((2, 2) : Pt ℝ) ∉ clusterRegion (·.polygon) s := by
  have hr := corner_result false
  obtain ⟨h, -⟩ := C85_star_partial (pts := (·.polygon)) isSetList_dedup isUnique_dedup rfl rfl corner_obstacles
    (by
      intro c' _ n pr T ho _ hT
      have : T = cornerTriple := by
        have : cornerCfg.select n c'.obstacles pr = .ok cornerTriple := rfl
        rw [this] at hT
        injection hT with hT
        exact hT.symm
      rw [this]
      exact corner_selection _ ho) hr (by simp)
  obtain ⟨T, s, h1, h2, h3, h4, h5, h6, h7, h8⟩ := h _ (List.mem_singleton_self _)
  simp only [Option.some.injEq] at h1
  subst h1
  have e : (1 / 3 : ℝ) • (cornerTriple.1 + cornerTriple.2.1 + cornerTriple.2.2) = ((1 / 2, 11 / 30) : Pt ℝ) := by
    ext <;> norm_num [cornerTriple]
  have hm := h4 _ (by
    have := mean_mem cornerTriple
    have e2 : ({cornerTriple.1, cornerTriple.2.1, cornerTriple.2.2} : Set (Pt ℝ)) = {p | p ∈ cornerTriple.points} := by
      ext p; simp [Triple.points]
    rw [e2]; exact this)
  rw [e] at h3
  refine ⟨_, s, hr, h2, h3, ?_, ?_, ?_, h7⟩
  · rw [← e]; exact hm
  · exact h6 obsA (by simp) (box_mem (by simp [boxA]))
  · exact h6 obsB (by simp) (box_mem (by simp [boxB]))

/-- C85 is false with `make_convex`: the robot at (2, 2) is outside of the two boxes and of the star-shaped obstacle, but
on the border of the convex obstacle that is returned for them. -/
theorem C85_border_false : ∃ cfg : StarCfg, ∃ obstacles r, IsSetList cfg.setList ∧ IsUnique cfg.unique ∧
    (∀ o ∈ obstacles, Convex ℝ o.polygon) ∧ (∀ o ∈ obstacles, cfg.x ∉ o.polygon) ∧
    (∀ n obs pr T, (∀ o ∈ obs, o ∈ obstacles) → cfg.select n obs pr = .ok T → SelectionOk cfg (·.polygon) obs T) ∧
    clusterAndStarify (starGeo cfg) ⟨none, true, false⟩ none 1 obstacles = some (.ok r) ∧ r.flag = .complete ∧
    ∃ c ∈ r.clusters, ∃ s, c.star = some s ∧ cfg.x ∈ clusterRegion (·.polygon) s := by
  refine ⟨cornerCfg, [obsA, obsB], _, isSetList_dedup, isUnique_dedup, corner_obstacles, ?_, ?_, corner_result true, rfl,
    _, List.mem_singleton_self _, _, rfl, Or.inr corner_hull⟩
  · intro o ho hx
    simp only [List.mem_cons, List.not_mem_nil, or_false] at ho
    rcases ho with rfl | rfl
    · have := boxA_le hx; norm_num [cornerCfg] at this
    · have := boxB_le hx; norm_num [cornerCfg] at this
  · intro n obs pr T ho hT
    have : T = cornerTriple := by
      have : cornerCfg.select n obs pr = .ok cornerTriple := rfl
      rw [this] at hT
      injection hT with hT
      exact hT.symm
    rw [this]
    exact corner_selection obs ho

end Starworlds
