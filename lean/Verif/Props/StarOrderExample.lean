import Verif.Props.StarOrder

/-! # C118: two boxes in both orders, with the kernels and kernel points that are computed -/

namespace Starworlds

open Real Spec MeasureTheory

/-- A box with half height `h`. -/
def tallBox (h : ℝ) : List (Pt ℝ) := [(2, -h), (2, h), (1, h), (1, -h)]

noncomputable def obsTall (i : Nat) (h : ℝ) : ConvObs := polygonObs (some i) true none (tallBox h)

theorem tallBox_region {h : ℝ} (h0 : 0 < h) : polyRegion none (tallBox h) = Set.Icc 1 2 ×ˢ Set.Icc (-h) h := by
  rw [polyRegion_none]
  apply subset_antisymm
  · refine convexHull_min ?_ ((convex_Icc _ _).prod (convex_Icc _ _))
    intro p hp
    simp only [Set.mem_ofPred_eq, tallBox, List.mem_cons, List.not_mem_nil, or_false] at hp
    rcases hp with rfl | rfl | rfl | rfl <;> refine ⟨⟨?_, ?_⟩, ?_, ?_⟩ <;> simp only <;> linarith
  · rintro ⟨a, b⟩ ⟨⟨h1, h2⟩, h3, h4⟩
    simp only at h1 h2 h3 h4
    have hc := convex_convexHull ℝ {p : Pt ℝ | p ∈ tallBox h}
    have m : ∀ p ∈ tallBox h, p ∈ convexHull ℝ {p : Pt ℝ | p ∈ tallBox h} := fun p hp => subset_convexHull ℝ _ hp
    have n1 : 0 ≤ (h - b) / (2 * h) := div_nonneg (by linarith) (by linarith)
    have n2 : 0 ≤ (h + b) / (2 * h) := div_nonneg (by linarith) (by linarith)
    have n3 : (h - b) / (2 * h) + (h + b) / (2 * h) = 1 := by field_simp; ring
    have n4 : (h - b) / (2 * h) * -h + (h + b) / (2 * h) * h = b := by field_simp; ring
    have r1 : ((2, b) : Pt ℝ) ∈ convexHull ℝ {p : Pt ℝ | p ∈ tallBox h} := by
      have := hc (m (2, -h) (by simp [tallBox])) (m (2, h) (by simp [tallBox])) n1 n2 n3
      convert this using 1
      ext <;> simp only [Prod.fst_add, Prod.snd_add, Prod.smul_fst, Prod.smul_snd, smul_eq_mul]
      · rw [← add_mul, n3, one_mul]
      · exact n4.symm
    have r2 : ((1, b) : Pt ℝ) ∈ convexHull ℝ {p : Pt ℝ | p ∈ tallBox h} := by
      have := hc (m (1, -h) (by simp [tallBox])) (m (1, h) (by simp [tallBox])) n1 n2 n3
      convert this using 1
      ext <;> simp only [Prod.fst_add, Prod.snd_add, Prod.smul_fst, Prod.smul_snd, smul_eq_mul]
      · rw [← add_mul, n3, one_mul]
      · exact n4.symm
    have := hc r1 r2 (by linarith : 0 ≤ a - 1) (by linarith : 0 ≤ 2 - a) (by ring)
    convert this using 1
    ext <;> simp <;> ring

theorem tallBox_star {h a b : ℝ} (h1 : 1 < a) (h2 : a < 2) (h3 : -h < b) (h4 : b < h) : StarAbout (a, b) (tallBox h) := by
  have hh : 0 < h := by linarith
  have p1 : 0 < (2 - a) * h := mul_pos (by linarith) hh
  have p2 : 0 < (a - 1) * h := mul_pos (by linarith) hh
  refine starAbout_of_halves (0, -1) (by norm_num) 2 (by norm_num) (by norm_num [tallBox]) ?_ ?_ ?_
  · intro i hi
    interval_cases i
    · left; simp [tallBox, corner, cross]; linarith
    · left; simp [tallBox, corner, cross]; linarith
  · intro i hi hi2
    simp only [tallBox, List.length_cons, List.length_nil] at hi
    interval_cases i
    · left; simp [tallBox, corner, cross]; linarith
    · left; simp [tallBox, corner, cross]; linarith
  · intro i hi
    simp only [tallBox, List.length_cons, List.length_nil] at hi
    interval_cases i <;> simp [tallBox, corner, cross] <;> nlinarith

theorem tall_inner {h : ℝ} (h0 : 0 < h) : (interior (polyRegion none (tallBox h))).Nonempty := by
  rw [tallBox_region h0, interior_prod_eq, interior_Icc, interior_Icc]
  exact ⟨(3 / 2, 0), ⟨by norm_num, by norm_num⟩, by simpa using h0, by simpa using h0⟩

theorem tall_robot (i : Nat) {h : ℝ} (h0 : 0 < h) : ViewOk (polyRegion none (tallBox h)) (obsTall i h).tangentPoints (-1, 0) (1, h) (1, -h) := by
  apply polygon_view (1, 0)
  · norm_num [tallBox]
  · simp [tallBox]
  · simp [tallBox]
  · intro p hp
    simp only [tallBox, List.mem_cons, List.not_mem_nil, or_false] at hp
    rcases hp with rfl | rfl | rfl | rfl
    · exact Or.inr (by simp only [cross, Prod.mk_sub_mk]; linarith)
    · exact Or.inr (by simp only [cross, Prod.mk_sub_mk]; linarith)
    · exact Or.inl rfl
    · exact Or.inr (by simp only [cross, Prod.mk_sub_mk]; linarith)
  · intro p hp
    simp only [tallBox, List.mem_cons, List.not_mem_nil, or_false] at hp
    rcases hp with rfl | rfl | rfl | rfl
    · exact Or.inr (by simp only [cross, Prod.mk_sub_mk]; linarith)
    · exact Or.inr (by simp only [cross, Prod.mk_sub_mk]; linarith)
    · exact Or.inr (by simp only [cross, Prod.mk_sub_mk]; linarith)
    · exact Or.inl rfl
  · simp only [normSq, Prod.mk_sub_mk]; nlinarith [sq_nonneg (0 - h)]
  · simp only [normSq, Prod.mk_sub_mk]; nlinarith [sq_nonneg (0 - -h)]
  · exact tall_inner h0

theorem tall_goal (i : Nat) {h : ℝ} (h0 : 1 ≤ h) : ViewOk (polyRegion none (tallBox h)) (obsTall i h).tangentPoints (5, 1 / 2) (2, -h) (2, h) := by
  apply polygon_view (-1, 0)
  · norm_num [tallBox]
  · simp [tallBox]
  · simp [tallBox]
  · intro p hp
    simp only [tallBox, List.mem_cons, List.not_mem_nil, or_false] at hp
    rcases hp with rfl | rfl | rfl | rfl
    · exact Or.inl rfl
    · exact Or.inr (by simp only [cross, Prod.mk_sub_mk]; linarith)
    · exact Or.inr (by simp only [cross, Prod.mk_sub_mk]; linarith)
    · exact Or.inr (by simp only [cross, Prod.mk_sub_mk]; linarith)
  · intro p hp
    simp only [tallBox, List.mem_cons, List.not_mem_nil, or_false] at hp
    rcases hp with rfl | rfl | rfl | rfl
    · exact Or.inr (by simp only [cross, Prod.mk_sub_mk]; linarith)
    · exact Or.inl rfl
    · exact Or.inr (by simp only [cross, Prod.mk_sub_mk]; linarith)
    · exact Or.inr (by simp only [cross, Prod.mk_sub_mk]; linarith)
  · simp only [normSq, Prod.mk_sub_mk]; nlinarith [sq_nonneg (1 / 2 - -h)]
  · simp only [normSq, Prod.mk_sub_mk]; nlinarith [sq_nonneg (1 / 2 - h)]
  · exact tall_inner (by linarith)

theorem tall_none (i : Nat) {h : ℝ} (h1 : 1 ≤ h) : ∀ k ∈ (nearTriple 0).points, (obsTall i h).tangentPoints k = .ok [] := by
  intro k hk
  obtain ⟨h1, h2⟩ := near_close le_rfl (by norm_num) k hk
  rw [abs_le] at h1 h2
  exact C38_inside none (tallBox h) (by simp [tallBox]) .global .global (Or.inl rfl) (Or.inl rfl) k
    (tallBox_star (a := k.1) (b := k.2) (by linarith) (by linarith) (by linarith) (by linarith))

theorem mid_tall {h : ℝ} (h0 : 0 < h) : Boxed (polyRegion none (tallBox h)) ∧ midPoint (polyRegion none (tallBox h)) = (3 / 2, 0) := by
  have h1 : (Set.Icc (1 : ℝ) 2).Nonempty := ⟨1, by norm_num⟩
  have h2 : (Set.Icc (-h) h).Nonempty := ⟨h, by constructor <;> linarith⟩
  have h3 : -h ≤ h := by linarith
  rw [tallBox_region h0]
  simp only [Boxed, midPoint, Set.fst_image_prod _ h2, Set.snd_image_prod h1, csInf_Icc (show (1 : ℝ) ≤ 2 by norm_num),
    csSup_Icc (show (1 : ℝ) ≤ 2 by norm_num), csInf_Icc h3, csSup_Icc h3]
  refine ⟨⟨h1.prod h2, ⟨bddBelow_Icc, bddAbove_Icc⟩, bddBelow_Icc, bddAbove_Icc⟩, ?_⟩
  rw [neg_add_cancel]
  norm_num

theorem tall_area {h : ℝ} (h0 : 0 < h) : volume.real (polyRegion none (tallBox h)) = 2 * h := by
  rw [tallBox_region h0, measureReal_def, Measure.volume_eq_prod, Measure.prod_prod, Real.volume_Icc, Real.volume_Icc, ENNReal.toReal_mul,
    ENNReal.toReal_ofReal (by norm_num), ENNReal.toReal_ofReal (by linarith)]
  ring

theorem tall_triangle {h : ℝ} (h1 : 1 ≤ h) : kernelTriangle boxOps (polyRegion none (tallBox h)) (3 / 2, 0) (1 / 10) = .ok (nearTriple 0) := by
  have hb : ∃ d, boxOps.exteriorDistance (polyRegion none (tallBox h)) (3 / 2, 0) = .ok d ∧ 1 / 2 ≤ d := by
    refine ⟨_, rfl, le_csInf ?_ ?_⟩
    · refine ⟨_, (1, 0), ?_, rfl⟩
      rw [tallBox_region (by linarith), frontier, interior_prod_eq, interior_Icc, interior_Icc]
      exact ⟨subset_closure ⟨⟨by norm_num, by norm_num⟩, by simp only; linarith, by simp only; linarith⟩, by norm_num⟩
    · rintro d ⟨r, hr, rfl⟩
      rw [tallBox_region (by linarith), frontier, interior_prod_eq, interior_Icc, interior_Icc] at hr
      have hn : ¬ ((1 < r.1 ∧ r.1 < 2) ∧ -h < r.2 ∧ r.2 < h) := hr.2
      apply Real.le_sqrt_of_sq_le
      simp only [normSq, Prod.fst_sub, Prod.snd_sub]
      by_contra hlt
      push Not at hlt
      have a := abs_lt.1 (abs_lt_of_sq_lt_sq (by nlinarith [sq_nonneg (r.2 - 0)] : (r.1 - 3 / 2) ^ 2 < (1 / 2) ^ 2) (by norm_num))
      have b := abs_lt.1 (abs_lt_of_sq_lt_sq (by nlinarith [sq_nonneg (r.1 - 3 / 2)] : (r.2 - 0) ^ 2 < (1 / 2) ^ 2) (by norm_num))
      exact hn ⟨⟨by linarith [a.1], by linarith [a.2]⟩, by linarith [b.1], by linarith [b.2]⟩
  obtain ⟨d, h1, h2⟩ := hb
  have hm : min (1 / 10 : ℝ) (0.9 * d) = 1 / 10 := min_eq_left (by linarith)
  rw [kernelTriangle, borderDistance, if_pos (show boxOps.isPolygon _ = true from rfl), h1]
  simp only [bind, Except.bind, hm, nearTriple]

/-- Robot at (-1, 0), goal at (5, 1/2), with the kernels and the kernel points that are computed. -/
noncomputable def tallCfg : StarCfg :=
  { nearCfg (1 / 2) with
    admEmpty := fun n l => (admissibleKernels setGeo (-1, 0) (5, 1 / 2) n l).map setGeo.negligible
    select := selectPoints boxOps (admissibleKernels setGeo (-1, 0) (5, 1 / 2)) unionOf Set.univ (·.polygon)
      (-1, 0) (5, 1 / 2) (1 / 10) (fun _ _ => []) (fun _ _ => ⟨0, 1, 1, 1, 1, 1⟩) }

/-- The two boxes. -/
noncomputable def tallObs : List ConvObs := [obsTall 0 1, obsTall 1 2]

theorem tall_mem {o : ConvObs} (ho : o ∈ tallObs) : ∃ i h, 1 ≤ h ∧ h ≤ 2 ∧ o = obsTall i h ∧ h = if o.id = some 0 then 1 else 2 := by
  simp only [tallObs, List.mem_cons, List.not_mem_nil, or_false] at ho
  rcases ho with rfl | rfl
  · exact ⟨0, 1, le_rfl, by norm_num, rfl, rfl⟩
  · exact ⟨1, 2, by norm_num, le_rfl, rfl, rfl⟩

theorem tall_scene : CallSceneOk setGeo (-1, 0) (5, 1 / 2) tallObs (fun o => (1, if o.id = some 0 then 1 else 2))
    (fun o => (1, -if o.id = some 0 then 1 else 2)) (fun o => (2, -if o.id = some 0 then 1 else 2)) (fun o => (2, if o.id = some 0 then 1 else 2))
    (fun _ => True) := by
  refine ⟨setGeo_ok, fun o ho => ?_, fun o ho => ?_, ?_, ?_⟩
  · obtain ⟨i, h, h1, -, e1, e2⟩ := tall_mem ho
    simp only [← e2]
    rw [e1]
    exact tall_robot i (by linarith)
  · obtain ⟨i, h, h1, -, e1, e2⟩ := tall_mem ho
    simp only [← e2]
    rw [e1]
    exact tall_goal i h1
  · norm_num [tallObs, obsTall, polygonObs, cross, abs_of_pos, abs_of_neg]
  · norm_num [tallObs, obsTall, polygonObs, cross, abs_of_pos, abs_of_neg]

/-- What the obstacles of a cluster have in common is one of the boxes. -/
theorem tall_common {l : List ConvObs} (hl : Part tallObs l) : ∃ h, 1 ≤ h ∧ h ≤ 2 ∧ {p | ∀ o ∈ l, p ∈ o.polygon} = polyRegion none (tallBox h) := by
  have hsub : polyRegion none (tallBox 1) ⊆ polyRegion none (tallBox 2) := by
    rw [tallBox_region (by norm_num), tallBox_region (by norm_num)]
    exact Set.prod_mono le_rfl (Set.Icc_subset_Icc (by norm_num) (by norm_num))
  have hm : ∀ o ∈ l, o = obsTall 0 1 ∨ o = obsTall 1 2 := fun o ho => by simpa [tallObs] using hl.sub o ho
  by_cases h : obsTall 0 1 ∈ l
  · refine ⟨1, le_rfl, by norm_num, ?_⟩
    ext p
    refine ⟨fun hp => hp _ h, fun hp o ho => ?_⟩
    rcases hm o ho with rfl | rfl
    · exact hp
    · exact hsub hp
  · refine ⟨2, by norm_num, le_rfl, ?_⟩
    have hb : ∀ o ∈ l, o = obsTall 1 2 := fun o ho => (hm o ho).resolve_left fun e => h (e ▸ ho)
    obtain ⟨o, ho⟩ := List.exists_mem_of_ne_nil _ hl.nonempty
    ext p
    refine ⟨fun hp => ?_, fun hp o ho => ?_⟩
    · have := hp o ho
      rw [hb o ho] at this
      exact this
    · rw [hb o ho]
      exact hp

theorem tall_box {h : ℝ} (h1 : 1 ≤ h) (h2 : h ≤ 2) : ∀ p ∈ polyRegion none (tallBox h), InBox p := by
  rw [tallBox_region (by linarith)]
  rintro p ⟨⟨a1, a2⟩, a3, a4⟩
  exact ⟨by rw [abs_lt]; constructor <;> linarith, by rw [abs_lt]; constructor <;> linarith⟩

theorem tall_well : WellInBox ((-1, 0) : Pt ℝ) ∧ WellInBox ((5, 1 / 2) : Pt ℝ) := by
  refine ⟨⟨?_, ?_⟩, ?_, ?_⟩ <;> norm_num [abs_of_pos]

/-- The kernel contains what the obstacles have in common, and this is the selection set. -/
theorem tall_selection {l : List ConvObs} (hl : Part tallObs l) (n : Nat) : ∃ A h, 1 ≤ h ∧ h ≤ 2 ∧ admissibleKernels setGeo (-1, 0) (5, 1 / 2) n l = .ok A ∧
    polyRegion none (tallBox h) ⊆ A ∧ {p | p ∈ A ∧ ∀ k ∈ l.map (·.polygon), p ∈ k} = polyRegion none (tallBox h) ∧
    limitToExterior boxOps A (unionOf l) Set.univ = A ∧ selectionSet boxOps A (unionOf l) Set.univ (some (l.map (·.polygon))) = polyRegion none (tallBox h) := by
  obtain ⟨A, h1, m⟩ := kernel_points_of tall_scene tall_well.1 tall_well.2 (fun _ _ _ _ => trivial) hl n
  obtain ⟨h, b1, b2, e⟩ := tall_common hl
  have hsub : polyRegion none (tallBox h) ⊆ A := by
    intro p hp
    have hin : ∀ o ∈ l, p ∈ o.polygon := by
      have : p ∈ {p | ∀ o ∈ l, p ∈ o.polygon} := by rw [e]; exact hp
      exact this
    obtain ⟨o, ho⟩ := List.exists_mem_of_ne_nil _ hl.nonempty
    have hfree : ∀ y, (∀ o ∈ l, y ∉ o.polygon ∧ Convex ℝ o.polygon) → ∀ o ∈ l, p ∈ closure (freeFrom o.polygon y) := by
      intro y hy o ho
      refine subset_closure (free_of_mem (T := (p, p, p)) (hy o ho).2 ?_ (hy o ho).1 (subset_convexHull ℝ _ ?_))
      · simpa [Triple.points] using hin o ho
      · simp [Triple.points]
    have hx := fun o ho => tall_scene.robot o (hl.sub o ho)
    have hg := fun o ho => tall_scene.goal o (hl.sub o ho)
    refine (m p (tall_box b1 b2 p hp) (fun e => (hx o ho).outside (e ▸ hin o ho)) fun e => (hg o ho).outside (e ▸ hin o ho)).2 fun o ho => ?_
    exact ⟨hfree _ (fun o ho => ⟨(hx o ho).outside, (hx o ho).convex⟩) o ho, hfree _ (fun o ho => ⟨(hg o ho).outside, (hg o ho).convex⟩) o ho⟩
  have hcut : {p | p ∈ A ∧ ∀ k ∈ l.map (·.polygon), p ∈ k} = polyRegion none (tallBox h) := by
    rw [← e]
    ext p
    simp only [List.forall_mem_map, Set.mem_ofPred_eq, and_iff_right_iff_imp]
    intro hp
    exact hsub (by rw [← e]; exact hp)
  have hlim : limitToExterior boxOps A (unionOf l) Set.univ = A := by
    simp [limitToExterior, boxOps, planeOps]
  refine ⟨A, h, b1, b2, h1, hsub, hcut, hlim, ?_⟩
  have hf : (l.map (·.polygon)).foldl boxOps.intersection A = polyRegion none (tallBox h) := by
    rw [← hcut]
    exact foldl_cut _ _
  have hv : boxOps.area (polyRegion none (tallBox h)) = 2 * h := tall_area (by linarith)
  simp only [selectionSet, hlim, hf]
  have hbig : (1e-6 : ℝ) < 2 * h := by norm_num; linarith
  rw [hv, if_neg (not_lt.2 hbig.le), hv, if_pos hbig]

theorem tall_select {l : List ConvObs} (hl : Part tallObs l) (n : Nat) : tallCfg.select n l none = .ok (nearTriple 0) := by
  obtain ⟨A, h, b1, b2, h1, hsub, -, -, hs⟩ := tall_selection hl n
  have hc : isCollinear ((-1, 0) : Pt ℝ) (5, 1 / 2) (3 / 2, 0) = false := by
    norm_num [isCollinear, orientationVal, collinearThreshold, abs_of_pos, abs_of_neg]
  have hn : boxOps.nearestToCentroid A (polyRegion none (tallBox h)) = .ok (3 / 2, 0) := by
    refine (if_pos ⟨(mid_tall (by linarith)).1, ?_⟩).trans (congrArg Except.ok (mid_tall (by linarith)).2)
    rw [(mid_tall (by linarith)).2]
    refine hsub ?_
    rw [tallBox_region (by linarith)]
    exact ⟨⟨by norm_num, by norm_num⟩, by simp only; linarith, by simp only; linarith⟩
  have ht : timings ⟨0, 1, 1, 1, 1, 1⟩ = .ok () := by norm_num [timings]
  simp only [tallCfg, selectPoints, h1, kernelPoints, hs, triangleCentre, hn, perturb, hc, tall_triangle b1, ht, Option.map_none, bind,
    Except.bind, Bool.false_eq_true, if_false]

/-- A concrete case of `C118_program_partial`: the two boxes in both orders. -/
theorem tall_order : SameResult seenStar (clusterAndStarify (starGeo tallCfg) ⟨none, true, false⟩ none 2 [obsTall 0 1, obsTall 1 2])
    (clusterAndStarify (starGeo tallCfg) ⟨none, true, false⟩ none 2 [obsTall 1 2, obsTall 0 1]) := by
  refine C118_program_partial (cfg := tallCfg) (obstacles := tallObs) isSetList_dedup (by simp [tallObs, obsTall, polygonObs])
    (fun o ho => by obtain ⟨i, h, -, -, rfl, -⟩ := tall_mem ho; rfl) tall_scene tall_well.1 tall_well.2 (fun _ _ _ _ => trivial)
    (fun o ho => by obtain ⟨i, h, b1, b2, rfl, -⟩ := tall_mem ho; exact tall_box b1 b2) rfl (fun _ _ _ _ _ _ _ _ _ => rfl)
    (geo := boxOps) (boxOps_moves 0).difference (boxOps_moves 0).intersection (boxOps_moves 0).nearest Set.univ (1 / 10) (fun _ _ => [])
    (fun _ _ => ⟨0, 1, 1, 1, 1, 1⟩) (fun _ _ _ _ => ⟨rfl, rfl⟩) rfl ?_ ?_ ⟨none, true, false⟩ (.inr ⟨rfl, fun _ => rfl, fun _ _ _ => rfl⟩)
    (List.Perm.swap _ _ _) 2 (by simp [tallObs])
  · intro n l A hl _ hA
    obtain ⟨A', h, b1, b2, h1, hsub, hcut, hlim, hs⟩ := tall_selection hl n
    have : A' = A := Except.ok.inj (h1.symm.trans hA)
    subst this
    rw [hlim, hs]
    constructor
    · left
      rw [hcut]
      change 1e-6 < volume.real _
      rw [tall_area (by linarith)]
      norm_num
      linarith
    · intro g hg
      have : g = polyRegion none (tallBox h) := by
        rcases hg with rfl | ⟨gs, hgs, hg⟩
        · rfl
        · change Except.ok [polyRegion none (tallBox h)] = Except.ok gs at hgs
          rw [Except.ok.injEq] at hgs
          rw [← hgs] at hg
          exact List.mem_singleton.1 hg
      subst this
      have hc : boxOps.centroid (polyRegion none (tallBox h)) = .ok (3 / 2, 0) :=
        (if_pos (mid_tall (by linarith)).1).trans (congrArg Except.ok (mid_tall (by linarith)).2)
      refine ⟨_, hc, hsub ?_, ⟨?_, ?_⟩, ?_, ?_⟩
      · rw [tallBox_region (by linarith)]
        exact ⟨⟨by norm_num, by norm_num⟩, by simp only; linarith, by simp only; linarith⟩
      · norm_num [abs_of_pos]
      · norm_num
      · change ((3 / 2, 0) : Pt ℝ) ≠ (-1, 0)
        norm_num
      · change ((3 / 2, 0) : Pt ℝ) ≠ (5, 1 / 2)
        norm_num
  · intro n l hl _
    refine ⟨_, tall_select hl n, none, clusterHull_none _ _ _ fun o ho k hk => ?_⟩
    obtain ⟨i, h, b1, -, rfl, -⟩ := tall_mem (hl.sub o ho)
    exact tall_none i b1 k hk

end Starworlds
