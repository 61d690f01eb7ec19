import Verif.Props.AdmissibleExample
import Verif.Props.StarifyDisjoint
import Verif.Props.ExcludeExample
import Mathlib.MeasureTheory.Measure.Lebesgue.Basic

/-! # C85: a call for a box with the kernels and kernel points that are computed -/

namespace Starworlds

open Real Spec MeasureTheory

/-- Polygons as sets of points; the centroid is only right for the box. -/
noncomputable def planeOps : PolyOps (Set (Pt ℝ)) where
  difference a b := a \ b
  intersection a b := a ∩ b
  within a b := by classical exact decide (a ⊆ b)
  area g := volume.real g
  centroid _ := .ok (3 / 2, 0)
  nearestToCentroid _ _ := .ok (3 / 2, 0)
  contains g p := by classical exact decide (p ∈ interior g)
  split g _ _ := .ok [g]
  isPolygon _ := true
  geoms g := [g]
  exteriorDistance g c := .ok (sInf {d | ∃ r ∈ frontier g, d = √(normSq (r - c))})

theorem planeOps_ok : OpsOk planeOps id := ⟨fun _ _ => rfl, fun _ _ => Set.sdiff_subset⟩

theorem planeOps_simple (g : Set (Pt ℝ)) : Simple planeOps id g := by
  rw [Simple, if_pos (show planeOps.isPolygon g = true from rfl)]
  intro c d h
  simp only [planeOps, Except.ok.injEq] at h
  subst h
  constructor
  · exact Real.sInf_nonneg (by rintro x ⟨r, -, rfl⟩; exact Real.sqrt_nonneg _)
  · intro r hr
    exact csInf_le ⟨0, by rintro x ⟨r, -, rfl⟩; exact Real.sqrt_nonneg _⟩ ⟨r, hr, rfl⟩

noncomputable def obsNear : ConvObs := polygonObs (some 0) true none nearBox

theorem nearBox_region : polyRegion none nearBox = Set.Icc 1 2 ×ˢ Set.Icc (-1) 1 := by
  rw [polyRegion_none]
  apply subset_antisymm
  · refine convexHull_min ?_ ((convex_Icc _ _).prod (convex_Icc _ _))
    intro p hp
    simp only [Set.mem_ofPred_eq, nearBox, List.mem_cons, List.not_mem_nil, or_false] at hp
    rcases hp with rfl | rfl | rfl | rfl <;> norm_num
  · rintro ⟨a, b⟩ ⟨⟨h1, h2⟩, h3, h4⟩
    simp only at h1 h2 h3 h4
    have hc := convex_convexHull ℝ {p : Pt ℝ | p ∈ nearBox}
    have m : ∀ p ∈ nearBox, p ∈ convexHull ℝ {p : Pt ℝ | p ∈ nearBox} := fun p hp => subset_convexHull ℝ _ hp
    have r1 : ((2, b) : Pt ℝ) ∈ convexHull ℝ {p : Pt ℝ | p ∈ nearBox} := by
      have := hc (m (2, -1) (by simp [nearBox])) (m (2, 1) (by simp [nearBox])) (by linarith : 0 ≤ (1 - b) / 2) (by linarith : 0 ≤ (1 + b) / 2) (by ring)
      convert this using 1
      ext <;> simp <;> ring
    have r2 : ((1, b) : Pt ℝ) ∈ convexHull ℝ {p : Pt ℝ | p ∈ nearBox} := by
      have := hc (m (1, -1) (by simp [nearBox])) (m (1, 1) (by simp [nearBox])) (by linarith : 0 ≤ (1 - b) / 2) (by linarith : 0 ≤ (1 + b) / 2) (by ring)
      convert this using 1
      ext <;> simp <;> ring
    have := hc r1 r2 (by linarith : 0 ≤ a - 1) (by linarith : 0 ≤ 2 - a) (by ring)
    convert this using 1
    ext <;> simp <;> ring

theorem nearBox_star {a b : ℝ} (h1 : 1 < a) (h2 : a < 2) (h3 : -1 < b) (h4 : b < 1) : StarAbout (a, b) nearBox := by
  refine starAbout_of_halves (0, -1) (by norm_num) 2 (by norm_num) (by norm_num [nearBox]) ?_ ?_ ?_
  · intro i hi
    interval_cases i
    · left; simp [nearBox, corner, cross]; linarith
    · left; simp [nearBox, corner, cross]; linarith
  · intro i hi hi2
    simp only [nearBox, List.length_cons, List.length_nil] at hi
    interval_cases i
    · left; simp [nearBox, corner, cross]; linarith
    · left; simp [nearBox, corner, cross]; linarith
  · intro i hi
    simp only [nearBox, List.length_cons, List.length_nil] at hi
    interval_cases i <;> simp [nearBox, corner, cross] <;> nlinarith

theorem near_robot : ViewOk (polyRegion none nearBox) obsNear.tangentPoints (-1, 0) (1, 1) (1, -1) := by
  apply polygon_view (1, 0)
  · norm_num [nearBox]
  · simp [nearBox]
  · simp [nearBox]
  · norm_num [nearBox, cross]
  · norm_num [nearBox, cross]
  · norm_num [normSq]
  · norm_num [normSq]
  · rw [nearBox_region, interior_prod_eq, interior_Icc, interior_Icc]
    exact ⟨(3 / 2, 0), by norm_num⟩

theorem near_goal {g : ℝ} (h0 : 0 ≤ g) (h1 : g ≤ 1 / 2) :
    ViewOk (polyRegion none nearBox) obsNear.tangentPoints (5, g) (2, -1) (2, 1) := by
  apply polygon_view (-1, 0)
  · norm_num [nearBox]
  · simp [nearBox]
  · simp [nearBox]
  · intro p hp
    simp only [nearBox, List.mem_cons, List.not_mem_nil, or_false] at hp
    rcases hp with rfl | rfl | rfl | rfl
    · exact Or.inl rfl
    · exact Or.inr (by simp only [cross, Prod.mk_sub_mk]; linarith)
    · exact Or.inr (by simp only [cross, Prod.mk_sub_mk]; linarith)
    · exact Or.inr (by simp only [cross, Prod.mk_sub_mk]; linarith)
  · intro p hp
    simp only [nearBox, List.mem_cons, List.not_mem_nil, or_false] at hp
    rcases hp with rfl | rfl | rfl | rfl
    · exact Or.inr (by simp only [cross, Prod.mk_sub_mk]; linarith)
    · exact Or.inl rfl
    · exact Or.inr (by simp only [cross, Prod.mk_sub_mk]; linarith)
    · exact Or.inr (by simp only [cross, Prod.mk_sub_mk]; linarith)
  · simp only [normSq, Prod.mk_sub_mk]; nlinarith [sq_nonneg (g - -1)]
  · simp only [normSq, Prod.mk_sub_mk]; nlinarith [sq_nonneg (g - 1)]
  · exact near_robot.inner

/-- Both admissible kernels of the box contain it. -/
theorem near_kernel {g : ℝ} (h0 : 0 ≤ g) (hg2 : g ≤ 1 / 2) (n : Nat) : ∃ A, admissibleKernels setGeo (-1, 0) (5, g) n [obsNear] = .ok A ∧ polyRegion none nearBox ⊆ A := by
  have hg : |g| ≤ 10 ^ 6 - 1 := by rw [abs_of_nonneg h0]; linarith
  have hbox : ∀ p ∈ polyRegion none nearBox, InBox p := by
    rw [nearBox_region]
    rintro p ⟨⟨h1, h2⟩, h3, h4⟩
    exact ⟨by rw [abs_lt]; constructor <;> linarith, by rw [abs_lt]; constructor <;> linarith⟩
  have hfree : ∀ y ∉ polyRegion none nearBox, ∀ p ∈ polyRegion none nearBox, p ∈ closure (freeFrom (polyRegion none nearBox) y) := by
    intro y hy p hp
    refine subset_closure (free_of_mem (T := (p, p, p)) (polyRegion_convex none nearBox) ?_ hy (subset_convexHull ℝ _ ?_))
    · simpa [Triple.points] using hp
    · simp [Triple.points]
  have hview : ∀ y, (∃ t s, ViewOk (polyRegion none nearBox) obsNear.tangentPoints y t s) →
      ∀ p ∈ polyRegion none nearBox, p ∈ closure (freeFrom (polyRegion none nearBox) y) :=
    fun y ⟨_, _, h⟩ => hfree y h.outside
  cases n with
  | zero =>
    obtain ⟨A, h1, h2⟩ := C93_first_partial setGeo_ok (by norm_num) (by norm_num) (by norm_num) hg near_robot (near_goal h0 hg2)
      (fun _ _ _ _ => trivial)
    exact ⟨A, h1, fun p hp => (h2 p (hbox p hp)).2 ⟨hview _ ⟨_, _, near_robot⟩ p hp, hview _ ⟨_, _, (near_goal h0 hg2)⟩ p hp⟩⟩
  | succ n =>
    obtain ⟨A, h1, h2⟩ := C93_loop_partial (pts := fun _ => polyRegion none nearBox) (obs := [obsNear]) (x := (-1, 0)) (xg := (5, g))
      (t := fun _ => (1, 1)) (s := fun _ => (1, -1)) (t' := fun _ => (2, -1)) (s' := fun _ => (2, 1)) setGeo_ok (by simp)
      (by norm_num) (by norm_num) (by norm_num) hg
      (fun o ho => by rw [List.mem_singleton.1 ho]; exact near_robot) (fun o ho => by rw [List.mem_singleton.1 ho]; exact (near_goal h0 hg2))
      (by norm_num [cross])
      (by simp only [List.flatMap_cons, List.flatMap_nil, List.append_nil, List.pairwise_pair, cross, Prod.mk_sub_mk]; rw [lt_abs]; right; linarith) (fun _ _ _ _ => trivial) []
    refine ⟨A, h1, fun p hp => (h2 p (hbox p hp)).2 rfl ?_ ?_ fun o ho => ?_⟩
    · rintro rfl; exact near_robot.outside hp
    · rintro rfl; exact (near_goal h0 hg2).outside hp
    · exact ⟨hview _ ⟨_, _, near_robot⟩ p hp, hview _ ⟨_, _, (near_goal h0 hg2)⟩ p hp⟩

/-- The selection set is the box. -/
theorem near_selection {A : Set (Pt ℝ)} (h : polyRegion none nearBox ⊆ A) :
    selectionSet planeOps A (polyRegion none nearBox) Set.univ (some [polyRegion none nearBox]) = polyRegion none nearBox := by
  have hv : volume.real (polyRegion none nearBox) = 2 := by
    rw [nearBox_region, measureReal_def, Measure.volume_eq_prod, Measure.prod_prod]
    norm_num [Real.volume_Icc]
  have e : A ∩ polyRegion none nearBox = polyRegion none nearBox := Set.inter_eq_right.2 h
  simp only [selectionSet, limitToExterior, planeOps, List.foldl, Set.subset_univ, decide_true, Bool.not_true, Bool.false_eq_true, if_false, e]
  rw [hv]
  norm_num
  intro h0
  rw [hv] at h0
  norm_num at h0

/-- The border is 1/2 away from the centre. -/
theorem near_border {y : ℝ} (h0 : 0 ≤ y) (h1 : y ≤ 1 / 10) :
    ∃ d, planeOps.exteriorDistance (polyRegion none nearBox) (3 / 2, y) = .ok d ∧ 1 / 2 ≤ d := by
  refine ⟨_, rfl, le_csInf ?_ ?_⟩
  · refine ⟨_, (1, 0), ?_, rfl⟩
    rw [nearBox_region, frontier, interior_prod_eq, interior_Icc, interior_Icc]
    exact ⟨subset_closure (by norm_num), by norm_num⟩
  · rintro d ⟨r, hr, rfl⟩
    rw [nearBox_region, frontier, interior_prod_eq, interior_Icc, interior_Icc] at hr
    have hn : ¬ ((1 < r.1 ∧ r.1 < 2) ∧ -1 < r.2 ∧ r.2 < 1) := hr.2
    apply Real.le_sqrt_of_sq_le
    simp only [normSq, Prod.fst_sub, Prod.snd_sub]
    by_contra hlt
    push Not at hlt
    have a := abs_lt.1 (abs_lt_of_sq_lt_sq (by nlinarith [sq_nonneg (r.2 - y)] : (r.1 - 3 / 2) ^ 2 < (1 / 2) ^ 2) (by norm_num))
    have b := abs_lt.1 (abs_lt_of_sq_lt_sq (by nlinarith [sq_nonneg (r.1 - 3 / 2)] : (r.2 - y) ^ 2 < (1 / 2) ^ 2) (by norm_num))
    exact hn ⟨⟨by linarith [a.1], by linarith [a.2]⟩, by linarith [b.1], by linarith [b.2]⟩

/-- The kernel points around (3/2, y). -/
noncomputable def nearTriple (y : ℝ) : Triple := equilateralTriangle (3 / 2, y) (1 / 10) 0

theorem near_mean (y : ℝ) : (nearTriple y).mean = (3 / 2, y) := (C10_centroid_partial (3 / 2, y) (1 / 10) 0 (Or.inl rfl)).1

theorem near_triangle {y : ℝ} (h0 : 0 ≤ y) (h1 : y ≤ 1 / 10) :
    kernelTriangle planeOps (polyRegion none nearBox) (3 / 2, y) (1 / 10) = .ok (nearTriple y) := by
  obtain ⟨d, h1, h2⟩ := near_border h0 h1
  have hm : min (1 / 10 : ℝ) (0.9 * d) = 1 / 10 := min_eq_left (by linarith)
  rw [kernelTriangle, borderDistance, if_pos (show planeOps.isPolygon _ = true from rfl), h1]
  simp only [bind, Except.bind, hm, nearTriple]

/-- Robot at (-1, 0), goal at (5, g), and one random draw. -/
noncomputable def nearCfg (g : ℝ) : StarCfg where
  x := (-1, 0)
  xg := (5, g)
  unique := List.dedup
  hullFuel := 10
  setList := List.dedup
  timeoutInit _ := false
  timeoutIter _ := false
  timeoutConvex _ := false
  admEmpty _ _ := .ok false
  select := selectPoints planeOps (admissibleKernels setGeo (-1, 0) (5, g)) (fun _ => polyRegion none nearBox) Set.univ
    (·.polygon) (-1, 0) (5, g) (1 / 10) (fun _ _ => [(0, 1 / 10)]) (fun _ _ => ⟨0, 1, 1, 1, 1, 1⟩)
  isConvex _ := false

theorem near_centre {g y : ℝ} (h0 : 0 ≤ g) (h1 : g ≤ 1 / 2) (y0 : 0 ≤ y) (y1 : y ≤ 1 / 10)
    (hp : perturb (-1, 0) (5, g) (3 / 2, 0) [(0, 1 / 10)] = some (3 / 2, y)) : (nearCfg g).select 0 [obsNear] none = .ok (nearTriple y) := by
  obtain ⟨A, h1, h2⟩ := near_kernel h0 h1 0
  have hn : planeOps.nearestToCentroid A (polyRegion none nearBox) = .ok (3 / 2, 0) := rfl
  have ht : timings ⟨0, 1, 1, 1, 1, 1⟩ = .ok () := by norm_num [timings]
  have hk : obsNear.polygon = polyRegion none nearBox := rfl
  simp only [nearCfg, selectPoints, h1, kernelPoints, List.map_cons, List.map_nil, hk, near_selection h2, triangleCentre, hn, hp,
    near_triangle y0 y1, ht, Option.map_none, bind, Except.bind]

/-- The centroid is kept if it is not on the line from robot to goal. -/
theorem near_select : (nearCfg (1 / 2)).select 0 [obsNear] none = .ok (nearTriple 0) := by
  refine near_centre (by norm_num) (by norm_num) (by norm_num) (by norm_num) ?_
  have hc : isCollinear ((-1, 0) : Pt ℝ) (5, 1 / 2) (3 / 2, 0) = false := by
    norm_num [isCollinear, orientationVal, collinearThreshold, abs_of_pos, abs_of_neg]
  simp only [perturb, hc, Bool.false_eq_true, if_false]

/-- Otherwise it is moved. -/
theorem near_moved : (nearCfg 0).select 0 [obsNear] none = .ok (nearTriple (1 / 10)) := by
  refine near_centre (by norm_num) (by norm_num) (by norm_num) (by norm_num) ?_
  have hc : isCollinear ((-1, 0) : Pt ℝ) (5, 0) (3 / 2, 0) = true := by
    norm_num [isCollinear, orientationVal, collinearThreshold]
  have hd : isCollinear ((-1, 0) : Pt ℝ) (5, 0) ((3 / 2, 0) + (0, 1 / 10)) = false := by
    norm_num [isCollinear, orientationVal, collinearThreshold, abs_of_pos, abs_of_neg]
  simp only [perturb, hc, hd, Bool.false_eq_true, if_false, if_true]
  norm_num

/-- The kernel points are near the centre. -/
theorem near_close {y : ℝ} (h0 : 0 ≤ y) (h1 : y ≤ 1 / 10) : ∀ k ∈ (nearTriple y).points, |k.1 - 3 / 2| ≤ 1 / 10 ∧ |k.2| ≤ 1 / 5 := by
  have h3 : 1 ≤ √3 := by rw [Real.one_le_sqrt]; norm_num
  have h4 : 0 < 1 / √3 ∧ 1 / √3 ≤ 1 := ⟨by positivity, by rw [div_le_one (by linarith)]; exact h3⟩
  have e : -1 / (2 * √3) = -(1 / √3) / 2 := by field_simp
  generalize hw : 1 / √3 = w at *
  intro k hk
  simp only [nearTriple, equilateralTriangle, Triple.points, if_true, e, hw, List.mem_cons, List.not_mem_nil, or_false] at hk
  rcases hk with rfl | rfl | rfl <;> (constructor <;> rw [abs_le] <;> constructor <;> dsimp only <;> linarith [h4.1, h4.2])

theorem near_position (y : ℝ) : GeneralPosition (nearTriple y).points := by
  have h3 : 1 ≤ √3 := by rw [Real.one_le_sqrt]; norm_num
  have h33 : √3 * √3 = 3 := Real.mul_self_sqrt (by norm_num)
  have h4 : 1 / 3 ≤ 1 / √3 := by
    rw [div_le_div_iff₀ (by norm_num) (by linarith)]; nlinarith
  have e : -1 / (2 * √3) = -(1 / √3) / 2 := by field_simp
  intro i j k hi hj hk hij hjk hik
  generalize hw : 1 / √3 = w at *
  have key : ∀ a b c : Pt ℝ, (cross (b - a) (c - a) = 3 / 200 * w ∨ cross (b - a) (c - a) = -(3 / 200 * w)) →
      1 / 10 ^ 10 < |cross (b - a) (c - a)| := by
    rintro a b c (h | h)
    · rw [h, abs_of_pos (by linarith)]; norm_num; linarith
    · rw [h, abs_neg, abs_of_pos (by linarith)]; norm_num; linarith
  simp only [nearTriple, Triple.points, List.length_cons, List.length_nil] at hi hj hk
  apply key
  interval_cases i <;> interval_cases j <;> first | (exact absurd rfl hij) | skip
  all_goals interval_cases k <;> first | (exact absurd rfl hjk) | (exact absurd rfl hik) | skip
  all_goals
    simp only [nearTriple, equilateralTriangle, Triple.points, if_true, e, hw, List.getD, List.getElem?_cons_zero, List.getElem?_cons_succ,
      Option.getD_some, cross, Prod.fst_sub, Prod.snd_sub]
    first | (left; ring1) | (right; ring1)

theorem near_none {y : ℝ} (h0 : 0 ≤ y) (h1 : y ≤ 1 / 10) : ∀ k ∈ (nearTriple y).points, obsNear.tangentPoints k = .ok [] ∧ k ∈ polyRegion none nearBox := by
  intro k hk
  obtain ⟨h1, h2⟩ := near_close h0 h1 k hk
  rw [abs_le] at h1 h2
  refine ⟨C38_inside none nearBox (by simp [nearBox]) .global .global (Or.inl rfl) (Or.inl rfl) k
    (nearBox_star (a := k.1) (b := k.2) (by linarith) (by linarith) (by linarith) (by linarith)), ?_⟩
  rw [nearBox_region]
  exact ⟨⟨by linarith, by linarith⟩, by linarith, by linarith⟩

/-- One obstacle with kernel points inside of it. -/
theorem one_alone (cfg : StarCfg) (o : ConvObs) (T : Triple) (fuel : Nat) (hk : o.hasKernel = true)
    (hr : (starGeo cfg).robotFree o = .ok true) (hg : (starGeo cfg).goalFree o = .ok true)
    (hs : cfg.select 0 [o] none = .ok T) (hh : clusterHull cfg [o] T = .ok none) (ht : ∀ n, cfg.timeoutInit n = false) :
    clusterAndStarify (starGeo cfg) ⟨none, false, false⟩ none fuel [o] = some (.ok
      ⟨[⟨clusterName [o.id], [o], some ⟨[o], none, some T.mean⟩, some T, some (ClusterObs.polygon ⟨[o], none, some T.mean⟩)⟩],
        .complete, 1, none⟩) := by
  have hi : initLoop (starGeo cfg) 0 [o] = .ok true := by
    have r3 : ∀ i, (starGeo cfg).timeoutInit i = false := ht
    have r4 : ∀ o, (starGeo cfg).exclude o = .ok () := fun _ => rfl
    simp [initLoop, hr, hg, r3, r4, bind, Except.bind]
  have hm : [o].mapM (firstCluster (starGeo cfg) none) =
      .ok [⟨clusterName [o.id], [o], some ⟨[o], none, some T.mean⟩, some T, none⟩] := by
    simp [firstCluster, starGeo, hh, bind, Except.bind, pure, Except.pure, newCluster, extractCluster,
      computeKernelPoints, prevId, hs, hk]
  have hg : getIntersectionClusters (starGeo cfg) [⟨clusterName [o.id], [o], some ⟨[o], none, some T.mean⟩, some T, none⟩] =
      .ok ([⟨clusterName [o.id], [o], some ⟨[o], none, some T.mean⟩, some T, some (ClusterObs.polygon ⟨[o], none, some T.mean⟩)⟩], false) := by
    simp [getIntersectionClusters, cachePolygon, starGeo, ClusterObs.polygon, initIdcs, interIdx, List.range_succ]
  simp only [clusterAndStarify, hi, hm, hg]
  cases fuel <;> simp [clusterLoop]

/-- A concrete case of `C85_cones_partial`: robot at (-1, 0), goal at (5, 1/2), and a box between them. All is computed: the
cones, the admissible kernel, the selection set, the kernel points. -/
example : ∃ r s, clusterAndStarify (starGeo (nearCfg (1 / 2))) ⟨none, false, false⟩ none 2 [obsNear] = some (.ok r) ∧ r.flag = .complete ∧
    r.clusters.map (·.star) = [some s] ∧ (3 / 2, 0) ∈ clusterRegion (·.polygon) s ∧ StarConvex ℝ (3 / 2, 0) (clusterRegion (·.polygon) s) ∧
    (-1, 0) ∉ clusterRegion (·.polygon) s ∧ (5, 1 / 2) ∉ clusterRegion (·.polygon) s := by
  have hr := one_alone (nearCfg (1 / 2)) obsNear (nearTriple 0) 2 rfl (admissible_some (by simp [nearBox]) near_robot.outside)
    (admissible_some (by simp [nearBox]) (near_goal (by norm_num) le_rfl).outside) near_select
    (clusterHull_none _ _ _ fun o ho k hk => by rw [List.mem_singleton.1 ho]; exact (near_none le_rfl (by norm_num) k hk).1) (fun _ => rfl)
  have hmean : (1 / 3 : ℝ) • ((nearTriple 0).1 + (nearTriple 0).2.1 + (nearTriple 0).2.2) = (3 / 2, 0) := near_mean 0
  have key := (C85_cones_partial (pts := (·.polygon)) isSetList_dedup isUnique_dedup rfl rfl (by norm_num [nearCfg]) (by norm_num [nearCfg])
    (by norm_num [nearCfg, abs_of_pos]) (by norm_num [nearCfg, abs_of_pos]) (fun _ => (1, 1)) (fun _ => (1, -1)) (fun _ => (2, -1)) (fun _ => (2, 1))
    (fun o ho => by rw [List.mem_singleton.1 ho]; exact near_robot) (fun o ho => by rw [List.mem_singleton.1 ho]; exact near_goal (by norm_num) le_rfl)
    planeOps setGeo id planeOps_ok (fun _ => True) setGeo_ok (fun _ _ _ _ => trivial) (fun _ => polyRegion none nearBox) Set.univ (·.polygon)
    (1 / 10) (by norm_num) (fun _ _ => [(0, 1 / 10)]) (fun _ _ => ⟨0, 1, 1, 1, 1, 1⟩) rfl ?_ hr (by simp)).1 _ (List.mem_singleton.2 rfl)
  · obtain ⟨T, s, h1, h2, h3, h4, h5, -, h7, h8⟩ := key
    simp only [Option.some.injEq] at h1
    subst h1
    rw [hmean] at h5
    refine ⟨_, s, hr, rfl, congrArg (fun a => [a]) h2, h5, h4 _ ?_, h7, h8⟩
    rw [← hmean]
    have hc := convex_convexHull ℝ ({(nearTriple 0).1, (nearTriple 0).2.1, (nearTriple 0).2.2} : Set (Pt ℝ))
    have := hc.sum_mem (t := Finset.univ) (w := ![1 / 3, 1 / 3, 1 / 3]) (z := ![(nearTriple 0).1, (nearTriple 0).2.1, (nearTriple 0).2.2])
      (by intro i _; fin_cases i <;> norm_num) (by simp [Fin.sum_univ_three]; norm_num)
      (by intro i _; fin_cases i <;> exact subset_convexHull ℝ _ (by simp))
    simpa [Fin.sum_univ_three, smul_add] using this
  · intro c hc n pr A T _ hA hk _
    rw [List.mem_singleton.1 hc] at hA hk ⊢
    simp only [Option.some.injEq] at hk
    subst hk
    obtain ⟨A', h1, h2⟩ := near_kernel (g := 1 / 2) (by norm_num) le_rfl n
    have : A' = A := by
      have := h1.symm.trans hA
      simpa using this
    subst this
    have hS : selectionSet planeOps A' (polyRegion none nearBox) Set.univ (some ([obsNear].map (·.polygon))) = polyRegion none nearBox :=
      near_selection h2
    refine ⟨fun _ => by norm_num [nearCfg, cross], fun _ => by norm_num [nearCfg, cross], ?_, planeOps_simple _, ?_, ?_, ?_⟩
    · intro k hk
      obtain ⟨a, b⟩ := near_close le_rfl (by norm_num) k hk
      rw [abs_le] at a b
      exact ⟨by rw [abs_lt]; constructor <;> linarith, by rw [abs_lt]; constructor <;> linarith⟩
    · rw [hS, near_mean]
      change _ ∈ polyRegion none nearBox
      rw [nearBox_region]; norm_num
    · intro o ho k hk
      rw [List.mem_singleton.1 ho]
      exact ⟨[], (near_none le_rfl (by norm_num) k hk).1, by simp, fun h => absurd (near_none le_rfl (by norm_num) k hk).2 h⟩
    · exact (selection_inside (cfg := nearCfg (1 / 2)) isUnique_dedup (obs := [obsNear]) (T := nearTriple 0)
        (fun o ho => by rw [List.mem_singleton.1 ho]; exact polyRegion_convex none nearBox)
        (fun o ho k hk => by rw [List.mem_singleton.1 ho]; exact near_none le_rfl (by norm_num) k hk) (near_position 0) (by simp [nearCfg])
        (fun o ho => by rw [List.mem_singleton.1 ho]; exact ⟨near_robot.outside, (near_goal (by norm_num) le_rfl).outside⟩)).position

/-- A concrete case of `C94_loop_partial`: the cluster of the box, with the triangle as another obstacle. The points
(-7/2, -20) and (-3/2, 20) are behind corners of the triangle, and (9, 0) is behind the robot. -/
example : ∃ A, admissibleExclude setGeo (5, 0) (5, 1 / 2) [boxEx, frontEx] [boxEx] = .ok A ∧
    (-5, 0) ∈ A ∧ (-7 / 2, -20) ∉ A ∧ (-3 / 2, 20) ∉ A ∧ (9, 0) ∉ A := by
  obtain ⟨A, B, h1, h2, h3, h4⟩ := C94_loop_partial (all := [boxEx, frontEx]) (cl := [boxEx]) (pts := fun _ => polyRegion none nearBox)
    (x := (5, 0)) (xg := (5, 1 / 2)) (t := fun _ => (2, -1)) (s := fun _ => (2, 1)) (t' := fun _ => (2, -1)) (s' := fun _ => (2, 1))
    (vs := fun _ => frontTri) (left := fun _ => frontLeft) (right := fun _ => frontRight) setGeo_ok (by simp)
    (by norm_num) (by norm_num) (by norm_num) (by norm_num [abs_of_pos])
    (fun o ho => by rw [List.mem_singleton.1 ho]; exact (near_goal le_rfl (by norm_num))) (fun o ho => by rw [List.mem_singleton.1 ho]; exact near_goal (by norm_num) le_rfl)
    (by norm_num [cross]) (by norm_num [cross]) (fun _ _ _ _ => trivial) (by
      intro o ho e he hne
      rw [List.mem_singleton.1 ho] at hne ⊢
      simp only [List.mem_cons, List.not_mem_nil, or_false] at he
      rcases he with rfl | rfl
      · exact absurd rfl hne
      · exact ⟨rfl, by simp [frontTri], fun v hv => Or.inr ⟨front_ok v hv, fun _ _ => trivial⟩⟩)
  have hAB : A = B := h3.resolve_right (by simp [setGeo])
  subst hAB
  have hext : ∀ v ∈ frontTri, boxEx.exterior v = .ok true := by
    intro v hv
    simp only [frontTri, List.mem_cons, List.not_mem_nil, or_false] at hv
    rcases hv with rfl | rfl | rfl <;> exact nearBox_exterior (by norm_num)
  have hout : ∀ p v, InBox p → v ∈ frontTri → p ∈ A → p ∈ closure (freeFrom (polyRegion none nearBox) v) :=
    fun p v hp hv hA => (h4 p hp).1 hA boxEx (by simp) frontEx (by simp) (by simp [frontEx, boxEx, polygonEx]) hext v hv
  have hx : ∀ p : Pt ℝ, p ∈ closure (freeFrom (polyRegion none nearBox) (5, 0)) ↔
      ¬ (0 < cross ((3, -1) : Pt ℝ) (p - (5, 0)) ∧ 0 < cross (p - (5, 0)) ((3, 1) : Pt ℝ)) := by
    intro p
    rw [← (view_cone (near_goal le_rfl (by norm_num)) (by norm_num) (by norm_num)).2.2.2]
    change p - (5, 0) ∈ sweep ((5, 0) - (2, -1)) ((5, 0) - (2, 1)) ↔ _
    rw [sweep_reflex (by norm_num [cross])]
    norm_num
  refine ⟨A, h1, ?_, fun h => ?_, fun h => ?_, fun h => ?_⟩
  · refine (h4 _ (by norm_num [InBox])).2 (by norm_num) (by norm_num) (fun o _ => ⟨?_, ?_⟩) (fun o ho e _ _ _ v hv => ?_)
    · rw [hx]; norm_num [cross]
    · rw [← (view_cone (near_goal (by norm_num) le_rfl) (by norm_num) (by norm_num [abs_of_pos])).2.2.2]
      change (-5, 0) - (5, 1 / 2) ∈ sweep ((5, 1 / 2) - (2, -1)) ((5, 1 / 2) - (2, 1))
      rw [sweep_reflex (by norm_num [cross])]
      norm_num [cross]
    · refine (front_free hv).2 ?_
      simp only [frontTri, List.mem_cons, List.not_mem_nil, or_false] at hv
      rcases hv with rfl | rfl | rfl <;> norm_num [frontLeft, frontRight, cross]
  · have := (front_free (by simp [frontTri])).1 (hout _ (-1, -10) (by norm_num [InBox]) (by simp [frontTri]) h)
    norm_num [frontLeft, frontRight, cross] at this
  · have := (front_free (by simp [frontTri])).1 (hout _ (0, 10) (by norm_num [InBox]) (by simp [frontTri]) h)
    norm_num [frontLeft, frontRight, cross] at this
  · have := (hx _).1 (h2 (9, 0) (by norm_num [InBox]) h boxEx (by simp)).1
    norm_num [cross] at this

/-- The oracles of `starGeo` with `exclude_obstacles`. -/
noncomputable def exGeo (cfg : StarCfg) (all : List ExObs) : Geo ExObs ClusterObs Triple (Set (Pt ℝ)) where
  id o := o.obs.id
  prim o := ⟨[o.obs], none, none⟩
  starPoly := (starGeo cfg).starPoly
  inter := (starGeo cfg).inter
  setList := cfg.setList
  timeoutInit := cfg.timeoutInit
  timeoutIter := cfg.timeoutIter
  timeoutConvex := cfg.timeoutConvex
  robotFree o := (starGeo cfg).robotFree o.obs
  goalFree o := (starGeo cfg).goalFree o.obs
  exclude := excludeWork setGeo all
  admEmpty n l := cfg.admEmpty n (l.map (·.obs))
  kernelSel n l prev := (starGeo cfg).kernelSel n (l.map (·.obs)) prev
  firstStar o kp := (starGeo cfg).firstStar o.obs kp
  loopStar n l kp := (starGeo cfg).loopStar n (l.map (·.obs)) kp
  isConvex := cfg.isConvex
  hullOf := (starGeo cfg).hullOf
  blocked := (starGeo cfg).blocked
  hullStar := (starGeo cfg).hullStar

/-- A concrete case of `C94_ellipse_false`: a box and a circle. -/
example : clusterAndStarify (exGeo (nearCfg (1 / 2)) [boxEx, ellipseEx (some 1) ⟨(1, 1), (0, 0), 20, none⟩ ∅]) ⟨none, false, false⟩ none 2
    [boxEx, ellipseEx (some 1) ⟨(1, 1), (0, 0), 20, none⟩ ∅] = some (.error .attributeError) :=
  C94_ellipse_false setGeo _ boxEx (some 1) _ ∅ (by simp [boxEx, polygonEx]) rfl rfl
    (admissible_some (by simp [nearBox]) near_robot.outside) (admissible_some (by simp [nearBox]) (near_goal (by norm_num) le_rfl).outside) _ _ _

end Starworlds
