import Verif.Props.Translate
import Verif.Props.TranslateCg
import Verif.Props.ConesExample
import Mathlib.MeasureTheory.Group.Prod
import Mathlib.MeasureTheory.Measure.Lebesgue.EqHaar

/-! # C123: a scene that is moved, and a scene that is moved too far -/

namespace Starworlds

open Real Spec MeasureTheory

/-- The centre of the smallest box around a set. -/
noncomputable def midPoint (g : Set (Pt ℝ)) : Pt ℝ :=
  ((sInf (Prod.fst '' g) + sSup (Prod.fst '' g)) / 2, (sInf (Prod.snd '' g) + sSup (Prod.snd '' g)) / 2)

/-- The coordinates of the points are bounded, and there are points. -/
def Boxed (g : Set (Pt ℝ)) : Prop :=
  g.Nonempty ∧ (BddBelow (Prod.fst '' g) ∧ BddAbove (Prod.fst '' g)) ∧ BddBelow (Prod.snd '' g) ∧ BddAbove (Prod.snd '' g)

open scoped Classical in
/-- Polygons as sets of points; the centroid is the middle of the bounding box, as is right for boxes. -/
noncomputable def boxOps : PolyOps (Set (Pt ℝ)) :=
  { planeOps with
    centroid := fun g => if Boxed g then .ok (midPoint g) else .error .valueError
    nearestToCentroid := fun a b => if Boxed b ∧ midPoint b ∈ a then .ok (midPoint b) else .error .valueError }

theorem coord_moved (d : Pt ℝ) (g : Set (Pt ℝ)) : Prod.fst '' ((· + d) '' g) = OrderIso.addRight d.1 '' (Prod.fst '' g) ∧
    Prod.snd '' ((· + d) '' g) = OrderIso.addRight d.2 '' (Prod.snd '' g) := by
  simp only [Set.image_image]
  exact ⟨rfl, rfl⟩

theorem boxed_moved (d : Pt ℝ) (g : Set (Pt ℝ)) : Boxed ((· + d) '' g) ↔ Boxed g := by
  simp only [Boxed, coord_moved, OrderIso.bddBelow_image, OrderIso.bddAbove_image, Set.image_nonempty]

theorem mid_moved (d : Pt ℝ) {g : Set (Pt ℝ)} (h : Boxed g) : midPoint ((· + d) '' g) = midPoint g + d := by
  obtain ⟨h0, ⟨h1, h2⟩, h3, h4⟩ := h
  simp only [midPoint, coord_moved]
  rw [← OrderIso.map_csInf' _ (h0.image _) h1, ← OrderIso.map_csSup' _ (h0.image _) h2, ← OrderIso.map_csInf' _ (h0.image _) h3,
    ← OrderIso.map_csSup' _ (h0.image _) h4]
  simp only [OrderIso.addRight_apply]
  ext <;> simp only [Prod.fst_add, Prod.snd_add] <;> ring

theorem boxOps_moves (d : Pt ℝ) : MovesWith d boxOps where
  difference _ _ := rfl
  intersection _ _ := rfl
  within a b := by
    simp only [boxOps, planeOps]
    exact decide_eq_decide.2 (Set.image_subset_image_iff (add_left_injective d))
  area a := by
    change volume.real ((· + d) '' a) = volume.real a
    rw [Set.image_add_right, measureReal_def, measureReal_def, Measure.volume_eq_prod, measure_preimage_add_right]
  centroid a := by
    simp only [boxOps]
    by_cases h : Boxed a
    · rw [if_pos h, if_pos ((boxed_moved d a).2 h), mid_moved d h]
      rfl
    · rw [if_neg h, if_neg fun h' => h ((boxed_moved d a).1 h')]
      rfl
  nearest a b c h hc := by
    simp only [boxOps] at h ⊢
    split at h
    · rename_i hb
      rw [Except.ok.injEq] at h
      rw [h, if_pos ⟨hb, hc⟩]
    · cases h
  contains a p := by
    simp only [boxOps, planeOps]
    exact decide_eq_decide.2 (by rw [interior_moved, mem_moved])
  split _ _ _ := rfl
  isPolygon _ := rfl
  geoms _ := rfl
  exteriorDistance a p := by
    have e : frontier ((· + d) '' a) = (· + d) '' frontier a := ((Homeomorph.addRight d).image_frontier a).symm
    simp only [boxOps, planeOps, e, Set.exists_mem_image, add_sub_add_right_eq_sub]

/-- Robot at (-1, 0), goal at (5, 1/2), and the kernel points that are computed; all moved by `d`. -/
noncomputable def sceneCfg (d : Pt ℝ) : StarCfg :=
  { nearCfg (1 / 2) with
    x := (-1, 0) + d
    xg := (5, 1 / 2) + d
    select := selectPoints boxOps (admissibleKernels setGeo ((-1, 0) + d) ((5, 1 / 2) + d)) unionOf Set.univ (·.polygon)
      ((-1, 0) + d) ((5, 1 / 2) + d) (1 / 10) (fun _ _ => []) (fun _ _ => ⟨0, 1, 1, 1, 1, 1⟩) }

theorem mid_near : Boxed (polyRegion none nearBox) ∧ midPoint (polyRegion none nearBox) = (3 / 2, 0) := by
  have h1 : (Set.Icc (1 : ℝ) 2).Nonempty := ⟨1, by norm_num⟩
  have h2 : (Set.Icc (-1 : ℝ) 1).Nonempty := ⟨1, by norm_num⟩
  rw [nearBox_region]
  simp only [Boxed, midPoint, Set.fst_image_prod _ h2, Set.snd_image_prod h1, csInf_Icc (show (1 : ℝ) ≤ 2 by norm_num),
    csSup_Icc (show (1 : ℝ) ≤ 2 by norm_num), csInf_Icc (show (-1 : ℝ) ≤ 1 by norm_num), csSup_Icc (show (-1 : ℝ) ≤ 1 by norm_num)]
  refine ⟨⟨h1.prod h2, ⟨bddBelow_Icc, bddAbove_Icc⟩, bddBelow_Icc, bddAbove_Icc⟩, by norm_num⟩

theorem union_near : unionOf [obsNear] = polyRegion none nearBox := by
  ext p; simp [unionOf, obsNear, polygonObs]

/-- The box is chosen and its centre is kept. -/
theorem scene_selection {A : Set (Pt ℝ)} (h : polyRegion none nearBox ⊆ A) :
    selectionSet boxOps A (polyRegion none nearBox) Set.univ (some [polyRegion none nearBox]) = polyRegion none nearBox := near_selection h

theorem scene_select : (sceneCfg 0).select 0 [obsNear] none = .ok (nearTriple 0) := by
  obtain ⟨A, h1, h2⟩ := near_kernel (g := 1 / 2) (by norm_num) le_rfl 0
  have hc : isCollinear ((-1, 0) : Pt ℝ) (5, 1 / 2) (3 / 2, 0) = false := by
    norm_num [isCollinear, orientationVal, collinearThreshold, abs_of_pos, abs_of_neg]
  have hin : ((3 / 2, 0) : Pt ℝ) ∈ A := h2 (by rw [nearBox_region]; norm_num)
  have hn : boxOps.nearestToCentroid A (polyRegion none nearBox) = .ok (3 / 2, 0) := by
    refine (if_pos ⟨mid_near.1, ?_⟩).trans (congrArg Except.ok mid_near.2)
    rw [mid_near.2]; exact hin
  have ht : timings ⟨0, 1, 1, 1, 1, 1⟩ = .ok () := by norm_num [timings]
  have hk : obsNear.polygon = polyRegion none nearBox := rfl
  have hT : kernelTriangle boxOps (polyRegion none nearBox) (3 / 2, 0) (1 / 10) = .ok (nearTriple 0) := near_triangle le_rfl (by norm_num)
  simp only [sceneCfg, add_zero, selectPoints, h1, kernelPoints, List.map_cons, List.map_nil, hk, union_near, scene_selection h2, triangleCentre, hn,
    perturb, hc, hT, ht, Option.map_none, bind, Except.bind, Bool.false_eq_true, if_false]

theorem scene_result : clusterAndStarify (starGeo (sceneCfg 0)) ⟨none, false, false⟩ none 2 [obsNear] = some (.ok
    ⟨[⟨clusterName [some 0], [obsNear], some ⟨[obsNear], none, some (3 / 2, 0)⟩, some (nearTriple 0),
      some (ClusterObs.polygon ⟨[obsNear], none, some (3 / 2, 0)⟩)⟩], .complete, 1, none⟩) := by
  have hr := one_alone (sceneCfg 0) obsNear (nearTriple 0) 2 rfl (admissible_some (by simp [nearBox]) (by simpa [sceneCfg] using near_robot.outside))
    (admissible_some (by simp [nearBox]) (by simpa [sceneCfg] using (near_goal (g := 1 / 2) (by norm_num) le_rfl).outside)) scene_select
    (clusterHull_none _ _ _ fun o ho k hk => by rw [List.mem_singleton.1 ho]; exact (near_none le_rfl (by norm_num) k hk).1) (fun _ => rfl)
  rw [near_mean] at hr
  exact hr

theorem part_one {o : ConvObs} {l : List ConvObs} (h : Part [o] l) : l = [o] := by
  obtain ⟨h1, h2, h3⟩ := h
  rcases l with _ | ⟨a, _ | ⟨b, l⟩⟩
  · exact absurd rfl h1
  · rw [List.mem_singleton.1 (h3 a (by simp))]
  · rw [List.mem_singleton.1 (h3 a (by simp)), List.mem_singleton.1 (h3 b (by simp))] at h2
    simp at h2

/-- A concrete case of `C123_program_partial`: the box between robot and goal, moved by at most 1000 in both directions. The
kernel points are moved by exactly as much. -/
theorem scene_example {d : Pt ℝ} (h1 : |d.1| ≤ 1000) (h2 : |d.2| ≤ 1000) :
    ∃ r, clusterAndStarify (starGeo (sceneCfg d)) ⟨none, false, false⟩ none 2 [polygonObs (some 0) true none (nearBox.map (· + d))] = some (.ok r) ∧
      r.flag = .complete ∧ r.clusters.map (·.kernelPoints) = [some (movedTriple d (nearTriple 0))] ∧
      r.clusters.map (·.polygon) = [some ((· + d) '' ClusterObs.polygon ⟨[obsNear], none, some (3 / 2, 0)⟩)] := by
  rw [abs_le] at h1 h2
  have hw : ∀ a b : ℝ, |a| ≤ 10 → |b| ≤ 10 → WellInBox (a, b) ∧ WellInBox ((a, b) + d) := by
    intro a b ha hb
    rw [abs_le] at ha hb
    refine ⟨⟨?_, ?_⟩, ?_, ?_⟩ <;> rw [abs_le] <;> simp only [Prod.fst_add, Prod.snd_add] <;> constructor <;> linarith
  have hscene : CallSceneOk setGeo (-1, 0) (5, 1 / 2) [obsNear] (fun _ => (1, 1)) (fun _ => (1, -1)) (fun _ => (2, -1)) (fun _ => (2, 1))
      (fun _ => True) := by
    refine ⟨setGeo_ok, fun o ho => ?_, fun o ho => ?_, by norm_num [cross], by norm_num [cross]⟩
    · rw [List.mem_singleton.1 ho]; exact near_robot
    · rw [List.mem_singleton.1 ho]; exact near_goal (by norm_num) le_rfl
  have key := C123_program_partial (d := d) (cfg := sceneCfg 0) (cfg' := sceneCfg d) isSetList_dedup (by simp [sceneCfg]) (by simp [sceneCfg])
    (fun l => List.dedup_map_of_injective (add_left_injective d) l) rfl rfl ⟨rfl, rfl, rfl⟩ (fun _ => rfl) [obsNear] (by simp)
    (fun _ _ _ => rfl) (cones := setGeo) (t := fun _ => (1, 1)) (s := fun _ => (1, -1)) (t' := fun _ => (2, -1)) (s' := fun _ => (2, 1))
    (valid := fun _ => True) (by simpa [sceneCfg] using hscene)
    (by simpa [sceneCfg] using (hw (-1) 0 (by norm_num) (by norm_num)).1) (by simpa [sceneCfg] using (hw 5 (1 / 2) (by norm_num [abs_of_pos]) (by norm_num [abs_of_pos])).1)
    (by simpa [sceneCfg] using (hw (-1) 0 (by norm_num) (by norm_num)).2) (by simpa [sceneCfg] using (hw 5 (1 / 2) (by norm_num [abs_of_pos]) (by norm_num [abs_of_pos])).2)
    (fun _ _ _ _ => trivial) (fun _ _ _ _ => trivial) ?_ boxOps (boxOps_moves d) Set.univ (1 / 10) (fun _ _ => []) (fun _ _ => [])
    (fun _ _ => ⟨0, 1, 1, 1, 1, 1⟩) (fun _ _ => ⟨0, 1, 1, 1, 1, 1⟩) (fun _ _ => rfl) (fun _ _ => rfl) rfl
    (by rw [Set.image_univ_of_surjective (add_right_surjective d)]; rfl) ?_ ⟨none, false, false⟩ none 2
  · rw [scene_result] at key
    rw [C123_polygon d _ _ (by simp [nearBox])]
    exact ⟨_, key, rfl, rfl, rfl⟩
  · intro o ho p hp
    rw [List.mem_singleton.1 ho] at hp
    change p ∈ polyRegion none nearBox at hp
    rw [nearBox_region] at hp
    obtain ⟨⟨a1, a2⟩, a3, a4⟩ := hp
    refine ⟨⟨?_, ?_⟩, ?_, ?_⟩ <;> rw [abs_lt] <;> try simp only [Prod.fst_add, Prod.snd_add]
    all_goals constructor <;> linarith
  · intro n l A hl _ hA
    obtain rfl := part_one hl
    obtain ⟨A', e1, e2⟩ := near_kernel (g := 1 / 2) (by norm_num) le_rfl n
    have : A' = A := by
      simp only [sceneCfg, add_zero] at hA
      have := e1.symm.trans hA
      simpa using this
    subst this
    have hk : [obsNear].map (·.polygon) = [polyRegion none nearBox] := rfl
    rw [union_near, hk, scene_selection e2]
    have hlim : limitToExterior boxOps A' (polyRegion none nearBox) Set.univ = A' := by
      simp [limitToExterior, boxOps, planeOps]
    have hv : volume.real (polyRegion none nearBox) = 2 := by
      rw [nearBox_region, measureReal_def, Measure.volume_eq_prod, Measure.prod_prod]
      norm_num [Real.volume_Icc]
    constructor
    · left
      have e : {p | p ∈ A' ∧ ∀ k ∈ [polyRegion none nearBox], p ∈ k} = polyRegion none nearBox := by
        ext p
        simp only [List.forall_mem_singleton, Set.mem_ofPred_eq, and_iff_right_iff_imp]
        exact fun h => e2 h
      rw [hlim, e]
      change 1e-6 < volume.real _
      rw [hv]; norm_num
    · have hc : boxOps.centroid (polyRegion none nearBox) = .ok (3 / 2, 0) := (if_pos mid_near.1).trans (congrArg Except.ok mid_near.2)
      have hin : ((3 / 2, 0) : Pt ℝ) ∈ A' := e2 (by rw [nearBox_region]; norm_num)
      intro g hg
      have : g = polyRegion none nearBox := by
        rcases hg with rfl | ⟨gs, hgs, hg⟩
        · rfl
        · change Except.ok [polyRegion none nearBox] = Except.ok gs at hgs
          rw [Except.ok.injEq] at hgs
          rw [← hgs] at hg
          exact List.mem_singleton.1 hg
      subst this
      refine ⟨_, hc, hin, ⟨?_, ?_⟩, ⟨?_, ?_⟩, ?_, ?_⟩
      · norm_num [abs_of_pos]
      · norm_num
      · rw [abs_lt]; simp only [Prod.fst_add]; constructor <;> linarith
      · rw [abs_lt]; simp only [Prod.snd_add]; constructor <;> linarith
      · simp only [sceneCfg, add_zero, ne_eq, Prod.mk.injEq, not_and]; norm_num
      · simp only [sceneCfg, add_zero, ne_eq, Prod.mk.injEq, not_and]; norm_num

example : ∃ r, clusterAndStarify (starGeo (sceneCfg (100, -7))) ⟨none, false, false⟩ none 2
      [polygonObs (some 0) true none (nearBox.map (· + (100, -7)))] = some (.ok r) ∧ r.flag = .complete ∧
      r.clusters.map (·.kernelPoints) = [some (movedTriple (100, -7) (nearTriple 0))] := by
  obtain ⟨r, h1, h2, h3, -⟩ := scene_example (d := (100, -7)) (by norm_num) (by norm_num)
  exact ⟨r, h1, h2, h3⟩

/-! ## Too far -/

theorem border_none {ray : Line ℝ} (h : ∀ i, ray.rayIntersection (bbEdge i) = none) (idx : Fin 4) : (borderPoint ray idx).1 = none := by
  simp only [borderPoint, h]

/-- A cone on the left of the box that opens to the left. -/
theorem far_cone (dir : Pt ℝ) : conePolygon ⟨(-1, 0) + (-2000000, 0), (-2, -1), dir⟩ 4 = .error .attributeError := by
  have h : ∀ i, (⟨(-1, 0) + (-2000000, 0), (-1, 0) + (-2000000, 0) + (-2, -1)⟩ : Line ℝ).rayIntersection (bbEdge i) = none := by
    intro i
    fin_cases i <;> norm_num [Line.rayIntersection, bbEdge, bbWidth]
  simp only [conePolygon, conePolygonVertices, Cone.ray1, border_none h]

/-- One obstacle for which no kernel points are found. -/
theorem one_error (cfg : StarCfg) (o : ConvObs) (e : PyErr) (fuel : Nat) (hk : o.hasKernel = true)
    (hr : (starGeo cfg).robotFree o = .ok true) (hg : (starGeo cfg).goalFree o = .ok true)
    (hs : cfg.select 0 [o] none = .error e) (ht : ∀ n, cfg.timeoutInit n = false) :
    clusterAndStarify (starGeo cfg) ⟨none, false, false⟩ none fuel [o] = some (.error e) := by
  have hi : initLoop (starGeo cfg) 0 [o] = .ok true := by
    have r3 : ∀ i, (starGeo cfg).timeoutInit i = false := ht
    have r4 : ∀ o, (starGeo cfg).exclude o = .ok () := fun _ => rfl
    simp [initLoop, hr, hg, r3, r4, bind, Except.bind]
  have hm : [o].mapM (firstCluster (starGeo cfg) none) = .error e := by
    simp [firstCluster, starGeo, bind, Except.bind, extractCluster, computeKernelPoints, hs, hk]
  simp only [clusterAndStarify, hi, hm]

/-- All routines behave as intended and move with the scene, and the call gives disjoint starshaped obstacles. When robot, goal and
obstacle are moved by 2000000 to the left, the same call raises an exception: cones are cut off at the fixed square of half width 1000000. -/
theorem C123_false : ∃ (geo : PolyOps (Set (Pt ℝ))) (cones : ConeGeo (Set (Pt ℝ))) (cfg : Pt ℝ → StarCfg) (v : List (Pt ℝ)) (d : Pt ℝ)
    (clock : Clock) (r : Res ConvObs ClusterObs Triple (Set (Pt ℝ))),
    (∀ d, MovesWith d geo) ∧ ConeGeoOk cones id (fun _ => True) ∧
    (∀ d, (cfg d).x = (cfg 0).x + d ∧ (cfg d).xg = (cfg 0).xg + d ∧ (cfg d).unique = (cfg 0).unique ∧ (cfg d).hullFuel = (cfg 0).hullFuel ∧
      (cfg d).setList = (cfg 0).setList ∧ (cfg d).timeoutInit = (cfg 0).timeoutInit ∧ (cfg d).timeoutIter = (cfg 0).timeoutIter ∧
      (cfg d).timeoutConvex = (cfg 0).timeoutConvex ∧
      (cfg d).admEmpty = (cfg 0).admEmpty ∧ (cfg d).isConvex = (cfg 0).isConvex ∧
      (cfg d).select = selectPoints geo (admissibleKernels cones (cfg d).x (cfg d).xg) unionOf Set.univ (·.polygon) (cfg d).x (cfg d).xg (1 / 10)
        (fun _ _ => []) (fun _ _ => clock)) ∧
    clusterAndStarify (starGeo (cfg 0)) ⟨none, false, false⟩ none 2 [polygonObs (some 0) true none v] = some (.ok r) ∧ r.flag = .complete ∧
    clusterAndStarify (starGeo (cfg d)) ⟨none, false, false⟩ none 2 [polygonObs (some 0) true none (v.map (· + d))] =
      some (.error .attributeError) := by
  refine ⟨boxOps, setGeo, sceneCfg, nearBox, (-2000000, 0), ⟨0, 1, 1, 1, 1, 1⟩, _, boxOps_moves, setGeo_ok, fun d => ?_, scene_result, rfl, ?_⟩
  · simp [sceneCfg]
  · rw [C123_polygon _ _ _ (by simp [nearBox])]
    change clusterAndStarify _ _ _ _ [movedObs (-2000000, 0) obsNear] = _
    have free : ∀ y, y ∉ polyRegion none nearBox →
        (admissibleKernel (movedObs (-2000000, 0) obsNear).tangentPoints (y + (-2000000, 0))).map (·.isSome) = .ok true := by
      intro y hy
      have h := admissible_some (v := nearBox) (by simp [nearBox]) hy
      rw [admissible_moved]
      change (admissibleKernel obsNear.tangentPoints y).map (·.isSome) = .ok true at h
      cases hk : admissibleKernel obsNear.tangentPoints y with
      | error e => rw [hk] at h; cases h
      | ok c => rw [hk] at h; cases c <;> exact h
    refine one_error _ _ _ _ rfl (free _ near_robot.outside) (free _ (near_goal (g := 1 / 2) (by norm_num) le_rfl).outside) ?_ (fun _ => rfl)
    have cone : ∀ y c, coneOf y obsNear = .ok c →
        coneOf (y + (-2000000, 0)) (movedObs (-2000000, 0) obsNear) = .ok ⟨c.apex + (-2000000, 0), c.dir1, c.dir2⟩ := by
      intro y c hc
      simp only [coneOf, admissible_moved, bind, Except.bind] at hc ⊢
      cases hk : admissibleKernel obsNear.tangentPoints y with
      | error e => rw [hk] at hc; cases hc
      | ok c' =>
        rw [hk] at hc
        cases c' with
        | none => cases hc
        | some c' =>
          simp only [Except.ok.injEq] at hc
          rw [hc]
          rfl
    have h1 := cone _ _ (view_cone near_robot (by norm_num) (by norm_num)).1
    have h2 := cone _ _ (view_cone (near_goal (g := 1 / 2) (by norm_num) le_rfl) (by norm_num [abs_of_pos]) (by norm_num [abs_of_pos])).1
    have e : ((-1, 0) : Pt ℝ) - (1, 1) = (-2, -1) := by norm_num
    rw [e] at h1
    simp only [sceneCfg, selectPoints, admissibleKernels, admissibleFirst, h1, h2, coneIntersection, coneShape, far_cone, bind, Except.bind,
      Bool.false_eq_true, if_false]

end Starworlds
