import Verif.Spec.StarOrder
import Verif.Props.ClusterOrder
import Verif.Props.TranslateExample

/-! # C118 for convex obstacles: the computed kernels, kernel points and hulls do not depend on the order -/

namespace Starworlds

open Spec
open scoped Classical

theorem clusterHull_perm {cfg : StarCfg} {l l' : List ConvObs} (hp : l.Perm l') {T : Triple} {r : Option (Set (Pt ℝ))}
    (h : clusterHull cfg l T = .ok r) : clusterHull cfg l' T = .ok r := by
  simp only [clusterHull, kernelHull, bind, Except.bind] at h ⊢
  have hm : ∃ subs, (l.map fun o => HullObs.convex o.tangentPoints).mapM (kernelHullOne cfg.unique T.points cfg.hullFuel) = .ok subs := by
    cases hm : (l.map fun o => HullObs.convex o.tangentPoints).mapM (kernelHullOne cfg.unique T.points cfg.hullFuel) with
    | error e => rw [hm] at h; cases h
    | ok subs => exact ⟨subs, rfl⟩
  have he := mapM_error _ _ hm
  obtain ⟨s1, e1, m1, -⟩ := mapM_exists _ _ he
  obtain ⟨s2, e2, m2, -⟩ := mapM_exists (kernelHullOne cfg.unique T.points cfg.hullFuel) (l'.map fun o => HullObs.convex o.tangentPoints)
    fun a ha => he a ((hp.map _).mem_iff.2 ha)
  have hmem : ∀ b, b ∈ s1 ↔ b ∈ s2 := fun b => by
    rw [m1, m2]
    exact exists_congr fun a => and_congr_left fun _ => (hp.map _).mem_iff
  have h1 : s2.any (·.isNone) = s1.any (·.isNone) := by
    rw [Bool.eq_iff_iff, List.any_eq_true, List.any_eq_true]
    exact exists_congr fun b => and_congr_left fun _ => (hmem b).symm
  have h2 : (s2.filterMap id).all (·.isEmpty) = (s1.filterMap id).all (·.isEmpty) := by
    rw [Bool.eq_iff_iff, List.all_eq_true, List.all_eq_true]
    refine forall_congr' fun b => imp_congr_left ?_
    simp only [List.mem_filterMap, id, exists_eq_right]
    exact (hmem _).symm
  have h3 : regions (s2.filterMap id) = regions (s1.filterMap id) := by
    ext p
    simp only [regions, Set.mem_ofPred_eq, List.mem_filterMap, id, exists_eq_right]
    exact exists_congr fun b => and_congr_left fun _ => (hmem _).symm
  rw [e1] at h
  rw [e2]
  simp only [h1, h2] at h ⊢
  rw [← h]
  split_ifs
  · rfl
  · rfl
  · simp only [Option.map_some, h3]

/-- The obstacles of `l` in the order of the call. -/
noncomputable def inOrder (obstacles l : List ConvObs) : List ConvObs := obstacles.filter fun o => decide (o ∈ l)

theorem inOrder_congr (obstacles : List ConvObs) {l l' : List ConvObs} (h : l.Perm l') : inOrder obstacles l = inOrder obstacles l' := by
  unfold inOrder
  refine List.filter_congr fun o _ => ?_
  rw [decide_eq_decide]
  exact h.mem_iff

theorem inOrder_perm {obstacles l : List ConvObs} (hid : (obstacles.map (·.id)).Nodup) (h : Part obstacles l) : l.Perm (inOrder obstacles l) := by
  refine (List.perm_ext_iff_of_nodup (h.nodup.of_map _) ((hid.of_map _).filter _)).2 fun o => ?_
  rw [List.mem_filter, decide_eq_true_eq]
  exact ⟨fun ho => ⟨h.sub o ho, ho⟩, fun ho => ho.2⟩

theorem part_perm {obstacles l l' : List ConvObs} (h : Part obstacles l) (hp : l.Perm l') : Part obstacles l' :=
  ⟨fun e => h.nonempty (by subst e; exact List.perm_nil.1 hp), (hp.map _).nodup_iff.1 h.nodup, fun o ho => h.sub o (hp.mem_iff.2 ho)⟩

theorem part_call {obstacles obstacles' l : List ConvObs} (hp : obstacles.Perm obstacles') : Part obstacles' l ↔ Part obstacles l :=
  ⟨fun h => ⟨h.nonempty, h.nodup, fun o ho => hp.mem_iff.2 (h.sub o ho)⟩, fun h => ⟨h.nonempty, h.nodup, fun o ho => hp.mem_iff.1 (h.sub o ho)⟩⟩

/-- Kernel points are asked for: of single obstacles at the beginning, and of clusters with an admissible kernel. -/
def AskedFor (cfg : StarCfg) (n : Nat) (l : List ConvObs) : Prop := n = 0 ∧ (∃ o, l = [o]) ∨ cfg.admEmpty n l = .ok false

/-- The oracles asked for the obstacles in the order of the call only. -/
noncomputable def orderedGeo (cfg : StarCfg) (obstacles : List ConvObs) : Geo ConvObs ClusterObs Triple (Set (Pt ℝ)) :=
  { starGeo cfg with
    admEmpty := fun n l => if Part obstacles l then cfg.admEmpty n (inOrder obstacles l) else .ok true
    kernelSel := fun n l _ => if Part obstacles l ∧ AskedFor cfg n (inOrder obstacles l) then cfg.select n (inOrder obstacles l) none
      else .error .runtimeError }

/-- C118 with convex obstacles, and kernel points that do not depend on the order of the obstacles of a cluster: neither do the results.
Missing: previous clusters (`C118_previous_false`) and, with `make_convex`, iteration and time limits. -/
theorem C118_star_partial {cfg : StarCfg} (hset : IsSetList cfg.setList) {obstacles : List ConvObs} (hid : (obstacles.map (·.id)).Nodup)
    (hk : ∀ o ∈ obstacles, o.hasKernel = true)
    (hfree : ∀ o ∈ obstacles, (∃ k, admissibleKernel o.tangentPoints cfg.x = .ok k) ∧ ∃ k, admissibleKernel o.tangentPoints cfg.xg = .ok k)
    (hadm : ∀ n l, Part obstacles l → ∃ b, ∀ l', l.Perm l' → cfg.admEmpty n l' = .ok b)
    (hsel : ∀ n l, Part obstacles l → AskedFor cfg n l → ∃ T, (∀ l', l.Perm l' → cfg.select n l' none = .ok T) ∧
      ∃ r, clusterHull cfg l T = .ok r)
    (par : Params) (hpar : par.makeConvex = false ∨ (par.maxIterations = none ∧ (∀ j, cfg.timeoutConvex j = false) ∧
      ∀ s t, seenStar s = seenStar t → cfg.isConvex s = cfg.isConvex t))
    {obstacles' : List ConvObs} (hp : obstacles.Perm obstacles') (fuel : Nat) (hfuel : obstacles.length ≤ fuel) :
    SameResult seenStar (clusterAndStarify (starGeo cfg) par none fuel obstacles) (clusterAndStarify (starGeo cfg) par none fuel obstacles') := by
  have hadm' : ∀ n l, Part obstacles l → cfg.admEmpty n (inOrder obstacles l) = cfg.admEmpty n l := by
    intro n l hl
    obtain ⟨b, hb⟩ := hadm n l hl
    rw [hb l (List.Perm.refl l), hb _ (inOrder_perm hid hl)]
  have hasked : ∀ n l, Part obstacles l → AskedFor cfg n l → AskedFor cfg n (inOrder obstacles l) := by
    rintro n l hl (⟨h1, o, rfl⟩ | h)
    · exact .inl ⟨h1, o, List.perm_singleton.1 (inOrder_perm hid hl).symm⟩
    · exact .inr (by rw [hadm' n l hl, h])
  have hasked' : ∀ n l, Part obstacles l → AskedFor cfg n (inOrder obstacles l) → AskedFor cfg n l := by
    rintro n l hl (⟨h1, o, h⟩ | h)
    · exact .inl ⟨h1, o, List.perm_singleton.1 (h ▸ inOrder_perm hid hl)⟩
    · exact .inr (by rw [← hadm' n l hl, h])
  have agree : ∀ obs : List ConvObs, obstacles.Perm obs →
      clusterAndStarify (orderedGeo cfg obstacles) par none fuel obs = clusterAndStarify (starGeo cfg) par none fuel obs := by
    intro obs hob
    have hpart : ∀ l, PartOf (starGeo cfg) obs l → Part obstacles l := fun l hl => (part_call hob).1 ⟨hl.nonempty, hl.nodup, hl.sub⟩
    refine result_agree (g := starGeo cfg) hset ((hob.map _).nodup_iff.1 hid) ?_ ?_ par fuel
    · intro n l hl
      rw [if_pos (hpart l hl)]
      exact (hadm' n l (hpart l hl)).symm
    · intro n l k hl ha hkk
      have hl := hpart l hl
      have hk0 : k = none := by
        cases k with
        | none => rfl
        | some kp => obtain ⟨_, e, -⟩ := hkk kp rfl; cases e
      subst hk0
      obtain ⟨T, hT, -⟩ := hsel n l hl ha
      rw [if_pos ⟨hl, hasked n l hl ha⟩, hT _ (inOrder_perm hid hl)]
      have : l.all (·.hasKernel) = true := List.all_eq_true.2 fun o ho => hk o (hl.sub o ho)
      simp only [starGeo, this, if_true, hT l (List.Perm.refl l)]
  have hone : ∀ o ∈ obstacles, Part obstacles [o] := fun o ho => ⟨by simp, by simp, by simpa using ho⟩
  have hT : (orderedGeo cfg obstacles).TotalOn obstacles := by
    have loop : ∀ n l k kp, (orderedGeo cfg obstacles).kernelSel n l k = .ok kp → ∃ r, clusterHull cfg l kp = .ok r := by
      intro n l k kp h
      simp only [orderedGeo] at h
      split_ifs at h with hh
      obtain ⟨T, h1, r, h2⟩ := hsel n l hh.1 (hasked' n l hh.1 hh.2)
      rw [h1 _ (inOrder_perm hid hh.1), Except.ok.injEq] at h
      exact ⟨r, h ▸ h2⟩
    have sel : ∀ n l k, Part obstacles l → AskedFor cfg n l → ∃ kp, (orderedGeo cfg obstacles).kernelSel n l k = .ok kp := by
      intro n l k hl ha
      obtain ⟨T, h1, -⟩ := hsel n l hl ha
      exact ⟨T, by simp only [orderedGeo]; rw [if_pos ⟨hl, hasked n l hl ha⟩, h1 _ (inOrder_perm hid hl)]⟩
    refine ⟨?_, ?_, fun _ _ => rfl, ?_, ?_, ?_, ?_, ?_, fun p => ⟨_, rfl⟩⟩
    · intro o ho
      obtain ⟨k, e⟩ := (hfree o ho).1
      exact ⟨k.isSome, by simp only [orderedGeo, starGeo, e, Except.map]⟩
    · intro o ho
      obtain ⟨k, e⟩ := (hfree o ho).2
      exact ⟨k.isSome, by simp only [orderedGeo, starGeo, e, Except.map]⟩
    · intro n l _
      by_cases hl : Part obstacles l
      · obtain ⟨b, hb⟩ := hadm n l hl
        exact ⟨b, by simp only [orderedGeo]; rw [if_pos hl, hb _ (inOrder_perm hid hl)]⟩
      · exact ⟨true, by simp only [orderedGeo]; rw [if_neg hl]⟩
    · exact fun o ho k => sel 0 [o] k (hone o ho) (.inl ⟨rfl, o, rfl⟩)
    · intro n l k _ _ ha
      simp only [orderedGeo] at ha
      split_ifs at ha with hl
      · exact sel n l k hl (.inr (by rw [← hadm' n l hl, ha]))
      · cases ha
    · intro o ho k kp h
      obtain ⟨r, hr⟩ := loop 0 [o] k kp h
      cases r with
      | none => exact ⟨_, by simp only [orderedGeo, starGeo, bind, Except.bind, hr, hk o ho, if_true]; rfl⟩
      | some H => exact ⟨_, by simp only [orderedGeo, starGeo, bind, Except.bind, hr]; rfl⟩
    · intro n l k kp _ _ h
      obtain ⟨r, hr⟩ := loop n l k kp h
      exact ⟨_, by simp only [orderedGeo, starGeo, bind, Except.bind, hr]; rfl⟩
  have hseen : ∀ s t : ClusterObs, seenStar s = seenStar t → s.polygon = t.polygon ∧ s.xr = t.xr := by
    intro s t h
    simp only [seenStar, Prod.mk.injEq] at h
    have hm := Multiset.coe_eq_coe.1 h.1
    refine ⟨?_, h.2.2⟩
    simp only [ClusterObs.polygon, h.2.1, hm.mem_iff]
  have hpart : ∀ {l l' : List ConvObs}, l.Perm l' → (Part obstacles l ↔ Part obstacles l') := fun h => ⟨fun a => part_perm a h, fun a => part_perm a h.symm⟩
  have hof : OrderFree (orderedGeo cfg obstacles) seenStar := by
    refine ⟨?_, fun s t h => (hseen s t h).1, ?_, ?_, ?_⟩
    · intro p q
      change decide (p ∩ q).Nonempty = decide (q ∩ p).Nonempty
      rw [Set.inter_comm]
    · intro n l l' h
      simp only [orderedGeo]
      rw [inOrder_congr obstacles h, if_congr (hpart h) rfl rfl]
    · intro n l l' k h
      simp only [orderedGeo]
      rw [inOrder_congr obstacles h, if_congr (and_congr_left fun _ => hpart h) rfl rfl]
    · intro n l l' kp s h hs
      simp only [orderedGeo, starGeo, bind, Except.bind] at hs ⊢
      cases hr : clusterHull cfg l kp with
      | error e => rw [hr] at hs; cases hs
      | ok r =>
        rw [hr] at hs
        rw [clusterHull_perm h hr]
        refine ⟨_, rfl, ?_⟩
        simp only [Except.ok.injEq] at hs
        rw [← hs]
        simp only [seenStar, Multiset.coe_eq_coe.2 h]
  have hid' : (obstacles.map (orderedGeo cfg obstacles).id).Nodup := hid
  rw [← agree obstacles (List.Perm.refl _), ← agree obstacles' hp]
  rcases hpar with hpar | ⟨h1, h2, h3⟩
  · exact C118_partial hof hset hid' hT par hpar hp fuel hfuel
  · refine C118_convex_partial hof ⟨h3, fun h s t e => ?_⟩ hset hid' hT h2 par h1 hp fuel hfuel
    simp only [orderedGeo, starGeo, seenStar, (hseen s t e).2]

/-! ## The computed kernels and kernel points -/

theorem selection_perm {geo : PolyOps (Set (Pt ℝ))} (hi : ∀ a b, geo.intersection a b = a ∩ b) (A poly ws : Set (Pt ℝ)) {ks ks' : List (Set (Pt ℝ))}
    (hp : ks.Perm ks') : selectionSet geo A poly ws (some ks) = selectionSet geo A poly ws (some ks') := by
  have e : geo.intersection = fun a b => a ∩ b := by funext a b; exact hi a b
  have hf : ∀ B : Set (Pt ℝ), ks.foldl (· ∩ ·) B = ks'.foldl (· ∩ ·) B := by
    intro B
    rw [foldl_cut, foldl_cut]
    simp only [hp.mem_iff]
  simp only [selectionSet, e, hf]

theorem unionOf_perm {l l' : List ConvObs} (hp : l.Perm l') : unionOf l = unionOf l' := by
  simp only [unionOf, hp.mem_iff]

/-- Kernels that agree where the obstacles are give the same kernel points. -/
theorem kernelPoints_agree {geo : PolyOps (Set (Pt ℝ))} (hdiff : ∀ a b, geo.difference a b = a \ b) (hint : ∀ a b, geo.intersection a b = a ∩ b)
    (hnear : ∀ a b c, geo.centroid b = .ok c → c ∈ a → geo.nearestToCentroid a b = .ok c) {A A' W : Set (Pt ℝ)} (h : ∀ p ∈ W, p ∈ A' ↔ p ∈ A)
    {poly ws : Set (Pt ℝ)} (hp : poly ⊆ W) {ks ks' : List (Set (Pt ℝ))} (hperm : ks.Perm ks') (hk : ks ≠ []) (hks : ∀ k ∈ ks, k ⊆ W)
    (hc : CutOut geo.area (limitToExterior geo A poly ws) poly ks) (x xg : Pt ℝ) (eps : ℝ) (draws : List (Pt ℝ)) (clock : Clock)
    (hcen : ∀ g, (g = selectionSet geo A poly ws (some ks) ∨ ∃ gs, geo.split (selectionSet geo A poly ws (some ks)) x xg = .ok gs ∧ g ∈ gs) →
      ∃ c, geo.centroid g = .ok c ∧ c ∈ A ∧ c ∈ W) :
    kernelPoints geo A' poly ws (some ks') x xg eps none draws clock = kernelPoints geo A poly ws (some ks) x xg eps none draws clock := by
  have i0 : ∀ a : Set (Pt ℝ), (· + (0 : Pt ℝ)) '' a = a := fun a => by simp
  have i1 : ∀ l : List (Set (Pt ℝ)), l.map (fun h => (· + (0 : Pt ℝ)) '' h) = l := fun l => by simp
  have e0 : ∀ r : Except PyErr (Pt ℝ), r.map (· + (0 : Pt ℝ)) = r := by intro r; cases r <;> simp [Except.map]
  have e1 : ∀ r : Except PyErr (List (Set (Pt ℝ))), r.map (List.map fun h => (· + (0 : Pt ℝ)) '' h) = r := by
    intro r; cases r <;> simp [Except.map]
  have e2 : ∀ r : Except PyErr (Option Triple), r.map (Option.map (movedTriple 0)) = r := by
    intro r
    rcases r with e | _ | T <;> simp [Except.map, movedTriple]
  have hg : MovesWith 0 geo :=
    { difference := hdiff
      intersection := hint
      within := fun a b => by rw [i0, i0]
      area := fun a => by rw [i0]
      centroid := fun a => by rw [i0, e0]
      nearest := hnear
      contains := fun a p => by rw [i0, add_zero]
      split := fun a p q => by rw [i0, add_zero, add_zero, e1]
      isPolygon := fun a => by rw [i0]
      geoms := fun a => by rw [i0, i1]
      exteriorDistance := fun a p => by rw [i0, add_zero] }
  have key := kernelPoints_moved (d := 0) (A := A) (A' := A') hg (W := W) (fun p hp => by rw [add_zero]; exact h p hp) hp hk hks hc x xg eps none draws clock hcen
  rw [i0, i0, i1, add_zero, add_zero, e2, Option.map_none] at key
  rw [← key]
  simp only [kernelPoints, selection_perm hint A' poly ws hperm]

/-- The whole call with the kernels and the kernel points that are computed: for obstacles in general position, the result does not depend on
their order. Shapely's answers may depend on the points of a geometry only; whether the kernel of a cluster counts as empty, and its random
draws, are the same for any order. -/
theorem C118_program_partial {cfg : StarCfg} (hset : IsSetList cfg.setList) {obstacles : List ConvObs} (hid : (obstacles.map (·.id)).Nodup)
    (hk : ∀ o ∈ obstacles, o.hasKernel = true)
    {cones : ConeGeo (Set (Pt ℝ))} {t s t' s' : ConvObs → Pt ℝ} {valid : List (Pt ℝ) → Prop}
    (h : CallSceneOk cones cfg.x cfg.xg obstacles t s t' s' valid) (hx1 : WellInBox cfg.x) (hg1 : WellInBox cfg.xg)
    (hv : ValidCones cfg.x cfg.xg obstacles t s t' s' valid 0) (hbox : ∀ o ∈ obstacles, ∀ p ∈ o.polygon, InBox p)
    (ha : cfg.admEmpty = fun n l => (admissibleKernels cones cfg.x cfg.xg n l).map cones.negligible)
    (hneg : ∀ n l l' A A', Part obstacles l → l.Perm l' → admissibleKernels cones cfg.x cfg.xg n l = .ok A →
      admissibleKernels cones cfg.x cfg.xg n l' = .ok A' → cones.negligible A' = cones.negligible A)
    {geo : PolyOps (Set (Pt ℝ))} (hdiff : ∀ a b, geo.difference a b = a \ b) (hint : ∀ a b, geo.intersection a b = a ∩ b)
    (hnear : ∀ a b c, geo.centroid b = .ok c → c ∈ a → geo.nearestToCentroid a b = .ok c) (ws : Set (Pt ℝ)) (eps : ℝ)
    (draws : Nat → List ConvObs → List (Pt ℝ)) (clock : Nat → List ConvObs → Clock)
    (hd : ∀ n l l', l.Perm l' → draws n l = draws n l' ∧ clock n l = clock n l')
    (hsel : cfg.select = selectPoints geo (admissibleKernels cones cfg.x cfg.xg) unionOf ws (·.polygon) cfg.x cfg.xg eps draws clock)
    (hin : ∀ n l A, Part obstacles l → AskedFor cfg n l → admissibleKernels cones cfg.x cfg.xg n l = .ok A →
      CutOut geo.area (limitToExterior geo A (unionOf l) ws) (unionOf l) (l.map (·.polygon)) ∧
      ∀ g, (g = selectionSet geo A (unionOf l) ws (some (l.map (·.polygon))) ∨
          ∃ gs, geo.split (selectionSet geo A (unionOf l) ws (some (l.map (·.polygon)))) cfg.x cfg.xg = .ok gs ∧ g ∈ gs) →
        ∃ c, geo.centroid g = .ok c ∧ c ∈ A ∧ InBox c ∧ c ≠ cfg.x ∧ c ≠ cfg.xg)
    (hdone : ∀ n l, Part obstacles l → AskedFor cfg n l → ∃ T, cfg.select n l none = .ok T ∧ ∃ r, clusterHull cfg l T = .ok r)
    (par : Params) (hpar : par.makeConvex = false ∨ (par.maxIterations = none ∧ (∀ j, cfg.timeoutConvex j = false) ∧
      ∀ s t, seenStar s = seenStar t → cfg.isConvex s = cfg.isConvex t))
    {obstacles' : List ConvObs} (hp : obstacles.Perm obstacles') (fuel : Nat) (hfuel : obstacles.length ≤ fuel) :
    SameResult seenStar (clusterAndStarify (starGeo cfg) par none fuel obstacles) (clusterAndStarify (starGeo cfg) par none fuel obstacles') := by
  refine C118_star_partial hset hid hk ?_ ?_ ?_ par hpar hp fuel hfuel
  · intro o ho
    have e1 := (h.robot o ho).tangents
    have e2 := (h.goal o ho).tangents
    simp only [admissibleKernel, e1, e2, bind, Except.bind]
    exact ⟨⟨_, rfl⟩, _, rfl⟩
  · intro n l hl
    obtain ⟨A, h1, -⟩ := kernel_points_of h hx1 hg1 hv hl n
    refine ⟨cones.negligible A, fun l' hp' => ?_⟩
    obtain ⟨A', h2, -⟩ := kernel_points_of h hx1 hg1 hv (part_perm hl hp') n
    simp only [ha, h2, Except.map, hneg n l l' A A' hl hp' h1 h2]
  · intro n l hl hasked
    obtain ⟨T, hT, hr⟩ := hdone n l hl hasked
    refine ⟨T, fun l' hp' => ?_, hr⟩
    obtain ⟨A, h1, m1⟩ := kernel_points_of h hx1 hg1 hv hl n
    obtain ⟨A', h2, m2⟩ := kernel_points_of h hx1 hg1 hv (part_perm hl hp') n
    obtain ⟨hcut, hcen⟩ := hin n l A hl hasked h1
    rw [← hT, hsel]
    simp only [selectPoints, h1, h2, bind, Except.bind, Option.map_none, ← (hd n l l' hp').1, ← (hd n l l' hp').2, ← unionOf_perm hp']
    let W : Set (Pt ℝ) := {p | InBox p ∧ p ≠ cfg.x ∧ p ≠ cfg.xg}
    have hpoly : ∀ o ∈ l, o.polygon ⊆ W := by
      intro o ho p hp
      exact ⟨hbox o (hl.sub o ho) p hp, fun e => (h.robot o (hl.sub o ho)).outside (e ▸ hp), fun e => (h.goal o (hl.sub o ho)).outside (e ▸ hp)⟩
    rw [kernelPoints_agree (W := W) (A := A) (A' := A') hdiff hint hnear ?_ ?_ (hp'.map _) (by simpa using hl.nonempty) ?_ hcut cfg.x cfg.xg eps
      (draws n l) (clock n l) (fun g hg => by obtain ⟨c, c1, c2, c3⟩ := hcen g hg; exact ⟨c, c1, c2, c3⟩)]
    · intro p hp
      rw [m1 p hp.1 hp.2.1 hp.2.2, m2 p hp.1 hp.2.1 hp.2.2]
      exact forall_congr' fun o => imp_congr_left hp'.mem_iff.symm
    · rintro p ⟨o, ho, hp⟩
      exact hpoly o ho hp
    · intro P hP
      obtain ⟨o, ho, rfl⟩ := List.mem_map.1 hP
      exact hpoly o ho

end Starworlds
