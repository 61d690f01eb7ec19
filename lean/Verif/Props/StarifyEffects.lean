import Verif.Proofs.StarifyEffects
import Verif.Props.ConesExample

/-! # C95, C96: the reference points of the obstacles of the caller -/

namespace Starworlds

open Real Spec

variable {cfg : StarCfg} {key : ConvObs → Nat} {prev : Option (List (Cl ConvObs ClusterObs Triple (Set (Pt ℝ))))} {obstacles : List ConvObs}

theorem refs_changed (m : Refs) (k : Nat) (h : refsAfter cfg key prev obstacles m k ≠ m k) :
    initLoop (starGeo cfg) 0 obstacles = .ok true ∧ refsAfter cfg key prev obstacles m = (firstLoop cfg key prev obstacles m).2 := by
  have hi : initLoop (starGeo cfg) 0 obstacles = .ok true := by
    by_contra hi
    apply h
    unfold refsAfter
    rcases hr : initLoop (starGeo cfg) 0 obstacles with e | b
    · rfl
    · cases b
      · rfl
      · exact absurd hr hi
  exact ⟨hi, by rw [refsAfter, hi]⟩

/-- **C95, partial.** The call sets a reference point only in a given obstacle that needs no hull extension for its kernel
points, only to the mean of these points, and only if robot and goal are free of all obstacles. -/
theorem C95_changed_partial (m : Refs) (k : Nat) (h : refsAfter cfg key prev obstacles m k ≠ m k) :
    (∃ o ∈ obstacles, key o = k ∧ ∃ pr T, cfg.select 0 [o] pr = .ok T ∧ clusterHull cfg [o] T = .ok none ∧
      refsAfter cfg key prev obstacles m k = (1 / 3 : ℝ) • (T.1 + T.2.1 + T.2.2)) ∧
    ∀ o ∈ obstacles, (∃ C, admissibleKernel o.tangentPoints cfg.x = .ok (some C)) ∧ ∃ C, admissibleKernel o.tangentPoints cfg.xg = .ok (some C) := by
  obtain ⟨hi, e⟩ := refs_changed m k h
  rw [e] at h ⊢
  constructor
  · obtain ⟨o, ho, hk, pr, T, h1, h2, h3, _⟩ := firstLoop_changed obstacles m h
    exact ⟨o, ho, hk, pr, T, h1, h2, h3⟩
  · intro o ho
    have free : ∀ y, (admissibleKernel o.tangentPoints y).map (·.isSome) = .ok true → ∃ C, admissibleKernel o.tangentPoints y = .ok (some C) := by
      intro y hy
      cases hc : admissibleKernel o.tangentPoints y with
      | error e => rw [hc] at hy; cases hy
      | ok C =>
        rw [hc] at hy
        cases C with
        | none => simp [Except.map] at hy
        | some C => exact ⟨C, rfl⟩
    obtain ⟨h1, h2⟩ := initLoop_free _ _ hi o ho
    exact ⟨free _ h1, free _ h2⟩

/-- **C95, partial.** If robot or goal is not free of some obstacle, the obstacles are as before. -/
theorem C95_early_partial (m : Refs) {o : ConvObs} (ho : o ∈ obstacles)
    (h : admissibleKernel o.tangentPoints cfg.x = .ok none ∨ admissibleKernel o.tangentPoints cfg.xg = .ok none) :
    refsAfter cfg key prev obstacles m = m := by
  funext k
  by_contra hne
  obtain ⟨⟨C, h1⟩, D, h2⟩ := (C95_changed_partial m k hne).2 o ho
  rcases h with h | h
  · rw [h1] at h; cases h
  · rw [h2] at h; cases h

/-- **C95, partial.** For different objects, each returned cluster obstacle has the computed reference point after the call,
also if it is an obstacle of the caller. -/
theorem C95_value_partial (hsl : IsSetList cfg.setList) (hk : (obstacles.map key).Nodup) {par : Params} {fuel : Nat}
    {r : Res ConvObs ClusterObs Triple (Set (Pt ℝ))} (h : clusterAndStarify (starGeo cfg) par prev fuel obstacles = some (.ok r)) (m : Refs)
    {c : Cl ConvObs ClusterObs Triple (Set (Pt ℝ))} (hc : c ∈ r.clusters) {s : ClusterObs} (hs : c.star = some s) {p : Pt ℝ}
    (hp : s.xr = some p) : s.currentXr key (refsAfter cfg key prev obstacles m) = some p := by
  have key' : ∀ (a : s.hull.isSome ∨ 1 < s.members.length) (m : Refs), s.currentXr key m = some p := by
    intro a m
    unfold ClusterObs.currentXr
    split
    · rename_i h1 h2
      rw [h1, h2] at a; simp at a
    · exact hp
  rcases clusterAndStarify_origin hsl h c hc s hs with h0 | h0 | h0 | ⟨o, ho, c0, h1, h2⟩
  · rw [hp] at h0; cases h0
  · exact key' (Or.inl h0) _
  · exact key' (Or.inr h0) _
  · obtain ⟨pr, T, _, _, _, q, _, h5⟩ := firstCluster_star h1
    have e : s = ⟨[o], q, some T.mean⟩ := by
      have := h2.symm.trans h5
      simpa using this
    cases q with
    | some q => exact key' (Or.inl (by rw [e]; rfl)) _
    | none =>
      have hp' : T.mean = p := by rw [e] at hp; simpa using hp
      have hi : initLoop (starGeo cfg) 0 obstacles = .ok true := by
        unfold clusterAndStarify at h
        split at h
        · simp at h
        · simp only [Option.some.injEq, Except.ok.injEq] at h
          rw [← h] at hc
          obtain ⟨o', _, rfl⟩ := List.mem_map.1 hc
          have e' : (starGeo cfg).prim o' = s := by simpa [newCluster] using hs
          rw [← e'] at hp
          cases hp
        · assumption
      have hm : ∃ cls, obstacles.mapM (firstCluster (starGeo cfg) prev) = .ok cls := by
        unfold clusterAndStarify at h
        rw [hi] at h
        simp only at h
        split at h
        · simp at h
        · exact ⟨_, by assumption⟩
      obtain ⟨cls, hm⟩ := hm
      rw [e, ClusterObs.currentXr, refsAfter, hi]
      simp only [Option.some.injEq]
      rw [firstLoop_value obstacles m hk hm ho h1 (h2.trans (congrArg some e)), hp']

theorem near_call {g y : ℝ} (h0 : 0 ≤ g) (h1 : g ≤ 1 / 2) (y0 : 0 ≤ y) (y1 : y ≤ 1 / 10)
    (hsel : (nearCfg g).select 0 [obsNear] none = .ok (nearTriple y)) :
    clusterAndStarify (starGeo (nearCfg g)) ⟨none, false, false⟩ none 2 [obsNear] = some (.ok
      ⟨[⟨clusterName [obsNear.id], [obsNear], some ⟨[obsNear], none, some (3 / 2, y)⟩, some (nearTriple y),
        some (ClusterObs.polygon ⟨[obsNear], none, some (3 / 2, y)⟩)⟩], .complete, 1, none⟩) ∧
    (∀ key m, refsAfter (nearCfg g) key none [obsNear] m = fun k => if k = key obsNear then (3 / 2, y) else m k) ∧
    firstCluster (starGeo (nearCfg g)) none obsNear =
      .ok ⟨clusterName [obsNear.id], [obsNear], some ⟨[obsNear], none, some (3 / 2, y)⟩, some (nearTriple y), none⟩ := by
  have hr : (starGeo (nearCfg g)).robotFree obsNear = .ok true := admissible_some (by simp [nearBox]) near_robot.outside
  have hg : (starGeo (nearCfg g)).goalFree obsNear = .ok true := admissible_some (by simp [nearBox]) (near_goal h0 h1).outside
  have hh : clusterHull (nearCfg g) [obsNear] (nearTriple y) = .ok none :=
    clusterHull_none _ _ _ fun o ho k hk => by rw [List.mem_singleton.1 ho]; exact (near_none y0 y1 k hk).1
  have hcall := one_alone (nearCfg g) obsNear (nearTriple y) 2 rfl hr hg hsel hh (fun _ => rfl)
  rw [near_mean] at hcall
  have hi : initLoop (starGeo (nearCfg g)) 0 [obsNear] = .ok true := by
    have r3 : ∀ i, (starGeo (nearCfg g)).timeoutInit i = false := fun _ => rfl
    have r4 : ∀ o, (starGeo (nearCfg g)).exclude o = .ok () := fun _ => rfl
    simp [initLoop, hr, hg, r3, r4, bind, Except.bind]
  have hkk : obsNear.hasKernel = true := rfl
  have hf : firstCluster (starGeo (nearCfg g)) none obsNear =
      .ok ⟨clusterName [obsNear.id], [obsNear], some ⟨[obsNear], none, some (3 / 2, y)⟩, some (nearTriple y), none⟩ := by
    rw [← near_mean]
    simp [firstCluster, starGeo, hh, bind, Except.bind, newCluster, extractCluster, computeKernelPoints, prevId, hsel, hkk]
  refine ⟨hcall, fun key m => ?_, hf⟩
  rw [refsAfter, hi]
  simp only [firstLoop, hf, writeXr]

/-- **C95 is false.** A box with its centre as reference point: the call succeeds, and the reference point of the box is
another one. -/
theorem C95_false : ∃ (cfg : StarCfg) (o : ConvObs) (r : Res ConvObs ClusterObs Triple (Set (Pt ℝ))), IsSetList cfg.setList ∧ IsUnique cfg.unique ∧
    clusterAndStarify (starGeo cfg) ⟨none, false, false⟩ none 2 [o] = some (.ok r) ∧ r.flag = .complete ∧
    o.polygon = Set.Icc 1 2 ×ˢ Set.Icc (-1) 1 ∧
    ∀ key, refsAfter cfg key none [o] (fun _ => (3 / 2, 0)) (key o) = (3 / 2, 1 / 10) := by
  obtain ⟨h1, h2, h5⟩ := near_call (g := 0) (y := 1 / 10) le_rfl (by norm_num) (by norm_num) le_rfl near_moved
  exact ⟨nearCfg 0, obsNear, _, isSetList_dedup, isUnique_dedup, h1, rfl, nearBox_region, fun key => by rw [h2]; simp⟩

/-- The boxes of the L with a clock that runs out in the loop. -/
noncomputable def slowCfg : StarCfg := { cornerCfg with timeoutIter := fun _ => true }

theorem slow_hull (obs : List ConvObs) (T : Triple) : clusterHull slowCfg obs T = clusterHull cornerCfg obs T := rfl

theorem slow_first : [obsA, obsB].mapM (firstCluster (starGeo slowCfg) none) = .ok cornerFirst := corner_first

/-- **C95 is false** for a call that is INCOMPLETE: the reference points of both boxes are set although the result has none of
the clusters. -/
theorem C95_incomplete_false : ∃ (cfg : StarCfg) (o1 o2 : ConvObs) (r : Res ConvObs ClusterObs Triple (Set (Pt ℝ))), o1.id ≠ o2.id ∧
    clusterAndStarify (starGeo cfg) ⟨none, false, false⟩ none 2 [o1, o2] = some (.ok r) ∧ r.flag = .incomplete ∧
    r.clusters.map (·.kernelPoints) = [none, none] ∧
    ∀ key m, refsAfter cfg key none [o1, o2] m (key o1) = (1 / 2, 11 / 30) ∧ refsAfter cfg key none [o1, o2] m (key o2) = (1 / 2, 11 / 30) := by
  have hi : initLoop (starGeo slowCfg) 0 [obsA, obsB] = .ok true := corner_init
  have hg : getIntersectionClusters (starGeo slowCfg) cornerFirst =
    .ok ([⟨clusterName [some 0, some 1], [obsA, obsB], none, none, none⟩], true) := corner_merge
  have ht : (starGeo slowCfg).timeoutIter 1 = true := rfl
  refine ⟨slowCfg, obsA, obsB, defaultResult (starGeo slowCfg) ⟨none, false, false⟩ [obsA, obsB] 1 ([] ++
    [[⟨clusterName [some 0, some 1], [obsA, obsB], none, none, none⟩]]), by simp [obsA, obsB, polygonObs], ?_, rfl, rfl, fun key m => ?_⟩
  · simp only [clusterAndStarify, hi, slow_first, hg, clusterLoop, ht, if_true]
    rfl
  · have hmean : cornerTriple.mean = (1 / 2, 11 / 30) := by
      simp only [Triple.mean, cornerTriple]; norm_num
    have hm := slow_first
    rw [List.mapM_cons, List.mapM_cons, List.mapM_nil] at hm
    cases hA : firstCluster (starGeo slowCfg) none obsA with
    | error e => rw [hA] at hm; cases hm
    | ok a =>
      cases hB : firstCluster (starGeo slowCfg) none obsB with
      | error e => rw [hA, hB] at hm; cases hm
      | ok b =>
        rw [hA, hB] at hm
        simp only [bind, Except.bind, pure, Except.pure, cornerFirst, Except.ok.injEq, List.cons.injEq, and_true] at hm
        obtain ⟨rfl, rfl⟩ := hm
        rw [refsAfter, hi]
        simp only [firstLoop, hA, hB, writeXr, hmean]
        constructor
        · split <;> rfl
        · simp

/-- **C96, partial.** A later call keeps the reference point of an earlier cluster obstacle if this has a hull or several
members, or is not among the obstacles of the later call, or if the later call returns early, or computes a hull for it. -/
theorem C96_kept_partial (m : Refs) (s : ClusterObs) (hk : ∀ a ∈ obstacles, ∀ b ∈ s.members, key a = key b → a = b)
    (h : s.hull.isSome ∨ s.members.length ≠ 1 ∨ (∀ o ∈ s.members, o ∉ obstacles) ∨
      (∃ o ∈ obstacles, admissibleKernel o.tangentPoints cfg.x = .ok none ∨ admissibleKernel o.tangentPoints cfg.xg = .ok none) ∨
      ∀ o ∈ s.members, ∀ pr T, cfg.select 0 [o] pr = .ok T → clusterHull cfg [o] T ≠ .ok none) :
    s.currentXr key (refsAfter cfg key prev obstacles m) = s.currentXr key m := by
  unfold ClusterObs.currentXr
  split
  · rename_i o ho hh
    rw [ho, hh] at h
    congr 1
    by_contra hne
    obtain ⟨⟨a, ha, hka, pr, T, h1, h2, _⟩, h3⟩ := C95_changed_partial m _ hne
    have hao := hk a ha o (by simp [ho]) hka
    subst hao
    rcases h with h | h | h | h | h
    · simp at h
    · simp at h
    · exact h a (by simp) ha
    · obtain ⟨b, hb, hbn⟩ := h
      exact hne (by rw [C95_early_partial m hb hbn])
    · exact h a (by simp) pr T h1 h2
  · rfl

/-- **C96, partial.** Whatever a later call does, an earlier cluster obstacle that was starshaped for its reference point is so
for the reference point that it has after the later call. -/
theorem C96_star_partial (hu : IsUnique cfg.unique) (pts : ConvObs → Set (Pt ℝ))
    (hO : ∀ o ∈ obstacles, Convex ℝ (pts o))
    (hsel : ∀ o ∈ obstacles, ∀ c T, firstCluster (starGeo cfg) prev o = .ok c → c.kernelPoints = some T → SelectionOk cfg pts [o] T) (m : Refs) (s : ClusterObs)
    (hk : ∀ a ∈ obstacles, ∀ b ∈ s.members, key a = key b → a = b)
    (h : ∀ p, s.currentXr key m = some p → p ∈ clusterRegion pts s ∧ StarConvex ℝ p (clusterRegion pts s)) :
    ∀ p, s.currentXr key (refsAfter cfg key prev obstacles m) = some p → p ∈ clusterRegion pts s ∧ StarConvex ℝ p (clusterRegion pts s) := by
  intro p hp
  unfold ClusterObs.currentXr at h hp
  split at hp
  · rename_i o ho hh
    simp only [ho, hh, Option.some.injEq] at h hp
    by_cases hne : refsAfter cfg key prev obstacles m (key o) = m (key o)
    · exact h p (hne ▸ hp)
    · have e := (refs_changed m _ hne).2
      rw [e] at hne hp
      obtain ⟨a, ha, hka, pr, T, h1, h2, h3, c, hc, hcT⟩ := firstLoop_changed obstacles m hne
      have hao := hk a ha o (by simp [ho]) hka
      subst hao
      have hspec := (clusterHull_spec hu (by simp) (fun b hb => by rw [List.mem_singleton.1 hb]; exact hO a ha) (hsel a ha c T hc hcT) h2).1
        T.mean (mean_mem T)
      have hpm : p = T.mean := hp.symm.trans h3
      rw [hpm]
      simpa [clusterRegion, ho, hh] using hspec
  · rename_i hn
    refine h p ?_
    split
    · rename_i h1 h2; exact absurd h2 (hn _ h1)
    · exact hp

/-- A concrete case of `C95_changed_partial` and `C95_value_partial`: the box of `C95_false`. -/
example : ∃ r c s, clusterAndStarify (starGeo (nearCfg 0)) ⟨none, false, false⟩ none 2 [obsNear] = some (.ok r) ∧ c ∈ r.clusters ∧
    c.star = some s ∧ s.currentXr (fun _ => 0) (refsAfter (nearCfg 0) (fun _ => 0) none [obsNear] fun _ => (3 / 2, 0)) = some (3 / 2, 1 / 10) ∧
    ∃ C, admissibleKernel obsNear.tangentPoints (-1, 0) = .ok (some C) := by
  obtain ⟨h1, h2, h5⟩ := near_call (g := 0) (y := 1 / 10) le_rfl (by norm_num) (by norm_num) le_rfl near_moved
  have hv := C95_value_partial (cfg := nearCfg 0) (key := fun _ => 0) (prev := none) (obstacles := [obsNear]) isSetList_dedup (by simp) h1
    (fun _ => (3 / 2, 0)) (List.mem_singleton.2 rfl) (s := ⟨[obsNear], none, some (3 / 2, 1 / 10)⟩) rfl (p := (3 / 2, 1 / 10)) rfl
  refine ⟨_, _, _, h1, List.mem_singleton.2 rfl, rfl, hv, ?_⟩
  exact ((C95_changed_partial (cfg := nearCfg 0) (obstacles := [obsNear]) (key := fun _ => 0) (prev := none) (fun _ => (3 / 2, 0)) 0 (by rw [h2]; norm_num)).2 obsNear (by simp)).1

/-- A concrete case of `C95_early_partial`: the robot in the box. -/
example (m : Refs) : refsAfter { nearCfg 0 with x := (3 / 2, 1 / 2) } (fun _ => 0) none [obsNear] m = m := by
  refine C95_early_partial m (o := obsNear) (by simp) (Or.inl ?_)
  have ht : obsNear.tangentPoints (3 / 2, 1 / 2) = .ok [] := C38_inside none nearBox (by simp [nearBox]) .global .global (Or.inl rfl) (Or.inl rfl) _
    (nearBox_star (by norm_num) (by norm_num) (by norm_num) (by norm_num))
  simp only [admissibleKernel, ht, bind, Except.bind]

/-- A concrete case of `C96_kept_partial`: the L, and a later call for its boxes. -/
example (m : Refs) : cornerStar.currentXr (fun o => o.id.getD 0) (refsAfter slowCfg (fun o => o.id.getD 0) none [obsA, obsB] m) = some (1 / 2, 11 / 30) := by
  rw [C96_kept_partial]
  · simp only [ClusterObs.currentXr, cornerStar, Triple.mean, cornerTriple]; norm_num
  · simp [cornerStar, obsA, obsB, polygonObs]
  · right; left; simp [cornerStar]

/-- **C96 is false.** Two calls for the same box with different goals: the cluster obstacle of the first result is the box, and
the second call moves its reference point. -/
theorem C96_false : ∃ (cfg cfg' : StarCfg) (o : ConvObs) (r : Res ConvObs ClusterObs Triple (Set (Pt ℝ))) (s : ClusterObs),
    IsSetList cfg.setList ∧ IsUnique cfg.unique ∧ IsSetList cfg'.setList ∧ IsUnique cfg'.unique ∧ cfg.x = cfg'.x ∧
    clusterAndStarify (starGeo cfg) ⟨none, false, false⟩ none 2 [o] = some (.ok r) ∧ r.flag = .complete ∧ r.clusters.map (·.star) = [some s] ∧
    ∀ key m, s.currentXr key (refsAfter cfg key none [o] m) = some (3 / 2, 0) ∧
      s.currentXr key (refsAfter cfg' key none [o] (refsAfter cfg key none [o] m)) = some (3 / 2, 1 / 10) := by
  obtain ⟨h1, h2, h5⟩ := near_call (g := 0) (y := 1 / 10) le_rfl (by norm_num) (by norm_num) le_rfl near_moved
  obtain ⟨h3, h4, _⟩ := near_call (g := 1 / 2) (y := 0) (by norm_num) le_rfl le_rfl (by norm_num) near_select
  refine ⟨nearCfg (1 / 2), nearCfg 0, obsNear, _, _, isSetList_dedup, isUnique_dedup, isSetList_dedup, isUnique_dedup, rfl, h3, rfl, rfl, fun key m => ?_⟩
  rw [h2, h4]
  simp [ClusterObs.currentXr]

/-- A concrete case of `C96_star_partial`: the calls of `C96_false`. -/
example : StarConvex ℝ (3 / 2, 1 / 10) (clusterRegion (·.polygon) ⟨[obsNear], none, some (3 / 2, 0)⟩) := by
  obtain ⟨h1, h2, h5⟩ := near_call (g := 0) (y := 1 / 10) le_rfl (by norm_num) (by norm_num) le_rfl near_moved
  have hr : clusterRegion (·.polygon) ⟨[obsNear], none, some (3 / 2, 0)⟩ = polyRegion none nearBox := by
    simp only [clusterRegion, List.mem_singleton, exists_eq_left, Option.getD_none, Set.union_empty]
    rfl
  refine (C96_star_partial (cfg := nearCfg 0) (key := fun _ => 0) (prev := none) (obstacles := [obsNear]) isUnique_dedup (·.polygon)
    (fun o ho => by rw [List.mem_singleton.1 ho]; exact polyRegion_convex none nearBox) ?_ (fun _ => (3 / 2, 0)) _ (by simp) ?_ _ ?_).2
  · intro o ho c T hc hT
    rw [List.mem_singleton.1 ho] at hc ⊢
    rw [h5] at hc
    injection hc with hc
    rw [← hc] at hT
    injection hT with hT
    subst hT
    exact selection_inside (cfg := nearCfg 0) isUnique_dedup (obs := [obsNear])
      (fun o ho => by rw [List.mem_singleton.1 ho]; exact polyRegion_convex none nearBox)
      (fun o ho k hk => by rw [List.mem_singleton.1 ho]; exact near_none (by norm_num) le_rfl k hk) (near_position _) (by simp [nearCfg])
      (fun o ho => by rw [List.mem_singleton.1 ho]; exact ⟨near_robot.outside, (near_goal le_rfl (by norm_num)).outside⟩)
  · intro p hp
    simp only [ClusterObs.currentXr, Option.some.injEq] at hp
    rw [hr, ← hp]
    have hm : ((3 / 2, 0) : Pt ℝ) ∈ polyRegion none nearBox := by rw [nearBox_region]; norm_num
    exact ⟨hm, (polyRegion_convex none nearBox).starConvex hm⟩
  · simp [ClusterObs.currentXr, h2]

end Starworlds
