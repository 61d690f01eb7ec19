import Verif.Props.IterationLimit
import Verif.Props.StarifyDisjoint

/-! # C140: obstacles that meet come into the same cluster -/

namespace Starworlds

open Spec

variable {Ob Star KP P : Type} {g : Geo Ob Star KP P} {par : Params} {prev : Option (List (Cl Ob Star KP P))}

/-- Merging makes clusters only larger. -/
theorem gic_coarser (hs : IsSetList g.setList) {cls out : List (Cl Ob Star KP P)} {ex : Bool}
    (h : getIntersectionClusters g cls = .ok (out, ex)) : ∀ c ∈ cls, ∃ e ∈ out, c.obstacles ⊆ e.obstacles := by
  intro c hc
  cases ex with
  | false =>
    rw [(gic_false h).1]
    exact ⟨_, List.mem_map_of_mem hc, by rw [cachePolygon_obstacles]; exact List.Subset.refl _⟩
  | true =>
    obtain ⟨i, hi, rfl⟩ := List.mem_iff_getElem.1 hc
    have : i ∈ (mergedGroups g.setList cls.length (interIdx g (cls.map (cachePolygon g)))).flatten :=
      (mergedGroups_flatten hs _ _).mem_iff.2 (List.mem_range.2 hi)
    obtain ⟨grp, hgrp, hig⟩ := List.mem_flatten.1 this
    rw [(gic_true h).1]
    refine ⟨_, List.mem_map_of_mem hgrp, fun o ho => List.mem_flatMap.2 ⟨i, hig, ?_⟩⟩
    simpa only [obstaclesAt, List.getElem?_map, List.getElem?_eq_getElem hi, Option.map_some, cachePolygon_obstacles] using ho

/-- Clusters whose polygons intersect are merged. -/
theorem gic_together (hs : IsSetList g.setList) {cls out : List (Cl Ob Star KP P)} {ex : Bool}
    (h : getIntersectionClusters g cls = .ok (out, ex)) {i j : Nat} (hij : i < j) (hj : j < cls.length)
    (hm : interIdx g (cls.map (cachePolygon g)) i j = true) :
    ∃ e ∈ out, (∀ c, cls[i]? = some c → c.obstacles ⊆ e.obstacles) ∧ ∀ c, cls[j]? = some c → c.obstacles ⊆ e.obstacles := by
  cases ex with
  | false =>
    have := (gic_false h).2 i j hij hj
    rw [this] at hm; cases hm
  | true =>
    obtain ⟨grp, hgrp, hi, hj'⟩ := (mergedGroups_same hs cls.length (interIdx g (cls.map (cachePolygon g))) i j (by omega)).2
      (Relation.EqvGen.rel _ _ ⟨hij, hj, hm⟩)
    rw [(gic_true h).1]
    have key : ∀ k ∈ grp, ∀ c, cls[k]? = some c → c.obstacles ⊆ grp.flatMap (obstaclesAt (cls.map (cachePolygon g))) := by
      intro k hk c hc o ho
      refine List.mem_flatMap.2 ⟨k, hk, ?_⟩
      simpa only [obstaclesAt, List.getElem?_map, hc, Option.map_some, cachePolygon_obstacles] using ho
    exact ⟨_, List.mem_map_of_mem hgrp, key i hi, key j hj'⟩

/-- The first clusters, one by one. -/
theorem first_at (l : List Ob) {cls : List (Cl Ob Star KP P)} (h : l.mapM (firstCluster g prev) = .ok cls) :
    ∀ (i : Nat) (o : Ob), l[i]? = some o → ∃ c kp s, cls[i]? = some c ∧ c.obstacles = [o] ∧ g.firstStar o kp = .ok s ∧
      (cachePolygon g c).polygon = some (g.starPoly s) := by
  induction l generalizing cls with
  | nil => intro i o h; simp at h
  | cons a l ih =>
    simp only [List.mapM_cons, bind, Except.bind] at h
    cases ha : firstCluster g prev a with
    | error e => rw [ha] at h; cases h
    | ok c =>
      rw [ha] at h
      cases hl : l.mapM (firstCluster g prev) with
      | error e => rw [hl] at h; cases h
      | ok cls' =>
        rw [hl] at h
        simp only [pure, Except.pure, Except.ok.injEq] at h
        subst h
        intro i o hio
        cases i with
        | succ i => exact ih hl i o hio
        | zero =>
          simp only [List.getElem?_cons_zero, Option.some.injEq] at hio
          subst hio
          simp only [firstCluster, bind, Except.bind] at ha
          split at ha
          · cases ha
          · split at ha
            · cases ha
            · split at ha
              · cases ha
              · rename_i kp _ _ _ _ s hst
                injection ha with ha
                subst ha
                exact ⟨_, _, s, rfl, rfl, hst, rfl⟩

/-- Clusters only grow in the loop. -/
theorem loop_coarser (hs : IsSetList g.setList) {obstacles : List Ob} (hid : (obstacles.map g.id).Nodup) (fuel : Nat)
    (cls : List (Cl Ob Star KP P)) (ex : Bool) (h : History Ob Star KP P) (n : Nat)
    (iters : List (List (Cl Ob Star KP P))) (hh : HistOk g obstacles h) (htrue : ex = true → ∀ c ∈ cls, Fresh g obstacles c)
    {out : List (Cl Ob Star KP P)} {n' : Nat} {iters' : List (List (Cl Ob Star KP P))}
    (he : clusterLoop g par prev fuel cls ex h n iters = some (.ok (.done out n' iters'))) :
    ∀ c ∈ cls, ∃ e ∈ out, c.obstacles ⊆ e.obstacles := by
  induction fuel generalizing cls ex h n iters with
  | zero =>
    cases ex with
    | true => simp [clusterLoop] at he
    | false =>
      simp only [clusterLoop, Option.some.injEq, Except.ok.injEq, LoopEnd.done.injEq] at he
      rw [← he.1]; exact fun c hc => ⟨c, hc, List.Subset.refl _⟩
  | succ fuel ih =>
    cases ex with
    | false =>
      simp only [clusterLoop, Option.some.injEq, Except.ok.injEq, LoopEnd.done.injEq] at he
      rw [← he.1]; exact fun c hc => ⟨c, hc, List.Subset.refl _⟩
    | true =>
      have hf := htrue rfl
      simp only [clusterLoop] at he
      split at he
      · simp at he
      · split at he
        · simp at he
        · simp at he
        · rename_i cls' h' hst
          split at he
          · simp at he
          · rename_i cls'' ex' hgic
            obtain ⟨h1, h2, h3⟩ := starifyAll_good cls h hh hf hst
            have h3 := h3 hid
            have up : ∀ c ∈ cls, ∃ e ∈ cls'', c.obstacles ⊆ e.obstacles := by
              intro c hc
              have : c.obstacles ∈ cls'.map (·.obstacles) := by rw [h3]; exact List.mem_map_of_mem hc
              obtain ⟨d, hd, e⟩ := List.mem_map.1 this
              rw [← e]
              exact gic_coarser hs hgic d hd
            by_cases hr : reachedMax par (n + 1) = true
            · rw [if_pos hr] at he
              simp only [Option.some.injEq, Except.ok.injEq, LoopEnd.done.injEq] at he
              obtain ⟨rfl, -, -⟩ := he
              exact up
            · rw [if_neg hr] at he
              intro c hc
              obtain ⟨d, hd, s1⟩ := up c hc
              obtain ⟨e, he', s2⟩ := ih cls'' ex' h' _ _ h1 (by rintro rfl; exact gic_fresh hs h2 hgic) he d hd
              exact ⟨e, he', fun o ho => s2 (s1 ho)⟩

/-- Obstacles whose first polygons intersect come into the same cluster. -/
theorem meet_together (hs : IsSetList g.setList) (fuel : Nat) (obstacles : List Ob) (hid : (obstacles.map g.id).Nodup)
    (r : Res Ob Star KP P) (h : clusterAndStarify g par prev fuel obstacles = some (.ok r)) (hf : r.flag ≠ .incomplete)
    {i j : Nat} {a b : Ob} (hij : i < j) (ha : obstacles[i]? = some a) (hb : obstacles[j]? = some b)
    (hm : ∀ kp kp' s s', g.firstStar a kp = .ok s → g.firstStar b kp' = .ok s' → g.inter (g.starPoly s) (g.starPoly s') = true) :
    ∃ c ∈ r.clusters, a ∈ c.obstacles ∧ b ∈ c.obstacles := by
  obtain ⟨cls0, cls1, ex, cls, n, iters, h0, h1, hl, _, hr⟩ := clusterAndStarify_done h hf
  obtain ⟨m1, -, m3⟩ := mapM_first obstacles (fun o ho => ho) h0
  obtain ⟨c, kp, s, c1, c2, c3, c4⟩ := first_at obstacles h0 i a ha
  obtain ⟨d, kp', s', d1, d2, d3, d4⟩ := first_at obstacles h0 j b hb
  have hj : j < cls0.length := by
    rw [List.getElem?_eq_some_iff] at d1
    exact d1.1
  have hI : interIdx g (cls0.map (cachePolygon g)) i j = true := by
    simp only [interIdx, List.getElem?_map, c1, d1, Option.map_some, c4, d4]
    exact hm _ _ _ _ c3 d3
  obtain ⟨e, he, k1, k2⟩ := gic_together hs h1 hij hj hI
  obtain ⟨e', he', k3⟩ := loop_coarser hs hid fuel cls1 ex _ 1 _ (histOk_first cls0 m1) (by rintro rfl; exact gic_fresh hs m1 h1) hl e he
  have hab : a ∈ e'.obstacles ∧ b ∈ e'.obstacles :=
    ⟨k3 (k1 c c1 (by rw [c2]; simp)), k3 (k2 d d1 (by rw [d2]; simp))⟩
  have hmap : r.clusters.map (·.obstacles) = cls.map (·.obstacles) := by
    rcases hr with ⟨-, hr, _⟩ | ⟨-, hr, _⟩ | ⟨-, hr, _⟩
    · rw [hr]
    · exact makeConvex_obstacles _ _ _ (Or.inr hr)
    · exact makeConvex_obstacles _ _ _ (Or.inl hr)
  have : e'.obstacles ∈ r.clusters.map (·.obstacles) := by rw [hmap]; exact List.mem_map_of_mem he'
  obtain ⟨f, hf, e1⟩ := List.mem_map.1 this
  exact ⟨f, hf, by rw [e1]; exact hab⟩

/-- Two obstacles of the list, that consist of the points `pts`, have a common point. -/
def Touch (pts : ConvObs → Set (Pt ℝ)) (obstacles : List ConvObs) (a b : ConvObs) : Prop :=
  a ∈ obstacles ∧ b ∈ obstacles ∧ (pts a ∩ pts b).Nonempty

/-- C140 for obstacles that are covered by their polygons: in every result that is not INCOMPLETE, obstacles (with different ids) that are
joined by a chain of obstacles with common points are in the same cluster, whatever the kernel points, limits and previous clusters are. -/
theorem C140_together_partial {pts : ConvObs → Set (Pt ℝ)} {cfg : StarCfg} {prev : Option (List (Cl ConvObs ClusterObs Triple (Set (Pt ℝ))))} {fuel : Nat}
    {obstacles : List ConvObs} {r : Res ConvObs ClusterObs Triple (Set (Pt ℝ))} (hs : IsSetList cfg.setList)
    (hid : (obstacles.map (·.id)).Nodup) (hpts : ∀ o ∈ obstacles, pts o ⊆ o.polygon)
    (h : clusterAndStarify (starGeo cfg) par prev fuel obstacles = some (.ok r)) (hf : r.flag ≠ .incomplete)
    {a b : ConvObs} (ha : a ∈ obstacles) (hab : Relation.EqvGen (Touch pts obstacles) a b) :
    ∃ c ∈ r.clusters, a ∈ c.obstacles ∧ b ∈ c.obstacles := by
  have hperm := C139_shares_partial (g := starGeo cfg) hs fuel obstacles r h hid
  have hnd : (r.clusters.flatMap (·.obstacles)).Nodup := hperm.nodup_iff.2 (List.Nodup.of_map _ hid)
  have hall : ∀ x ∈ obstacles, ∃ c ∈ r.clusters, x ∈ c.obstacles := fun x hx => List.mem_flatMap.1 (hperm.mem_iff.2 hx)
  have huniq : ∀ x, ∀ c ∈ r.clusters, ∀ d ∈ r.clusters, x ∈ c.obstacles → x ∈ d.obstacles → c = d := by
    intro x c hc d hd hxc hxd
    by_contra hne
    have hp := (List.nodup_flatMap.1 hnd).2
    have : Std.Symm (Function.onFun List.Disjoint fun x : Cl ConvObs ClusterObs Triple (Set (Pt ℝ)) => x.obstacles) :=
      ⟨fun _ _ h => List.Disjoint.symm h⟩
    exact (hp.forall hc hd hne) hxc hxd
  have hpoly : ∀ (o : ConvObs) kp s, (starGeo cfg).firstStar o kp = .ok s → o.polygon ⊆ (starGeo cfg).starPoly s := by
    intro o kp s hs p hp
    have : s.members = [o] := by
      simp only [starGeo, bind, Except.bind] at hs
      revert hs
      split
      · intro hs; cases hs
      · split
        · split
          · intro hs; injection hs with hs; subst hs; rfl
          · intro hs; cases hs
        · intro hs; injection hs with hs; subst hs; rfl
    exact Or.inl ⟨o, by rw [this]; simp, hp⟩
  have key : ∀ a b, Relation.EqvGen (Touch pts obstacles) a b → a = b ∨ ∃ c ∈ r.clusters, a ∈ c.obstacles ∧ b ∈ c.obstacles := by
    intro a b hab
    induction hab with
    | rel a b hab =>
      obtain ⟨h1, h2, p, hpa, hpb⟩ := hab
      replace hpa := hpts _ h1 hpa
      replace hpb := hpts _ h2 hpb
      obtain ⟨i, hi⟩ := List.getElem?_of_mem h1
      obtain ⟨j, hj⟩ := List.getElem?_of_mem h2
      rcases lt_trichotomy i j with hij | rfl | hij
      · right
        refine meet_together (g := starGeo cfg) hs fuel obstacles hid r h hf hij hi hj fun kp kp' s s' e1 e2 => ?_
        simp only [starGeo, decide_eq_true_eq]
        exact ⟨p, hpoly _ _ _ e1 hpa, hpoly _ _ _ e2 hpb⟩
      · left
        rw [hi] at hj
        injection hj
      · right
        obtain ⟨c, hc, k1, k2⟩ := meet_together (g := starGeo cfg) hs fuel obstacles hid r h hf hij hj hi
          fun kp kp' s s' e1 e2 => by
            simp only [starGeo, decide_eq_true_eq]
            exact ⟨p, hpoly _ _ _ e1 hpb, hpoly _ _ _ e2 hpa⟩
        exact ⟨c, hc, k2, k1⟩
    | refl a => exact Or.inl rfl
    | symm a b _ ih =>
      rcases ih with rfl | ⟨c, hc, k1, k2⟩
      · exact Or.inl rfl
      · exact Or.inr ⟨c, hc, k2, k1⟩
    | trans a b c _ _ ih1 ih2 =>
      rcases ih1 with rfl | ⟨d, hd, k1, k2⟩
      · exact ih2
      · rcases ih2 with rfl | ⟨e, he, k3, k4⟩
        · exact Or.inr ⟨d, hd, k1, k2⟩
        · have := huniq b d hd e he k2 k3
          subst this
          exact Or.inr ⟨d, hd, k1, k4⟩
  rcases key a b hab with rfl | h
  · obtain ⟨c, hc, k⟩ := hall a ha
    exact ⟨c, hc, k, k⟩
  · exact h

/-- The two boxes overlap, their ids differ, and they are in the same cluster. -/
example : ∃ r, clusterAndStarify (starGeo cornerCfg) ⟨none, true, false⟩ none 1 [obsA, obsB] = some (.ok r) ∧ r.flag ≠ .incomplete ∧
    Touch (·.polygon) [obsA, obsB] obsA obsB ∧ ([obsA, obsB].map (·.id)).Nodup ∧ obsA ≠ obsB ∧ ∃ c ∈ r.clusters, obsA ∈ c.obstacles ∧ obsB ∈ c.obstacles := by
  have hr := corner_result true
  have ht : Touch (·.polygon) [obsA, obsB] obsA obsB := ⟨by simp, by simp, (0, 0), box_mem (by simp [boxA]), box_mem (by simp [boxB])⟩
  have hid : ([obsA, obsB].map (·.id)).Nodup := by
    rw [show [obsA, obsB].map (·.id) = [some 0, some 1] from rfl]
    simp
  refine ⟨_, hr, by simp, ht, hid, fun e => ?_, ?_⟩
  · have := congrArg ConvObs.id e
    rw [show obsA.id = some 0 from rfl, show obsB.id = some 1 from rfl] at this
    simp at this
  · exact C140_together_partial (pts := (·.polygon)) isSetList_dedup hid (fun _ _ => subset_rfl) hr (by simp) (by simp) (Relation.EqvGen.rel _ _ ht)

/-- C140 is false for ellipses: two circles that have a common point are returned as two clusters. -/
theorem C140_false : ∃ (cfg : StarCfg) (e1 e2 : Ell) (p : Pt ℝ) (r : Res ConvObs ClusterObs Triple (Set (Pt ℝ))), IsSetList cfg.setList ∧
    p ∈ ellPoints e1 ∧ p ∈ ellPoints e2 ∧
    clusterAndStarify (starGeo cfg) ⟨none, false, false⟩ none 2 [ellipseObs (some 0) e1, ellipseObs (some 1) e2] = some (.ok r) ∧
    r.flag = .complete ∧ ¬ ∃ c ∈ r.clusters, ellipseObs (some 0) e1 ∈ c.obstacles ∧ ellipseObs (some 1) e2 ∈ c.obstacles := by
  obtain ⟨cfg, e1, e2, p, hs, -, -, -, hp1, hp2, r, c, d, hr, hf, hcl, hc, hd⟩ := C87_ellipse_false
  refine ⟨cfg, e1, e2, p, r, hs, hp1, hp2, hr, hf, ?_⟩
  have hne : ellipseObs (some 0) e1 ≠ ellipseObs (some 1) e2 := by
    intro e
    have := congrArg ConvObs.id e
    rw [show (ellipseObs (some 0) e1).id = some 0 from rfl, show (ellipseObs (some 1) e2).id = some 1 from rfl] at this
    simp at this
  rintro ⟨f, hf, k1, k2⟩
  rw [hcl] at hf
  simp only [List.mem_cons, List.not_mem_nil, or_false] at hf
  rcases hf with rfl | rfl
  · rw [hc, List.mem_singleton] at k2; exact hne k2.symm
  · rw [hd, List.mem_singleton] at k1; exact hne k1

end Starworlds
