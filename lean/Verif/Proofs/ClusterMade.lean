import Verif.Proofs.Cluster

/-! # Where the cluster obstacles of `cluster_and_starify` come from -/

namespace Starworlds

open Spec

variable {Ob Star KP P : Type}

/-- The kernel points and the cluster obstacle of the cluster have been computed for its obstacles. -/
def Made (g : Geo Ob Star KP P) (c : Cl Ob Star KP P) : Prop :=
  ∃ kp st, c.kernelPoints = some kp ∧ c.star = some st ∧
    ((∃ o prev, c.obstacles = [o] ∧ g.kernelSel 0 [o] prev = .ok kp ∧ g.firstStar o kp = .ok st) ∨
     ∃ n prev, g.admEmpty n c.obstacles = .ok false ∧ g.kernelSel n c.obstacles prev = .ok kp ∧
      g.loopStar n c.obstacles kp = .ok st)

theorem computeKernelPoints_sel {g : Geo Ob Star KP P} {n : Nat} {obs : List Ob} {prev : Option (Cl Ob Star KP P)} {kp : KP}
    (h : computeKernelPoints g n obs prev = .ok kp) : ∃ pr, g.kernelSel n obs pr = .ok kp := by
  unfold computeKernelPoints at h
  split at h
  · exact ⟨_, h⟩
  · split at h
    · cases h
    · exact ⟨_, h⟩

theorem made_cache {g : Geo Ob Star KP P} {c : Cl Ob Star KP P} (h : Made g c) : Made g (cachePolygon g c) := by
  unfold Made at *
  rwa [cachePolygon_kernelPoints, cachePolygon_star, cachePolygon_obstacles]

theorem firstCluster_made {g : Geo Ob Star KP P} {prev : Option (List (Cl Ob Star KP P))}
    {o : Ob} {c : Cl Ob Star KP P} (h : firstCluster g prev o = .ok c) : Made g c := by
  simp only [firstCluster, bind, Except.bind] at h
  split at h
  · cases h
  · rename_i kp hk
    split at h
    · cases h
    · split at h
      · cases h
      · rename_i st hst
        injection h with h
        subst h
        obtain ⟨pr, hk⟩ := computeKernelPoints_sel hk
        exact ⟨kp, st, rfl, rfl, Or.inl ⟨o, pr, rfl, hk, hst⟩⟩

theorem mapM_made {g : Geo Ob Star KP P} {prev : Option (List (Cl Ob Star KP P))}
    (l : List Ob) {cls : List (Cl Ob Star KP P)} (h : l.mapM (firstCluster g prev) = .ok cls) : ∀ c ∈ cls, Made g c := by
  induction l generalizing cls with
  | nil =>
    simp only [List.mapM_nil, pure, Except.pure] at h
    injection h with h; subst h; simp
  | cons o l ih =>
    simp only [List.mapM_cons, bind, Except.bind] at h
    split at h
    · cases h
    · rename_i c hc
      split at h
      · cases h
      · rename_i rest hr
        simp only [pure, Except.pure] at h
        injection h with h; subst h
        intro d hd
        rcases List.mem_cons.1 hd with rfl | hd
        · exact firstCluster_made hc
        · exact ih hr d hd

theorem starifyCluster_made {g : Geo Ob Star KP P} {prev : Option (List (Cl Ob Star KP P))} {n : Nat}
    {cl c : Cl Ob Star KP P} (h : starifyCluster g prev n cl = .ok (some c)) : Made g c := by
  unfold starifyCluster at h
  split at h
  · cases h
  · injection h with h; cases h
  · rename_i hadm
    simp only [bind, Except.bind] at h
    split at h
    · cases h
    · rename_i kp hkp
      split at h
      · cases h
      · split at h
        · cases h
        · rename_i st hst
          injection h with h
          injection h with h
          subst h
          obtain ⟨pr, hk⟩ := computeKernelPoints_sel hkp
          exact made_cache ⟨kp, st, rfl, rfl, Or.inr ⟨n, pr, hadm, hk, hst⟩⟩

/-- Everything in the history has been made. -/
def HistMade (g : Geo Ob Star KP P) (h : History Ob Star KP P) : Prop := ∀ nm c, h nm = some c → Made g c

theorem histMade_insert {g : Geo Ob Star KP P} {h : History Ob Star KP P} (hh : HistMade g h) {c : Cl Ob Star KP P}
    (hc : Made g c) : HistMade g (h.insert c) := by
  intro nm d hd
  unfold History.insert at hd
  split at hd
  · injection hd with hd; subst hd; exact hc
  · exact hh nm d hd

theorem histMade_first {g : Geo Ob Star KP P} (cls : List (Cl Ob Star KP P)) (hc : ∀ c ∈ cls, Made g c) :
    HistMade g (firstHistory cls) := by
  unfold firstHistory
  have : ∀ (cls : List (Cl Ob Star KP P)) (h : History Ob Star KP P), (∀ c ∈ cls, Made g c) →
      HistMade g h → HistMade g (cls.foldl History.insert h) := by
    intro cls
    induction cls with
    | nil => intro h _ hh; exact hh
    | cons c cls ih =>
      intro h hc hh
      exact ih _ (fun d hd => hc d (by simp [hd])) (histMade_insert hh (hc c (by simp)))
  exact this cls _ hc (by intro nm c h; cases h)

theorem starifyAll_made {g : Geo Ob Star KP P} {prev : Option (List (Cl Ob Star KP P))} {n : Nat}
    (cls : List (Cl Ob Star KP P)) (h : History Ob Star KP P) (hh : HistMade g h)
    {cls' : List (Cl Ob Star KP P)} {h' : History Ob Star KP P}
    (he : starifyAll g prev n cls h = .ok (.inr (cls', h'))) : HistMade g h' ∧ ∀ c ∈ cls', Made g c := by
  induction cls generalizing h cls' h' with
  | nil =>
    simp only [starifyAll] at he
    injection he with he; injection he with he; injection he with he1 he2
    subst he1 he2
    exact ⟨hh, by simp⟩
  | cons cl cls ih =>
    simp only [starifyAll] at he
    split at he
    · rename_i c hc
      obtain ⟨rest, hr, rfl⟩ := consStarified_inr he
      obtain ⟨h1, h2⟩ := ih h hh hr
      refine ⟨h1, fun d hd => ?_⟩
      rcases List.mem_cons.1 hd with rfl | hd
      · exact hh _ _ hc
      · exact h2 d hd
    · split at he
      · cases he
      · injection he with he; cases he
      · rename_i c hc
        obtain ⟨rest, hr, rfl⟩ := consStarified_inr he
        have hg := starifyCluster_made hc
        obtain ⟨h1, h2⟩ := ih _ (histMade_insert hh hg) hr
        refine ⟨h1, fun d hd => ?_⟩
        rcases List.mem_cons.1 hd with rfl | hd
        · exact hg
        · exact h2 d hd

theorem gic_made {g : Geo Ob Star KP P} {cls out : List (Cl Ob Star KP P)} (hg : ∀ c ∈ cls, Made g c)
    (h : getIntersectionClusters g cls = .ok (out, false)) : ∀ c ∈ out, Made g c := by
  intro c hc
  rw [(gic_false h).1] at hc
  obtain ⟨d, hd, rfl⟩ := List.mem_map.1 hc
  exact made_cache (hg d hd)

theorem clusterLoop_made {g : Geo Ob Star KP P} {par : Params}
    (hmax : par.maxIterations = none) {prev : Option (List (Cl Ob Star KP P))} (fuel : Nat)
    (cls : List (Cl Ob Star KP P)) (ex : Bool) (h : History Ob Star KP P) (n : Nat)
    (iters : List (List (Cl Ob Star KP P))) (hh : HistMade g h)
    (hfalse : ex = false → ∀ c ∈ cls, Made g c)
    {out : List (Cl Ob Star KP P)} {n' : Nat} {iters' : List (List (Cl Ob Star KP P))}
    (he : clusterLoop g par prev fuel cls ex h n iters = some (.ok (.done out n' iters'))) :
    ∀ c ∈ out, Made g c := by
  induction fuel generalizing cls ex h n iters with
  | zero =>
    cases ex with
    | true => simp [clusterLoop] at he
    | false =>
      simp only [clusterLoop, Option.some.injEq, Except.ok.injEq, LoopEnd.done.injEq] at he
      rw [← he.1]; exact hfalse rfl
  | succ fuel ih =>
    cases ex with
    | false =>
      simp only [clusterLoop, Option.some.injEq, Except.ok.injEq, LoopEnd.done.injEq] at he
      rw [← he.1]; exact hfalse rfl
    | true =>
      simp only [clusterLoop] at he
      split at he
      · simp at he
      · split at he
        · simp at he
        · simp at he
        · rename_i cls' h' hst
          split at he
          · simp at he
          · rename_i cls'' ex' hgic
            obtain ⟨h1, h2⟩ := starifyAll_made cls h hh hst
            rw [if_neg (by simp [reachedMax, hmax])] at he
            refine ih cls'' ex' h' _ _ h1 ?_ he
            rintro rfl
            exact gic_made h2 hgic

/-- The test of all obstacles at the start has succeeded. -/
theorem initLoop_free {g : Geo Ob Star KP P} : ∀ (l : List Ob) (i : Nat), initLoop g i l = .ok true →
    ∀ o ∈ l, g.robotFree o = .ok true ∧ g.goalFree o = .ok true
  | [], _, _ => by simp
  | a :: l, i, h => by
    simp only [initLoop] at h
    split at h
    · cases h
    · simp only [bind, Except.bind] at h
      split at h
      · cases h
      · rename_i b hb
        split at h
        · cases h
        · rename_i c hc
          split at h
          · cases h
          · rename_i hbc
            split at h
            · cases h
            · intro o ho
              have hbc : b = true ∧ c = true := by simpa using hbc
              rcases List.mem_cons.1 ho with rfl | ho
              · exact ⟨hbc.1 ▸ hb, hbc.2 ▸ hc⟩
              · exact initLoop_free l (i + 1) h o ho

/-- What the `make_convex` stage keeps of every cluster obstacle. -/
theorem makeConvexLoop_keeps {g : Geo Ob Star KP P} {X : Type} (f : Star → X) (hf : ∀ h st, f (g.hullStar h st) = f st)
    (k j : Nat) (cls : List (Cl Ob Star KP P)) (hp : ∀ c ∈ cls, c.polygon.isSome) {out : List (Cl Ob Star KP P)}
    (h : makeConvexLoop g k j cls = .ok (.inl out) ∨ makeConvexLoop g k j cls = .ok (.inr out)) :
    out.map (fun c => c.star.map f) = cls.map (fun c => c.star.map f) := by
  induction k generalizing j cls with
  | zero => simp only [makeConvexLoop, Except.ok.injEq, reduceCtorEq, Sum.inr.injEq, false_or] at h; rw [← h]
  | succ k ih =>
    simp only [makeConvexLoop] at h
    rw [map_cachePolygon_of_some g cls hp] at h
    split at h
    · simp only [Except.ok.injEq, reduceCtorEq, Sum.inr.injEq, false_or] at h; rw [← h]
    · rename_i cl hcl
      split at h
      · simp at h
      · rename_i st hst'
        split at h
        · exact ih _ _ hp h
        · split at h
          · simp only [Except.ok.injEq, reduceCtorEq, Sum.inl.injEq, or_false] at h; rw [← h]
          · split at h
            · simp at h
            · split at h
              · simp at h
              · rename_i hl hhull
                split at h
                · exact ih _ _ hp h
                · rw [ih _ _ ?_ h]
                  · refine List.ext_getElem? fun i => ?_
                    simp only [List.getElem?_map, List.getElem?_modify]
                    by_cases hij : j = i
                    · subst hij
                      simp [hcl, hst', hf]
                    · simp [hij]
                  · intro c hc
                    obtain ⟨i, hi⟩ := List.getElem?_of_mem hc
                    rw [List.getElem?_modify] at hi
                    cases hci : cls[i]? with
                    | none => rw [hci] at hi; simp at hi
                    | some e =>
                      rw [hci] at hi
                      have he := hp e (List.mem_of_getElem? hci)
                      by_cases hij : j = i
                      · simp only [hij, if_true, Option.map_eq_map, Option.map_some, Option.some.injEq] at hi
                        rw [← hi]; exact he
                      · simp only [hij, if_false, Option.map_eq_map, Option.map_some, Option.some.injEq] at hi
                        rw [← hi]; exact he

/-- What is known of the clusters that a call without iteration limit returns. -/
theorem clusterAndStarify_made {g : Geo Ob Star KP P} (hs : IsSetList g.setList) {par : Params}
    (hmax : par.maxIterations = none) {prev : Option (List (Cl Ob Star KP P))}
    {fuel : Nat} {obstacles : List Ob} {r : Res Ob Star KP P}
    (h : clusterAndStarify g par prev fuel obstacles = some (.ok r)) (hf : r.flag ≠ .incomplete) :
    ∃ cls, Final g obstacles cls ∧ (∀ c ∈ cls, Made g c) ∧ r.clusters.map Cl.strip = cls.map Cl.strip ∧
      (∀ i d, r.clusters[i]? = some d → Convexified g cls i d.star) ∧ (par.makeConvex = false → r.clusters = cls) ∧
      (∀ (X : Type) (f : Star → X), (∀ h st, f (g.hullStar h st) = f st) →
        r.clusters.map (fun c => c.star.map f) = cls.map (fun c => c.star.map f)) ∧
      ∀ o ∈ obstacles, g.robotFree o = .ok true ∧ g.goalFree o = .ok true := by
  obtain ⟨cls0, cls1, ex, cls, n, iters, h0, h1, hl, _, hr⟩ := clusterAndStarify_done h hf
  obtain ⟨m1, m2, _⟩ := mapM_first obstacles (fun o ho => ho) h0
  have hp0 : (obstacles.map g.id).Nodup → List.Perm (cls0.flatMap (·.obstacles)) obstacles := by
    intro _; rw [m2]
  have hfin : Final g obstacles cls := by
    refine clusterLoop_final hs hmax fuel cls1 ex _ 1 _ (histOk_first cls0 m1) ?_ ?_ hl
    · rintro rfl
      exact ⟨gic_fresh hs m1 h1, fun hid => (gic_perm hs h1).trans (hp0 hid)⟩
    · rintro rfl
      exact gic_final hs m1 hp0 h1
  have hmade : ∀ c ∈ cls, Made g c := by
    refine clusterLoop_made hmax fuel cls1 ex _ 1 _ (histMade_first cls0 (mapM_made obstacles h0)) ?_ hl
    rintro rfl
    exact gic_made (mapM_made obstacles h0) h1
  have hfree : ∀ o ∈ obstacles, g.robotFree o = .ok true ∧ g.goalFree o = .ok true := by
    unfold clusterAndStarify at h
    split at h
    · simp at h
    · simp only [Option.some.injEq, Except.ok.injEq] at h
      rw [← h] at hf; simp [defaultResult] at hf
    · rename_i hi
      exact initLoop_free _ _ hi
  have hst : ∀ c ∈ cls, c.star.isSome := fun c hc => (hfin.good c hc).1.star
  have hpo : ∀ c ∈ cls, c.polygon.isSome := fun c hc => by
    rw [(hfin.good c hc).2, Option.isSome_map]; exact hst c hc
  have hid : ∀ i d, cls[i]? = some d → Convexified g cls i d.star := by
    intro i d hd
    left; rw [hd]; rfl
  refine ⟨cls, hfin, hmade, ?_⟩
  rcases hr with ⟨hm, hr, _⟩ | ⟨hm, hr, _⟩ | ⟨hm, hr, _⟩
  · rw [hr]
    exact ⟨rfl, hid, fun _ => rfl, fun _ _ _ => rfl, hfree⟩
  · exact ⟨makeConvexLoop_strip _ _ _ hst hpo (Or.inr hr),
      makeConvexLoop_convexified cls _ _ cls hst hpo rfl hid (Or.inr hr), fun h => (by rw [hm] at h; cases h),
      fun _ f hf => makeConvexLoop_keeps f hf _ _ _ hpo (Or.inr hr), hfree⟩
  · exact ⟨makeConvexLoop_strip _ _ _ hst hpo (Or.inl hr),
      makeConvexLoop_convexified cls _ _ cls hst hpo rfl hid (Or.inl hr), fun h => (by rw [hm] at h; cases h),
      fun _ f hf => makeConvexLoop_keeps f hf _ _ _ hpo (Or.inl hr), hfree⟩

end Starworlds
