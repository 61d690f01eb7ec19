import Verif.Proofs.Cluster
import Verif.Proofs.ClusterMade
import Verif.Props.Cluster

/-! # `cluster_and_starify` does not fail when the geometry routines do not fail on the given obstacles -/

namespace Starworlds

open Spec

variable {Ob Star KP P : Type}

/-- No geometry routine raises for lists of the given obstacles and the kernel points chosen for them. -/
structure Geo.TotalOn (g : Geo Ob Star KP P) (obstacles : List Ob) : Prop where
  robot : ∀ o ∈ obstacles, ∃ b, g.robotFree o = .ok b
  goal : ∀ o ∈ obstacles, ∃ b, g.goalFree o = .ok b
  exclude : ∀ o ∈ obstacles, g.exclude o = .ok ()
  adm : ∀ n l, (∀ o ∈ l, o ∈ obstacles) → ∃ b, g.admEmpty n l = .ok b
  kernelFirst : ∀ o ∈ obstacles, ∀ k, ∃ kp, g.kernelSel 0 [o] k = .ok kp
  kernelLoop : ∀ n l k, l ≠ [] → (∀ o ∈ l, o ∈ obstacles) → g.admEmpty n l = .ok false → ∃ kp, g.kernelSel n l k = .ok kp
  first : ∀ o ∈ obstacles, ∀ k kp, g.kernelSel 0 [o] k = .ok kp → ∃ s, g.firstStar o kp = .ok s
  loop : ∀ n l k kp, l ≠ [] → (∀ o ∈ l, o ∈ obstacles) → g.kernelSel n l k = .ok kp → ∃ s, g.loopStar n l kp = .ok s
  hull : ∀ p, ∃ q, g.hullOf p = .ok q

variable {g : Geo Ob Star KP P} {obstacles : List Ob} {prev : Option (List (Cl Ob Star KP P))}

theorem computeKernelPoints_of (n : Nat) (obs : List Ob) (hk : ∀ k, ∃ kp, g.kernelSel n obs k = .ok kp)
    (pr : Option (Cl Ob Star KP P)) (h : ∀ c, pr = some c → c.kernelPoints.isSome) :
    ∃ kp, computeKernelPoints g n obs pr = .ok kp := by
  cases pr with
  | none => exact hk none
  | some c =>
    obtain ⟨kp, hkp⟩ := Option.isSome_iff_exists.1 (h c rfl)
    obtain ⟨kp', h'⟩ := hk (some kp)
    exact ⟨kp', by simp only [computeKernelPoints, hkp, h']⟩

theorem firstCluster_on (ht : g.TotalOn obstacles) (hp : PrevOk prev) (o : Ob) (ho : o ∈ obstacles) :
    ∃ c, firstCluster g prev o = .ok c := by
  obtain ⟨kp, hkp⟩ := computeKernelPoints_of 0 [o] (ht.kernelFirst o ho) (extractCluster (newCluster g [o]).name prev)
    (fun c hc => (prev_ok hp _ (Or.inl hc)).2)
  have hid := prevId_ok (extractCluster (newCluster g [o]).name prev) (fun c hc => (prev_ok hp _ (Or.inl hc)).1)
  obtain ⟨k, hk⟩ := computeKernelPoints_sel hkp
  obtain ⟨s, hs⟩ := ht.first o ho k kp hk
  exact ⟨_, by simp only [firstCluster, hkp, hid, hs, bind, Except.bind]; rfl⟩

theorem starifyCluster_on (ht : g.TotalOn obstacles) (hp : PrevOk prev) (n : Nat) (cl : Cl Ob Star KP P)
    (hc : Fresh g obstacles cl) : ∃ r, starifyCluster g prev n cl = .ok r := by
  obtain ⟨b, hb⟩ := ht.adm n cl.obstacles hc.sub
  cases b with
  | true => exact ⟨none, by simp only [starifyCluster, hb]⟩
  | false =>
    obtain ⟨kp, hkp⟩ := computeKernelPoints_of n cl.obstacles (fun k => ht.kernelLoop n _ k hc.nonempty hc.sub hb)
      (lastCluster cl.name prev) (fun c hc => (prev_ok hp _ (Or.inr hc)).2)
    have hid := prevId_ok (lastCluster cl.name prev) (fun c hc => (prev_ok hp _ (Or.inr hc)).1)
    obtain ⟨k, hk⟩ := computeKernelPoints_sel hkp
    obtain ⟨s, hs⟩ := ht.loop n cl.obstacles k kp hc.nonempty hc.sub hk
    exact ⟨_, by simp only [starifyCluster, hb, hkp, hid, hs, bind, Except.bind]; rfl⟩

theorem starifyAll_on (ht : g.TotalOn obstacles) (hp : PrevOk prev) (n : Nat) (cls : List (Cl Ob Star KP P))
    (hc : ∀ c ∈ cls, Fresh g obstacles c) (h : History Ob Star KP P) : ∃ r, starifyAll g prev n cls h = .ok r := by
  induction cls generalizing h with
  | nil => exact ⟨_, rfl⟩
  | cons cl cls ih =>
    have ih := ih fun c h => hc c (List.mem_cons_of_mem _ h)
    simp only [starifyAll]
    split
    · exact consStarified_ok _ (ih h)
    · obtain ⟨r, hr⟩ := starifyCluster_on ht hp n cl (hc cl (by simp))
      rw [hr]
      cases r with
      | none => exact ⟨_, rfl⟩
      | some c => exact consStarified_ok _ (ih _)

theorem clusterLoop_on (hs : IsSetList g.setList) (ht : g.TotalOn obstacles) {par : Params}
    (hpv : PrevOk prev) (fuel : Nat) (cls : List (Cl Ob Star KP P)) (ex : Bool) (h : History Ob Star KP P) (n : Nat)
    (iters : List (List (Cl Ob Star KP P))) (hh : HistOk g obstacles h) (htrue : ex = true → ∀ c ∈ cls, Fresh g obstacles c) :
    ∀ e, clusterLoop g par prev fuel cls ex h n iters ≠ some (.error e) := by
  induction fuel generalizing cls ex h n iters with
  | zero => intro e; cases ex <;> simp [clusterLoop]
  | succ fuel ih =>
    intro e
    cases ex with
    | false => simp [clusterLoop]
    | true =>
      have hf := htrue rfl
      obtain ⟨r, hr⟩ := starifyAll_on ht hpv n cls hf h
      simp only [clusterLoop, hr]
      split
      · simp
      · rcases r with part | ⟨cls', h'⟩
        · simp
        · obtain ⟨h1, h2, _⟩ := starifyAll_good cls h hh hf hr
          obtain ⟨⟨cls'', ex'⟩, hgic⟩ := gic_ok h2
          simp only [hgic]
          split
          · simp
          · exact ih cls'' ex' h' _ _ h1 (fun hex => gic_fresh hs h2 (hex ▸ hgic)) e

theorem initLoop_on (l : List Ob) (ht : g.TotalOn obstacles) (hl : ∀ o ∈ l, o ∈ obstacles) (i : Nat) :
    ∃ b, initLoop g i l = .ok b := by
  induction l generalizing i with
  | nil => exact ⟨true, rfl⟩
  | cons o os ih =>
    obtain ⟨b, hb⟩ := ht.robot o (hl o (by simp))
    obtain ⟨c, hc⟩ := ht.goal o (hl o (by simp))
    obtain ⟨d, hd⟩ := ih (fun a ha => hl a (List.mem_cons_of_mem _ ha)) (i + 1)
    simp only [initLoop]
    split
    · exact ⟨_, rfl⟩
    · simp only [hb, hc, ht.exclude o (hl o (by simp)), bind, Except.bind]
      split
      · exact ⟨_, rfl⟩
      · exact ⟨d, hd⟩

theorem makeConvexLoop_on (ht : g.TotalOn obstacles) (k j : Nat) (cls : List (Cl Ob Star KP P))
    (hst : ∀ c ∈ cls, c.star.isSome) (hp : ∀ c ∈ cls, c.polygon.isSome) : ∃ r, makeConvexLoop g k j cls = .ok r := by
  induction k generalizing j cls with
  | zero => exact ⟨_, rfl⟩
  | succ k ih =>
    simp only [makeConvexLoop]
    rw [map_cachePolygon_of_some g cls hp]
    split
    · exact ⟨_, rfl⟩
    · rename_i cl hcl
      have hmem := List.mem_of_getElem? hcl
      split
      · rename_i hn
        have := hst cl hmem
        rw [hn] at this; cases this
      · rename_i st hst'
        split
        · exact ih _ _ hst hp
        · split
          · exact ⟨_, rfl⟩
          · rw [cachePolygon_of_some g cl (hp cl hmem)]
            split
            · rename_i hn
              have := hp cl hmem
              rw [hn] at this; cases this
            · rename_i p _
              obtain ⟨q, hq⟩ := ht.hull p
              rw [hq]
              simp only
              split
              · exact ih _ _ hst hp
              · have hm := modify_strip cls j (g.hullStar q st) hst
                exact ih _ _ (strip_star hm hst) (strip_polygon hm hp)

/-- A call without iteration limit gives a result. -/
theorem clusterAndStarify_on (hs : IsSetList g.setList) (ht : g.TotalOn obstacles) {par : Params}
    (hmax : par.maxIterations = none) (hpv : PrevOk prev) {fuel : Nat} (hfuel : obstacles.length ≤ fuel) :
    ∃ r, clusterAndStarify g par prev fuel obstacles = some (.ok r) := by
  obtain ⟨e, he, _⟩ := C52_terminates g hs par prev obstacles fuel hfuel
  obtain ⟨b, hb⟩ := initLoop_on obstacles ht (fun o ho => ho) 0
  obtain ⟨cls0, h0⟩ := mapM_ok (firstCluster g prev) obstacles (fun o ho => firstCluster_on ht hpv o ho)
  obtain ⟨m1, m2, m3⟩ := mapM_first (g := g) obstacles (fun o ho => ho) h0
  obtain ⟨⟨cls1, ex⟩, h1⟩ := gic_ok m1
  cases b with
  | false => exact ⟨_, by simp only [clusterAndStarify, hb]; rfl⟩
  | true =>
    simp only [clusterAndStarify, hb, h0, h1] at he ⊢
    have hfresh : ex = true → ∀ c ∈ cls1, Fresh g obstacles c := fun hex => gic_fresh hs m1 (hex ▸ h1)
    have hnoerr := clusterLoop_on hs ht (par := par) hpv fuel cls1 ex (firstHistory cls0) 1
      (if par.returnHistory then [cls0] else []) (histOk_first cls0 m1) hfresh
    cases hl : clusterLoop g par prev fuel cls1 ex (firstHistory cls0) 1 (if par.returnHistory then [cls0] else []) with
    | none => rw [hl] at he; simp at he
    | some v =>
      cases v with
      | error e => exact absurd hl (hnoerr e)
      | ok v =>
        cases v with
        | incomplete n it => exact ⟨_, rfl⟩
        | done out n it =>
          have hfin' : Final g obstacles out := by
            refine clusterLoop_final hs hmax fuel cls1 ex _ 1 _ (histOk_first cls0 m1) ?_ ?_ hl
            · rintro rfl
              exact ⟨hfresh rfl, fun _ => (gic_perm hs h1).trans (by rw [m2])⟩
            · rintro rfl
              exact gic_final hs m1 (fun _ => by rw [m2]) h1
          simp only
          split
          · have hst : ∀ c ∈ out, c.star.isSome := fun c hc => (hfin'.good c hc).1.star
            have hpo : ∀ c ∈ out, c.polygon.isSome := fun c hc => by
              rw [(hfin'.good c hc).2, Option.isSome_map]; exact hst c hc
            obtain ⟨q, hq⟩ := makeConvexLoop_on ht out.length 0 out hst hpo
            rw [hq]
            cases q with
            | inl x => exact ⟨_, rfl⟩
            | inr x => exact ⟨_, rfl⟩
          · exact ⟨_, rfl⟩

/-- The loop is not left early without time-outs and empty admissible kernels. -/
theorem starifyAll_inr (n : Nat) (cls : List (Cl Ob Star KP P)) (hc : ∀ c ∈ cls, Fresh g obstacles c)
    (hadm : ∀ l, (∀ o ∈ l, o ∈ obstacles) → g.admEmpty n l = .ok false)
    (h : History Ob Star KP P) (part : List (Cl Ob Star KP P)) : starifyAll g prev n cls h ≠ .ok (.inl part) := by
  induction cls generalizing h part with
  | nil => simp [starifyAll]
  | cons cl cls ih =>
    have ih := ih fun c h => hc c (List.mem_cons_of_mem _ h)
    have hcons : ∀ c r, (∀ p, r ≠ .ok (.inl p)) → consStarified (Ob := Ob) (Star := Star) (KP := KP) (P := P) c r ≠ .ok (.inl part) := by
      intro c r hr
      rcases r with e | ⟨p | ⟨q, hq⟩⟩
      · simp [consStarified]
      · exact absurd rfl (hr p)
      · simp [consStarified]
    simp only [starifyAll]
    split
    · exact hcons _ _ (ih h)
    · have := hadm cl.obstacles (hc cl (by simp)).sub
      cases hr : starifyCluster g prev n cl with
      | error e => simp
      | ok r =>
        cases r with
        | none =>
          simp only [starifyCluster, this, bind, Except.bind] at hr
          cases h1 : computeKernelPoints g n cl.obstacles (lastCluster cl.name prev) with
          | error e => rw [h1] at hr; cases hr
          | ok kp =>
            rw [h1] at hr
            simp only at hr
            cases h2 : prevId (lastCluster cl.name prev) with
            | error e => rw [h2] at hr; cases hr
            | ok _ =>
              rw [h2] at hr
              simp only at hr
              cases h3 : g.loopStar n cl.obstacles kp with
              | error e => rw [h3] at hr; cases hr
              | ok st => rw [h3] at hr; cases hr
        | some c => exact hcons _ _ (ih _)

theorem clusterLoop_done (hs : IsSetList g.setList) {par : Params} (fuel : Nat) (cls : List (Cl Ob Star KP P)) (ex : Bool)
    (h : History Ob Star KP P) (n : Nat) (iters : List (List (Cl Ob Star KP P))) (hh : HistOk g obstacles h)
    (htrue : ex = true → ∀ c ∈ cls, Fresh g obstacles c) (htime : ∀ n, g.timeoutIter n = false)
    (hadm : ∀ n l, (∀ o ∈ l, o ∈ obstacles) → g.admEmpty n l = .ok false) :
    ∀ m it, clusterLoop g par prev fuel cls ex h n iters ≠ some (.ok (.incomplete m it)) := by
  induction fuel generalizing cls ex h n iters with
  | zero => intro m it; cases ex <;> simp [clusterLoop]
  | succ fuel ih =>
    intro m it
    cases ex with
    | false => simp [clusterLoop]
    | true =>
      have hf := htrue rfl
      simp only [clusterLoop, htime]
      rw [if_neg (by simp)]
      cases hr : starifyAll g prev n cls h with
      | error e => simp
      | ok r =>
        rcases r with part | ⟨cls', h'⟩
        · exact absurd hr (starifyAll_inr n cls hf (hadm n) h part)
        · obtain ⟨h1, h2, _⟩ := starifyAll_good cls h hh hf hr
          obtain ⟨⟨cls'', ex'⟩, hgic⟩ := gic_ok h2
          simp only [hgic]
          split
          · simp
          · exact ih cls'' ex' h' _ _ h1 (fun hex => gic_fresh hs h2 (hex ▸ hgic)) m it

/-- A call without time-outs and empty admissible kernels, robot and goal being free, is not INCOMPLETE. -/
theorem clusterAndStarify_complete (hs : IsSetList g.setList) {par : Params} {fuel : Nat}
    (htime : (∀ n, g.timeoutIter n = false) ∧ ∀ n, g.timeoutInit n = false)
    (hfree : ∀ o ∈ obstacles, g.robotFree o = .ok true ∧ g.goalFree o = .ok true)
    (hadm : ∀ n l, (∀ o ∈ l, o ∈ obstacles) → g.admEmpty n l = .ok false) {r : Res Ob Star KP P}
    (h : clusterAndStarify g par prev fuel obstacles = some (.ok r)) : r.flag ≠ .incomplete := by
  have hinit : ∀ (l : List Ob) (i : Nat), (∀ o ∈ l, o ∈ obstacles) → initLoop g i l ≠ .ok false := by
    intro l
    induction l with
    | nil => intro i _; simp [initLoop]
    | cons o os ih =>
      intro i hl
      obtain ⟨h1, h2⟩ := hfree o (hl o (by simp))
      simp only [initLoop, htime.2, h1, h2, bind, Except.bind]
      cases g.exclude o with
      | error e => simp
      | ok u => simpa using ih (i + 1) fun a ha => hl a (List.mem_cons_of_mem _ ha)
  unfold clusterAndStarify at h
  cases hi : initLoop g 0 obstacles with
  | error e => rw [hi] at h; simp at h
  | ok b =>
    cases b with
    | false => exact absurd hi (hinit obstacles 0 fun o ho => ho)
    | true =>
      rw [hi] at h
      simp only at h
      cases h0 : obstacles.mapM (firstCluster g prev) with
      | error e => rw [h0] at h; simp at h
      | ok cls0 =>
        rw [h0] at h
        simp only at h
        obtain ⟨m1, m2, _⟩ := mapM_first (g := g) obstacles (fun o ho => ho) h0
        obtain ⟨⟨cls1, ex⟩, h1⟩ := gic_ok m1
        rw [h1] at h
        simp only at h
        have hn := clusterLoop_done (prev := prev) hs (par := par) fuel cls1 ex (firstHistory cls0) 1
          (if par.returnHistory then [cls0] else []) (histOk_first cls0 m1) (fun hex => gic_fresh hs m1 (hex ▸ h1)) htime.1 hadm
        cases hl : clusterLoop g par prev fuel cls1 ex (firstHistory cls0) 1 (if par.returnHistory then [cls0] else []) with
        | none => rw [hl] at h; simp at h
        | some v =>
          rw [hl] at h
          rcases v with e | (⟨n, it⟩ | ⟨out, n, it⟩)
          · simp at h
          · exact absurd hl (hn n it)
          · simp only at h
            split at h
            · split at h
              · simp at h
              · simp only [Option.some.injEq, Except.ok.injEq] at h; rw [← h]; simp
              · simp only [Option.some.injEq, Except.ok.injEq] at h; rw [← h]; simp
            · simp only [Option.some.injEq, Except.ok.injEq] at h; rw [← h]; simp

end Starworlds
