import Verif.Proofs.Cluster

/-! # The geometry routines are used for parts of the given obstacles only -/

namespace Starworlds

open Spec

variable {Ob Star KP P : Type}

/-- Different obstacles of the call, at least one. -/
structure PartOf (g : Geo Ob Star KP P) (obstacles l : List Ob) : Prop where
  nonempty : l ≠ []
  nodup : (l.map g.id).Nodup
  sub : ∀ o ∈ l, o ∈ obstacles

/-- When kernel points are asked for: of single obstacles at the beginning, and of clusters with an admissible kernel. -/
def Asked (g : Geo Ob Star KP P) (n : Nat) (l : List Ob) : Prop := (n = 0 ∧ ∃ o, l = [o]) ∨ g.admEmpty n l = .ok false

/-- Kernel points of a previous cluster, or none. -/
def Earlier (prev : Option (List (Cl Ob Star KP P))) (k : Option KP) : Prop := ∀ kp, k = some kp → ∃ l, prev = some l ∧ ∃ c ∈ l, c.kernelPoints = some kp

theorem earlier_none (prev : Option (List (Cl Ob Star KP P))) : Earlier prev none := fun _ h => by cases h

theorem extract_earlier {nm : String} {prev : Option (List (Cl Ob Star KP P))} {c : Cl Ob Star KP P} (h : extractCluster nm prev = some c) :
    Earlier prev c.kernelPoints := by
  intro kp hk
  cases prev with
  | none => cases h
  | some l => exact ⟨l, rfl, c, List.mem_of_find?_eq_some h, hk⟩

theorem last_earlier {nm : String} {prev : Option (List (Cl Ob Star KP P))} {c : Cl Ob Star KP P} (h : lastCluster nm prev = some c) :
    Earlier prev c.kernelPoints := by
  intro kp hk
  cases prev with
  | none => cases h
  | some l => exact ⟨l, rfl, c, List.mem_reverse.1 (List.mem_of_find?_eq_some h), hk⟩

variable {g : Geo Ob Star KP P} {adm : Nat → List Ob → Except PyErr Bool} {sel : Nat → List Ob → Option KP → Except PyErr KP}
  {prev : Option (List (Cl Ob Star KP P))} {obstacles : List Ob}

theorem first_agree (hk : ∀ n l k, PartOf g obstacles l → Asked g n l → Earlier prev k → g.kernelSel n l k = sel n l k) {o : Ob} (ho : o ∈ obstacles) :
    firstCluster { g with admEmpty := adm, kernelSel := sel } prev o = firstCluster g prev o := by
  have hp : PartOf g obstacles [o] := ⟨by simp, by simp, by simpa using ho⟩
  have hq : Asked g 0 [o] := Or.inl ⟨rfl, o, rfl⟩
  have e : computeKernelPoints { g with admEmpty := adm, kernelSel := sel } 0 [o] (extractCluster (newCluster g [o]).name prev) =
      computeKernelPoints g 0 [o] (extractCluster (newCluster g [o]).name prev) := by
    cases he : extractCluster (newCluster g [o]).name prev with
    | none => exact (hk 0 [o] none hp hq (earlier_none _)).symm
    | some c =>
      have := extract_earlier he
      simp only [computeKernelPoints]
      cases hc : c.kernelPoints with
      | none => rfl
      | some k => exact (hk 0 [o] (some k) hp hq (hc ▸ this)).symm
  have hn : newCluster { g with admEmpty := adm, kernelSel := sel } [o] = newCluster g [o] := rfl
  simp only [firstCluster, e, hn]

theorem starify_agree (ha : ∀ n l, PartOf g obstacles l → g.admEmpty n l = adm n l)
    (hk : ∀ n l k, PartOf g obstacles l → Asked g n l → Earlier prev k → g.kernelSel n l k = sel n l k) (n : Nat) {c : Cl Ob Star KP P} (hc : PartOf g obstacles c.obstacles) :
    starifyCluster { g with admEmpty := adm, kernelSel := sel } prev n c = starifyCluster g prev n c := by
  simp only [starifyCluster, ← ha n _ hc]
  cases hq : g.admEmpty n c.obstacles with
  | error e => rfl
  | ok b =>
  cases b with
  | true => rfl
  | false =>
  have hq : Asked g n c.obstacles := Or.inr hq
  have e : computeKernelPoints { g with admEmpty := adm, kernelSel := sel } n c.obstacles (lastCluster c.name prev) =
      computeKernelPoints g n c.obstacles (lastCluster c.name prev) := by
    cases he : lastCluster c.name prev with
    | none => exact (hk n _ none hc hq (earlier_none _)).symm
    | some d =>
      have := last_earlier he
      simp only [computeKernelPoints]
      cases hd : d.kernelPoints with
      | none => rfl
      | some k => exact (hk n _ (some k) hc hq (hd ▸ this)).symm
  simp only [e]
  rfl

theorem all_agree (ha : ∀ n l, PartOf g obstacles l → g.admEmpty n l = adm n l)
    (hk : ∀ n l k, PartOf g obstacles l → Asked g n l → Earlier prev k → g.kernelSel n l k = sel n l k) (n : Nat) (cls : List (Cl Ob Star KP P)) (hc : ∀ c ∈ cls, PartOf g obstacles c.obstacles)
    (h : History Ob Star KP P) :
    starifyAll { g with admEmpty := adm, kernelSel := sel } prev n cls h = starifyAll g prev n cls h := by
  induction cls generalizing h with
  | nil => rfl
  | cons c l ih =>
    have ih := ih fun d hd => hc d (by simp [hd])
    simp only [starifyAll, ih, starify_agree ha hk n (hc c (by simp))]

theorem part_of_perm {cls : List (Cl Ob Star KP P)} (hid : (obstacles.map g.id).Nodup) (hf : ∀ c ∈ cls, Fresh g obstacles c)
    (hp : List.Perm (cls.flatMap (·.obstacles)) obstacles) : ∀ c ∈ cls, PartOf g obstacles c.obstacles := by
  intro c hc
  refine ⟨(hf c hc).nonempty, ?_, (hf c hc).sub⟩
  have h1 : ((cls.flatMap (·.obstacles)).map g.id).Nodup := (hp.map g.id).nodup_iff.2 hid
  refine h1.sublist (List.Sublist.map _ ?_)
  rw [List.flatMap_def]
  exact List.sublist_flatten_of_mem (List.mem_map.2 ⟨c, hc, rfl⟩)

theorem loop_agree (hs : IsSetList g.setList) (hid : (obstacles.map g.id).Nodup) (ha : ∀ n l, PartOf g obstacles l → g.admEmpty n l = adm n l)
    (hk : ∀ n l k, PartOf g obstacles l → Asked g n l → Earlier prev k → g.kernelSel n l k = sel n l k) (par : Params) (fuel : Nat)
    (cls : List (Cl Ob Star KP P)) (ex : Bool) (h : History Ob Star KP P) (n : Nat) (iters : List (List (Cl Ob Star KP P)))
    (hh : HistOk g obstacles h) (htrue : ex = true → (∀ c ∈ cls, Fresh g obstacles c) ∧ List.Perm (cls.flatMap (·.obstacles)) obstacles) :
    clusterLoop { g with admEmpty := adm, kernelSel := sel } par prev fuel cls ex h n iters = clusterLoop g par prev fuel cls ex h n iters := by
  induction fuel generalizing cls ex h n iters with
  | zero => cases ex <;> rfl
  | succ fuel ih =>
    cases ex with
    | false => rfl
    | true =>
      obtain ⟨hf, hp⟩ := htrue rfl
      simp only [clusterLoop, all_agree ha hk n cls (part_of_perm hid hf hp) h]
      split
      · rfl
      · cases hst : starifyAll g prev n cls h with
        | error e => rfl
        | ok r =>
          rcases r with part | ⟨cls', h'⟩
          · rfl
          · have hg : getIntersectionClusters { g with admEmpty := adm, kernelSel := sel } cls' = getIntersectionClusters g cls' := rfl
            simp only [hg]
            cases hgic : getIntersectionClusters g cls' with
            | error e => rfl
            | ok r =>
              obtain ⟨cls'', ex'⟩ := r
              obtain ⟨h1, h2, h3⟩ := starifyAll_good cls h hh hf hst
              simp only
              split
              · rfl
              · refine ih _ _ _ _ _ h1 ?_
                rintro rfl
                refine ⟨gic_fresh hs h2 hgic, (gic_perm hs hgic).trans ?_⟩
                rw [flatMap_congr_obs (h3 hid)]; exact hp

/-- Other routines that agree for parts of the given obstacles give the same result. -/
theorem result_agree (hs : IsSetList g.setList) (hid : (obstacles.map g.id).Nodup) (ha : ∀ n l, PartOf g obstacles l → g.admEmpty n l = adm n l)
    (hk : ∀ n l k, PartOf g obstacles l → Asked g n l → Earlier prev k → g.kernelSel n l k = sel n l k) (par : Params) (fuel : Nat) :
    clusterAndStarify { g with admEmpty := adm, kernelSel := sel } par prev fuel obstacles = clusterAndStarify g par prev fuel obstacles := by
  have hi : initLoop { g with admEmpty := adm, kernelSel := sel } 0 obstacles = initLoop g 0 obstacles := by
    have : ∀ (l : List Ob) i, initLoop { g with admEmpty := adm, kernelSel := sel } i l = initLoop g i l := by
      intro l
      induction l with
      | nil => intro i; rfl
      | cons o l ih => intro i; simp only [initLoop, ih]
    exact this _ _
  have hm : obstacles.mapM (firstCluster { g with admEmpty := adm, kernelSel := sel } prev) = obstacles.mapM (firstCluster g prev) := by
    have : ∀ l : List Ob, (∀ o ∈ l, o ∈ obstacles) →
        l.mapM (firstCluster { g with admEmpty := adm, kernelSel := sel } prev) = l.mapM (firstCluster g prev) := by
      intro l
      induction l with
      | nil => intro _; rfl
      | cons o l ih => intro hl; simp only [List.mapM_cons, first_agree hk (hl o (by simp)), ih fun a ha => hl a (by simp [ha])]
    exact this _ fun o ho => ho
  have hd : ∀ n it, defaultResult { g with admEmpty := adm, kernelSel := sel } par obstacles n it = defaultResult g par obstacles n it := fun _ _ => rfl
  have hcv : ∀ k j cls, makeConvexLoop { g with admEmpty := adm, kernelSel := sel } k j cls = makeConvexLoop g k j cls := by
    intro k
    induction k with
    | zero => intro j cls; rfl
    | succ k ih =>
      intro j cls
      simp only [makeConvexLoop, ih]
      rfl
  simp only [clusterAndStarify, hi, hm, hd, hcv]
  cases initLoop g 0 obstacles with
  | error e => rfl
  | ok b =>
    cases b with
    | false => rfl
    | true =>
      simp only
      cases hcl : obstacles.mapM (firstCluster g prev) with
      | error e => rfl
      | ok cls0 =>
        have hg : getIntersectionClusters { g with admEmpty := adm, kernelSel := sel } cls0 = getIntersectionClusters g cls0 := rfl
        simp only [hg]
        cases hgic : getIntersectionClusters g cls0 with
        | error e => rfl
        | ok r =>
          obtain ⟨cls1, ex⟩ := r
          obtain ⟨h1, h2, -⟩ := mapM_first obstacles (fun o ho => ho) hcl
          have := loop_agree (prev := prev) hs hid ha hk par fuel cls1 ex (firstHistory cls0) 1 (if par.returnHistory = true then [cls0] else [])
            (histOk_first _ h1) (by rintro rfl; exact ⟨gic_fresh hs h1 hgic, (gic_perm hs hgic).trans (by rw [h2])⟩)
          simp only [this]

end Starworlds
