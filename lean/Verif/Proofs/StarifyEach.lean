import Verif.Proofs.StarifyNames

/-! # Helper lemmas for the ids of cluster obstacles: a property of each id -/

namespace Starworlds

open Spec

variable {Ob Star KP P : Type} {g : Geo Ob Star KP P} {own : Star → Bool} {par : Params} {obstacles : List Ob}

/-- A property of name, obstacles and id that holds for all ids that the program gives from the counter `start` on. -/
structure IdRule (g : Geo Ob Star KP P) (obstacles : List Ob) (prev : Option (List (IdCl Ob Star KP P))) (start : Nat)
    (R : String → List Ob → Option Nat → Prop) : Prop where
  single : ∀ o ∈ obstacles, R (clusterName [g.id o]) [o] (g.id o)
  first : ∀ nm o counter req, start ≤ counter → idRequest (extractCluster nm prev) = .ok req → R nm [o] (setId counter req).2
  loop : ∀ nm obs counter req, start ≤ counter → idRequest (lastCluster nm prev) = .ok req → R nm obs (setId counter req).2

def Ruled (obstacles : List Ob) (R : String → List Ob → Option Nat → Prop) (c : IdCl Ob Star KP P) : Prop :=
  (∀ o ∈ c.obstacles, o ∈ obstacles) ∧ ∀ s, c.star = some s → R c.name c.obstacles s.2

variable {prev : Option (List (IdCl Ob Star KP P))} {start : Nat} {R : String → List Ob → Option Nat → Prop}

theorem Ruled.cache {c : IdCl Ob Star KP P} (h : Ruled obstacles R c) : Ruled obstacles R (cachePolygon (idGeo g) c) := by
  refine ⟨by rw [cachePolygon_obstacles]; exact h.1, ?_⟩
  intro s hs
  rw [cachePolygon_star] at hs
  rw [cachePolygon_name, cachePolygon_obstacles]
  exact h.2 s hs

theorem newCluster_ruled (hR : IdRule g obstacles prev start R) {obs : List Ob} (hsub : ∀ o ∈ obs, o ∈ obstacles) :
    Ruled obstacles R (newCluster (idGeo g) obs) := by
  refine ⟨hsub, ?_⟩
  intro s hs
  simp only [newCluster] at hs ⊢
  split at hs
  · cases hs
  · rename_i hl
    match obs, hl, hs with
    | [o], _, hs =>
      simp only [List.head?_cons, Option.map_some, Option.some.injEq] at hs
      rw [← hs]
      exact hR.single o (hsub o (by simp))
    | _ :: _ :: _, hl, _ => simp at hl

theorem gic_ruled (hR : IdRule g obstacles prev start R) {cls out : List (IdCl Ob Star KP P)} {ex : Bool}
    (hc : ∀ c ∈ cls, Ruled obstacles R c) (h : getIntersectionClusters (idGeo g) cls = .ok (out, ex)) :
    ∀ c ∈ out, Ruled obstacles R c := by
  cases ex with
  | false =>
    rw [(gic_false h).1]
    intro c hm
    obtain ⟨d, hd, rfl⟩ := List.mem_map.1 hm
    exact (hc d hd).cache
  | true =>
    rw [(gic_true h).1]
    intro c hm
    obtain ⟨grp, _, rfl⟩ := List.mem_map.1 hm
    refine newCluster_ruled hR ?_
    intro o hmo
    obtain ⟨j, _, hj⟩ := List.mem_flatMap.1 hmo
    simp only [obstaclesAt, List.getElem?_map] at hj
    cases hd : cls[j]? with
    | none => rw [hd] at hj; simp at hj
    | some d =>
      rw [hd] at hj
      simp only [Option.map_some, cachePolygon_obstacles] at hj
      exact (hc d (List.mem_of_getElem? hd)).1 o hj

theorem setId_counter_mono (counter : Nat) (req : IdReq) : counter ≤ (setId counter req).1 := by
  cases req with
  | int k => simp only [setId]; split <;> simp
  | _ => simp [setId]

theorem firstClusterId_ruled (hR : IdRule g obstacles prev start R) {o : Ob} (ho : o ∈ obstacles) {counter : Nat}
    (hs : start ≤ counter) {c : IdCl Ob Star KP P} {counter' : Nat} (h : firstClusterId g own prev o counter = .ok (c, counter')) :
    counter ≤ counter' ∧ Ruled obstacles R c := by
  simp only [firstClusterId] at h
  cases hkp : computeKernelPoints (idGeo g) 0 [o] (extractCluster (newCluster (idGeo g) [o]).name prev) with
  | error e => rw [hkp] at h; simp [bind, Except.bind] at h
  | ok kp =>
    cases hreq : idRequest (extractCluster (newCluster (idGeo g) [o]).name prev) with
    | error e => rw [hkp, hreq] at h; simp [bind, Except.bind] at h
    | ok req =>
      cases hst : g.firstStar o kp with
      | error e => rw [hkp, hreq] at h; simp [bind, Except.bind, hst] at h
      | ok st =>
        rw [hkp, hreq] at h
        simp only [bind, Except.bind, hst] at h
        have hsub : ∀ o' ∈ [o], o' ∈ obstacles := by simpa using ho
        cases hb : own st with
        | true =>
          simp only [hb, if_true, Except.ok.injEq, Prod.mk.injEq] at h
          obtain ⟨rfl, rfl⟩ := h
          refine ⟨le_rfl, hsub, ?_⟩
          intro s hs
          simp only [Option.some.injEq] at hs
          subst hs
          exact hR.single o ho
        | false =>
          simp only [hb, Bool.false_eq_true, if_false, Except.ok.injEq, Prod.mk.injEq] at h
          obtain ⟨rfl, rfl⟩ := h
          refine ⟨setId_counter_mono _ _, hsub, ?_⟩
          intro s hs'
          simp only [Option.some.injEq] at hs'
          subst hs'
          exact hR.first _ _ _ _ hs hreq

theorem firstLoopId_ruled (hR : IdRule g obstacles prev start R) (l : List Ob) (hl : ∀ o ∈ l, o ∈ obstacles) {counter : Nat}
    (hs : start ≤ counter) {cls : List (IdCl Ob Star KP P)} {counter' : Nat}
    (h : firstLoopId g own prev l counter = .ok (cls, counter')) : counter ≤ counter' ∧ ∀ c ∈ cls, Ruled obstacles R c := by
  induction l generalizing counter cls counter' with
  | nil =>
    simp only [firstLoopId, Except.ok.injEq, Prod.mk.injEq] at h
    obtain ⟨rfl, rfl⟩ := h
    exact ⟨le_rfl, by simp⟩
  | cons o l ih =>
    simp only [firstLoopId] at h
    cases h1 : firstClusterId g own prev o counter with
    | error e => rw [h1] at h; simp at h
    | ok r =>
      obtain ⟨c, counter1⟩ := r
      rw [h1] at h
      simp only at h
      obtain ⟨a1, a2⟩ := firstClusterId_ruled hR (hl o (by simp)) hs h1
      cases h2 : firstLoopId g own prev l counter1 with
      | error e => rw [h2] at h; simp at h
      | ok r =>
        obtain ⟨rest, counter2⟩ := r
        rw [h2] at h
        simp only [Except.ok.injEq, Prod.mk.injEq] at h
        obtain ⟨rfl, rfl⟩ := h
        obtain ⟨b1, b2⟩ := ih (fun o ho => hl o (by simp [ho])) (hs.trans a1) h2
        refine ⟨a1.trans b1, ?_⟩
        intro d hd
        rcases List.mem_cons.1 hd with rfl | hd
        · exact a2
        · exact b2 d hd

theorem starifyClusterId_ruled (hR : IdRule g obstacles prev start R) {counter : Nat} (hs : start ≤ counter) {n : Nat}
    {cl c : IdCl Ob Star KP P} (hcl : ∀ o ∈ cl.obstacles, o ∈ obstacles) {counter' : Nat}
    (h : starifyClusterId g prev n cl counter = .ok (some (c, counter'))) : counter ≤ counter' ∧ Ruled obstacles R c := by
  simp only [starifyClusterId] at h
  rcases hadm : g.admEmpty n cl.obstacles with e | _ | _
  · rw [hadm] at h; simp at h
  · rw [hadm] at h
    simp only at h
    cases hkp : computeKernelPoints (idGeo g) n cl.obstacles (lastCluster cl.name prev) with
    | error e => rw [hkp] at h; simp [bind, Except.bind] at h
    | ok kp =>
      cases hreq : idRequest (lastCluster cl.name prev) with
      | error e => rw [hkp, hreq] at h; simp [bind, Except.bind] at h
      | ok req =>
        cases hst : g.loopStar n cl.obstacles kp with
        | error e => rw [hkp, hreq] at h; simp [bind, Except.bind, hst] at h
        | ok st =>
          rw [hkp, hreq] at h
          simp only [bind, Except.bind, hst, Except.ok.injEq, Option.some.injEq, Prod.mk.injEq] at h
          obtain ⟨rfl, rfl⟩ := h
          refine ⟨setId_counter_mono _ _, Ruled.cache ⟨hcl, ?_⟩⟩
          intro s hs'
          simp only [Option.some.injEq] at hs'
          subst hs'
          exact hR.loop _ _ _ _ hs hreq
  · rw [hadm] at h; simp at h

def HistRuled (obstacles : List Ob) (R : String → List Ob → Option Nat → Prop) (h : History Ob (Star × Option Nat) KP P) : Prop :=
  ∀ nm c, h nm = some c → Ruled obstacles R c

theorem HistRuled.insert {h : History Ob (Star × Option Nat) KP P} (hh : HistRuled obstacles R h) {c : IdCl Ob Star KP P}
    (hc : Ruled obstacles R c) : HistRuled obstacles R (h.insert c) := by
  intro nm d hd
  simp only [History.insert] at hd
  split at hd
  · simp only [Option.some.injEq] at hd; rw [← hd]; exact hc
  · exact hh nm d hd

theorem histRuled_first (cls : List (IdCl Ob Star KP P)) (hc : ∀ c ∈ cls, Ruled obstacles R c) :
    HistRuled obstacles R (firstHistory cls) := by
  have key : ∀ (l : List (IdCl Ob Star KP P)) (h : History Ob (Star × Option Nat) KP P), (∀ c ∈ l, Ruled obstacles R c) →
      HistRuled obstacles R h → HistRuled obstacles R (l.foldl History.insert h) := by
    intro l
    induction l with
    | nil => intro h _ hh; exact hh
    | cons c l ih =>
      intro h hl hh
      exact ih _ (fun d hd => hl d (by simp [hd])) (hh.insert (hl c (by simp)))
  exact key cls _ hc fun nm c hc => by cases hc

theorem starifyAllId_ruled (hR : IdRule g obstacles prev start R) {n : Nat} (cls : List (IdCl Ob Star KP P))
    {h : History Ob (Star × Option Nat) KP P} {counter : Nat} (hst : start ≤ counter) (hh : HistRuled obstacles R h)
    (hc : ∀ c ∈ cls, ∀ o ∈ c.obstacles, o ∈ obstacles)
    {res : List (IdCl Ob Star KP P) ⊕ (List (IdCl Ob Star KP P) × History Ob (Star × Option Nat) KP P)} {counter' : Nat}
    (he : starifyAllId g prev n cls h counter = .ok (res, counter')) : counter ≤ counter' ∧
      ∀ cls' h', res = .inr (cls', h') → HistRuled obstacles R h' ∧ ∀ c ∈ cls', Ruled obstacles R c := by
  induction cls generalizing h counter res counter' with
  | nil =>
    simp only [starifyAllId, Except.ok.injEq, Prod.mk.injEq] at he
    obtain ⟨rfl, rfl⟩ := he
    refine ⟨le_rfl, ?_⟩
    intro cls' h' e
    simp only [Sum.inr.injEq, Prod.mk.injEq] at e
    obtain ⟨rfl, rfl⟩ := e
    exact ⟨hh, by simp⟩
  | cons cl cls ih =>
    have hc' : ∀ c ∈ cls, ∀ o ∈ c.obstacles, o ∈ obstacles := fun c hm => hc c (by simp [hm])
    have rest : ∀ (c : IdCl Ob Star KP P) (h : History Ob (Star × Option Nat) KP P) (counter1 : Nat), start ≤ counter1 →
        HistRuled obstacles R h → Ruled obstacles R c → (match starifyAllId g prev n cls h counter1 with
          | .error e => .error e
          | .ok (.inl part, counter) => .ok (.inl (c :: part), counter)
          | .ok (.inr (rest, h), counter) => .ok (.inr (c :: rest, h), counter)) = Except.ok (res, counter') →
        counter1 ≤ counter' ∧
          ∀ cls' h', res = .inr (cls', h') → HistRuled obstacles R h' ∧ ∀ c ∈ cls', Ruled obstacles R c := by
      intro c h counter1 hs1 hh hcr he
      rcases hr : starifyAllId g prev n cls h counter1 with e | ⟨part | ⟨rest, h1⟩, counter2⟩
      · rw [hr] at he; simp at he
      · rw [hr] at he
        simp only [Except.ok.injEq, Prod.mk.injEq] at he
        obtain ⟨rfl, rfl⟩ := he
        exact ⟨(ih hs1 hh hc' hr).1, by intro _ _ e; cases e⟩
      · rw [hr] at he
        simp only [Except.ok.injEq, Prod.mk.injEq] at he
        obtain ⟨rfl, rfl⟩ := he
        obtain ⟨a1, a2⟩ := ih hs1 hh hc' hr
        refine ⟨a1, ?_⟩
        intro cls' h' e
        simp only [Sum.inr.injEq, Prod.mk.injEq] at e
        obtain ⟨rfl, rfl⟩ := e
        obtain ⟨b1, b2⟩ := a2 _ _ rfl
        refine ⟨b1, ?_⟩
        intro d hd
        rcases List.mem_cons.1 hd with rfl | hd
        · exact hcr
        · exact b2 d hd
    simp only [starifyAllId] at he
    cases hn : h cl.name with
    | some c =>
      rw [hn] at he
      exact rest c h counter hst hh (hh _ _ hn) he
    | none =>
      rw [hn] at he
      simp only at he
      rcases hs : starifyClusterId g prev n cl counter with e | _ | ⟨c, counter1⟩
      · rw [hs] at he; simp at he
      · rw [hs] at he
        simp only [Except.ok.injEq, Prod.mk.injEq] at he
        obtain ⟨rfl, rfl⟩ := he
        exact ⟨le_rfl, by intro _ _ e; cases e⟩
      · rw [hs] at he
        obtain ⟨c1, c2⟩ := starifyClusterId_ruled hR hst (hc cl (by simp)) hs
        obtain ⟨a1, a2⟩ := rest c (h.insert c) counter1 (hst.trans c1) (hh.insert c2) c2 he
        exact ⟨c1.trans a1, a2⟩

theorem clusterLoopId_ruled (hR : IdRule g obstacles prev start R) (fuel : Nat) (cls : List (IdCl Ob Star KP P)) (ex : Bool)
    {h : History Ob (Star × Option Nat) KP P} (n : Nat) (iters : List (List (IdCl Ob Star KP P))) {counter : Nat}
    (hst : start ≤ counter) (hh : HistRuled obstacles R h) (hc : ∀ c ∈ cls, Ruled obstacles R c)
    {res : LoopEnd Ob (Star × Option Nat) KP P} {counter' : Nat}
    (he : clusterLoopId g par prev fuel cls ex h n iters counter = some (.ok (res, counter'))) :
    counter ≤ counter' ∧ ∀ out n' it, res = .done out n' it → ∀ c ∈ out, Ruled obstacles R c := by
  have hdone : ∀ (cls : List (IdCl Ob Star KP P)) (n : Nat) (iters : List (List (IdCl Ob Star KP P))) (counter : Nat),
      (∀ c ∈ cls, Ruled obstacles R c) →
      some (Except.ok (LoopEnd.done cls n iters, counter)) = some (Except.ok (ε := PyErr) (res, counter')) →
      counter ≤ counter' ∧ ∀ out n' it, res = .done out n' it → ∀ c ∈ out, Ruled obstacles R c := by
    intro cls n iters counter hc he
    simp only [Option.some.injEq, Except.ok.injEq, Prod.mk.injEq] at he
    obtain ⟨rfl, rfl⟩ := he
    refine ⟨le_rfl, ?_⟩
    intro out n' it e
    simp only [LoopEnd.done.injEq] at e
    obtain ⟨rfl, _⟩ := e
    exact hc
  induction fuel generalizing cls ex h n iters counter with
  | zero =>
    cases ex with
    | true => simp [clusterLoopId] at he
    | false => exact hdone cls n iters counter hc he
  | succ fuel ih =>
    cases ex with
    | false => exact hdone cls n iters counter hc he
    | true =>
      simp only [clusterLoopId] at he
      split at he
      · simp only [Option.some.injEq, Except.ok.injEq, Prod.mk.injEq] at he
        obtain ⟨rfl, rfl⟩ := he
        exact ⟨le_rfl, by intro _ _ _ e; cases e⟩
      · rcases hr : starifyAllId g prev n cls h counter with e | ⟨part | ⟨cls', h'⟩, counter1⟩
        · rw [hr] at he; simp at he
        · rw [hr] at he
          simp only [Option.some.injEq, Except.ok.injEq, Prod.mk.injEq] at he
          obtain ⟨rfl, rfl⟩ := he
          exact ⟨(starifyAllId_ruled hR cls hst hh (fun c hm => (hc c hm).1) hr).1, by intro _ _ _ e; cases e⟩
        · rw [hr] at he
          simp only at he
          obtain ⟨a1, a2⟩ := starifyAllId_ruled hR cls hst hh (fun c hm => (hc c hm).1) hr
          obtain ⟨b1, b2⟩ := a2 _ _ rfl
          rcases hg : getIntersectionClusters (idGeo g) cls' with e | ⟨cls'', ex'⟩
          · rw [hg] at he; simp at he
          · rw [hg] at he
            simp only at he
            have hc'' := gic_ruled hR b2 hg
            split at he
            · obtain ⟨d1, d2⟩ := hdone _ _ _ counter1 hc'' he
              exact ⟨a1.trans d1, d2⟩
            · obtain ⟨d1, d2⟩ := ih _ _ _ _ (hst.trans a1) b1 hc'' he
              exact ⟨a1.trans d1, d2⟩

theorem makeConvexLoopId_ruled (hconv : ∀ nm obs counter, start ≤ counter → R nm obs (some (counter + 1))) (k j : Nat)
    (cls : List (IdCl Ob Star KP P)) {counter : Nat}
    (hs : start ≤ counter) (hc : ∀ c ∈ cls, Ruled obstacles R c)
    {res : List (IdCl Ob Star KP P) ⊕ List (IdCl Ob Star KP P)} {counter' : Nat}
    (he : makeConvexLoopId g k j cls counter = .ok (res, counter')) :
    counter ≤ counter' ∧ ∀ out, res = .inl out ∨ res = .inr out → ∀ c ∈ out, Ruled obstacles R c := by
  have hdone : ∀ (cls : List (IdCl Ob Star KP P)) (counter : Nat),
      (∀ c ∈ cls, Ruled obstacles R c) → (Except.ok (ε := PyErr) (Sum.inr cls, counter) = .ok (res, counter') ∨
        Except.ok (ε := PyErr) (Sum.inl cls, counter) = .ok (res, counter')) →
      counter ≤ counter' ∧ ∀ out, res = .inl out ∨ res = .inr out → ∀ c ∈ out, Ruled obstacles R c := by
    intro cls counter hc he
    constructor
    · rcases he with he | he <;> simp only [Except.ok.injEq, Prod.mk.injEq] at he <;> rw [← he.2]
    · intro out ho
      have : out = cls := by
        rcases he with he | he <;> simp only [Except.ok.injEq, Prod.mk.injEq] at he <;>
          rcases ho with ho | ho <;> rw [ho] at he <;> simp at he <;> exact he.1.symm
      rw [this]; exact hc
  induction k generalizing j cls counter with
  | zero => exact hdone cls counter hc (Or.inl he)
  | succ k ih =>
    simp only [makeConvexLoopId] at he
    cases hj : cls[j]? with
    | none => rw [hj] at he; exact hdone cls counter hc (Or.inl he)
    | some cl =>
      rw [hj] at he
      simp only at he
      cases hst : cl.star with
      | none => rw [hst] at he; simp at he
      | some st =>
        rw [hst] at he
        simp only at he
        have hcache : ∀ c ∈ cls.map (cachePolygon (idGeo g)), Ruled obstacles R c := by
          intro c hm
          obtain ⟨d, hd, rfl⟩ := List.mem_map.1 hm
          exact (hc d hd).cache
        split at he
        · exact ih _ _ hs hc he
        · split at he
          · exact hdone cls counter hc (Or.inr he)
          · cases hp : (cachePolygon (idGeo g) cl).polygon with
            | none => rw [hp] at he; simp at he
            | some p =>
              rw [hp] at he
              simp only at he
              cases hh : g.hullOf p with
              | error e => rw [hh] at he; simp at he
              | ok hu =>
                rw [hh] at he
                simp only at he
                split at he
                · exact ih _ _ hs hcache he
                · have htag : ∀ c ∈ (cls.map (cachePolygon (idGeo g))).modify j fun c =>
                      { c with star := some (g.hullStar hu st.1, (setId counter .new).2) }, Ruled obstacles R c := by
                    intro c hm
                    obtain ⟨i, hi⟩ := List.mem_iff_getElem?.1 hm
                    rw [List.getElem?_modify] at hi
                    by_cases hij : j = i
                    · subst hij
                      simp only [List.getElem?_map, hj, Option.map_some, if_true, Option.map_eq_map, Option.some.injEq] at hi
                      subst hi
                      have hcl := hc cl (List.mem_of_getElem? hj)
                      refine ⟨by rw [cachePolygon_obstacles]; exact hcl.1, ?_⟩
                      intro s hs'
                      simp only [Option.some.injEq] at hs'
                      subst hs'
                      exact hconv _ _ _ hs
                    · simp only [hij, if_false, Option.map_eq_map, Option.map_id_fun', id] at hi
                      exact hcache c (List.mem_of_getElem? hi)
                  have hm : counter ≤ (setId counter .new).1 := setId_counter_mono _ _
                  obtain ⟨b1, b2⟩ := ih _ _ (hs.trans hm) htag he
                  exact ⟨hm.trans b1, b2⟩

theorem workspace_mono (workspace : Bool) (counter : Nat) : counter ≤ workspaceCounter workspace counter := by
  cases workspace <;> simp [workspaceCounter, setId]

/-- A property of the given ids holds for the ids of the returned clusters. -/
theorem clusterAndStarifyId_ruled {counter : Nat} (hR : IdRule g obstacles prev counter R)
    (hconv : par.makeConvex = true → ∀ nm obs k, counter ≤ k → R nm obs (some (k + 1))) {workspace : Bool} {fuel : Nat}
    {r : Res Ob (Star × Option Nat) KP P} {counter' : Nat}
    (h : clusterAndStarifyId g own par workspace prev fuel obstacles counter = some (.ok (r, counter'))) :
    counter ≤ counter' ∧ ∀ c ∈ r.clusters, Ruled obstacles R c := by
  have hdef : ∀ n it, ∀ c ∈ (defaultResult (idGeo g) par obstacles n it).clusters, Ruled obstacles R c := by
    intro n it c hc
    obtain ⟨o, ho, rfl⟩ := List.mem_map.1 hc
    exact newCluster_ruled hR (by simpa using ho)
  have hw := workspace_mono workspace counter
  simp only [clusterAndStarifyId] at h
  rcases hi : initLoop (idGeo g) 0 obstacles with e | _ | _
  · rw [hi] at h; simp at h
  · rw [hi] at h
    simp only [Option.some.injEq, Except.ok.injEq, Prod.mk.injEq] at h
    obtain ⟨rfl, rfl⟩ := h
    exact ⟨hw, hdef _ _⟩
  · rw [hi] at h
    simp only at h
    rcases hf : firstLoopId g own prev obstacles (workspaceCounter workspace counter) with e | ⟨cls0, counter0⟩
    · rw [hf] at h; simp at h
    · rw [hf] at h
      simp only at h
      obtain ⟨a1, a2⟩ := firstLoopId_ruled hR obstacles (fun o ho => ho) hw hf
      rcases hg : getIntersectionClusters (idGeo g) cls0 with e | ⟨cls1, ex⟩
      · rw [hg] at h; simp at h
      · rw [hg] at h
        simp only at h
        have h1 := gic_ruled hR a2 hg
        generalize hit : (if par.returnHistory = true then [cls0] else []) = iters0 at h
        rcases hl : clusterLoopId g par prev fuel cls1 ex (firstHistory cls0) 1 iters0 counter0 with _ | e | ⟨⟨n, iters⟩ | ⟨cls, n, iters⟩, counter1⟩
        · rw [hl] at h; simp at h
        · rw [hl] at h; simp at h
        · rw [hl] at h
          simp only [Option.some.injEq, Except.ok.injEq, Prod.mk.injEq] at h
          obtain ⟨rfl, rfl⟩ := h
          obtain ⟨b1, _⟩ := clusterLoopId_ruled hR fuel cls1 ex 1 iters0 (hw.trans a1) (histRuled_first cls0 a2) h1 hl
          exact ⟨(hw.trans a1).trans b1, hdef _ _⟩
        · rw [hl] at h
          simp only at h
          obtain ⟨b1, b3⟩ := clusterLoopId_ruled hR fuel cls1 ex 1 iters0 (hw.trans a1) (histRuled_first cls0 a2) h1 hl
          have b4 := b3 _ _ _ rfl
          have b5 := (hw.trans a1).trans b1
          split at h
          · rename_i hmc
            rcases hm : makeConvexLoopId g cls.length 0 cls counter1 with e | ⟨l | l, counter2⟩
            · rw [hm] at h; simp at h
            · rw [hm] at h
              simp only [Option.some.injEq, Except.ok.injEq, Prod.mk.injEq] at h
              obtain ⟨rfl, rfl⟩ := h
              obtain ⟨c1, c2⟩ := makeConvexLoopId_ruled (hconv hmc) _ _ cls b5 b4 hm
              exact ⟨b5.trans c1, c2 _ (Or.inl rfl)⟩
            · rw [hm] at h
              simp only [Option.some.injEq, Except.ok.injEq, Prod.mk.injEq] at h
              obtain ⟨rfl, rfl⟩ := h
              obtain ⟨c1, c2⟩ := makeConvexLoopId_ruled (hconv hmc) _ _ cls b5 b4 hm
              exact ⟨b5.trans c1, c2 _ (Or.inr rfl)⟩
          · simp only [Option.some.injEq, Except.ok.injEq, Prod.mk.injEq] at h
            obtain ⟨rfl, rfl⟩ := h
            exact ⟨b5, b4⟩

end Starworlds
