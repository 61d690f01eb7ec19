import Verif.Proofs.StarifyIds

/-! # Helper lemmas for the ids of cluster obstacles: names of the returned clusters and owners of the ids -/

namespace Starworlds

open Spec

variable {Ob Star KP P : Type} {g : Geo Ob Star KP P} {own : Star → Bool} {par : Params} {obstacles : List Ob}

/-! ## The names of the returned clusters -/

/-- The clusters are a partition of the obstacles, with the names of their obstacles. -/
structure Labelled (g : Geo Ob Star KP P) (obstacles : List Ob) (cls : List (Cl Ob Star KP P)) : Prop where
  name : ∀ c ∈ cls, c.name = clusterName (c.obstacles.map g.id)
  nonempty : ∀ c ∈ cls, c.obstacles ≠ []
  sub : ∀ c ∈ cls, ∀ o ∈ c.obstacles, o ∈ obstacles
  perm : (obstacles.map g.id).Nodup → List.Perm (cls.flatMap (·.obstacles)) obstacles

theorem Final.labelled {cls : List (Cl Ob Star KP P)} (h : Final g obstacles cls) : Labelled g obstacles cls :=
  ⟨fun c hc => (h.good c hc).1.name, fun c hc => (h.good c hc).1.nonempty, fun c hc => (h.good c hc).1.sub, h.perm⟩

theorem Labelled.of_eq {cls out : List (Cl Ob Star KP P)} (h : Labelled g obstacles cls)
    (e : out.map (fun c => (c.name, c.obstacles)) = cls.map fun c => (c.name, c.obstacles)) : Labelled g obstacles out := by
  have key : ∀ c ∈ out, ∃ d ∈ cls, d.name = c.name ∧ d.obstacles = c.obstacles := by
    intro c hc
    have : (c.name, c.obstacles) ∈ out.map fun c => (c.name, c.obstacles) := List.mem_map_of_mem hc
    rw [e] at this
    obtain ⟨d, hd, he⟩ := List.mem_map.1 this
    exact ⟨d, hd, (Prod.ext_iff.1 he).1, (Prod.ext_iff.1 he).2⟩
  refine ⟨?_, ?_, ?_, ?_⟩
  · intro c hc
    obtain ⟨d, hd, h1, h2⟩ := key c hc
    rw [← h1, ← h2]; exact h.name d hd
  · intro c hc
    obtain ⟨d, hd, _, h2⟩ := key c hc
    rw [← h2]; exact h.nonempty d hd
  · intro c hc
    obtain ⟨d, hd, _, h2⟩ := key c hc
    rw [← h2]; exact h.sub d hd
  · intro hid
    have : out.map (·.obstacles) = cls.map (·.obstacles) := by
      have := congrArg (List.map Prod.snd) e
      simpa [List.map_map, Function.comp_def] using this
    rw [flatMap_congr_obs this]
    exact h.perm hid

theorem clusterLoop_labelled (hs : IsSetList g.setList) {prev : Option (List (Cl Ob Star KP P))} (fuel : Nat)
    (cls : List (Cl Ob Star KP P)) (ex : Bool) (h : History Ob Star KP P) (n : Nat)
    (iters : List (List (Cl Ob Star KP P)))
    (hh : HistOk g obstacles h) (hl : Labelled g obstacles cls) (htrue : ex = true → ∀ c ∈ cls, Fresh g obstacles c)
    {out : List (Cl Ob Star KP P)} {n' : Nat} {iters' : List (List (Cl Ob Star KP P))}
    (he : clusterLoop g par prev fuel cls ex h n iters = some (.ok (.done out n' iters'))) :
    Labelled g obstacles out := by
  induction fuel generalizing cls ex h n iters with
  | zero =>
    cases ex with
    | true => simp [clusterLoop] at he
    | false =>
      simp only [clusterLoop, Option.some.injEq, Except.ok.injEq, LoopEnd.done.injEq] at he
      rw [← he.1]; exact hl
  | succ fuel ih =>
    cases ex with
    | false =>
      simp only [clusterLoop, Option.some.injEq, Except.ok.injEq, LoopEnd.done.injEq] at he
      rw [← he.1]; exact hl
    | true =>
      have hf := htrue rfl
      simp only [clusterLoop] at he
      split at he
      · simp at he
      · split at he
        · simp at he
        · simp at he
        · rename_i cls' h' hst
          split at he
          · simp at he
          · rename_i cls'' ex' hgic
            obtain ⟨h1, h2, h3⟩ := starifyAll_good cls h hh hf hst
            have hp' : (obstacles.map g.id).Nodup → List.Perm (cls'.flatMap (·.obstacles)) obstacles := by
              intro hid
              rw [flatMap_congr_obs (h3 hid)]; exact hl.perm hid
            have hl' : Labelled g obstacles cls'' := by
              cases ex' with
              | false => exact (gic_final hs h2 hp' hgic).labelled
              | true =>
                have := gic_fresh hs h2 hgic
                exact ⟨fun c hc => (this c hc).name, fun c hc => (this c hc).nonempty, fun c hc => (this c hc).sub,
                  fun hid => (gic_perm hs hgic).trans (hp' hid)⟩
            split at he
            · simp only [Option.some.injEq, Except.ok.injEq, LoopEnd.done.injEq] at he
              rw [← he.1]; exact hl'
            · refine ih cls'' ex' h' _ _ h1 hl' ?_ he
              rintro rfl
              exact gic_fresh hs h2 hgic

theorem map_label_cache (cls : List (Cl Ob Star KP P)) :
    (cls.map (cachePolygon g)).map (fun c => (c.name, c.obstacles)) = cls.map fun c => (c.name, c.obstacles) := by
  simp [List.map_map, Function.comp_def, cachePolygon_name, cachePolygon_obstacles]

theorem modify_label (cls : List (Cl Ob Star KP P)) (j : Nat) (st : Star) :
    (cls.modify j fun c => { c with star := some st }).map (fun c => (c.name, c.obstacles)) = cls.map fun c => (c.name, c.obstacles) := by
  induction cls generalizing j with
  | nil => cases j <;> rfl
  | cons c cls ih =>
    cases j with
    | zero => rfl
    | succ j => simp only [List.modify_succ_cons, List.map_cons, ih]

theorem makeConvexLoop_label (k j : Nat) (cls : List (Cl Ob Star KP P)) {out : List (Cl Ob Star KP P)}
    (h : makeConvexLoop g k j cls = .ok (.inl out) ∨ makeConvexLoop g k j cls = .ok (.inr out)) :
    out.map (fun c => (c.name, c.obstacles)) = cls.map fun c => (c.name, c.obstacles) := by
  induction k generalizing j cls with
  | zero => rcases h with h | h <;> simp only [makeConvexLoop, Except.ok.injEq, reduceCtorEq, Sum.inr.injEq] at h; rw [h]
  | succ k ih =>
    simp only [makeConvexLoop] at h
    cases hc : cls[j]? with
    | none => rw [hc] at h; rcases h with h | h <;> simp only [Except.ok.injEq, reduceCtorEq, Sum.inr.injEq] at h; rw [h]
    | some cl =>
      rw [hc] at h
      simp only at h
      cases hst : cl.star with
      | none => rw [hst] at h; rcases h with h | h <;> simp at h
      | some st =>
        rw [hst] at h
        simp only at h
        by_cases h1 : g.isConvex st = true
        · simp only [h1, if_true] at h
          exact ih _ _ h
        · simp only [h1, Bool.false_eq_true, if_false] at h
          by_cases h2 : g.timeoutConvex j = true
          · simp only [h2, if_true] at h
            rcases h with h | h <;> simp only [Except.ok.injEq, reduceCtorEq, Sum.inl.injEq] at h; rw [h]
          · simp only [h2, Bool.false_eq_true, if_false] at h
            cases hp : (cachePolygon g cl).polygon with
            | none => rw [hp] at h; rcases h with h | h <;> simp at h
            | some p =>
              rw [hp] at h
              simp only at h
              cases hh : g.hullOf p with
              | error e => rw [hh] at h; rcases h with h | h <;> simp at h
              | ok hu =>
                rw [hh] at h
                simp only at h
                split at h
                · rw [ih _ _ h, map_label_cache]
                · rw [ih _ _ h, modify_label, map_label_cache]

theorem clusterAndStarify_default {prev : Option (List (Cl Ob Star KP P))} {fuel : Nat} {r : Res Ob Star KP P}
    (h : clusterAndStarify g par prev fuel obstacles = some (.ok r)) (hf : r.flag = .incomplete) :
    ∃ n it, r = defaultResult g par obstacles n it := by
  unfold clusterAndStarify at h
  split at h
  · simp at h
  · simp only [Option.some.injEq, Except.ok.injEq] at h
    exact ⟨_, _, h.symm⟩
  · split at h
    · simp at h
    · simp only at h
      split at h
      · simp at h
      · split at h
        · simp at h
        · simp at h
        · simp only [Option.some.injEq, Except.ok.injEq] at h
          exact ⟨_, _, h.symm⟩
        · split at h
          · split at h
            · simp at h
            · simp only [Option.some.injEq, Except.ok.injEq] at h
              rw [← h] at hf; simp at hf
            · simp only [Option.some.injEq, Except.ok.injEq] at h
              rw [← h] at hf; simp at hf
          · simp only [Option.some.injEq, Except.ok.injEq] at h
            rw [← h] at hf; simp at hf

theorem clusterAndStarify_labelled (hs : IsSetList g.setList) {prev : Option (List (Cl Ob Star KP P))} {fuel : Nat}
    {r : Res Ob Star KP P} (h : clusterAndStarify g par prev fuel obstacles = some (.ok r)) : Labelled g obstacles r.clusters := by
  have hdef : ∀ n it, Labelled g obstacles (defaultResult g par obstacles n it).clusters := by
    intro n it
    refine ⟨?_, ?_, ?_, ?_⟩
    · intro c hc
      obtain ⟨o, ho, rfl⟩ := List.mem_map.1 hc
      rfl
    · intro c hc
      obtain ⟨o, ho, rfl⟩ := List.mem_map.1 hc
      simp [newCluster]
    · intro c hc
      obtain ⟨o, ho, rfl⟩ := List.mem_map.1 hc
      intro o' ho'
      rw [List.mem_singleton.1 ho']
      exact ho
    · intro _
      have : (obstacles.map fun o => newCluster g [o]).flatMap (·.obstacles) = obstacles := by
        rw [List.flatMap_map]
        simp [newCluster]
      exact List.Perm.of_eq this
  by_cases hf : r.flag = .incomplete
  · obtain ⟨n, it, rfl⟩ := clusterAndStarify_default h hf
    exact hdef n it
  · obtain ⟨cls0, cls1, ex, cls, n, iters, h0, h1, hl, _, hr⟩ := clusterAndStarify_done h hf
    obtain ⟨m1, m2, _⟩ := mapM_first obstacles (fun o ho => ho) h0
    have hp0 : (obstacles.map g.id).Nodup → List.Perm (cls0.flatMap (·.obstacles)) obstacles := by
      intro _; rw [m2]
    have hl1 : Labelled g obstacles cls1 := by
      cases ex with
      | false => exact (gic_final hs m1 hp0 h1).labelled
      | true =>
        have := gic_fresh hs m1 h1
        exact ⟨fun c hc => (this c hc).name, fun c hc => (this c hc).nonempty, fun c hc => (this c hc).sub,
          fun hid => (gic_perm hs h1).trans (hp0 hid)⟩
    have hfin : Labelled g obstacles cls := by
      refine clusterLoop_labelled hs fuel cls1 ex _ 1 _ (histOk_first cls0 m1) hl1 ?_ hl
      rintro rfl
      exact gic_fresh hs m1 h1
    rcases hr with ⟨_, hr, _⟩ | ⟨_, hr, _⟩ | ⟨_, hr, _⟩
    · rw [hr]; exact hfin
    · exact hfin.of_eq (makeConvexLoop_label _ _ _ (Or.inr hr))
    · exact hfin.of_eq (makeConvexLoop_label _ _ _ (Or.inl hr))

/-- Obstacles with different ids: the clusters have different names. -/
theorem Labelled.names (hid : (obstacles.map g.id).Nodup) {cls : List (Cl Ob Star KP P)} (h : Labelled g obstacles cls) :
    (cls.map (·.name)).Nodup := by
  have hnd : (cls.flatMap (·.obstacles)).Nodup := (h.perm hid).nodup_iff.2 (List.Nodup.of_map _ hid)
  have hdis : cls.Pairwise fun a b => a.obstacles.Disjoint b.obstacles := (List.nodup_flatMap.1 hnd).2
  rw [List.Nodup, List.pairwise_map]
  refine List.Pairwise.imp_of_mem ?_ hdis
  intro a b ha hb hd he
  have : a.obstacles = b.obstacles := same_obstacles hid (h.sub a ha) (h.sub b hb) (h.nonempty a ha) (h.nonempty b hb) (by
    rw [← h.name a ha, ← h.name b hb, he])
  obtain ⟨o, ho⟩ := List.exists_mem_of_ne_nil _ (h.nonempty a ha)
  exact hd ho (this ▸ ho)

/-! ## The owners of the ids -/

/-- `owner k` is the name of the cluster that the id `k` has been given to. -/
def Owners (owner : Nat → Option String) (counter : Nat) : Prop := ∀ k nm, owner k = some nm → 0 < k ∧ k ≤ counter

def Extends (owner owner' : Nat → Option String) : Prop := ∀ k nm, owner k = some nm → owner' k = some nm

theorem Extends.refl (owner : Nat → Option String) : Extends owner owner := fun _ _ h => h

theorem Extends.trans {a b c : Nat → Option String} (h : Extends a b) (h' : Extends b c) : Extends a c :=
  fun k nm e => h' k nm (h k nm e)

/-- The id of the cluster obstacle belongs to the name of the cluster. -/
def Named (owner : Nat → Option String) (c : IdCl Ob Star KP P) : Prop :=
  ∀ s, c.star = some s → ∃ k, s.2 = some k ∧ owner k = some c.name

theorem Named.mono {owner owner' : Nat → Option String} (h : Extends owner owner') {c : IdCl Ob Star KP P} (hc : Named owner c) :
    Named owner' c := by
  intro s hs
  obtain ⟨k, h1, h2⟩ := hc s hs
  exact ⟨k, h1, h _ _ h2⟩

theorem Named.cache {owner : Nat → Option String} {c : IdCl Ob Star KP P} (hc : Named owner c) :
    Named owner (cachePolygon (idGeo g) c) := by
  intro s hs
  rw [cachePolygon_star] at hs
  rw [cachePolygon_name]
  exact hc s hs

/-- The obstacles own their ids. -/
def OwnIds (g : Geo Ob Star KP P) (owner : Nat → Option String) (obstacles : List Ob) : Prop :=
  ∀ o ∈ obstacles, ∃ k, g.id o = some k ∧ owner k = some (clusterName [some k])

theorem OwnIds.mono {owner owner' : Nat → Option String} (h : Extends owner owner') (ho : OwnIds g owner obstacles) :
    OwnIds g owner' obstacles := by
  intro o hm
  obtain ⟨k, h1, h2⟩ := ho o hm
  exact ⟨k, h1, h _ _ h2⟩

/-- A cluster of given obstacles with an id of its own. -/
structure Tagged (g : Geo Ob Star KP P) (obstacles : List Ob) (owner : Nat → Option String) (c : IdCl Ob Star KP P) : Prop where
  sub : ∀ o ∈ c.obstacles, o ∈ obstacles
  named : Named owner c

theorem Tagged.mono {owner owner' : Nat → Option String} (h : Extends owner owner') {c : IdCl Ob Star KP P}
    (hc : Tagged g obstacles owner c) : Tagged g obstacles owner' c := ⟨hc.sub, hc.named.mono h⟩

theorem Tagged.cache {owner : Nat → Option String} {c : IdCl Ob Star KP P} (hc : Tagged g obstacles owner c) :
    Tagged g obstacles owner (cachePolygon (idGeo g) c) :=
  ⟨by rw [cachePolygon_obstacles]; exact hc.sub, hc.named.cache⟩

theorem newCluster_tagged {owner : Nat → Option String} (ho : OwnIds g owner obstacles) {obs : List Ob}
    (hsub : ∀ o ∈ obs, o ∈ obstacles) : Tagged g obstacles owner (newCluster (idGeo g) obs) := by
  refine ⟨hsub, ?_⟩
  intro s hs
  simp only [newCluster] at hs ⊢
  split at hs
  · cases hs
  · rename_i hl
    match obs, hl, hs with
    | [o], _, hs =>
      simp only [List.head?_cons, Option.map_some, Option.some.injEq] at hs
      obtain ⟨k, h1, h2⟩ := ho o (hsub o (by simp))
      refine ⟨k, by rw [← hs]; exact h1, ?_⟩
      simp only [List.map_cons, List.map_nil]
      have : (idGeo g).id o = some k := h1
      rw [this]
      exact h2
    | _ :: _ :: _, hl, _ => simp at hl

theorem gic_tagged {owner : Nat → Option String} (ho : OwnIds g owner obstacles) {cls out : List (IdCl Ob Star KP P)} {ex : Bool}
    (hc : ∀ c ∈ cls, Tagged g obstacles owner c) (h : getIntersectionClusters (idGeo g) cls = .ok (out, ex)) :
    ∀ c ∈ out, Tagged g obstacles owner c := by
  cases ex with
  | false =>
    rw [(gic_false h).1]
    intro c hm
    obtain ⟨d, hd, rfl⟩ := List.mem_map.1 hm
    exact (hc d hd).cache
  | true =>
    rw [(gic_true h).1]
    intro c hm
    obtain ⟨grp, _, rfl⟩ := List.mem_map.1 hm
    refine newCluster_tagged ho ?_
    intro o hmo
    obtain ⟨j, _, hj⟩ := List.mem_flatMap.1 hmo
    simp only [obstaclesAt, List.getElem?_map] at hj
    cases hd : cls[j]? with
    | none => rw [hd] at hj; simp at hj
    | some d =>
      rw [hd] at hj
      simp only [Option.map_some, cachePolygon_obstacles] at hj
      exact (hc d (List.mem_of_getElem? hd)).sub o hj

/-- The id of a new cluster obstacle: that of the previous cluster of the same name, or a new one. -/
theorem setId_owner {owner : Nat → Option String} {counter : Nat} (hw : Owners owner counter) {nm : String} {p : Option (IdCl Ob Star KP P)}
    (hp : ∀ c, p = some c → Named owner c ∧ c.name = nm) {req : IdReq} (h : idRequest p = .ok req) :
    ∃ owner', Extends owner owner' ∧ Owners owner' (setId counter req).1 ∧ ∃ k, (setId counter req).2 = some k ∧ owner' k = some nm := by
  cases p with
  | none =>
    simp only [idRequest, Except.ok.injEq] at h
    subst h
    have hfree : owner (counter + 1) = none := by
      cases hx : owner (counter + 1) with
      | none => rfl
      | some m => have := (hw _ _ hx).2; omega
    refine ⟨fun k => if k = counter + 1 then some nm else owner k, ?_, ?_, counter + 1, rfl, by simp⟩
    · intro k m hk
      have : k ≠ counter + 1 := by rintro rfl; rw [hfree] at hk; cases hk
      simp only [this, if_false]
      exact hk
    · intro k m hk
      simp only [setId]
      by_cases e : k = counter + 1
      · subst e; omega
      · simp only [e, if_false] at hk
        have := hw _ _ hk
        omega
  | some c =>
    obtain ⟨hn, hnm⟩ := hp c rfl
    cases hst : c.star with
    | none => simp [idRequest, hst] at h
    | some s =>
      obtain ⟨k, h1, h2⟩ := hn s hst
      simp only [idRequest, hst, h1, Except.ok.injEq] at h
      subst h
      have hk := hw _ _ h2
      have hv : (0 : Int) < (k : Int) ∧ (k : Int) ≤ (counter : Int) := by omega
      refine ⟨owner, Extends.refl _, ?_, k, ?_, by rw [← hnm]; exact h2⟩
      · simp only [setId, hv, and_self, if_true]; exact hw
      · simp only [setId, hv, and_self, if_true, Int.toNat_natCast]

/-- The previous clusters have ids that belong to their names. -/
def PrevNamed (owner : Nat → Option String) (prev : Option (List (IdCl Ob Star KP P))) : Prop :=
  ∀ l, prev = some l → ∀ c ∈ l, Named owner c

theorem PrevNamed.mono {owner owner' : Nat → Option String} (h : Extends owner owner') {prev : Option (List (IdCl Ob Star KP P))}
    (hp : PrevNamed owner prev) : PrevNamed owner' prev := fun l hl c hc => (hp l hl c hc).mono h

theorem extractCluster_named {owner : Nat → Option String} {prev : Option (List (IdCl Ob Star KP P))} (hp : PrevNamed owner prev)
    (nm : String) : ∀ c, extractCluster nm prev = some c → Named owner c ∧ c.name = nm := by
  intro c hc
  cases prev with
  | none => cases hc
  | some l =>
    have hc : l.find? (fun c => c.name == nm) = some c := hc
    exact ⟨hp l rfl c (List.mem_of_find?_eq_some hc), by simpa using List.find?_some hc⟩

theorem lastCluster_named {owner : Nat → Option String} {prev : Option (List (IdCl Ob Star KP P))} (hp : PrevNamed owner prev)
    (nm : String) : ∀ c, lastCluster nm prev = some c → Named owner c ∧ c.name = nm := by
  intro c hc
  cases prev with
  | none => cases hc
  | some l =>
    have hc : l.reverse.find? (fun c => c.name == nm) = some c := hc
    exact ⟨hp l rfl c (List.mem_reverse.1 (List.mem_of_find?_eq_some hc)), by simpa using List.find?_some hc⟩

theorem firstClusterId_tagged {owner : Nat → Option String} {counter : Nat} (hw : Owners owner counter)
    {prev : Option (List (IdCl Ob Star KP P))} (hp : PrevNamed owner prev) (hown : OwnIds g owner obstacles) {o : Ob} (ho : o ∈ obstacles)
    {c : IdCl Ob Star KP P} {counter' : Nat} (h : firstClusterId g own prev o counter = .ok (c, counter')) :
    ∃ owner', Extends owner owner' ∧ Owners owner' counter' ∧ Tagged g obstacles owner' c := by
  simp only [firstClusterId] at h
  cases hkp : computeKernelPoints (idGeo g) 0 [o] (extractCluster (newCluster (idGeo g) [o]).name prev) with
  | error e => rw [hkp] at h; simp [bind, Except.bind] at h
  | ok kp =>
    cases hreq : idRequest (extractCluster (newCluster (idGeo g) [o]).name prev) with
    | error e => rw [hkp, hreq] at h; simp [bind, Except.bind] at h
    | ok req =>
      cases hst : g.firstStar o kp with
      | error e => rw [hkp, hreq] at h; simp [bind, Except.bind, hst] at h
      | ok st =>
        rw [hkp, hreq] at h
        simp only [bind, Except.bind, hst] at h
        have hsub : ∀ o' ∈ [o], o' ∈ obstacles := by simpa using ho
        cases hb : own st with
        | true =>
          simp only [hb, if_true, Except.ok.injEq, Prod.mk.injEq] at h
          obtain ⟨rfl, rfl⟩ := h
          refine ⟨owner, Extends.refl _, hw, hsub, ?_⟩
          intro s hs
          simp only [Option.some.injEq] at hs
          subst hs
          obtain ⟨k, h1, h2⟩ := hown o ho
          refine ⟨k, h1, ?_⟩
          have : (newCluster (idGeo g) [o]).name = clusterName [some k] := by rw [← h1]; rfl
          rw [this]; exact h2
        | false =>
          simp only [hb, Bool.false_eq_true, if_false, Except.ok.injEq, Prod.mk.injEq] at h
          obtain ⟨rfl, rfl⟩ := h
          obtain ⟨owner', h1, h2, k, h3, h4⟩ := setId_owner hw (extractCluster_named hp _) hreq
          refine ⟨owner', h1, h2, hsub, ?_⟩
          intro s hs
          simp only [Option.some.injEq] at hs
          subst hs
          exact ⟨k, h3, h4⟩

theorem firstLoopId_tagged {prev : Option (List (IdCl Ob Star KP P))} (l : List Ob) (hl : ∀ o ∈ l, o ∈ obstacles)
    {owner : Nat → Option String} {counter : Nat} (hw : Owners owner counter) (hp : PrevNamed owner prev) (hown : OwnIds g owner obstacles)
    {cls : List (IdCl Ob Star KP P)} {counter' : Nat} (h : firstLoopId g own prev l counter = .ok (cls, counter')) :
    ∃ owner', Extends owner owner' ∧ Owners owner' counter' ∧ ∀ c ∈ cls, Tagged g obstacles owner' c := by
  induction l generalizing owner counter cls counter' with
  | nil =>
    simp only [firstLoopId, Except.ok.injEq, Prod.mk.injEq] at h
    obtain ⟨rfl, rfl⟩ := h
    exact ⟨owner, Extends.refl _, hw, by simp⟩
  | cons o l ih =>
    simp only [firstLoopId] at h
    cases h1 : firstClusterId g own prev o counter with
    | error e => rw [h1] at h; simp at h
    | ok r =>
      obtain ⟨c, counter1⟩ := r
      rw [h1] at h
      simp only at h
      obtain ⟨owner1, a1, a2, a3⟩ := firstClusterId_tagged hw hp hown (hl o (by simp)) h1
      cases h2 : firstLoopId g own prev l counter1 with
      | error e => rw [h2] at h; simp at h
      | ok r =>
        obtain ⟨rest, counter2⟩ := r
        rw [h2] at h
        simp only [Except.ok.injEq, Prod.mk.injEq] at h
        obtain ⟨rfl, rfl⟩ := h
        obtain ⟨owner2, b1, b2, b3⟩ := ih (fun o ho => hl o (by simp [ho])) a2 (hp.mono a1) (hown.mono a1) h2
        refine ⟨owner2, a1.trans b1, b2, ?_⟩
        intro d hd
        rcases List.mem_cons.1 hd with rfl | hd
        · exact a3.mono b1
        · exact b3 d hd

theorem starifyClusterId_tagged {owner : Nat → Option String} {counter : Nat} (hw : Owners owner counter)
    {prev : Option (List (IdCl Ob Star KP P))} (hp : PrevNamed owner prev) {n : Nat} {cl c : IdCl Ob Star KP P}
    (hcl : ∀ o ∈ cl.obstacles, o ∈ obstacles) {counter' : Nat} (h : starifyClusterId g prev n cl counter = .ok (some (c, counter'))) :
    ∃ owner', Extends owner owner' ∧ Owners owner' counter' ∧ Tagged g obstacles owner' c := by
  simp only [starifyClusterId] at h
  rcases hadm : g.admEmpty n cl.obstacles with e | _ | _
  · rw [hadm] at h; simp at h
  · rw [hadm] at h
    simp only at h
    cases hkp : computeKernelPoints (idGeo g) n cl.obstacles (lastCluster cl.name prev) with
    | error e => rw [hkp] at h; simp [bind, Except.bind] at h
    | ok kp =>
      cases hreq : idRequest (lastCluster cl.name prev) with
      | error e => rw [hkp, hreq] at h; simp [bind, Except.bind] at h
      | ok req =>
        cases hst : g.loopStar n cl.obstacles kp with
        | error e => rw [hkp, hreq] at h; simp [bind, Except.bind, hst] at h
        | ok st =>
          rw [hkp, hreq] at h
          simp only [bind, Except.bind, hst, Except.ok.injEq, Option.some.injEq, Prod.mk.injEq] at h
          obtain ⟨rfl, rfl⟩ := h
          obtain ⟨owner', h1, h2, k, h3, h4⟩ := setId_owner hw (lastCluster_named hp _) hreq
          refine ⟨owner', h1, h2, Tagged.cache ⟨hcl, ?_⟩⟩
          intro s hs
          simp only [Option.some.injEq] at hs
          subst hs
          exact ⟨k, h3, h4⟩
  · rw [hadm] at h; simp at h

def HistTagged (g : Geo Ob Star KP P) (obstacles : List Ob) (owner : Nat → Option String) (h : History Ob (Star × Option Nat) KP P) : Prop :=
  ∀ nm c, h nm = some c → Tagged g obstacles owner c

theorem HistTagged.mono {owner owner' : Nat → Option String} (he : Extends owner owner') {h : History Ob (Star × Option Nat) KP P}
    (hh : HistTagged g obstacles owner h) : HistTagged g obstacles owner' h := fun nm c hc => (hh nm c hc).mono he

theorem HistTagged.insert {owner : Nat → Option String} {h : History Ob (Star × Option Nat) KP P}
    (hh : HistTagged g obstacles owner h) {c : IdCl Ob Star KP P} (hc : Tagged g obstacles owner c) :
    HistTagged g obstacles owner (h.insert c) := by
  intro nm d hd
  simp only [History.insert] at hd
  split at hd
  · simp only [Option.some.injEq] at hd; rw [← hd]; exact hc
  · exact hh nm d hd

theorem histTagged_first {owner : Nat → Option String} (cls : List (IdCl Ob Star KP P)) (hc : ∀ c ∈ cls, Tagged g obstacles owner c) :
    HistTagged g obstacles owner (firstHistory cls) := by
  have key : ∀ (l : List (IdCl Ob Star KP P)) (h : History Ob (Star × Option Nat) KP P), (∀ c ∈ l, Tagged g obstacles owner c) →
      HistTagged g obstacles owner h → HistTagged g obstacles owner (l.foldl History.insert h) := by
    intro l
    induction l with
    | nil => intro h _ hh; exact hh
    | cons c l ih =>
      intro h hl hh
      exact ih _ (fun d hd => hl d (by simp [hd])) (hh.insert (hl c (by simp)))
  exact key cls _ hc fun nm c hc => by cases hc

theorem starifyAllId_tagged {prev : Option (List (IdCl Ob Star KP P))} {n : Nat} (cls : List (IdCl Ob Star KP P))
    {h : History Ob (Star × Option Nat) KP P} {owner : Nat → Option String} {counter : Nat} (hw : Owners owner counter)
    (hp : PrevNamed owner prev) (hh : HistTagged g obstacles owner h) (hc : ∀ c ∈ cls, ∀ o ∈ c.obstacles, o ∈ obstacles)
    {res : List (IdCl Ob Star KP P) ⊕ (List (IdCl Ob Star KP P) × History Ob (Star × Option Nat) KP P)} {counter' : Nat}
    (he : starifyAllId g prev n cls h counter = .ok (res, counter')) :
    ∃ owner', Extends owner owner' ∧ Owners owner' counter' ∧
      ∀ cls' h', res = .inr (cls', h') → HistTagged g obstacles owner' h' ∧ ∀ c ∈ cls', Tagged g obstacles owner' c := by
  induction cls generalizing h owner counter res counter' with
  | nil =>
    simp only [starifyAllId, Except.ok.injEq, Prod.mk.injEq] at he
    obtain ⟨rfl, rfl⟩ := he
    refine ⟨owner, Extends.refl _, hw, ?_⟩
    intro cls' h' e
    simp only [Sum.inr.injEq, Prod.mk.injEq] at e
    obtain ⟨rfl, rfl⟩ := e
    exact ⟨hh, by simp⟩
  | cons cl cls ih =>
    have hc' : ∀ c ∈ cls, ∀ o ∈ c.obstacles, o ∈ obstacles := fun c hm => hc c (by simp [hm])
    simp only [starifyAllId] at he
    cases hn : h cl.name with
    | some c =>
      rw [hn] at he
      simp only at he
      rcases hr : starifyAllId g prev n cls h counter with e | ⟨part | ⟨rest, h1⟩, counter1⟩
      · rw [hr] at he; simp at he
      · rw [hr] at he
        simp only [Except.ok.injEq, Prod.mk.injEq] at he
        obtain ⟨rfl, rfl⟩ := he
        obtain ⟨owner', a1, a2, _⟩ := ih hw hp hh hc' hr
        exact ⟨owner', a1, a2, by intro _ _ e; cases e⟩
      · rw [hr] at he
        simp only [Except.ok.injEq, Prod.mk.injEq] at he
        obtain ⟨rfl, rfl⟩ := he
        obtain ⟨owner', a1, a2, a3⟩ := ih hw hp hh hc' hr
        refine ⟨owner', a1, a2, ?_⟩
        intro cls' h' e
        simp only [Sum.inr.injEq, Prod.mk.injEq] at e
        obtain ⟨rfl, rfl⟩ := e
        obtain ⟨b1, b2⟩ := a3 _ _ rfl
        refine ⟨b1, ?_⟩
        intro d hd
        rcases List.mem_cons.1 hd with rfl | hd
        · exact (hh _ _ hn).mono a1
        · exact b2 d hd
    | none =>
      rw [hn] at he
      simp only at he
      rcases hs : starifyClusterId g prev n cl counter with e | _ | ⟨c, counter1⟩
      · rw [hs] at he; simp at he
      · rw [hs] at he
        simp only [Except.ok.injEq, Prod.mk.injEq] at he
        obtain ⟨rfl, rfl⟩ := he
        exact ⟨owner, Extends.refl _, hw, by intro _ _ e; cases e⟩
      · rw [hs] at he
        simp only at he
        obtain ⟨owner1, c1, c2, c3⟩ := starifyClusterId_tagged hw hp (hc cl (by simp)) hs
        rcases hr : starifyAllId g prev n cls (h.insert c) counter1 with e | ⟨part | ⟨rest, h1⟩, counter2⟩
        · rw [hr] at he; simp at he
        · rw [hr] at he
          simp only [Except.ok.injEq, Prod.mk.injEq] at he
          obtain ⟨rfl, rfl⟩ := he
          obtain ⟨owner', a1, a2, _⟩ := ih c2 (hp.mono c1) ((hh.mono c1).insert c3) hc' hr
          exact ⟨owner', c1.trans a1, a2, by intro _ _ e; cases e⟩
        · rw [hr] at he
          simp only [Except.ok.injEq, Prod.mk.injEq] at he
          obtain ⟨rfl, rfl⟩ := he
          obtain ⟨owner', a1, a2, a3⟩ := ih c2 (hp.mono c1) ((hh.mono c1).insert c3) hc' hr
          refine ⟨owner', c1.trans a1, a2, ?_⟩
          intro cls' h' e
          simp only [Sum.inr.injEq, Prod.mk.injEq] at e
          obtain ⟨rfl, rfl⟩ := e
          obtain ⟨b1, b2⟩ := a3 _ _ rfl
          refine ⟨b1, ?_⟩
          intro d hd
          rcases List.mem_cons.1 hd with rfl | hd
          · exact c3.mono a1
          · exact b2 d hd

theorem clusterLoopId_tagged {prev : Option (List (IdCl Ob Star KP P))} (fuel : Nat) (cls : List (IdCl Ob Star KP P)) (ex : Bool)
    {h : History Ob (Star × Option Nat) KP P} (n : Nat) (iters : List (List (IdCl Ob Star KP P)))
    {owner : Nat → Option String} {counter : Nat} (hw : Owners owner counter)
    (hp : PrevNamed owner prev) (hown : OwnIds g owner obstacles) (hh : HistTagged g obstacles owner h)
    (hc : ∀ c ∈ cls, Tagged g obstacles owner c) {res : LoopEnd Ob (Star × Option Nat) KP P} {counter' : Nat}
    (he : clusterLoopId g par prev fuel cls ex h n iters counter = some (.ok (res, counter'))) :
    ∃ owner', Extends owner owner' ∧ Owners owner' counter' ∧
      ∀ out n' it, res = .done out n' it → ∀ c ∈ out, Tagged g obstacles owner' c := by
  have hdone : ∀ (cls : List (IdCl Ob Star KP P)) (n : Nat) (iters : List (List (IdCl Ob Star KP P))) (owner : Nat → Option String) (counter : Nat),
      Owners owner counter → (∀ c ∈ cls, Tagged g obstacles owner c) →
      some (Except.ok (LoopEnd.done cls n iters, counter)) = some (Except.ok (ε := PyErr) (res, counter')) →
      ∃ owner', Extends owner owner' ∧ Owners owner' counter' ∧
        ∀ out n' it, res = .done out n' it → ∀ c ∈ out, Tagged g obstacles owner' c := by
    intro cls n iters owner counter hw hc he
    simp only [Option.some.injEq, Except.ok.injEq, Prod.mk.injEq] at he
    obtain ⟨rfl, rfl⟩ := he
    refine ⟨owner, Extends.refl _, hw, ?_⟩
    intro out n' it e
    simp only [LoopEnd.done.injEq] at e
    obtain ⟨rfl, _⟩ := e
    exact hc
  induction fuel generalizing cls ex h n iters owner counter with
  | zero =>
    cases ex with
    | true => simp [clusterLoopId] at he
    | false => exact hdone cls n iters owner counter hw hc he
  | succ fuel ih =>
    cases ex with
    | false => exact hdone cls n iters owner counter hw hc he
    | true =>
      simp only [clusterLoopId] at he
      split at he
      · simp only [Option.some.injEq, Except.ok.injEq, Prod.mk.injEq] at he
        obtain ⟨rfl, rfl⟩ := he
        exact ⟨owner, Extends.refl _, hw, by intro _ _ _ e; cases e⟩
      · rcases hr : starifyAllId g prev n cls h counter with e | ⟨part | ⟨cls', h'⟩, counter1⟩
        · rw [hr] at he; simp at he
        · rw [hr] at he
          simp only [Option.some.injEq, Except.ok.injEq, Prod.mk.injEq] at he
          obtain ⟨rfl, rfl⟩ := he
          obtain ⟨owner', a1, a2, _⟩ := starifyAllId_tagged cls hw hp hh (fun c hm => (hc c hm).sub) hr
          exact ⟨owner', a1, a2, by intro _ _ _ e; cases e⟩
        · rw [hr] at he
          simp only at he
          obtain ⟨owner1, a1, a2, a3⟩ := starifyAllId_tagged cls hw hp hh (fun c hm => (hc c hm).sub) hr
          obtain ⟨b1, b2⟩ := a3 _ _ rfl
          rcases hg : getIntersectionClusters (idGeo g) cls' with e | ⟨cls'', ex'⟩
          · rw [hg] at he; simp at he
          · rw [hg] at he
            simp only at he
            have hc'' := gic_tagged (hown.mono a1) b2 hg
            split at he
            · obtain ⟨owner', d1, d2, d3⟩ := hdone _ _ _ owner1 counter1 a2 hc'' he
              exact ⟨owner', a1.trans d1, d2, d3⟩
            · obtain ⟨owner', d1, d2, d3⟩ := ih _ _ _ _ a2 (hp.mono a1) (hown.mono a1) b1 hc'' he
              exact ⟨owner', a1.trans d1, d2, d3⟩

theorem makeConvexLoopId_tagged (k j : Nat) (cls : List (IdCl Ob Star KP P)) {owner : Nat → Option String} {counter : Nat}
    (hw : Owners owner counter) (hc : ∀ c ∈ cls, Tagged g obstacles owner c)
    {res : List (IdCl Ob Star KP P) ⊕ List (IdCl Ob Star KP P)} {counter' : Nat}
    (he : makeConvexLoopId g k j cls counter = .ok (res, counter')) :
    ∃ owner', Extends owner owner' ∧ Owners owner' counter' ∧
      ∀ out, res = .inl out ∨ res = .inr out → ∀ c ∈ out, Tagged g obstacles owner' c := by
  have hdone : ∀ (cls : List (IdCl Ob Star KP P)) (owner : Nat → Option String) (counter : Nat), Owners owner counter →
      (∀ c ∈ cls, Tagged g obstacles owner c) → (Except.ok (ε := PyErr) (Sum.inr cls, counter) = .ok (res, counter') ∨
        Except.ok (ε := PyErr) (Sum.inl cls, counter) = .ok (res, counter')) →
      ∃ owner', Extends owner owner' ∧ Owners owner' counter' ∧
        ∀ out, res = .inl out ∨ res = .inr out → ∀ c ∈ out, Tagged g obstacles owner' c := by
    intro cls owner counter hw hc he
    refine ⟨owner, Extends.refl _, ?_, ?_⟩
    · rcases he with he | he <;> simp only [Except.ok.injEq, Prod.mk.injEq] at he <;> rw [← he.2] <;> exact hw
    · intro out ho
      have : out = cls := by
        rcases he with he | he <;> simp only [Except.ok.injEq, Prod.mk.injEq] at he <;>
          rcases ho with ho | ho <;> rw [ho] at he <;> simp at he <;> exact he.1.symm
      rw [this]; exact hc
  induction k generalizing j cls owner counter with
  | zero => exact hdone cls owner counter hw hc (Or.inl he)
  | succ k ih =>
    simp only [makeConvexLoopId] at he
    cases hj : cls[j]? with
    | none => rw [hj] at he; exact hdone cls owner counter hw hc (Or.inl he)
    | some cl =>
      rw [hj] at he
      simp only at he
      cases hst : cl.star with
      | none => rw [hst] at he; simp at he
      | some st =>
        rw [hst] at he
        simp only at he
        have hcache : ∀ c ∈ cls.map (cachePolygon (idGeo g)), Tagged g obstacles owner c := by
          intro c hm
          obtain ⟨d, hd, rfl⟩ := List.mem_map.1 hm
          exact (hc d hd).cache
        split at he
        · exact ih _ _ hw hc he
        · split at he
          · exact hdone cls owner counter hw hc (Or.inr he)
          · cases hp : (cachePolygon (idGeo g) cl).polygon with
            | none => rw [hp] at he; simp at he
            | some p =>
              rw [hp] at he
              simp only at he
              cases hh : g.hullOf p with
              | error e => rw [hh] at he; simp at he
              | ok hu =>
                rw [hh] at he
                simp only at he
                split at he
                · exact ih _ _ hw hcache he
                · obtain ⟨owner1, a1, a2, m, a3, a4⟩ := setId_owner (Ob := Ob) (Star := Star) (KP := KP) (P := P) (p := none) hw (nm := cl.name)
                    (by intro c e; cases e) (req := .new) rfl
                  have htag : ∀ c ∈ (cls.map (cachePolygon (idGeo g))).modify j fun c =>
                      { c with star := some (g.hullStar hu st.1, (setId counter .new).2) }, Tagged g obstacles owner1 c := by
                    intro c hm
                    obtain ⟨i, hi⟩ := List.mem_iff_getElem?.1 hm
                    rw [List.getElem?_modify] at hi
                    by_cases hij : j = i
                    · subst hij
                      simp only [List.getElem?_map, hj, Option.map_some, if_true, Option.map_eq_map, Option.some.injEq] at hi
                      subst hi
                      have hcl := hc cl (List.mem_of_getElem? hj)
                      refine ⟨by rw [cachePolygon_obstacles]; exact hcl.sub, ?_⟩
                      intro s hs
                      simp only [Option.some.injEq] at hs
                      subst hs
                      exact ⟨m, a3, by rw [cachePolygon_name]; exact a4⟩
                    · simp only [hij, if_false, Option.map_eq_map, Option.map_id_fun', id] at hi
                      exact (hcache c (List.mem_of_getElem? hi)).mono a1
                  obtain ⟨owner', b1, b2, b3⟩ := ih _ _ a2 htag he
                  exact ⟨owner', a1.trans b1, b2, b3⟩

theorem workspace_owner {owner : Nat → Option String} {counter : Nat} (hw : Owners owner counter) (workspace : Bool) :
    Owners owner (workspaceCounter workspace counter) := by
  intro k nm h
  have := hw k nm h
  cases workspace <;> simp [workspaceCounter, setId] <;> omega

/-- After a call, each id still belongs to one name, and the ids of the returned clusters belong to their names. -/
theorem clusterAndStarifyId_tagged {workspace : Bool} {prev : Option (List (IdCl Ob Star KP P))} {fuel : Nat}
    {owner : Nat → Option String} {counter : Nat} (hw : Owners owner counter) (hp : PrevNamed owner prev)
    (hown : OwnIds g owner obstacles) {r : Res Ob (Star × Option Nat) KP P} {counter' : Nat}
    (h : clusterAndStarifyId g own par workspace prev fuel obstacles counter = some (.ok (r, counter'))) :
    ∃ owner', Extends owner owner' ∧ Owners owner' counter' ∧ ∀ c ∈ r.clusters, Tagged g obstacles owner' c := by
  have hdef : ∀ (owner : Nat → Option String), OwnIds g owner obstacles → ∀ n it, ∀ c ∈ (defaultResult (idGeo g) par obstacles n it).clusters, Tagged g obstacles owner c := by
    intro owner hown n it c hc
    obtain ⟨o, ho, rfl⟩ := List.mem_map.1 hc
    exact newCluster_tagged hown (by simpa using ho)
  simp only [clusterAndStarifyId] at h
  rcases hi : initLoop (idGeo g) 0 obstacles with e | _ | _
  · rw [hi] at h; simp at h
  · rw [hi] at h
    simp only [Option.some.injEq, Except.ok.injEq, Prod.mk.injEq] at h
    obtain ⟨rfl, rfl⟩ := h
    exact ⟨owner, Extends.refl _, workspace_owner hw workspace, hdef owner hown _ _⟩
  · rw [hi] at h
    simp only at h
    rcases hf : firstLoopId g own prev obstacles (workspaceCounter workspace counter) with e | ⟨cls0, counter0⟩
    · rw [hf] at h; simp at h
    · rw [hf] at h
      simp only at h
      obtain ⟨owner0, a1, a2, a3⟩ := firstLoopId_tagged obstacles (fun o ho => ho) (workspace_owner hw workspace) hp hown hf
      rcases hg : getIntersectionClusters (idGeo g) cls0 with e | ⟨cls1, ex⟩
      · rw [hg] at h; simp at h
      · rw [hg] at h
        simp only at h
        have h1 := gic_tagged (hown.mono a1) a3 hg
        generalize hit : (if par.returnHistory = true then [cls0] else []) = iters0 at h
        rcases hl : clusterLoopId g par prev fuel cls1 ex (firstHistory cls0) 1 iters0 counter0 with _ | e | ⟨⟨n, iters⟩ | ⟨cls, n, iters⟩, counter1⟩
        · rw [hl] at h; simp at h
        · rw [hl] at h; simp at h
        · rw [hl] at h
          simp only [Option.some.injEq, Except.ok.injEq, Prod.mk.injEq] at h
          obtain ⟨rfl, rfl⟩ := h
          obtain ⟨owner1, b1, b2, _⟩ := clusterLoopId_tagged fuel cls1 ex 1 iters0 a2 (hp.mono a1) (hown.mono a1) (histTagged_first cls0 a3) h1 hl
          exact ⟨owner1, a1.trans b1, b2, hdef owner1 (hown.mono (a1.trans b1)) _ _⟩
        · rw [hl] at h
          simp only at h
          obtain ⟨owner1, b1, b2, b3⟩ := clusterLoopId_tagged fuel cls1 ex 1 iters0 a2 (hp.mono a1) (hown.mono a1) (histTagged_first cls0 a3) h1 hl
          have b4 := b3 _ _ _ rfl
          split at h
          · rcases hm : makeConvexLoopId g cls.length 0 cls counter1 with e | ⟨l | l, counter2⟩
            · rw [hm] at h; simp at h
            · rw [hm] at h
              simp only [Option.some.injEq, Except.ok.injEq, Prod.mk.injEq] at h
              obtain ⟨rfl, rfl⟩ := h
              obtain ⟨owner2, c1, c2, c3⟩ := makeConvexLoopId_tagged _ _ cls b2 b4 hm
              exact ⟨owner2, (a1.trans b1).trans c1, c2, c3 _ (Or.inl rfl)⟩
            · rw [hm] at h
              simp only [Option.some.injEq, Except.ok.injEq, Prod.mk.injEq] at h
              obtain ⟨rfl, rfl⟩ := h
              obtain ⟨owner2, c1, c2, c3⟩ := makeConvexLoopId_tagged _ _ cls b2 b4 hm
              exact ⟨owner2, (a1.trans b1).trans c1, c2, c3 _ (Or.inr rfl)⟩
          · simp only [Option.some.injEq, Except.ok.injEq, Prod.mk.injEq] at h
            obtain ⟨rfl, rfl⟩ := h
            exact ⟨owner1, a1.trans b1, b2, b4⟩

end Starworlds
