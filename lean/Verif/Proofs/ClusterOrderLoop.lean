import Verif.Proofs.ClusterOrder
import Verif.Proofs.ClusterTotal

/-! # The clustering loop does not depend on the order of the obstacles -/

namespace Starworlds

open Spec

variable {Ob Star KP P X : Type}

theorem perm_transfer {α β γ δ : Type} {f : α → γ} {f' : β → γ} {φ : α → δ} {φ' : β → δ} (l : List α) (l' : List β)
    (h : (l.map f).Perm (l'.map f')) (hφ : ∀ a ∈ l, ∀ b ∈ l', f a = f' b → φ a = φ' b) : (l.map φ).Perm (l'.map φ') := by
  induction l generalizing l' with
  | nil =>
    have := h.length_eq
    rw [List.length_map, List.length_map] at this
    rw [List.length_eq_zero_iff.1 this.symm]
    exact List.Perm.refl _
  | cons a l ih =>
    obtain ⟨b, hb, e⟩ := List.mem_map.1 (h.mem_iff.1 (List.mem_map.2 ⟨a, by simp, rfl⟩))
    obtain ⟨s, t, rfl⟩ := List.append_of_mem hb
    have h2 : ((a :: l).map f).Perm ((b :: (s ++ t)).map f') := h.trans ((List.perm_middle).map f')
    rw [List.map_cons, List.map_cons, e] at h2
    have h3 := ih (s ++ t) ((List.perm_cons _).1 h2) fun x hx y hy => hφ x (by simp [hx]) y (by
      rcases List.mem_append.1 hy with hy | hy <;> simp [hy])
    have h4 : ((s ++ b :: t).map φ').Perm ((b :: (s ++ t)).map φ') := List.perm_middle.map φ'
    refine List.Perm.trans ?_ h4.symm
    rw [List.map_cons, List.map_cons, hφ a (by simp) b hb e.symm]
    exact h3.cons _

/-- The result of `starifyCluster` when it does not raise. -/
def stOf (g : Geo Ob Star KP P) (n : Nat) (cl : Cl Ob Star KP P) : Option (Cl Ob Star KP P) :=
  match starifyCluster g none n cl with
  | .ok r => r
  | .error _ => none

/-- The cluster that takes the place of `cl` in the loop over the clusters. -/
def valOf (g : Geo Ob Star KP P) (n : Nat) (h : History Ob Star KP P) (cl : Cl Ob Star KP P) : Cl Ob Star KP P :=
  match h cl.name with
  | some c => c
  | none => (stOf g n cl).getD cl

variable {g : Geo Ob Star KP P} {obstacles : List Ob}

theorem starifyAll_form {n : Nat} (cls : List (Cl Ob Star KP P)) (hst : ∀ cl ∈ cls, starifyCluster g none n cl = .ok (stOf g n cl))
    (hname : ∀ cl ∈ cls, ∀ c, stOf g n cl = some c → c.name = cl.name) (hnd : (cls.map (·.name)).Nodup) (h : History Ob Star KP P) :
    ((∃ cl ∈ cls, h cl.name = none ∧ stOf g n cl = none) ∧ ∃ part, starifyAll g none n cls h = .ok (.inl part)) ∨
    ((∀ cl ∈ cls, h cl.name = none → (stOf g n cl).isSome) ∧ ∃ h', starifyAll g none n cls h = .ok (.inr (cls.map (valOf g n h), h')) ∧
      (∀ nm, nm ∉ cls.map (·.name) → h' nm = h nm) ∧ ∀ cl ∈ cls, h' cl.name = some (valOf g n h cl)) := by
  induction cls generalizing h with
  | nil => exact .inr ⟨by simp, h, rfl, by simp, by simp⟩
  | cons cl cls ih =>
    have hst' : ∀ cl ∈ cls, starifyCluster g none n cl = .ok (stOf g n cl) := fun c hc => hst c (by simp [hc])
    have hname' : ∀ cl ∈ cls, ∀ c, stOf g n cl = some c → c.name = cl.name := fun c hc => hname c (by simp [hc])
    rw [List.map_cons, List.nodup_cons] at hnd
    cases hh : h cl.name with
    | some c =>
      have hval : valOf g n h cl = c := by simp [valOf, hh]
      rcases ih hst' hname' hnd.2 h with ⟨⟨d, hd, h1, h2⟩, part, hp⟩ | ⟨h1, h', h2, h3, h4⟩
      · exact .inl ⟨⟨d, by simp [hd], h1, h2⟩, _, by simp only [starifyAll, hh, hp, consStarified]; rfl⟩
      · refine .inr ⟨?_, h', ?_, ?_, ?_⟩
        · intro d hd hn
          rcases List.mem_cons.1 hd with rfl | hd
          · rw [hh] at hn; cases hn
          · exact h1 d hd hn
        · simp only [starifyAll, hh, h2, consStarified, List.map_cons, hval]
        · intro nm hnm
          exact h3 nm fun hm => hnm (by simp only [List.map_cons, List.mem_cons]; exact .inr hm)
        · intro d hd
          rcases List.mem_cons.1 hd with rfl | hd
          · rw [h3 _ hnd.1, hh, hval]
          · exact h4 d hd
    | none =>
      cases hs : stOf g n cl with
      | none =>
        refine .inl ⟨⟨cl, by simp, hh, hs⟩, cl :: cls, ?_⟩
        simp only [starifyAll, hh, hst cl (by simp), hs]
      | some c =>
        have hcn : c.name = cl.name := hname cl (by simp) c hs
        have hval : valOf g n h cl = c := by simp [valOf, hh, hs]
        have hins : ∀ d ∈ cls, (h.insert c) d.name = h d.name := by
          intro d hd
          have : d.name ≠ c.name := by
            rw [hcn]
            intro he
            exact hnd.1 (he ▸ List.mem_map.2 ⟨d, hd, rfl⟩)
          simp [History.insert, this]
        have hvals : ∀ d ∈ cls, valOf g n (h.insert c) d = valOf g n h d := by
          intro d hd
          simp only [valOf, hins d hd]
        rcases ih hst' hname' hnd.2 (h.insert c) with ⟨⟨d, hd, h1, h2⟩, part, hp⟩ | ⟨h1, h', h2, h3, h4⟩
        · rw [hins d hd] at h1
          exact .inl ⟨⟨d, by simp [hd], h1, h2⟩, _, by simp only [starifyAll, hh, hst cl (by simp), hs, hp, consStarified]; rfl⟩
        · refine .inr ⟨?_, h', ?_, ?_, ?_⟩
          · intro d hd hn
            rcases List.mem_cons.1 hd with rfl | hd
            · simp [hs]
            · exact h1 d hd (by rw [hins d hd, hn])
          · simp only [starifyAll, hh, hst cl (by simp), hs, h2, consStarified, List.map_cons, hval]
            rw [List.map_congr_left hvals]
          · intro nm hnm
            rw [h3 nm fun hm => hnm (by simp only [List.map_cons, List.mem_cons]; exact .inr hm)]
            have : nm ≠ c.name := by
              rw [hcn]
              rintro rfl
              exact hnm (by simp)
            simp [History.insert, this]
          · intro d hd
            rcases List.mem_cons.1 hd with rfl | hd
            · rw [hval, ← hcn, h3 _ (by rw [hcn]; exact hnd.1)]
              simp [History.insert]
            · rw [h4 d hd, hvals d hd]

/-- The history knows the current clusters, and its other clusters are parts of them. -/
structure HistInv (cls : List (Cl Ob Star KP P)) (h : History Ob Star KP P) : Prop where
  cur : ∀ c ∈ cls, h c.name = some c
  sub : ∀ nm c, h nm = some c → ∃ d ∈ cls, ∀ o ∈ c.obstacles, o ∈ d.obstacles

/-- What a merged cluster consists of. -/
theorem gic_parts (hs : IsSetList g.setList) {cls out : List (Cl Ob Star KP P)} (hg : ∀ c ∈ cls, Good g obstacles c)
    (hnd : (cls.flatMap (·.obstacles)).Nodup) (h : getIntersectionClusters g cls = .ok (out, true)) {cl c : Cl Ob Star KP P}
    (hcl : cl ∈ out) (hc : c ∈ cls) {o : Ob} (ho : o ∈ c.obstacles) (ho' : o ∈ cl.obstacles) :
    (∀ x ∈ c.obstacles, x ∈ cl.obstacles) ∧ ((∀ x ∈ cl.obstacles, x ∈ c.obstacles) → cl.obstacles = c.obstacles) := by
  have hat : ∀ j (hj : j < cls.length), obstaclesAt (cls.map (cachePolygon g)) j = cls[j].obstacles := by
    intro j hj
    simp only [obstaclesAt, List.getElem?_map, List.getElem?_eq_getElem hj, Option.map_some, cachePolygon_obstacles]
  have hout := (gic_true h).1
  have hdis : ∀ i j (hi : i < cls.length) (hj : j < cls.length) x, x ∈ cls[i].obstacles → x ∈ cls[j].obstacles → i = j := by
    intro i j hi hj x h1 h2
    by_contra hne
    rw [List.flatMap_def] at hnd
    have hp := List.pairwise_iff_getElem.1 (List.nodup_flatten.1 hnd).2
    rcases Nat.lt_or_gt_of_ne hne with hl | hl
    · have := hp i j (by simpa using hi) (by simpa using hj) hl
      simp only [List.getElem_map] at this
      exact this h1 h2
    · have := hp j i (by simpa using hj) (by simpa using hi) hl
      simp only [List.getElem_map] at this
      exact this h2 h1
  rw [hout] at hcl
  obtain ⟨grp, hgrp, rfl⟩ := List.mem_map.1 hcl
  have hflat := mergedGroups_flatten hs cls.length (interIdx g (cls.map (cachePolygon g)))
  have hlt : ∀ j ∈ grp, j < cls.length := fun j hj => List.mem_range.1 (hflat.mem_iff.1 (List.mem_flatten.2 ⟨grp, hgrp, hj⟩))
  have hgn : grp.Nodup := (List.nodup_flatten.1 (hflat.nodup_iff.2 List.nodup_range)).1 _ hgrp
  obtain ⟨j, hj, rfl⟩ := List.getElem_of_mem hc
  simp only [newCluster] at ho' ⊢
  obtain ⟨k, hk, hok⟩ := List.mem_flatMap.1 ho'
  rw [hat k (hlt k hk)] at hok
  have hkj := hdis k j (hlt k hk) hj o hok ho
  subst hkj
  refine ⟨fun x hx => List.mem_flatMap.2 ⟨k, hk, by rwa [hat k hj]⟩, fun hsub => ?_⟩
  have hall : ∀ m ∈ grp, m = k := by
    intro m hm
    obtain ⟨x, hx⟩ := List.exists_mem_of_ne_nil _ (hg _ (List.getElem_mem (hlt m hm))).nonempty
    exact hdis m k (hlt m hm) hj x hx (hsub x (List.mem_flatMap.2 ⟨m, hm, by rwa [hat m (hlt m hm)]⟩))
  have hgrp1 : grp = [k] := by
    rcases grp with _ | ⟨a, _ | ⟨b, l⟩⟩
    · simp at hk
    · rw [hall a (by simp)]
    · have e1 := hall a (by simp)
      have e2 := hall b (by simp)
      rw [e1, e2] at hgn
      simp at hgn
  rw [hgrp1]
  simp [hat k hj]

theorem gic_lookup (hs : IsSetList g.setList) (hid : (obstacles.map g.id).Nodup) {cls out : List (Cl Ob Star KP P)}
    (hg : ∀ c ∈ cls, Good g obstacles c)
    (hnd : (cls.flatMap (·.obstacles)).Nodup) (h : getIntersectionClusters g cls = .ok (out, true)) {hist : History Ob Star KP P}
    (hh : HistOk g obstacles hist) (hi : HistInv cls hist) {cl c : Cl Ob Star KP P} (hcl : cl ∈ out) :
    hist cl.name = some c ↔ (c ∈ cls ∧ (c.obstacles : Multiset Ob) = cl.obstacles) := by
  have hfr := gic_fresh hs hg h cl hcl
  have hB : ∀ c ∈ cls, (c.obstacles : Multiset Ob) = cl.obstacles → hist cl.name = some c := by
    intro c hc he
    have hp := Multiset.coe_eq_coe.1 he
    obtain ⟨o, ho⟩ := List.exists_mem_of_ne_nil _ (hg c hc).nonempty
    have e := (gic_parts hs hg hnd h hcl hc ho (hp.mem_iff.1 ho)).2 fun x hx => hp.mem_iff.2 hx
    rw [hfr.name, e, ← (hg c hc).name]
    exact hi.cur c hc
  refine ⟨fun hn => ?_, fun hc => hB c hc.1 hc.2⟩
  obtain ⟨hgc, hnm⟩ := hh _ _ hn
  have e : c.obstacles = cl.obstacles := same_obstacles hid hgc.sub hfr.sub hgc.nonempty hfr.nonempty (by rw [← hgc.name, ← hfr.name, hnm])
  obtain ⟨d, hd, hsub⟩ := hi.sub _ _ hn
  obtain ⟨o, ho⟩ := List.exists_mem_of_ne_nil _ hgc.nonempty
  have e2 := (gic_parts hs hg hnd h hcl hd (hsub o ho) (e ▸ ho)).2 fun x hx => hsub x (e ▸ hx)
  have h3 := hB d hd (by rw [e2])
  rw [hn, Option.some.injEq] at h3
  subst h3
  exact ⟨hd, by rw [e]⟩

theorem stOf_order {look : Star → X} (hf : OrderFree g look) (n : Nat) {cl cl' : Cl Ob Star KP P}
    (h : (cl.obstacles : Multiset Ob) = cl'.obstacles) : (stOf g n cl).map (core look) = (stOf g n cl').map (core look) := by
  have hp := Multiset.coe_eq_coe.1 h
  simp only [stOf, starifyCluster, lastCluster, computeKernelPoints, prevId, bind, Except.bind]
  rw [hf.adm n _ _ hp, hf.kernel n _ _ none hp]
  rcases g.admEmpty n cl'.obstacles with e | _ | _
  · rfl
  · simp only []
    rcases g.kernelSel n cl'.obstacles none with e | kp
    · rfl
    · simp only []
      cases hr : g.loopStar n cl.obstacles kp with
      | error e =>
        cases hr' : g.loopStar n cl'.obstacles kp with
        | error e' => rfl
        | ok s' =>
          obtain ⟨t, ht, -⟩ := hf.loop n _ _ kp s' hp.symm hr'
          rw [hr] at ht
          cases ht
      | ok s =>
        obtain ⟨t, ht, hl⟩ := hf.loop n _ _ kp s hp hr
        simp only [ht, Option.map_some, core, cachePolygon_obstacles, cachePolygon_kernelPoints, cachePolygon_star, hl, h]
  · rfl

/-- Everything that holds of the lists of a run between two iterations: `pre` has the starified clusters, `cls` is the result of
`get_intersection_clusters` for them. -/
structure RunInv (g : Geo Ob Star KP P) (obstacles : List Ob) (pre cls : List (Cl Ob Star KP P)) (ex : Bool) (h : History Ob Star KP P) :
    Prop where
  good : ∀ c ∈ pre, Good g obstacles c
  nodup : (pre.flatMap (·.obstacles)).Nodup
  step : getIntersectionClusters g pre = .ok (cls, ex)
  hist : HistOk g obstacles h
  inv : HistInv pre h

theorem names_nodup (hs : IsSetList g.setList) (hid : (obstacles.map g.id).Nodup) {pre cls : List (Cl Ob Star KP P)}
    {h : History Ob Star KP P} (hr : RunInv g obstacles pre cls true h) : (cls.map (·.name)).Nodup := by
  have hfr := gic_fresh hs hr.good hr.step
  have hp := gic_perm hs hr.step
  have hn : (cls.flatMap (·.obstacles)).Nodup := hp.nodup_iff.2 hr.nodup
  rw [List.flatMap_def] at hn
  have hpw := (List.nodup_flatten.1 hn).2
  rw [List.pairwise_map] at hpw
  rw [List.Nodup, List.pairwise_map]
  refine List.Pairwise.imp_of_mem (fun {c d} hc hd hdis he => ?_) hpw
  have h1 := hfr c hc
  have h2 := hfr d hd
  have e := same_obstacles hid h1.sub h2.sub h1.nonempty h2.nonempty (by rw [← h1.name, ← h2.name, he])
  obtain ⟨o, ho⟩ := List.exists_mem_of_ne_nil _ h1.nonempty
  exact hdis ho (e ▸ ho)

theorem stOf_good {n : Nat} (ht : g.TotalOn obstacles) {cl : Cl Ob Star KP P} (hf : Fresh g obstacles cl) :
    starifyCluster g none n cl = .ok (stOf g n cl) ∧
      ∀ c, stOf g n cl = some c → Good g obstacles c ∧ c.obstacles = cl.obstacles ∧ c.name = cl.name := by
  obtain ⟨r, hr⟩ := starifyCluster_on ht (prev := none) (by intro l h; cases h) n cl hf
  have e : stOf g n cl = r := by simp [stOf, hr]
  refine ⟨by rw [e, hr], fun c hc => ?_⟩
  rw [e] at hc
  rw [hc] at hr
  obtain ⟨h1, h2⟩ := starifyCluster_good hf hr
  exact ⟨h1, h2, by rw [h1.name, hf.name, h2]⟩

/-- One pass over the clusters of a run: either the exit, or the invariant for the next clustering step. -/
theorem run_step (hs : IsSetList g.setList) (hid : (obstacles.map g.id).Nodup) (ht : g.TotalOn obstacles)
    {pre cls : List (Cl Ob Star KP P)} {h : History Ob Star KP P} (hr : RunInv g obstacles pre cls true h) (n : Nat) :
    ((∃ cl ∈ cls, h cl.name = none ∧ stOf g n cl = none) ∧ ∃ part, starifyAll g none n cls h = .ok (.inl part)) ∨
    ((∀ cl ∈ cls, h cl.name = none → (stOf g n cl).isSome) ∧ ∃ h' cls2 ex2,
      starifyAll g none n cls h = .ok (.inr (cls.map (valOf g n h), h')) ∧
      getIntersectionClusters g (cls.map (valOf g n h)) = .ok (cls2, ex2) ∧
      RunInv g obstacles (cls.map (valOf g n h)) cls2 ex2 h') := by
  have hfr := gic_fresh hs hr.good hr.step
  have hnn := names_nodup hs hid hr
  rcases starifyAll_form (n := n) cls (fun cl hcl => (stOf_good ht (hfr cl hcl)).1)
    (fun cl hcl c hc => ((stOf_good ht (hfr cl hcl)).2 c hc).2.2) hnn h with h1 | ⟨h1, h', h2, h3, h4⟩
  · exact .inl h1
  · refine .inr ⟨h1, h', ?_⟩
    obtain ⟨g1, g2, g3⟩ := starifyAll_good cls h hr.hist hfr h2
    have g3 := g3 hid
    obtain ⟨⟨cls2, ex2⟩, hgic⟩ := gic_ok g2
    have hobs : ∀ cl ∈ cls, (valOf g n h cl).obstacles = cl.obstacles := by
      rw [List.map_map] at g3
      exact List.map_inj_left.1 g3
    have hnm : ∀ cl ∈ cls, (valOf g n h cl).name = cl.name := by
      intro cl hcl
      rw [(g2 _ (List.mem_map.2 ⟨cl, hcl, rfl⟩)).name, hobs cl hcl, (hfr cl hcl).name]
    refine ⟨cls2, ex2, h2, hgic, g2, ?_, hgic, g1, ?_, ?_⟩
    · rw [flatMap_congr_obs g3]
      exact (gic_perm hs hr.step).nodup_iff.2 hr.nodup
    · intro c hc
      obtain ⟨cl, hcl, rfl⟩ := List.mem_map.1 hc
      rw [hnm cl hcl]
      exact h4 cl hcl
    · intro nm c hc
      by_cases hm : nm ∈ cls.map (·.name)
      · obtain ⟨cl, hcl, rfl⟩ := List.mem_map.1 hm
        rw [h4 cl hcl, Option.some.injEq] at hc
        exact ⟨_, List.mem_map.2 ⟨cl, hcl, rfl⟩, fun o ho => hc ▸ ho⟩
      · rw [h3 nm hm] at hc
        obtain ⟨d, hd, hsub⟩ := hr.inv.sub nm c hc
        obtain ⟨o, ho⟩ := List.exists_mem_of_ne_nil _ (hr.good d hd).nonempty
        have : o ∈ cls.flatMap (·.obstacles) := (gic_perm hs hr.step).mem_iff.2 (List.mem_flatMap.2 ⟨d, hd, ho⟩)
        obtain ⟨cl, hcl, hocl⟩ := List.mem_flatMap.1 this
        refine ⟨_, List.mem_map.2 ⟨cl, hcl, rfl⟩, fun x hx => ?_⟩
        rw [hobs cl hcl]
        exact (gic_parts hs hr.good hr.nodup hr.step hcl hd ho hocl).1 x (hsub x hx)

/-- The clusters of two runs that start from the same clusters in another order. -/
theorem valOf_order {look : Star → X} (hf : OrderFree g look) (hs : IsSetList g.setList) (hid : (obstacles.map g.id).Nodup)
    {pre cls pre' cls' : List (Cl Ob Star KP P)} {h h' : History Ob Star KP P} (hr : RunInv g obstacles pre cls true h)
    (hr' : RunInv g obstacles pre' cls' true h') (hc : (pre.map (core look)).Perm (pre'.map (core look))) (n : Nat)
    {cl cl' : Cl Ob Star KP P} (hcl : cl ∈ cls) (hcl' : cl' ∈ cls') (he : view look cl = view look cl') :
    (h cl.name = none ↔ h' cl'.name = none) ∧ ((stOf g n cl).isSome → core look (valOf g n h cl) = core look (valOf g n h' cl')) ∧
      (stOf g n cl = none ↔ stOf g n cl' = none) ∧ (∀ c, h cl.name = some c → core look (valOf g n h cl) = core look (valOf g n h' cl')) := by
  have hobs : (cl.obstacles : Multiset Ob) = cl'.obstacles := congrArg Prod.fst he
  have hst := stOf_order hf n hobs
  have key : ∀ {pre cls pre' cls' : List (Cl Ob Star KP P)} {h h' : History Ob Star KP P} {cl cl' : Cl Ob Star KP P},
      RunInv g obstacles pre cls true h → RunInv g obstacles pre' cls' true h' → (pre.map (core look)).Perm (pre'.map (core look)) →
      cl ∈ cls → cl' ∈ cls' → (cl.obstacles : Multiset Ob) = cl'.obstacles → ∀ c, h cl.name = some c →
      ∃ c', h' cl'.name = some c' ∧ core look c' = core look c := by
    intro pre cls pre' cls' h h' cl cl' hr hr' hc hcl hcl' hobs c hn
    obtain ⟨h1, h2⟩ := (gic_lookup hs hid hr.good hr.nodup hr.step hr.hist hr.inv hcl).1 hn
    obtain ⟨c', hc', e⟩ := core_mem hc c h1
    refine ⟨c', (gic_lookup hs hid hr'.good hr'.nodup hr'.step hr'.hist hr'.inv hcl').2 ⟨hc', ?_⟩, e⟩
    rw [← hobs, ← h2]
    exact congrArg Prod.fst e
  have hsome : ∀ c, h cl.name = some c → core look (valOf g n h cl) = core look (valOf g n h' cl') := by
    intro c hn
    obtain ⟨c', hn', e⟩ := key hr hr' hc hcl hcl' hobs c hn
    simp only [valOf, hn, hn', e]
  have hnone : h cl.name = none ↔ h' cl'.name = none := by
    constructor
    · intro hn
      by_contra hn'
      obtain ⟨c', hc'⟩ := Option.ne_none_iff_exists'.1 hn'
      obtain ⟨c, h1, _⟩ := key hr' hr hc.symm hcl' hcl hobs.symm c' hc'
      rw [hn] at h1
      cases h1
    · intro hn
      by_contra hn'
      obtain ⟨c', hc'⟩ := Option.ne_none_iff_exists'.1 hn'
      obtain ⟨c, h1, _⟩ := key hr hr' hc hcl hcl' hobs c' hc'
      rw [hn] at h1
      cases h1
  refine ⟨hnone, fun hsm => ?_, ?_, hsome⟩
  · cases hn : h cl.name with
    | some c => exact hsome c hn
    | none =>
      obtain ⟨s, hs⟩ := Option.isSome_iff_exists.1 hsm
      rw [hs] at hst
      obtain ⟨s', hs', e⟩ := Option.map_eq_some_iff.1 hst.symm
      simp only [valOf, hn, hnone.1 hn, hs, hs', Option.getD_some, e]
  · rw [← Option.map_eq_none_iff (f := core look), hst, Option.map_eq_none_iff]

/-- The two runs of the loop. -/
theorem loop_order {look : Star → X} (hf : OrderFree g look) (hs : IsSetList g.setList) (hid : (obstacles.map g.id).Nodup)
    (ht : g.TotalOn obstacles) (par : Params) (fuel : Nat) {pre cls pre' cls' : List (Cl Ob Star KP P)} {ex ex' : Bool}
    {h h' : History Ob Star KP P} (n : Nat) (iters iters' : List (List (Cl Ob Star KP P))) (hr : RunInv g obstacles pre cls ex h)
    (hr' : RunInv g obstacles pre' cls' ex' h') (hc : (pre.map (core look)).Perm (pre'.map (core look))) :
    (clusterLoop g par none fuel cls ex h n iters = none ∧ clusterLoop g par none fuel cls' ex' h' n iters' = none) ∨
    (∃ m it it', clusterLoop g par none fuel cls ex h n iters = some (.ok (.incomplete m it)) ∧
      clusterLoop g par none fuel cls' ex' h' n iters' = some (.ok (.incomplete m it'))) ∨
    (∃ m out out' it it', clusterLoop g par none fuel cls ex h n iters = some (.ok (.done out m it)) ∧
      clusterLoop g par none fuel cls' ex' h' n iters' = some (.ok (.done out' m it')) ∧
      (out.map (view look)).Perm (out'.map (view look))) := by
  induction fuel generalizing pre cls pre' cls' ex ex' h h' n iters iters' with
  | zero =>
    obtain ⟨rfl, hv⟩ := gic_order hf hs hr.good hr'.good hr.nodup hc hr.step hr'.step
    cases ex with
    | true => exact .inl ⟨rfl, rfl⟩
    | false => exact .inr (.inr ⟨n, cls, cls', iters, iters', rfl, rfl, hv⟩)
  | succ fuel ih =>
    obtain ⟨rfl, hv⟩ := gic_order hf hs hr.good hr'.good hr.nodup hc hr.step hr'.step
    cases ex with
    | false => exact .inr (.inr ⟨n, cls, cls', iters, iters', by simp [clusterLoop], by simp [clusterLoop], hv⟩)
    | true =>
      have hcorr : ∀ cl ∈ cls, ∃ cl' ∈ cls', view look cl = view look cl' := by
        intro cl hcl
        obtain ⟨cl', h1, h2⟩ := List.mem_map.1 (hv.mem_iff.1 (List.mem_map.2 ⟨cl, hcl, rfl⟩))
        exact ⟨cl', h1, h2.symm⟩
      have hcorr' : ∀ cl' ∈ cls', ∃ cl ∈ cls, view look cl = view look cl' := by
        intro cl hcl
        obtain ⟨cl', h1, h2⟩ := List.mem_map.1 (hv.mem_iff.2 (List.mem_map.2 ⟨cl, hcl, rfl⟩))
        exact ⟨cl', h1, h2⟩
      cases htm : g.timeoutIter n with
      | true =>
        exact .inr (.inl ⟨n, iters ++ [cls], iters' ++ [cls'], by simp [clusterLoop, htm], by simp [clusterLoop, htm]⟩)
      | false =>
        rcases run_step hs hid ht hr n with ⟨⟨cl, hcl, e1, e2⟩, part, hp⟩ | ⟨hall, h2, cls2, ex2, hst, hgic, hr2⟩
        · obtain ⟨cl', hcl', he⟩ := hcorr cl hcl
          obtain ⟨v1, _, v3, _⟩ := valOf_order hf hs hid hr hr' hc n hcl hcl' he
          rcases run_step hs hid ht hr' n with ⟨_, part', hp'⟩ | ⟨hall', _⟩
          · exact .inr (.inl ⟨n, iters ++ [part], iters' ++ [part'], by simp [clusterLoop, htm, hp], by simp [clusterLoop, htm, hp']⟩)
          · have := hall' cl' hcl' (v1.1 e1)
            rw [v3.1 e2] at this
            cases this
        · rcases run_step hs hid ht hr' n with ⟨⟨cl', hcl', e1, e2⟩, part', hp'⟩ | ⟨hall', h2', cls2', ex2', hst', hgic', hr2'⟩
          · obtain ⟨cl, hcl, he⟩ := hcorr' cl' hcl'
            obtain ⟨v1, _, v3, _⟩ := valOf_order hf hs hid hr hr' hc n hcl hcl' he
            have := hall cl hcl (v1.2 e1)
            rw [v3.2 e2] at this
            cases this
          · have hcore : ((cls.map (valOf g n h)).map (core look)).Perm ((cls'.map (valOf g n h')).map (core look)) := by
              rw [List.map_map, List.map_map]
              refine perm_transfer cls cls' hv fun cl hcl cl' hcl' he => ?_
              obtain ⟨_, v2, _, v4⟩ := valOf_order hf hs hid hr hr' hc n hcl hcl' he
              cases hn : h cl.name with
              | some c => exact v4 c hn
              | none => exact v2 (hall cl hcl hn)
            obtain ⟨rfl, hv2⟩ := gic_order hf hs hr2.good hr2'.good hr2.nodup hcore hgic hgic'
            simp only [clusterLoop, htm, Bool.false_eq_true, if_false, hst, hst', hgic, hgic']
            split
            · exact .inr (.inr ⟨_, _, _, _, _, rfl, rfl, hv2⟩)
            · exact ih (n + 1) _ _ hr2 hr2' hcore

end Starworlds
