import Verif.Spec.ClusterOrder
import Verif.Proofs.Cluster
import Mathlib.Data.Multiset.Basic
import Mathlib.Data.List.Lattice

/-! # The clustering step does not depend on the order of the clusters -/

namespace Starworlds

open Spec

section Groups

variable {α : Type}

theorem groups_unique {G : List (List α)} (hn : G.flatten.Nodup) {l m : List α} (hl : l ∈ G) (hm : m ∈ G) {a : α} (ha : a ∈ l)
    (hb : a ∈ m) : l = m := by
  by_contra hne
  have hp := (List.nodup_flatten.1 hn).2
  have : Std.Symm (List.Disjoint (α := α)) := ⟨fun _ _ h => h.symm⟩
  exact hp.forall hl hm hne ha hb

theorem groups_nodup {G : List (List α)} (hn : G.flatten.Nodup) (hne : ∀ l ∈ G, l ≠ []) : (G.map Multiset.ofList).Nodup := by
  have hG : G.Nodup := by
    have hp := (List.nodup_flatten.1 hn).2
    refine List.Pairwise.imp_of_mem (fun {l m} hl _ hd he => ?_) hp
    subst he
    obtain ⟨a, ha⟩ := List.exists_mem_of_ne_nil _ (hne l hl)
    exact hd ha ha
  refine List.Nodup.map_on (fun l hl m hm he => ?_) hG
  obtain ⟨a, ha⟩ := List.exists_mem_of_ne_nil _ (hne l hl)
  exact groups_unique hn hl hm ha ((Multiset.coe_eq_coe.1 he).mem_iff.1 ha)

theorem groups_perm {G G' : List (List α)} (hn : G.flatten.Nodup) (hn' : G'.flatten.Nodup) (hne : ∀ l ∈ G, l ≠ [])
    (hne' : ∀ l ∈ G', l ≠ []) (h : ∀ a b, (∃ l ∈ G, a ∈ l ∧ b ∈ l) ↔ ∃ l ∈ G', a ∈ l ∧ b ∈ l) :
    (G.map Multiset.ofList).Perm (G'.map Multiset.ofList) := by
  have key : ∀ {G G' : List (List α)}, G.flatten.Nodup → G'.flatten.Nodup → (∀ l ∈ G, l ≠ []) →
      (∀ a b, (∃ l ∈ G, a ∈ l ∧ b ∈ l) ↔ ∃ l ∈ G', a ∈ l ∧ b ∈ l) → ∀ l ∈ G, ∃ l' ∈ G', (l' : Multiset α) = l := by
    intro G G' hn hn' hne h l hl
    obtain ⟨a, ha⟩ := List.exists_mem_of_ne_nil _ (hne l hl)
    obtain ⟨l', hl', ha', _⟩ := (h a a).1 ⟨l, hl, ha, ha⟩
    refine ⟨l', hl', Multiset.coe_eq_coe.2 ((List.perm_ext_iff_of_nodup ((List.nodup_flatten.1 hn').1 _ hl')
      ((List.nodup_flatten.1 hn).1 _ hl)).2 fun b => ⟨fun hb => ?_, fun hb => ?_⟩)⟩
    · obtain ⟨m, hm, h1, h2⟩ := (h a b).2 ⟨l', hl', ha', hb⟩
      rwa [groups_unique hn hl hm ha h1]
    · obtain ⟨m, hm, h1, h2⟩ := (h a b).1 ⟨l, hl, ha, hb⟩
      rwa [groups_unique hn' hl' hm ha' h1]
  refine (List.perm_ext_iff_of_nodup (groups_nodup hn hne) (groups_nodup hn' hne')).2 fun s => ⟨fun hs => ?_, fun hs => ?_⟩
  · obtain ⟨l, hl, rfl⟩ := List.mem_map.1 hs
    obtain ⟨l', hl', he⟩ := key hn hn' hne h l hl
    exact List.mem_map.2 ⟨l', hl', he⟩
  · obtain ⟨l, hl, rfl⟩ := List.mem_map.1 hs
    obtain ⟨l', hl', he⟩ := key hn' hn hne' (fun a b => (h a b).symm) l hl
    exact List.mem_map.2 ⟨l', hl', he⟩

end Groups

variable {Ob Star KP P X : Type}

/-- The view without the cached polygon. -/
def core (look : Star → X) (c : Cl Ob Star KP P) : Multiset Ob × Option KP × Option X := (c.obstacles, c.kernelPoints, c.star.map look)

/-- Two obstacles are in the same cluster, or in clusters of which the polygons meet. -/
def Near (g : Geo Ob Star KP P) (cls : List (Cl Ob Star KP P)) (o o' : Ob) : Prop :=
  ∃ c ∈ cls, ∃ d ∈ cls, o ∈ c.obstacles ∧ o' ∈ d.obstacles ∧
    ((c.obstacles : Multiset Ob) = d.obstacles ∨ ∃ s t, c.star = some s ∧ d.star = some t ∧ g.inter (g.starPoly s) (g.starPoly t) = true)

theorem near_mono {g : Geo Ob Star KP P} {look : Star → X} (hf : OrderFree g look) {cls cls' : List (Cl Ob Star KP P)}
    (h : ∀ c ∈ cls, ∃ d ∈ cls', core look d = core look c) {o o' : Ob} (hn : Near g cls o o') : Near g cls' o o' := by
  obtain ⟨c, hc, d, hd, ho, ho', hr⟩ := hn
  obtain ⟨c', hc', e⟩ := h c hc
  obtain ⟨d', hd', e'⟩ := h d hd
  simp only [core, Prod.mk.injEq] at e e'
  refine ⟨c', hc', d', hd', (Multiset.coe_eq_coe.1 e.1).mem_iff.2 ho, (Multiset.coe_eq_coe.1 e'.1).mem_iff.2 ho', ?_⟩
  rcases hr with hr | ⟨s, t, hs, ht, hi⟩
  · left
    rw [e.1, e'.1, hr]
  · right
    have e2 := e.2.2
    have e3 := e'.2.2
    rw [hs] at e2
    rw [ht] at e3
    simp only [Option.map_some, Option.map_eq_some_iff] at e2 e3
    obtain ⟨s', hs', es⟩ := e2
    obtain ⟨t', ht', et⟩ := e3
    exact ⟨s', t', hs', ht', by rw [hf.poly _ _ es, hf.poly _ _ et, hi]⟩

theorem core_mem {look : Star → X} {cls cls' : List (Cl Ob Star KP P)} (h : (cls.map (core look)).Perm (cls'.map (core look))) :
    ∀ c ∈ cls, ∃ d ∈ cls', core look d = core look c := by
  intro c hc
  exact List.mem_map.1 (h.mem_iff.1 (List.mem_map.2 ⟨c, hc, rfl⟩))

theorem linked_bound {n : Nat} {inter : Nat → Nat → Bool} {a b : Nat} (h : Linked n inter a b) : a = b ∨ (a < n ∧ b < n) := by
  induction h with
  | rel a b h => exact .inr ⟨h.1.trans h.2.1, h.2.1⟩
  | refl a => exact .inl rfl
  | symm a b _ ih => rcases ih with rfl | ⟨h1, h2⟩ <;> simp [*]
  | trans a b c _ _ h1 h2 =>
    rcases h1 with rfl | h1
    · exact h2
    · rcases h2 with rfl | h2
      · exact .inr h1
      · exact .inr ⟨h1.1, h2.2⟩

variable {g : Geo Ob Star KP P} {obstacles : List Ob}

theorem interIdx_good {cls : List (Cl Ob Star KP P)} (hg : ∀ c ∈ cls, Good g obstacles c) {i j : Nat} (hi : i < cls.length)
    (hj : j < cls.length) : interIdx g (cls.map (cachePolygon g)) i j = true ↔
      ∃ s t, cls[i].star = some s ∧ cls[j].star = some t ∧ g.inter (g.starPoly s) (g.starPoly t) = true := by
  have h1 := cachePolygon_polygon g cls[i] (hg _ (List.getElem_mem hi)).poly
  have h2 := cachePolygon_polygon g cls[j] (hg _ (List.getElem_mem hj)).poly
  obtain ⟨s, hs⟩ := Option.isSome_iff_exists.1 (hg _ (List.getElem_mem hi)).star
  obtain ⟨t, ht⟩ := Option.isSome_iff_exists.1 (hg _ (List.getElem_mem hj)).star
  simp only [interIdx, List.getElem?_map, List.getElem?_eq_getElem hi, List.getElem?_eq_getElem hj, Option.map_some, h1, h2, hs, ht]
  simp

/-- The obstacles of a clustering step that end in the same cluster. -/
theorem gic_near (hs : IsSetList g.setList) (hsym : ∀ p q, g.inter p q = g.inter q p) {cls out : List (Cl Ob Star KP P)}
    (hg : ∀ c ∈ cls, Good g obstacles c) (hnd : (cls.flatMap (·.obstacles)).Nodup)
    (h : getIntersectionClusters g cls = .ok (out, true)) (o o' : Ob) :
    (∃ l ∈ out.map (·.obstacles), o ∈ l ∧ o' ∈ l) ↔ (o ∈ cls.flatMap (·.obstacles) ∧ Relation.EqvGen (Near g cls) o o') := by
  have hat : ∀ j (hj : j < cls.length), obstaclesAt (cls.map (cachePolygon g)) j = cls[j].obstacles := by
    intro j hj
    simp only [obstaclesAt, List.getElem?_map, List.getElem?_eq_getElem hj, Option.map_some, cachePolygon_obstacles]
  have hout := (gic_true h).1
  set inter := interIdx g (cls.map (cachePolygon g)) with hinter
  have hlt : ∀ grp ∈ mergedGroups g.setList cls.length inter, ∀ j ∈ grp, j < cls.length := by
    intro grp hgrp j hj
    exact List.mem_range.1 ((mergedGroups_flatten hs cls.length inter).mem_iff.1 (List.mem_flatten.2 ⟨grp, hgrp, hj⟩))
  have hmem : ∀ l, l ∈ out.map (·.obstacles) ↔ ∃ grp ∈ mergedGroups g.setList cls.length inter,
      grp.flatMap (obstaclesAt (cls.map (cachePolygon g))) = l := by
    intro l
    rw [hout, List.map_map, List.mem_map]
    rfl
  have hperm := gic_perm hs h
  have hnd' : (out.map (·.obstacles)).flatten.Nodup := by
    rw [← List.flatMap_def]
    exact hperm.nodup_iff.2 hnd
  -- indices
  have hsame : ∀ a (ha : a < cls.length) b (hb : b < cls.length), Linked cls.length inter a b → ∀ o ∈ cls[a].obstacles, ∀ o' ∈ cls[b].obstacles,
      ∃ l ∈ out.map (·.obstacles), o ∈ l ∧ o' ∈ l := by
    intro a ha b hb hl o ho o' ho'
    obtain ⟨grp, hgrp, h1, h2⟩ := (mergedGroups_same hs cls.length inter a b ha).2 hl
    refine ⟨_, (hmem _).2 ⟨grp, hgrp, rfl⟩, List.mem_flatMap.2 ⟨a, h1, ?_⟩, List.mem_flatMap.2 ⟨b, h2, ?_⟩⟩
    · rwa [hat a ha]
    · rwa [hat b hb]
  constructor
  · rintro ⟨l, hl, ho, ho'⟩
    obtain ⟨grp, hgrp, rfl⟩ := (hmem l).1 hl
    obtain ⟨a, hag, ha⟩ := List.mem_flatMap.1 ho
    obtain ⟨b, hbg, hb⟩ := List.mem_flatMap.1 ho'
    have haL := hlt grp hgrp a hag
    have hbL := hlt grp hgrp b hbg
    rw [hat a haL] at ha
    rw [hat b hbL] at hb
    refine ⟨List.mem_flatMap.2 ⟨_, List.getElem_mem haL, ha⟩, ?_⟩
    have hlink := (mergedGroups_same hs cls.length inter a b haL).1 ⟨grp, hgrp, hag, hbg⟩
    have key : ∀ {a b}, Linked cls.length inter a b → ∀ (ha : a < cls.length) (hb : b < cls.length), ∀ o ∈ cls[a].obstacles, ∀ o' ∈ cls[b].obstacles,
        Relation.EqvGen (Near g cls) o o' := by
      intro a b hl
      induction hl with
      | rel a b h =>
        intro ha hb o ho o' ho'
        exact .rel _ _ ⟨_, List.getElem_mem ha, _, List.getElem_mem hb, ho, ho', .inr ((interIdx_good hg ha hb).1 h.2.2)⟩
      | refl a =>
        intro ha hb o ho o' ho'
        exact .rel _ _ ⟨_, List.getElem_mem ha, _, List.getElem_mem hb, ho, ho', .inl rfl⟩
      | symm a b _ ih => exact fun ha hb o ho o' ho' => .symm _ _ (ih hb ha o' ho' o ho)
      | trans a b c h1 h2 ih1 ih2 =>
        intro ha hc o ho o' ho'
        have hb : b < cls.length := by
          rcases linked_bound h1 with rfl | h1
          · exact ha
          · exact h1.2
        obtain ⟨o'', ho''⟩ := List.exists_mem_of_ne_nil _ (hg _ (List.getElem_mem hb)).nonempty
        exact .trans _ _ _ (ih1 ha hb o ho o'' ho'') (ih2 hb hc o'' ho'' o' ho')
    exact key hlink haL hbL o ha o' hb
  · rintro ⟨ho, hE⟩
    have key : (∃ l ∈ out.map (·.obstacles), o ∈ l ∧ o' ∈ l) ∨ o = o' := by
      clear ho
      induction hE with
      | rel o o' h =>
        left
        obtain ⟨c, hc, d, hd, h1, h2, hr⟩ := h
        obtain ⟨a, ha, rfl⟩ := List.getElem_of_mem hc
        obtain ⟨b, hb, rfl⟩ := List.getElem_of_mem hd
        rcases hr with hr | hr
        · exact hsame a ha a ha (.refl a) o h1 o' ((Multiset.coe_eq_coe.1 hr).mem_iff.2 h2)
        · rcases Nat.lt_trichotomy a b with hab | hab | hab
          · exact hsame a ha b hb (.rel _ _ ⟨hab, hb, (interIdx_good hg ha hb).2 hr⟩) o h1 o' h2
          · subst hab
            exact hsame a ha a ha (.refl a) o h1 o' h2
          · obtain ⟨s, t, h3, h4, h5⟩ := hr
            exact hsame a ha b hb (.symm _ _ (.rel _ _ ⟨hab, ha, (interIdx_good hg hb ha).2 ⟨t, s, h4, h3, by rw [hsym, h5]⟩⟩)) o h1 o' h2
      | refl o => exact .inr rfl
      | symm o o' _ ih =>
        rcases ih with ⟨l, hl, h1, h2⟩ | rfl
        · exact .inl ⟨l, hl, h2, h1⟩
        · exact .inr rfl
      | trans a b c _ _ ih1 ih2 =>
        rcases ih1 with ⟨l, hl, h1, h2⟩ | rfl
        · rcases ih2 with ⟨m, hm, h3, h4⟩ | rfl
          · have := groups_unique hnd' hl hm h2 h3
            subst this
            exact .inl ⟨l, hl, h1, h4⟩
          · exact .inl ⟨l, hl, h1, h2⟩
        · exact ih2
    rcases key with h | rfl
    · exact h
    · rw [← hperm.mem_iff, List.flatMap_def, List.mem_flatten] at ho
      obtain ⟨l, hl, ho⟩ := ho
      exact ⟨l, hl, ho, ho⟩

theorem view_newCluster (look : Star → X) {l l' : List Ob} (h : l.Perm l') : view look (newCluster g l) = view look (newCluster g l') := by
  have hl := h.length_eq
  simp only [view, newCluster, Prod.mk.injEq, true_and, and_true, hl]
  refine ⟨Multiset.coe_eq_coe.2 h, ?_⟩
  split
  · rfl
  · rename_i hlen
    rcases l' with _ | ⟨a, _ | ⟨b, l'⟩⟩
    · rw [List.perm_nil.1 h]
    · rw [List.perm_singleton.1 h]
    · simp at hlen

theorem map_newCluster (look : Star → X) {G G' : List (List Ob)}
    (h : (G.map Multiset.ofList).Perm (G'.map Multiset.ofList)) :
    ((G.map (newCluster g)).map (view look)).Perm ((G'.map (newCluster g)).map (view look)) := by
  have e : ∀ G : List (List Ob), (G.map (newCluster g)).map (view look) =
      (G.map Multiset.ofList).map fun s => view look (newCluster g (Quotient.out s)) := by
    intro G
    induction G with
    | nil => rfl
    | cons l G ih =>
      simp only [List.map_cons]
      rw [ih]
      congr 1
      exact view_newCluster look (Multiset.coe_eq_coe.1 (Quotient.out_eq _)).symm
  rw [e, e]
  exact h.map _

theorem core_flatMap {look : Star → X} {cls cls' : List (Cl Ob Star KP P)} (h : (cls.map (core look)).Perm (cls'.map (core look))) :
    (cls.flatMap (·.obstacles)).Perm (cls'.flatMap (·.obstacles)) := by
  have e : ∀ cls : List (Cl Ob Star KP P), (cls.flatMap (·.obstacles)).Perm ((cls.map (core look)).flatMap fun k => Quotient.out k.1) := by
    intro cls
    rw [List.flatMap_map]
    exact List.Perm.flatMap_left _ fun c _ => (Multiset.coe_eq_coe.1 (Quotient.out_eq _)).symm
  exact (e cls).trans ((h.flatMap_right _).trans (e cls').symm)

theorem gic_fresh_eq {cls out : List (Cl Ob Star KP P)} (h : getIntersectionClusters g cls = .ok (out, true)) :
    out = (out.map (·.obstacles)).map (newCluster g) := by
  rw [(gic_true h).1, List.map_map, List.map_map]
  rfl

/-- One clustering step. -/
theorem gic_order {look : Star → X} (hf : OrderFree g look) (hs : IsSetList g.setList) {obstacles' : List Ob}
    {cls cls' out out' : List (Cl Ob Star KP P)} {ex ex' : Bool}
    (hg : ∀ c ∈ cls, Good g obstacles c) (hg' : ∀ c ∈ cls', Good g obstacles' c)
    (hnd : (cls.flatMap (·.obstacles)).Nodup) (hc : (cls.map (core look)).Perm (cls'.map (core look)))
    (h : getIntersectionClusters g cls = .ok (out, ex)) (h' : getIntersectionClusters g cls' = .ok (out', ex')) :
    ex = ex' ∧ (out.map (view look)).Perm (out'.map (view look)) := by
  have hnd' : (cls'.flatMap (·.obstacles)).Nodup := (core_flatMap hc).nodup_iff.1 hnd
  -- the flag: some two different clusters meet
  have hflag : ∀ {obstacles obstacles' : List Ob} {cls cls' out out' : List (Cl Ob Star KP P)}, (∀ c ∈ cls, Good g obstacles c) →
      (∀ c ∈ cls', Good g obstacles' c) → (cls.flatMap (·.obstacles)).Nodup →
      (cls.map (core look)).Perm (cls'.map (core look)) → getIntersectionClusters g cls = .ok (out, true) →
      getIntersectionClusters g cls' ≠ .ok (out', false) := by
    intro obstacles obstacles' cls cls' out out' hg hg' hnd hc h h'
    obtain ⟨i, j, hij, hj, hi⟩ := (gic_true h).2
    have hi' : i < cls.length := hij.trans hj
    obtain ⟨s, t, hs1, ht1, hst⟩ := (interIdx_good hg hi' hj).1 hi
    obtain ⟨c, hcm, ec⟩ := core_mem hc _ (List.getElem_mem hi')
    obtain ⟨d, hdm, ed⟩ := core_mem hc _ (List.getElem_mem hj)
    obtain ⟨a, ha, rfl⟩ := List.getElem_of_mem hcm
    obtain ⟨b, hb, rfl⟩ := List.getElem_of_mem hdm
    simp only [core, Prod.mk.injEq] at ec ed
    have e2 := ec.2.2
    have e3 := ed.2.2
    rw [hs1] at e2
    rw [ht1] at e3
    simp only [Option.map_some, Option.map_eq_some_iff] at e2 e3
    obtain ⟨s', hs', es⟩ := e2
    obtain ⟨t', ht', et⟩ := e3
    have hi2 : g.inter (g.starPoly s') (g.starPoly t') = true := by rw [hf.poly _ _ es, hf.poly _ _ et, hst]
    have hab : a ≠ b := by
      rintro rfl
      obtain ⟨o, ho⟩ := List.exists_mem_of_ne_nil _ (hg _ (List.getElem_mem hi')).nonempty
      have ho2 : o ∈ cls[j].obstacles := (Multiset.coe_eq_coe.1 (ec.1.symm.trans ed.1)).mem_iff.1 ho
      rw [List.flatMap_def] at hnd
      have hp := (List.nodup_flatten.1 hnd).2
      have := List.pairwise_iff_getElem.1 hp i j (by simpa using hi') (by simpa using hj) hij
      simp only [List.getElem_map] at this
      exact this ho ho2
    have hno := (gic_false h').2
    rcases Nat.lt_or_gt_of_ne hab with hl | hl
    · have := hno a b hl hb
      rw [(interIdx_good hg' ha hb).2 ⟨s', t', hs', ht', hi2⟩] at this
      cases this
    · have := hno b a hl ha
      rw [(interIdx_good hg' hb ha).2 ⟨t', s', ht', hs', by rw [hf.inter, hi2]⟩] at this
      cases this
  have hex : ex = ex' := by
    cases ex <;> cases ex'
    · rfl
    · exact absurd h (hflag hg' hg hnd' hc.symm h')
    · exact absurd h' (hflag hg hg' hnd hc h)
    · rfl
  subst hex
  refine ⟨rfl, ?_⟩
  cases ex with
  | false =>
    rw [(gic_false h).1, (gic_false h').1]
    classical
    let φ : X → Option P := fun y => if h : ∃ s, look s = y then some (g.starPoly h.choose) else none
    have hφ : ∀ s, φ (look s) = some (g.starPoly s) := by
      intro s
      have h : ∃ t, look t = look s := ⟨s, rfl⟩
      simp only [φ, dif_pos h]
      rw [hf.poly _ _ h.choose_spec]
    have e : ∀ {obstacles : List Ob} {cls : List (Cl Ob Star KP P)}, (∀ c ∈ cls, Good g obstacles c) →
        (cls.map (cachePolygon g)).map (view look) = (cls.map (core look)).map fun k => (k.1, k.2.1, k.2.2, k.2.2.bind φ) := by
      intro obstacles cls hg
      rw [List.map_map, List.map_map]
      refine List.map_congr_left fun c hc => ?_
      simp only [Function.comp, view, core, cachePolygon_obstacles, cachePolygon_kernelPoints, cachePolygon_star,
        cachePolygon_polygon g c (hg c hc).poly]
      cases c.star with
      | none => rfl
      | some s => simp [hφ]
    rw [e hg, e hg']
    exact hc.map _
  | true =>
    rw [gic_fresh_eq h, gic_fresh_eq h']
    have hp := gic_perm hs h
    have hp' := gic_perm hs h'
    refine map_newCluster look (groups_perm ?_ ?_ ?_ ?_ ?_)
    · rw [← List.flatMap_def]; exact hp.nodup_iff.2 hnd
    · rw [← List.flatMap_def]; exact hp'.nodup_iff.2 hnd'
    · intro l hl
      obtain ⟨c, hcm, rfl⟩ := List.mem_map.1 hl
      exact (gic_fresh hs hg h c hcm).nonempty
    · intro l hl
      obtain ⟨c, hcm, rfl⟩ := List.mem_map.1 hl
      exact (gic_fresh hs hg' h' c hcm).nonempty
    · intro a b
      rw [gic_near hs hf.inter hg hnd h, gic_near hs hf.inter hg' hnd' h', (core_flatMap hc).mem_iff]
      have : Relation.EqvGen (Near g cls) a b ↔ Relation.EqvGen (Near g cls') a b :=
        ⟨fun h => Relation.EqvGen.mono (fun _ _ => near_mono hf (core_mem hc)) _ _ h,
          fun h => Relation.EqvGen.mono (fun _ _ => near_mono hf (core_mem hc.symm)) _ _ h⟩
      rw [this]

end Starworlds
