import Verif.Proofs.ClusterOrderLoop

/-! # The make_convex stage does not depend on the order of the clusters -/

namespace Starworlds

open Spec

variable {Ob Star KP P X : Type} {g : Geo Ob Star KP P} {obstacles : List Ob}

/-- The polygon meets the one of a cluster with other obstacles. -/
def MeetsElse (g : Geo Ob Star KP P) (cls : List (Cl Ob Star KP P)) (c : Cl Ob Star KP P) (h : P) : Prop :=
  ∃ d ∈ cls, (d.obstacles : Multiset Ob) ≠ c.obstacles ∧ ∃ q, d.polygon = some q ∧ g.inter h q = true

open Classical in
/-- What the stage makes of a cluster. -/
noncomputable def convOf (g : Geo Ob Star KP P) (cls : List (Cl Ob Star KP P)) (c : Cl Ob Star KP P) : Cl Ob Star KP P :=
  match c.star, c.polygon with
  | some st, some p =>
    if g.isConvex st then c
    else match g.hullOf p with
      | .error _ => c
      | .ok h => if g.blocked h = true ∨ MeetsElse g cls c h then c else { c with star := some (g.hullStar h st) }
  | _, _ => c

theorem meetsOther_else {cls now : List (Cl Ob Star KP P)} (hstrip : now.map Cl.strip = cls.map Cl.strip)
    (hne : ∀ c ∈ cls, c.obstacles ≠ []) (hnd : (cls.flatMap (·.obstacles)).Nodup) {j : Nat} (hj : j < cls.length) (h : P) :
    meetsOther g now j h = true ↔ MeetsElse g cls cls[j] h := by
  have hlen : now.length = cls.length := by simpa using congrArg List.length hstrip
  have hpol : ∀ m (hm : m < cls.length), (now[m]'(by omega)).polygon = cls[m].polygon := by
    intro m hm
    have := List.getElem_of_eq (strip_polygons hstrip) (i := m) (by simp; omega)
    simpa using this
  have hdis : ∀ m (hm : m < cls.length), (cls[m].obstacles : Multiset Ob) = cls[j].obstacles → m = j := by
    intro m hm he
    by_contra hmj
    obtain ⟨o, ho⟩ := List.exists_mem_of_ne_nil _ (hne _ (List.getElem_mem hm))
    have ho' := (Multiset.coe_eq_coe.1 he).mem_iff.1 ho
    rw [List.flatMap_def] at hnd
    have hp := List.pairwise_iff_getElem.1 (List.nodup_flatten.1 hnd).2
    rcases Nat.lt_or_gt_of_ne hmj with hl | hl
    · have := hp m j (by simpa using hm) (by simpa using hj) hl
      simp only [List.getElem_map] at this
      exact this ho ho'
    · have := hp j m (by simpa using hj) (by simpa using hm) hl
      simp only [List.getElem_map] at this
      exact this ho' ho
  rw [meetsOther, List.any_eq_true]
  constructor
  · rintro ⟨m, hm, hb⟩
    have hm : m < cls.length := by rw [← hlen]; exact List.mem_range.1 hm
    rw [Bool.and_eq_true, List.getElem?_eq_getElem (by omega)] at hb
    simp only [hpol m hm, decide_eq_true_eq] at hb
    refine ⟨cls[m], List.getElem_mem hm, fun he => hb.1 (hdis m hm he), ?_⟩
    cases hq : cls[m].polygon with
    | none => rw [hq] at hb; simp at hb
    | some q => rw [hq] at hb; exact ⟨q, rfl, hb.2⟩
  · rintro ⟨d, hd, hne', q, hq, hi⟩
    obtain ⟨m, hm, rfl⟩ := List.getElem_of_mem hd
    refine ⟨m, List.mem_range.2 (by omega), ?_⟩
    rw [Bool.and_eq_true, List.getElem?_eq_getElem (by omega)]
    simp only [hpol m hm, hq, hi, decide_eq_true_eq, and_true]
    rintro rfl
    exact hne' rfl

/-- The stage without time-outs treats the clusters one by one. -/
theorem makeConvex_form (cls : List (Cl Ob Star KP P)) (hst : ∀ c ∈ cls, c.star.isSome) (hpo : ∀ c ∈ cls, c.polygon.isSome)
    (hne : ∀ c ∈ cls, c.obstacles ≠ []) (hnd : (cls.flatMap (·.obstacles)).Nodup) (htm : ∀ j, g.timeoutConvex j = false)
    (hh : ∀ p, ∃ q, g.hullOf p = .ok q) : makeConvexLoop g cls.length 0 cls = .ok (.inr (cls.map (convOf g cls))) := by
  have key : ∀ (k j : Nat) (now : List (Cl Ob Star KP P)), k + j = cls.length → now.map Cl.strip = cls.map Cl.strip →
      (∀ i, j ≤ i → now[i]? = cls[i]?) → (∀ i < j, now[i]? = (cls[i]?).map (convOf g cls)) →
      makeConvexLoop g k j now = .ok (.inr (cls.map (convOf g cls))) := by
    intro k
    induction k with
    | zero =>
      intro j now hk hs h1 h2
      have : now = cls.map (convOf g cls) := by
        apply List.ext_getElem?
        intro i
        rw [List.getElem?_map]
        by_cases hi : i < j
        · exact h2 i hi
        · rw [h1 i (by omega), List.getElem?_eq_none (by omega)]
          rfl
      simp only [makeConvexLoop, this]
    | succ k ih =>
      intro j now hk hs h1 h2
      have hj : j < cls.length := by omega
      have hn : now[j]? = some cls[j] := by rw [h1 j le_rfl, List.getElem?_eq_getElem hj]
      have hnst := strip_star hs hst
      have hnpo := strip_polygon hs hpo
      obtain ⟨st, hst'⟩ := Option.isSome_iff_exists.1 (hst _ (List.getElem_mem hj))
      obtain ⟨p, hp⟩ := Option.isSome_iff_exists.1 (hpo _ (List.getElem_mem hj))
      have hkeep : convOf g cls cls[j] = cls[j] → makeConvexLoop g k (j + 1) now = .ok (.inr (cls.map (convOf g cls))) := by
        intro hc
        refine ih (j + 1) now (by omega) hs (fun i hi => h1 i (by omega)) fun i hi => ?_
        rcases Nat.lt_succ_iff_lt_or_eq.1 hi with hi | rfl
        · exact h2 i hi
        · rw [hn, List.getElem?_eq_getElem hj, Option.map_some, hc]
      simp only [makeConvexLoop, hn, hst', htm, Bool.false_eq_true, if_false, map_cachePolygon_of_some g now hnpo,
        cachePolygon_of_some g _ (hpo _ (List.getElem_mem hj)), hp]
      split
      · rename_i hcv
        exact hkeep (by simp only [convOf, hst', hp, hcv, if_true])
      · rename_i hcv
        obtain ⟨q, hq⟩ := hh p
        simp only [hq]
        have hmo := meetsOther_else (g := g) hs hne hnd hj q
        by_cases hb : g.blocked q = true ∨ MeetsElse g cls cls[j] q
        · rw [if_pos (by rw [Bool.or_eq_true, hmo]; exact hb)]
          exact hkeep (by simp only [convOf, hst', hp, hcv, if_false, hq, if_pos hb, Bool.false_eq_true])
        · rw [if_neg (by rw [Bool.or_eq_true, hmo]; exact hb)]
          have hm := modify_strip now j (g.hullStar q st) hnst
          refine ih (j + 1) _ (by omega) (hm.trans hs) (fun i hi => ?_) fun i hi => ?_
          · rw [List.getElem?_modify]
            simp only [show ¬ j = i by omega, if_false]
            rw [h1 i (by omega)]
            simp
          · rw [List.getElem?_modify]
            rcases Nat.lt_succ_iff_lt_or_eq.1 hi with hi | rfl
            · simp only [show ¬ j = i by omega, if_false]
              rw [h2 i hi]
              simp
            · rw [hn, List.getElem?_eq_getElem hj]
              simp only [Option.map_some, convOf, hst', hp, hcv, Bool.false_eq_true, if_false, hq, if_neg hb]
              simp [hp]
  exact key cls.length 0 cls (by omega) rfl (fun i _ => rfl) (by omega)

theorem conv_order {look : Star → X} (hc : ConvexFree g look) {cls cls' : List (Cl Ob Star KP P)}
    (hv : (cls.map (view look)).Perm (cls'.map (view look))) :
    ((cls.map (convOf g cls)).map (view look)).Perm ((cls'.map (convOf g cls')).map (view look)) := by
  rw [List.map_map, List.map_map]
  refine perm_transfer cls cls' hv fun c hcm d hdm he => ?_
  have hme : ∀ {cls cls' : List (Cl Ob Star KP P)} {c d : Cl Ob Star KP P}, (cls.map (view look)).Perm (cls'.map (view look)) →
      view look c = view look d → ∀ h, MeetsElse g cls c h → MeetsElse g cls' d h := by
    rintro cls cls' c d hv he h ⟨x, hx, hne, q, hq, hi⟩
    obtain ⟨y, hy, e⟩ := List.mem_map.1 (hv.mem_iff.1 (List.mem_map.2 ⟨x, hx, rfl⟩))
    simp only [view, Prod.mk.injEq] at e he
    exact ⟨y, hy, by rw [e.1, ← he.1]; exact hne, q, by rw [e.2.2.2, hq], hi⟩
  have hme' : ∀ h, MeetsElse g cls c h ↔ MeetsElse g cls' d h := fun h => ⟨hme hv he h, hme hv.symm he.symm h⟩
  simp only [Function.comp]
  have he0 := he
  simp only [view, Prod.mk.injEq] at he
  obtain ⟨e1, e2, e3, e4⟩ := he
  cases hs : c.star with
  | none =>
    rw [hs] at e3
    have hs' : d.star = none := by simpa using e3.symm
    have h1 : convOf g cls c = c := by simp only [convOf, hs]
    have h2 : convOf g cls' d = d := by simp only [convOf, hs']
    rw [h1, h2, he0]
  | some s =>
    rw [hs] at e3
    obtain ⟨t, ht, e3⟩ := Option.map_eq_some_iff.1 e3.symm
    cases hp : c.polygon with
    | none =>
      have hp' : d.polygon = none := by rw [← e4, hp]
      have h1 : convOf g cls c = c := by simp only [convOf, hs, hp]
      have h2 : convOf g cls' d = d := by simp only [convOf, ht, hp']
      rw [h1, h2, he0]
    | some p =>
      have hp' : d.polygon = some p := by rw [← e4, hp]
      simp only [convOf, hs, ht, hp, hp', hc.convex _ _ e3]
      by_cases hcv : g.isConvex s = true
      · rw [if_pos hcv, if_pos hcv, he0]
      · rw [if_neg hcv, if_neg hcv]
        cases hh : g.hullOf p with
        | error e => simp only []; exact he0
        | ok q =>
          by_cases hb : g.blocked q = true ∨ MeetsElse g cls' d q
          · have hb' : g.blocked q = true ∨ MeetsElse g cls c q := by rwa [hme' q]
            simp only [if_pos hb, if_pos hb']
            exact he0
          · have hb' : ¬ (g.blocked q = true ∨ MeetsElse g cls c q) := by rwa [hme' q]
            simp only [if_neg hb, if_neg hb']
            simp only [view, Option.map_some, e1, e2, hc.hull q _ _ e3, hp, hp']

end Starworlds
