import Verif.Proofs.GroupsMerge
import Verif.Proofs.Repeat
import Verif.Spec.Groups

/-! # Helper lemmas for C124: a call for two groups of obstacles that are apart -/

namespace Starworlds

open Spec

variable {Ob Star KP P : Type} {g : Geo Ob Star KP P} {A B : List Ob}

/-- The cluster made anew from its obstacles. -/
def renew (g : Geo Ob Star KP P) (c : Cl Ob Star KP P) : Cl Ob Star KP P := newCluster g c.obstacles

theorem mergedGroups_congr {setList : List Nat → List Nat} {n : Nat} {inter inter' : Nat → Nat → Bool}
    (h : ∀ i < n, ∀ j < n, inter i j = inter' i j) : mergedGroups setList n inter = mergedGroups setList n inter' := by
  have h0 : TwoLists n 0 (initIdcs n inter) (initIdcs n inter') (fun _ => []) := by
    refine ⟨fun k hk => ?_, fun m hm => by omega⟩
    simp only [initIdcs]
    congr 1
    refine List.filter_congr fun j hj => ?_
    rw [h k hk j (List.mem_range.1 hj)]
  have h1 := h0.outerFst (setList := setList) (I := n - 1) (by omega)
  rw [mergedGroups, mergedGroups, List.map_congr_left fun k hk => h1.fst k (List.mem_range.1 hk)]

theorem gic_form {cls : List (Cl Ob Star KP P)} (hg : ∀ c ∈ cls, Good g A c) : getIntersectionClusters g cls =
    if (List.range cls.length).any fun i => decide (1 < (initIdcs cls.length (interIdx g (cls.map (cachePolygon g))) i).length) then
      .ok ((mergedGroups g.setList cls.length (interIdx g (cls.map (cachePolygon g)))).map fun grp =>
        newCluster g (grp.flatMap (obstaclesAt (cls.map (cachePolygon g)))), true)
    else .ok (cls.map (cachePolygon g), false) := by
  simp only [getIntersectionClusters, List.length_map]
  rw [if_neg]
  rw [Bool.not_eq_true, List.any_eq_false]
  intro c hc
  obtain ⟨d, hd, rfl⟩ := List.mem_map.1 (List.dropLast_subset _ hc)
  rw [cachePolygon_polygon g d (hg d hd).poly]
  obtain ⟨s, hs⟩ := Option.isSome_iff_exists.1 (hg d hd).star
  simp [hs]

/-- One clustering step for two lists that do not meet. -/
theorem gic_two (hs : IsSetList g.setList) {N : Nat} (hsh : ShiftFree N g.setList) {clsA clsB outA outB : List (Cl Ob Star KP P)} {exA exB : Bool}
    (hN : clsA.length + clsB.length ≤ N) (hgA : ∀ c ∈ clsA, Good g A c) (hgB : ∀ c ∈ clsB, Good g B c) (hap : ∀ c ∈ clsA, ∀ d ∈ clsB, ApartFrom g c d)
    (hA : getIntersectionClusters g clsA = .ok (outA, exA)) (hB : getIntersectionClusters g clsB = .ok (outB, exB)) :
    getIntersectionClusters g (clsA ++ clsB) =
      .ok (if exA || exB then outA.map (renew g) ++ outB.map (renew g) else outA ++ outB, exA || exB) := by
  have hg : ∀ c ∈ clsA ++ clsB, Good g (A ++ B) c := by
    intro c hc
    rcases List.mem_append.1 hc with hc | hc
    · have := hgA c hc
      exact ⟨this.name, this.nonempty, fun o ho => List.mem_append_left _ (this.sub o ho), this.star, this.kernel, this.poly⟩
    · have := hgB c hc
      exact ⟨this.name, this.nonempty, fun o ho => List.mem_append_right _ (this.sub o ho), this.star, this.kernel, this.poly⟩
  rw [gic_form hg]
  rw [gic_form hgA] at hA
  rw [gic_form hgB] at hB
  rw [List.map_append, List.length_append]
  generalize hcA : clsA.map (cachePolygon g) = cA at *
  generalize hcB : clsB.map (cachePolygon g) = cB at *
  have hlA : clsA.length = cA.length := by rw [← hcA, List.length_map]
  have hlB : clsB.length = cB.length := by rw [← hcB, List.length_map]
  rw [hlA] at hA
  rw [hlB] at hB
  rw [hlA, hlB]
  have i1 : ∀ i < cA.length, ∀ j < cA.length, interIdx g (cA ++ cB) i j = interIdx g cA i j := by
    intro i hi j hj
    simp only [interIdx, List.getElem?_append_left hi, List.getElem?_append_left hj]
  have i2 : ∀ i j, interIdx g (cA ++ cB) (cA.length + i) (cA.length + j) = interIdx g cB i j := by
    intro i j
    simp only [interIdx, List.getElem?_append_right (Nat.le_add_right _ _), Nat.add_sub_cancel_left]
  have i3 : ∀ i < cA.length, ∀ j < cB.length, interIdx g (cA ++ cB) i (cA.length + j) = false := by
    intro i hi j hj
    simp only [interIdx, List.getElem?_append_left hi, List.getElem?_append_right (Nat.le_add_right _ _), Nat.add_sub_cancel_left,
      List.getElem?_eq_getElem hi, List.getElem?_eq_getElem hj]
    obtain ⟨c, hc, ec⟩ := List.mem_map.1 ((congrArg (cA[i] ∈ ·) hcA).mpr (List.getElem_mem hi))
    obtain ⟨d, hd, ed⟩ := List.mem_map.1 ((congrArg (cB[j] ∈ ·) hcB).mpr (List.getElem_mem hj))
    obtain ⟨s, hs⟩ := Option.isSome_iff_exists.1 (hgA c hc).star
    obtain ⟨t, ht⟩ := Option.isSome_iff_exists.1 (hgB d hd).star
    rw [← ec, ← ed, cachePolygon_polygon g c (hgA c hc).poly, cachePolygon_polygon g d (hgB d hd).poly, hs, ht]
    exact hap c hc d hd s t hs ht
  have o1 : ∀ j < cA.length, obstaclesAt (cA ++ cB) j = obstaclesAt cA j := by
    intro j hj
    simp only [obstaclesAt, List.getElem?_append_left hj]
  have o2 : ∀ j, obstaclesAt (cA ++ cB) (cA.length + j) = obstaclesAt cB j := by
    intro j
    simp only [obstaclesAt, List.getElem?_append_right (Nat.le_add_right _ _), Nat.add_sub_cancel_left]
  -- what a side becomes
  have side : ∀ {c out : List (Cl Ob Star KP P)} {ex : Bool},
      (if (List.range c.length).any fun i => decide (1 < (initIdcs c.length (interIdx g c) i).length) then
        (Except.ok ((mergedGroups g.setList c.length (interIdx g c)).map fun grp => newCluster g (grp.flatMap (obstaclesAt c)), true) :
          Except PyErr _)
      else .ok (c, false)) = .ok (out, ex) →
      out.map (renew g) = ((mergedGroups g.setList c.length (interIdx g c)).map fun grp => newCluster g (grp.flatMap (obstaclesAt c))) ∧
      (ex = true ↔ ∃ i j, i < j ∧ j < c.length ∧ interIdx g c i j = true) ∧ (ex = false → out = c) := by
    intro c out ex h
    split at h
    · rename_i h0
      injection h with h
      injection h with h h'
      subst h h'
      refine ⟨?_, ⟨fun _ => (exists_iff _ _).1 h0, fun _ => rfl⟩, by simp⟩
      rw [List.map_map]
      exact List.map_congr_left fun _ _ => rfl
    · rename_i h0
      injection h with h
      injection h with h h'
      subst h h'
      have h1 : ∀ i j, i < j → j < c.length → interIdx g c i j = false := by
        intro i j hij hj
        by_contra hc
        exact h0 ((exists_iff _ _).2 ⟨i, j, hij, hj, by simpa using hc⟩)
      refine ⟨?_, ⟨by simp, fun h => absurd ((exists_iff _ _).2 h) h0⟩, fun _ => rfl⟩
      rw [mergedGroups_none h1, List.map_map]
      apply List.ext_getElem (by simp)
      intro i hi hi'
      have hi : i < c.length := by simpa using hi
      simp [obstaclesAt, renew, List.getElem?_eq_getElem hi]
  obtain ⟨a1, a2, a3⟩ := side hA
  obtain ⟨b1, b2, b3⟩ := side hB
  have hex : ((List.range (cA.length + cB.length)).any fun i => decide (1 < (initIdcs (cA.length + cB.length) (interIdx g (cA ++ cB)) i).length)) =
      (exA || exB) := by
    rw [Bool.eq_iff_iff, exists_iff, Bool.or_eq_true, a2, b2]
    constructor
    · rintro ⟨i, j, hij, hj, h⟩
      by_cases hjA : j < cA.length
      · exact Or.inl ⟨i, j, hij, hjA, by rw [← i1 i (by omega) j hjA, h]⟩
      · obtain ⟨j, rfl⟩ := Nat.exists_eq_add_of_le (not_lt.1 hjA)
        by_cases hiA : i < cA.length
        · rw [i3 i hiA j (by omega)] at h; cases h
        · obtain ⟨i, rfl⟩ := Nat.exists_eq_add_of_le (not_lt.1 hiA)
          exact Or.inr ⟨i, j, by omega, by omega, by rw [← i2, h]⟩
    · rintro (⟨i, j, hij, hj, h⟩ | ⟨i, j, hij, hj, h⟩)
      · exact ⟨i, j, hij, by omega, by rw [i1 i (by omega) j hj, h]⟩
      · exact ⟨cA.length + i, cA.length + j, by omega, by omega, by rw [i2, h]⟩
  rw [hex]
  cases hx : exA || exB with
  | false =>
    rw [Bool.or_eq_false_iff] at hx
    simp [a3 hx.1, b3 hx.2]
  | true =>
    simp only [if_true, Except.ok.injEq, Prod.mk.injEq, and_true]
    rw [mergedGroups_two hs (fun l hl => hsh _ l fun x hx => by have := hl x hx; omega) i3, List.map_append, mergedGroups_congr i1, a1, b1, List.map_map]
    congr 1
    · refine List.map_congr_left fun grp hgrp => ?_
      congr 1
      rw [List.flatMap_def, List.flatMap_def]
      congr 1
      refine List.map_congr_left fun j hj => o1 j ?_
      exact List.mem_range.1 ((mergedGroups_flatten hs _ _).mem_iff.1 (List.mem_flatten.2 ⟨grp, hgrp, hj⟩))
    · simp only [i2]
      refine List.map_congr_left fun grp _ => ?_
      simp only [Function.comp_apply, List.flatMap_map, o2]

/-! ## The loop over the clusters -/

theorem starifyAll_append {prev : Option (List (Cl Ob Star KP P))} {n : Nat} (l m : List (Cl Ob Star KP P)) (h : History Ob Star KP P) :
    starifyAll g prev n (l ++ m) h =
      match starifyAll g prev n l h with
      | .error e => .error e
      | .ok (.inl part) => .ok (.inl (part ++ m))
      | .ok (.inr (c1, h1)) =>
        match starifyAll g prev n m h1 with
        | .error e => .error e
        | .ok (.inl part) => .ok (.inl (c1 ++ part))
        | .ok (.inr (c2, h2)) => .ok (.inr (c1 ++ c2, h2)) := by
  induction l generalizing h with
  | nil =>
    simp only [List.nil_append, starifyAll]
    split <;> simp_all
  | cons cl l ih =>
    simp only [List.cons_append, starifyAll]
    cases hc : h cl.name with
    | some c =>
      simp only [ih h]
      rcases starifyAll g prev n l h with e | (p | ⟨c1, h1⟩)
      · rfl
      · rfl
      · simp only [consStarified]
        rcases starifyAll g prev n m h1 with e | (p | ⟨c2, h2⟩) <;> rfl
    | none =>
      simp only []
      rcases starifyCluster g prev n cl with e | (_ | c)
      · rfl
      · rfl
      · simp only [ih (h.insert c)]
        rcases starifyAll g prev n l (h.insert c) with e | (p | ⟨c1, h1⟩)
        · rfl
        · rfl
        · simp only [consStarified]
          rcases starifyAll g prev n m h1 with e | (p | ⟨c2, h2⟩) <;> rfl

/-- The loop looks up and adds only the names of its clusters. -/
theorem starifyAll_frame {prev : Option (List (Cl Ob Star KP P))} {n : Nat} (l : List (Cl Ob Star KP P)) (h k : History Ob Star KP P)
    (hk : ∀ c ∈ l, h c.name = k c.name) :
    match starifyAll g prev n l h with
    | .error e => starifyAll g prev n l k = .error e
    | .ok (.inl part) => starifyAll g prev n l k = .ok (.inl part)
    | .ok (.inr (c1, h1)) => ∃ k1, starifyAll g prev n l k = .ok (.inr (c1, k1)) ∧ (∀ nm, h nm = k nm → h1 nm = k1 nm) ∧
        (∀ nm, (∀ c ∈ l, c.name ≠ nm) → k1 nm = k nm) := by
  induction l generalizing h k with
  | nil => exact ⟨k, rfl, fun _ h => h, fun _ _ => rfl⟩
  | cons cl l ih =>
    simp only [starifyAll, ← hk cl (by simp)]
    cases hc : h cl.name with
    | some c =>
      have := ih h k fun c hc => hk c (by simp [hc])
      simp only []
      rcases he : starifyAll g prev n l h with e | (p | ⟨c1, h1⟩)
      · rw [he] at this; simp only [] at this; simp only [consStarified, this]
      · rw [he] at this; simp only [] at this; simp only [consStarified, this]
      · rw [he] at this
        obtain ⟨k1, e1, e2, e3⟩ := this
        refine ⟨k1, by simp only [e1, consStarified], e2, fun nm hnm => e3 nm fun c hc => hnm c (by simp [hc])⟩
    | none =>
      simp only []
      rcases hst : starifyCluster g prev n cl with e | (_ | c)
      · rfl
      · rfl
      · have hn : c.name = cl.name := starifyCluster_name hst
        have hins : ∀ nm, h nm = k nm → (h.insert c) nm = (k.insert c) nm := by
          intro nm e
          simp only [History.insert, e]
        have := ih (h.insert c) (k.insert c) fun d hd => hins _ (hk d (by simp [hd]))
        simp only []
        rcases he : starifyAll g prev n l (h.insert c) with e | (p | ⟨c1, h1⟩)
        · rw [he] at this; simp only [] at this; simp only [consStarified, this]
        · rw [he] at this; simp only [] at this; simp only [consStarified, this]
        · rw [he] at this
          obtain ⟨k1, e1, e2, e3⟩ := this
          refine ⟨k1, by simp only [e1, consStarified], fun nm e => e2 nm (hins nm e), fun nm hnm => ?_⟩
          rw [e3 nm fun c hc => hnm c (by simp [hc]), History.insert, if_neg]
          rw [hn]
          exact (hnm cl (by simp)).symm

/-- Clusters that are in the history are taken from it. -/
theorem starifyAll_known {prev : Option (List (Cl Ob Star KP P))} {n : Nat} (l : List (Cl Ob Star KP P)) (h : History Ob Star KP P)
    (hk : ∀ c ∈ l, h (renew g c).name = some c) : starifyAll g prev n (l.map (renew g)) h = .ok (.inr (l, h)) := by
  induction l with
  | nil => rfl
  | cons c l ih =>
    simp only [List.map_cons, starifyAll, hk c (by simp), ih fun d hd => hk d (by simp [hd]), consStarified]

end Starworlds
