import Verif.Proofs.Cluster

/-! # Helper lemmas for C124: merging two lists of clusters that do not meet -/

namespace Starworlds

open Spec

/-- The index lists of the first `a` clusters and of the `b` clusters after them. -/
structure TwoLists (a b : Nat) (idcs idA idB : Nat → List Nat) : Prop where
  fst : ∀ k < a, idcs k = idA k
  snd : ∀ m < b, idcs (a + m) = (idB m).map (a + ·)

variable {a b : Nat} {idcs idA idB : Nat → List Nat} {setList : List Nat → List Nat}

theorem setIdx_same (idcs : Nat → List Nat) (k : Nat) (v : List Nat) : setIdx idcs k v k = v := by simp [setIdx]

theorem setIdx_other (idcs : Nat → List Nat) {k m : Nat} (v : List Nat) (h : m ≠ k) : setIdx idcs k v m = idcs m := by simp [setIdx, h]

theorem TwoLists.setFst (h : TwoLists a b idcs idA idB) {k : Nat} (hk : k < a) (v : List Nat) :
    TwoLists a b (setIdx idcs k v) (setIdx idA k v) idB := by
  refine ⟨fun m hm => ?_, fun m hm => ?_⟩
  · by_cases e : m = k
    · rw [e, setIdx_same, setIdx_same]
    · rw [setIdx_other _ _ e, setIdx_other _ _ e, h.fst m hm]
  · rw [setIdx_other _ _ (by omega), h.snd m hm]

theorem TwoLists.setSnd (h : TwoLists a b idcs idA idB) (k : Nat) (v : List Nat) :
    TwoLists a b (setIdx idcs (a + k) (v.map (a + ·))) idA (setIdx idB k v) := by
  refine ⟨fun m hm => ?_, fun m hm => ?_⟩
  · rw [setIdx_other _ _ (by omega), h.fst m hm]
  · by_cases e : m = k
    · rw [e, setIdx_same, setIdx_same]
    · rw [setIdx_other _ _ (by omega), setIdx_other _ _ e, h.snd m hm]

theorem TwoLists.innerFst (h : TwoLists a b idcs idA idB) {i J : Nat} (hi : i < a) (hJ : J ≤ i) :
    TwoLists a b (mergeInner setList idcs i J) (mergeInner setList idA i J) idB := by
  induction J with
  | zero => exact h
  | succ J ih =>
    simp only [mergeInner, h.fst i hi, h.fst J (by omega)]
    split
    · exact (h.setFst (by omega) _).setFst hi _
    · exact ih (by omega)

theorem TwoLists.innerSnd (hsh : ∀ l, (∀ x ∈ l, x < b) → setList (l.map (a + ·)) = (setList l).map (a + ·)) (h : TwoLists a b idcs idA idB)
    (hA : ∀ k < a, ∀ x ∈ idA k, x < a) (hB : ∀ k < b, ∀ x ∈ idB k, x < b) {i J : Nat} (hi : i < b) (hJ : J ≤ i) :
    TwoLists a b (mergeInner setList idcs (a + i) (a + J)) idA (mergeInner setList idB i J) := by
  induction J with
  | zero =>
    rcases mergeInner_cases setList idcs (a + i) (a + 0) with ⟨e, _⟩ | ⟨j, hj, ⟨x, hx, hx'⟩, _⟩
    · rw [e]; exact h
    · rw [h.fst j (by omega)] at hx
      rw [h.snd i hi] at hx'
      obtain ⟨y, _, rfl⟩ := List.mem_map.1 hx'
      have := hA j (by omega) _ hx
      omega
  | succ J ih =>
    have e : ((idB J).map (a + ·)).any (fun l => decide (l ∈ (idB i).map (a + ·))) = (idB J).any fun l => decide (l ∈ idB i) := by
      rw [List.any_map]
      congr 1
      funext l
      simp
    rw [← Nat.add_assoc]
    simp only [mergeInner, h.snd i hi, h.snd J (by omega), e]
    split
    · rw [← List.map_append, hsh _ fun x hx => (List.mem_append.1 hx).elim (hB J (by omega) x) (hB i hi x)]
      exact (h.setSnd J _).setSnd i []
    · exact ih (by omega)

theorem TwoLists.outerFst (h : TwoLists a b idcs idA idB) {I : Nat} (hI : I < a ∨ I = 0) :
    TwoLists a b (mergeOuter setList idcs I) (mergeOuter setList idA I) idB := by
  induction I generalizing idcs idA with
  | zero => exact h
  | succ I ih => exact ih (h.innerFst (by omega) le_rfl) (by omega)

theorem mergeInner_lt (hs : IsSetList setList) {n : Nat} (h : ∀ k < n, ∀ x ∈ idcs k, x < n) {i J : Nat} (hi : i < n) (hJ : J ≤ i) :
    ∀ k < n, ∀ x ∈ mergeInner setList idcs i J k, x < n := by
  intro k hk x hx
  rcases mergeInner_cases setList idcs i J with ⟨e, _⟩ | ⟨j, hj, _, e⟩
  · rw [e] at hx; exact h k hk x hx
  · rw [e] at hx
    by_cases h1 : k = i
    · rw [h1, setIdx_same] at hx; cases hx
    · rw [setIdx_other _ _ h1] at hx
      by_cases h2 : k = j
      · rw [h2, setIdx_same, (hs _).2] at hx
        exact (List.mem_append.1 hx).elim (h j (by omega) x) (h i hi x)
      · rw [setIdx_other _ _ h2] at hx
        exact h k hk x hx

theorem TwoLists.outerSnd (hs : IsSetList setList) (hsh : ∀ l, (∀ x ∈ l, x < b) → setList (l.map (a + ·)) = (setList l).map (a + ·))
    (h : TwoLists a b idcs idA idB) (hA : ∀ k < a, ∀ x ∈ idA k, x < a) (hB : ∀ k < b, ∀ x ∈ idB k, x < b) {I : Nat} (hI : I < b) :
    ∃ idcs', TwoLists a b idcs' idA (mergeOuter setList idB I) ∧ mergeOuter setList idcs (a + I) = mergeOuter setList idcs' (a - 1) := by
  induction I generalizing idcs idB with
  | zero =>
    cases a with
    | zero => exact ⟨idcs, h, rfl⟩
    | succ a => exact ⟨_, h.innerSnd hsh hA hB hI le_rfl, rfl⟩
  | succ I ih => exact ih (h.innerSnd hsh hA hB hI le_rfl) (mergeInner_lt hs hB hI le_rfl) (by omega)

theorem initIdcs_two {inter : Nat → Nat → Bool} (hx : ∀ i < a, ∀ j < b, inter i (a + j) = false) :
    TwoLists a b (initIdcs (a + b) inter) (initIdcs a inter) (initIdcs b fun i j => inter (a + i) (a + j)) := by
  refine ⟨fun k hk => ?_, fun m hm => ?_⟩
  · simp only [initIdcs, List.range_add, List.filter_append]
    have e : ((List.range b).map (a + ·)).filter (fun j => decide (k < j) && inter k j) = [] := by
      rw [List.filter_eq_nil_iff]
      intro x hxm
      obtain ⟨j, hj, rfl⟩ := List.mem_map.1 hxm
      simp [hx k hk j (List.mem_range.1 hj)]
    rw [e, List.append_nil]
  · simp only [initIdcs, List.range_add, List.filter_append, List.map_cons]
    have e : (List.range a).filter (fun j => decide (a + m < j) && inter (a + m) j) = [] := by
      rw [List.filter_eq_nil_iff]
      intro x hxm
      have := List.mem_range.1 hxm
      simp [show ¬ a + m < x by omega]
    rw [e, List.nil_append, List.filter_map]
    congr 3
    funext j
    simp

theorem initIdcs_lt (n : Nat) (inter : Nat → Nat → Bool) : ∀ k < n, ∀ x ∈ initIdcs n inter k, x < n := by
  intro k hk x hx
  rcases List.mem_cons.1 hx with rfl | hx
  · exact hk
  · exact List.mem_range.1 (List.mem_filter.1 hx).1

/-- The groups of two lists that do not meet are those of the first and, renumbered, those of the second. -/
theorem mergedGroups_two {inter : Nat → Nat → Bool} (hs : IsSetList setList) (hsh : ∀ l, (∀ x ∈ l, x < b) → setList (l.map (a + ·)) = (setList l).map (a + ·))
    (hx : ∀ i < a, ∀ j < b, inter i (a + j) = false) :
    mergedGroups setList (a + b) inter =
      mergedGroups setList a inter ++ (mergedGroups setList b fun i j => inter (a + i) (a + j)).map (·.map (a + ·)) := by
  have key : TwoLists a b (mergeOuter setList (initIdcs (a + b) inter) (a + b - 1)) (mergeOuter setList (initIdcs a inter) (a - 1))
      (mergeOuter setList (initIdcs b fun i j => inter (a + i) (a + j)) (b - 1)) := by
    have h0 := initIdcs_two hx
    cases b with
    | zero => exact h0.outerFst (by omega)
    | succ b =>
      obtain ⟨ids, h1, h2⟩ := h0.outerSnd hs hsh (initIdcs_lt a inter) (initIdcs_lt _ _) (Nat.lt_succ_self b)
      rw [show a + (b + 1) - 1 = a + b by omega, h2]
      exact h1.outerFst (by omega)
  simp only [mergedGroups, List.range_add, List.map_append, List.filter_append]
  congr 1
  · rw [List.map_congr_left fun k hk => key.fst k (List.mem_range.1 hk)]
  · have e : ((List.range b).map (a + ·)).map (mergeOuter setList (initIdcs (a + b) inter) (a + b - 1)) =
        ((List.range b).map (mergeOuter setList (initIdcs b fun i j => inter (a + i) (a + j)) (b - 1))).map fun l => l.map (a + ·) := by
      rw [List.map_map, List.map_map]
      exact List.map_congr_left fun m hm => key.snd m (List.mem_range.1 hm)
    rw [e, List.filter_map]
    congr 2
    funext l
    cases l <;> simp

/-- Clusters that do not meet stay as they are. -/
theorem mergedGroups_none {n : Nat} {inter : Nat → Nat → Bool} (h : ∀ i j, i < j → j < n → inter i j = false) :
    mergedGroups setList n inter = (List.range n).map fun i => [i] := by
  have h0 : ∀ k, initIdcs n inter k = [k] := by
    intro k
    simp only [initIdcs]
    rw [List.filter_eq_nil_iff.2]
    intro j hj
    have := List.mem_range.1 hj
    by_cases hk : k < j
    · simp [h k j hk this]
    · simp [hk]
  have h1 : ∀ I (idcs : Nat → List Nat), (∀ k, idcs k = [k]) → mergeOuter setList idcs I = idcs := by
    intro I
    induction I with
    | zero => intro idcs _; rfl
    | succ I ih =>
      intro idcs hi
      rw [mergeOuter]
      rcases mergeInner_cases setList idcs (I + 1) (I + 1) with ⟨e, _⟩ | ⟨j, hj, ⟨x, hx, hx'⟩, _⟩
      · rw [e, ih _ hi]
      · rw [hi] at hx hx'
        simp only [List.mem_singleton] at hx hx'
        omega
  rw [mergedGroups, h1 _ _ h0, List.filter_map, List.filter_eq_self.2]
  · exact List.map_congr_left fun k _ => h0 k
  · intro k _
    simp [h0]

end Starworlds
