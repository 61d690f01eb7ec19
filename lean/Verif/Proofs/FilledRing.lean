import Verif.Spec.Kernel
import Verif.Proofs.StarTangent
import Mathlib.Data.List.Rotate
import Mathlib.Data.List.Perm.Basic

/-! # The region of a ring does not depend on its first vertex and its orientation -/

namespace Starworlds

open Spec

/-- The edges of `w` are the edges of `v` in another order, maybe with the ends swapped. -/
theorem filled_edges {v w : List (Pt ℝ)} (hlen : w.length = v.length) (σ : ℕ → ℕ) (hσ : ∀ i < v.length, σ i < v.length)
    (hinj : ∀ i < v.length, ∀ j < v.length, σ i = σ j → i = j)
    (he : ∀ i < v.length, (corner w i = corner v (σ i) ∧ corner w (i + 1) = corner v (σ i + 1)) ∨
      (corner w i = corner v (σ i + 1) ∧ corner w (i + 1) = corner v (σ i))) : filled w = filled v := by
  classical
  have hperm : ((List.range v.length).map σ).Perm (List.range v.length) := by
    have hnd : ((List.range v.length).map σ).Nodup :=
      List.Nodup.map_on (fun i hi j hj h => hinj i (List.mem_range.1 hi) j (List.mem_range.1 hj) h) List.nodup_range
    refine (List.Nodup.subperm hnd ?_).perm_of_length_le (by simp)
    intro i hi
    obtain ⟨j, hj, rfl⟩ := List.mem_map.1 hi
    exact List.mem_range.2 (hσ j (List.mem_range.1 hj))
  have hseg : ∀ (a b p : Pt ℝ), OnSegment a b p → OnSegment b a p := by
    rintro a b p ⟨t, h0, h1, rfl⟩
    exact ⟨1 - t, by linarith, by linarith, by ext <;> simp <;> ring⟩
  have hcr : ∀ (a b p : Pt ℝ), RayCrosses a b p → RayCrosses b a p := by
    rintro a b p ⟨h, q, ⟨t, rfl⟩, h2⟩
    exact ⟨h.symm, _, ⟨1 - t, by ext <;> simp <;> ring⟩, h2⟩
  have hring : ∀ p, OnRing w p ↔ OnRing v p := by
    intro p
    constructor
    · rintro ⟨i, hi, h⟩
      rw [hlen] at hi
      refine ⟨σ i, hσ i hi, ?_⟩
      rcases he i hi with ⟨e1, e2⟩ | ⟨e1, e2⟩ <;> rw [e1, e2] at h
      · exact h
      · exact hseg _ _ _ h
    · rintro ⟨j, hj, h⟩
      obtain ⟨i, hi, rfl⟩ := List.mem_map.1 (hperm.mem_iff.2 (List.mem_range.2 hj))
      rw [List.mem_range] at hi
      refine ⟨i, by rwa [hlen], ?_⟩
      rcases he i hi with ⟨e1, e2⟩ | ⟨e1, e2⟩ <;> rw [e1, e2]
      · exact h
      · exact hseg _ _ _ h
  have hcount : ∀ p, ((List.range w.length).filter fun i => decide (RayCrosses (corner w i) (corner w (i + 1)) p)).length =
      ((List.range v.length).filter fun i => decide (RayCrosses (corner v i) (corner v (i + 1)) p)).length := by
    intro p
    rw [← (hperm.filter _).length_eq, List.filter_map, List.length_map, hlen]
    congr 1
    apply List.filter_congr
    intro i hi
    rw [List.mem_range] at hi
    simp only [Function.comp_apply, decide_eq_decide]
    rcases he i hi with ⟨e1, e2⟩ | ⟨e1, e2⟩ <;> rw [e1, e2]
    exact ⟨hcr _ _ _, hcr _ _ _⟩
  ext p
  unfold filled Inside
  simp only [Set.mem_ofPred_eq, hring]
  have := hcount p
  constructor <;> rintro (⟨h1, h2⟩ | h)
  · exact Or.inl ⟨h1, by convert this ▸ h2⟩
  · exact Or.inr h
  · refine Or.inl ⟨h1, ?_⟩
    convert this.symm ▸ h2
  · exact Or.inr h

theorem filled_rotated (v : List (Pt ℝ)) (n : ℕ) : filled (v.rotate n) = filled v := by
  rcases Nat.eq_zero_or_pos v.length with h0 | hpos
  · rw [List.length_eq_zero_iff.1 h0]; simp
  have hmod : ∀ i, corner v (i % v.length) = corner v i := by intro i; simp [corner]
  have hmod1 : ∀ i, corner v (i % v.length + 1) = corner v (i + 1) := by intro i; simp [corner]
  refine filled_edges (by simp) (fun i => (i + n) % v.length) (fun i _ => Nat.mod_lt _ hpos) ?_ ?_
  · intro i hi j hj h
    have : i ≡ j [MOD v.length] := Nat.ModEq.add_right_cancel' n h
    exact Nat.ModEq.eq_of_lt_of_lt this hi hj
  · intro i _
    left
    simp only [hmod, hmod1, corner_rotate]
    exact ⟨trivial, by rw [show i + 1 + n = i + n + 1 by omega]⟩

theorem corner_reverse (v : List (Pt ℝ)) {i : ℕ} (h : i ≤ v.length) (hpos : 0 < v.length) :
    corner v.reverse i = corner v (2 * v.length - 1 - i) := by
  unfold corner
  rw [List.length_reverse]
  have hi : i % v.length < v.length := Nat.mod_lt _ hpos
  have hj : (2 * v.length - 1 - i) % v.length < v.length := Nat.mod_lt _ hpos
  rw [List.getD_eq_getElem _ _ (by simpa using hi), List.getD_eq_getElem _ _ hj, List.getElem_reverse]
  congr 1
  rcases h.eq_or_lt with rfl | h
  · rw [Nat.mod_self, show 2 * v.length - 1 - v.length = v.length - 1 by omega, Nat.mod_eq_of_lt (by omega)]; omega
  · rw [Nat.mod_eq_of_lt h, show 2 * v.length - 1 - i = (v.length - 1 - i) + v.length by omega, Nat.add_mod_right,
      Nat.mod_eq_of_lt (by omega)]

theorem filled_reverse (v : List (Pt ℝ)) : filled v.reverse = filled v := by
  rcases Nat.eq_zero_or_pos v.length with h0 | hpos
  · rw [List.length_eq_zero_iff.1 h0]; simp
  have hmod : ∀ i, corner v (i % v.length) = corner v i := by intro i; simp [corner]
  have hmod1 : ∀ i, corner v (i % v.length + 1) = corner v (i + 1) := by intro i; simp [corner]
  refine filled_edges (by simp) (fun i => (2 * v.length - 2 - i) % v.length) (fun i _ => Nat.mod_lt _ hpos) ?_ ?_
  · intro i hi j hj h
    have h' : 2 * v.length - 2 - i ≡ 2 * v.length - 2 - j [MOD v.length] := h
    have h2 : i + j + (2 * v.length - 2 - i) ≡ i + j + (2 * v.length - 2 - j) [MOD v.length] := h'.add_left _
    by_cases hone : v.length = 1
    · omega
    · rw [show i + j + (2 * v.length - 2 - i) = j + (2 * v.length - 2) by omega,
        show i + j + (2 * v.length - 2 - j) = i + (2 * v.length - 2) by omega] at h2
      exact (Nat.ModEq.eq_of_lt_of_lt (Nat.ModEq.add_right_cancel' _ h2) hj hi).symm
  · intro i hi
    right
    simp only [hmod, hmod1]
    rw [corner_reverse v hi.le hpos, corner_reverse v (by omega) hpos]
    by_cases hone : v.length = 1
    · have : i = 0 := by omega
      subst this
      simp [corner, hone]
    · exact ⟨by rw [show 2 * v.length - 1 - i = 2 * v.length - 2 - i + 1 by omega], by rw [show 2 * v.length - 1 - (i + 1) = 2 * v.length - 2 - i by omega]⟩

/-- The region of a ring, for any first vertex and either orientation. -/
theorem filled_ring {v w : List (Pt ℝ)} (h : v ~r w ∨ v ~r w.reverse) : filled w = filled v := by
  rcases h with ⟨n, rfl⟩ | ⟨n, h⟩
  · exact filled_rotated v n
  · rw [← filled_reverse w, ← h, filled_rotated]

end Starworlds
