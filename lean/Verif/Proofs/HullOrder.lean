import Verif.Proofs.HullStar
import Mathlib.Data.List.Rotate
import Mathlib.Tactic.Linarith

/-! # The order in which polygon_kernel_starshaped_hull visits the vertices -/

namespace Starworlds

open Spec

/-- A ring with only one rightmost vertex is turned until this vertex is the first one. -/
theorem rotate_rightmost {m : Pt ℝ} {t w : List (Pt ℝ)} (hm : ∀ p ∈ t, p.1 < m.1) (hw : (m :: t) ~r w) :
    w.rotate (argmaxIdx (w.map Prod.fst)) = m :: t := by
  obtain ⟨k, rfl⟩ := hw
  obtain ⟨i, hi⟩ : ∃ i, argmaxIdx (((m :: t).rotate k).map Prod.fst) = i := ⟨_, rfl⟩
  have spec := argmaxIdx_spec (((m :: t).rotate k).map Prod.fst) (by simp)
  rw [hi] at spec ⊢
  simp only [List.length_map, List.length_rotate] at spec
  obtain ⟨h1, h2⟩ := spec
  have get : ∀ j, j < (m :: t).length → (((m :: t).rotate k).map Prod.fst).getD j 0 = ((m :: t).getD ((j + k) % (m :: t).length) 0).1 := by
    intro j hj
    have hj' : (j + k) % (m :: t).length < (m :: t).length := Nat.mod_lt _ (by simp)
    rw [List.getD_eq_getElem _ _ (by simpa using hj), List.getD_eq_getElem _ _ hj', List.getElem_map, List.getElem_rotate]
  -- the place of `m`
  have hL : 0 < (m :: t).length := by simp
  obtain ⟨j, hj, hjm⟩ : ∃ j < (m :: t).length, (j + k) % (m :: t).length = 0 := by
    refine ⟨((m :: t).length - k % (m :: t).length) % (m :: t).length, Nat.mod_lt _ hL, ?_⟩
    have := Nat.mod_lt k hL
    rw [Nat.add_mod, Nat.mod_mod, ← Nat.add_mod]
    have e : (m :: t).length - k % (m :: t).length + k = (m :: t).length + (m :: t).length * (k / (m :: t).length) := by
      have := Nat.mod_add_div k (m :: t).length
      omega
    rw [e, Nat.add_mul_mod_self_left, Nat.mod_self]
  have h := h2 j hj
  rw [get j hj, get i h1, hjm] at h
  have hz : (i + k) % (m :: t).length = 0 := by
    by_contra hne
    obtain ⟨r, hr⟩ := Nat.exists_eq_succ_of_ne_zero hne
    have hlt := Nat.mod_lt (i + k) hL
    rw [hr] at h hlt
    have hr' : r < t.length := by simpa using hlt
    rw [Nat.succ_eq_add_one, List.getD_cons_succ, List.getD_cons_zero, List.getD_eq_getElem _ _ hr'] at h
    exact absurd (hm _ (List.getElem_mem hr')) (not_lt.2 h)
  rw [List.rotate_rotate, ← List.rotate_mod, Nat.add_comm, hz, List.rotate_zero]

theorem orientationVal_flip (a b c : Pt ℝ) : orientationVal c b a = -orientationVal a b c := by
  unfold orientationVal; ring

/-- The order does not depend on the first vertex and on the orientation of the ring, if one vertex is farther to the right than the
others and the turn there is not too small. -/
theorem orderVertices_ring {m a b : Pt ℝ} {s w : List (Pt ℝ)} (ha : a.1 < m.1) (hs : ∀ p ∈ s, p.1 < m.1) (hb : b.1 < m.1)
    (hturn : 1 / 10 ^ 10 < |cross (m - b) (a - m)|)
    (hw : (m :: a :: (s ++ [b])) ~r w ∨ (m :: a :: (s ++ [b])) ~r w.reverse) :
    orderVertices w = orderVertices (m :: a :: (s ++ [b])) := by
  have hm : ∀ p ∈ a :: (s ++ [b]), p.1 < m.1 := by
    intro p hp
    simp only [List.mem_cons, List.mem_append, List.not_mem_nil, or_false] at hp
    rcases hp with rfl | hp | rfl
    · exact ha
    · exact hs p hp
    · exact hb
  have ht : orientationVal b m a = -cross (m - b) (a - m) := by
    unfold orientationVal cross; simp
  have r0 := rotate_rightmost hm (List.IsRotated.refl _)
  rcases hw with hw | hw
  · unfold orderVertices
    simp only [r0, rotate_rightmost hm hw]
  · have hw' : (m :: b :: (s.reverse ++ [a])) ~r w := by
      have h1 := hw.reverse
      rw [List.reverse_reverse] at h1
      refine List.IsRotated.trans ?_ h1
      exact ⟨1, by simp⟩
    have hm' : ∀ p ∈ b :: (s.reverse ++ [a]), p.1 < m.1 := by
      intro p hp
      apply hm
      simp only [List.mem_cons, List.mem_append, List.mem_reverse, List.not_mem_nil, or_false] at hp ⊢
      tauto
    have r1 := rotate_rightmost hm' hw'
    unfold orderVertices
    simp only [r0, r1]
    have l1 : (m :: b :: (s.reverse ++ [a])).getLastD (0, 0) = a := by
      rw [show m :: b :: (s.reverse ++ [a]) = (m :: b :: s.reverse) ++ [a] by simp]; simp [List.getLastD]
    have l2 : (m :: a :: (s ++ [b])).getLastD (0, 0) = b := by
      rw [show m :: a :: (s ++ [b]) = (m :: a :: s) ++ [b] by simp]; simp [List.getLastD]
    rw [l1, l2]
    have fl : ∀ (x y : Pt ℝ) (u : List (Pt ℝ)), (m :: x :: (u ++ [y])).reverse.rotate ((m :: x :: (u ++ [y])).reverse.length - 1) =
        m :: y :: (u.reverse ++ [x]) := by
      intro x y u
      have e : (m :: x :: (u ++ [y])).reverse = (y :: (u.reverse ++ [x])) ++ [m] := by simp
      rw [e]
      rw [show ((y :: (u.reverse ++ [x])) ++ [m]).length - 1 = (y :: (u.reverse ++ [x])).length by simp, List.rotate_append_length_eq]
      rfl
    have p0 : ∀ (x y : Pt ℝ) (u : List (Pt ℝ)), ptAt (x :: y :: u) 0 = x ∧ ptAt (x :: y :: u) 1 = y := by
      intro x y u; simp [ptAt]
    rw [(p0 _ _ _).1, (p0 _ _ _).2, (p0 _ _ _).1, (p0 _ _ _).2, fl, fl]
    have cw : ∀ x y : Pt ℝ, isCw x m y = true ↔ 1 / 10 ^ 10 < orientationVal x m y := by
      intro x y; simp [isCw, collinearThreshold]
    have fl' := orientationVal_flip b m a
    rcases lt_abs.1 hturn with h | h
    · rw [if_pos ((cw _ _).2 (by linarith)), if_neg (fun h' => by have := (cw _ _).1 h'; linarith)]
      simp
    · rw [if_neg (fun h' => by have := (cw _ _).1 h'; linarith), if_pos ((cw _ _).2 (by linarith))]

end Starworlds
