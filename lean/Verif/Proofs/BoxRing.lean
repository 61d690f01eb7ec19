import Verif.Spec.Kernel
import Verif.Proofs.Polygon
import Mathlib.Tactic.Linarith
import Mathlib.Tactic.Ring

/-! # The points of an axis-parallel rectangle -/

namespace Starworlds

open Spec

/-- The corners of the rectangle `[a, b] × [c, d]`. -/
def rectRing (a b c d : ℝ) : List (Pt ℝ) := [(b, c), (b, d), (a, d), (a, c)]

theorem onSegB_vertical {x c d : ℝ} (h : c < d) (p : Pt ℝ) :
    (onSegB (x, c) (x, d) p = true ↔ p.1 = x ∧ c ≤ p.2 ∧ p.2 ≤ d) ∧ (onSegB (x, d) (x, c) p = true ↔ p.1 = x ∧ c ≤ p.2 ∧ p.2 ≤ d) := by
  simp only [onSegB, Bool.and_eq_true, decide_eq_true_eq]
  have key : (x - p.1) * (d - p.2) - (c - p.2) * (x - p.1) = 0 ↔ p.1 = x := by
    rw [show (x - p.1) * (d - p.2) - (c - p.2) * (x - p.1) = (x - p.1) * (d - c) by ring, mul_eq_zero, or_iff_left (by linarith)]
    constructor <;> intro h <;> linarith
  have key2 : (x - p.1) * (c - p.2) - (d - p.2) * (x - p.1) = 0 ↔ p.1 = x := by rw [← key]; constructor <;> intro h <;> linarith
  have dot : p.1 = x → ((x - p.1) * (x - p.1) + (c - p.2) * (d - p.2) ≤ 0 ↔ c ≤ p.2 ∧ p.2 ≤ d) := by
    rintro rfl
    constructor
    · intro hd; constructor <;> nlinarith
    · rintro ⟨h1, h2⟩; nlinarith
  rw [key, key2, show (d - p.2) * (c - p.2) = (c - p.2) * (d - p.2) by ring]
  exact ⟨and_congr_right dot, and_congr_right dot⟩

theorem onSegB_horizontal {y a b : ℝ} (h : a < b) (p : Pt ℝ) :
    (onSegB (a, y) (b, y) p = true ↔ p.2 = y ∧ a ≤ p.1 ∧ p.1 ≤ b) ∧ (onSegB (b, y) (a, y) p = true ↔ p.2 = y ∧ a ≤ p.1 ∧ p.1 ≤ b) := by
  simp only [onSegB, Bool.and_eq_true, decide_eq_true_eq]
  have key : (a - p.1) * (y - p.2) - (y - p.2) * (b - p.1) = 0 ↔ p.2 = y := by
    rw [show (a - p.1) * (y - p.2) - (y - p.2) * (b - p.1) = (y - p.2) * (a - b) by ring, mul_eq_zero, or_iff_left (by linarith)]
    constructor <;> intro h <;> linarith
  have key2 : (b - p.1) * (y - p.2) - (y - p.2) * (a - p.1) = 0 ↔ p.2 = y := by rw [← key]; constructor <;> intro h <;> linarith
  have dot : p.2 = y → ((a - p.1) * (b - p.1) + (y - p.2) * (y - p.2) ≤ 0 ↔ a ≤ p.1 ∧ p.1 ≤ b) := by
    rintro rfl
    constructor
    · intro hd; constructor <;> nlinarith
    · rintro ⟨h1, h2⟩; nlinarith
  rw [key, key2, show (b - p.1) * (a - p.1) = (a - p.1) * (b - p.1) by ring]
  exact ⟨and_congr_right dot, and_congr_right dot⟩

variable {a b c d : ℝ}

theorem rectRing_boundary (hx : a < b) (hy : c < d) (p : Pt ℝ) : OnRing (rectRing a b c d) p ↔
    (p.1 = b ∧ c ≤ p.2 ∧ p.2 ≤ d) ∨ (p.2 = d ∧ a ≤ p.1 ∧ p.1 ≤ b) ∨ (p.1 = a ∧ c ≤ p.2 ∧ p.2 ≤ d) ∨ (p.2 = c ∧ a ≤ p.1 ∧ p.1 ≤ b) := by
  rw [← ringContains_iff]
  simp only [ringContains, rectRing, ringOf, List.cons_append, List.nil_append, edgesOf, List.any_cons, List.any_nil, Bool.or_false, Bool.or_eq_true,
    (onSegB_vertical hy p).1, (onSegB_vertical hy p).2, (onSegB_horizontal hx p).1, (onSegB_horizontal hx p).2]

theorem rectRing_inside (hx : a < b) (hy : c < d) (p : Pt ℝ) : Inside (rectRing a b c d) p ↔ a < p.1 ∧ p.1 < b ∧ c < p.2 ∧ p.2 < d := by
  rw [← polyContains_iff, polyContains, Bool.and_eq_true, Bool.not_eq_true', ← Bool.not_eq_true, ringContains_iff, rectRing_boundary hx hy]
  have hcount : (edgesOf (ringOf (rectRing a b c d))).countP (rayCrosses p) =
      (if c ≤ p.2 ∧ p.2 < d ∧ p.1 < b then 1 else 0) + if c ≤ p.2 ∧ p.2 < d ∧ p.1 < a then 1 else 0 := by
    have e : ∀ x : ℝ, rayCrosses p ((x, c), (x, d)) = decide (c ≤ p.2 ∧ p.2 < d ∧ p.1 < x) ∧
        rayCrosses p ((x, d), (x, c)) = decide (c ≤ p.2 ∧ p.2 < d ∧ p.1 < x) := by
      intro x
      simp only [rayCrosses, sub_self, mul_zero, zero_div, add_zero]
      by_cases h1 : p.2 < c <;> by_cases h2 : p.2 < d <;> by_cases h3 : p.1 < x <;> simp [h1, h2, h3, not_le.2, not_lt.1]
      linarith
    have e2 : ∀ y u w : ℝ, rayCrosses p ((u, y), (w, y)) = false := by intro y u w; simp [rayCrosses]
    simp only [rectRing, ringOf, List.cons_append, List.nil_append, edgesOf, List.countP_cons, List.countP_nil, (e _).1, (e _).2, e2,
      decide_eq_true_eq]
    simp [add_comm]
  rw [hcount, decide_eq_true_eq]
  by_cases h1 : c ≤ p.2 ∧ p.2 < d ∧ p.1 < b
  · rw [if_pos h1]
    by_cases h2 : c ≤ p.2 ∧ p.2 < d ∧ p.1 < a
    · rw [if_pos h2]
      constructor
      · rintro ⟨_, h⟩; omega
      · rintro ⟨h, _⟩; linarith [h2.2.2]
    · rw [if_neg h2]
      have h3 : a ≤ p.1 := by by_contra h; exact h2 ⟨h1.1, h1.2.1, not_le.1 h⟩
      constructor
      · rintro ⟨h, _⟩
        push Not at h
        refine ⟨lt_of_le_of_ne h3 fun e => ?_, h1.2.2, lt_of_le_of_ne h1.1 fun e => ?_, h1.2.1⟩
        · have := h.2.2.1 e.symm h1.1; linarith [h1.2.1]
        · have := h.2.2.2 e.symm h3; linarith [h1.2.2]
      · rintro ⟨g1, g2, g3, g4⟩
        refine ⟨?_, by norm_num⟩
        rintro (h | h | h | h) <;> linarith [h.1]
  · rw [if_neg h1, if_neg fun h => h1 ⟨h.1, h.2.1, by linarith [h.2.2]⟩]
    constructor
    · rintro ⟨_, h⟩; omega
    · rintro ⟨g1, g2, g3, g4⟩; exact absurd ⟨g3.le, g4, g2⟩ h1

/-- The polygon with these corners is the rectangle. -/
theorem rectRing_filled (hx : a < b) (hy : c < d) (p : Pt ℝ) : p ∈ filled (rectRing a b c d) ↔ a ≤ p.1 ∧ p.1 ≤ b ∧ c ≤ p.2 ∧ p.2 ≤ d := by
  show Inside _ p ∨ OnRing _ p ↔ _
  rw [rectRing_inside hx hy, rectRing_boundary hx hy]
  constructor
  · rintro (⟨h1, h2, h3, h4⟩ | ⟨h1, h2, h3⟩ | ⟨h1, h2, h3⟩ | ⟨h1, h2, h3⟩ | ⟨h1, h2, h3⟩) <;> refine ⟨?_, ?_, ?_, ?_⟩ <;> linarith
  · rintro ⟨h1, h2, h3, h4⟩
    rcases h1.eq_or_lt with e1 | l1
    · exact .inr (.inr (.inr (.inl ⟨e1.symm, h3, h4⟩)))
    rcases h2.eq_or_lt with e2 | l2
    · exact .inr (.inl ⟨e2, h3, h4⟩)
    rcases h3.eq_or_lt with e3 | l3
    · exact .inr (.inr (.inr (.inr ⟨e3.symm, h1, h2⟩)))
    rcases h4.eq_or_lt with e4 | l4
    · exact .inr (.inr (.inl ⟨e4, h1, h2⟩))
    exact .inl ⟨l1, l2, l3, l4⟩

end Starworlds
