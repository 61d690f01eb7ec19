import Verif.Proofs.AreaCut

/-! # Winding numbers of rings: triangles -/

namespace Starworlds

open Spec

/-- The signed number of crossings of the horizontal ray to the right of `p` with the edge from `a` to `b`. -/
noncomputable def crossing (a b p : Pt ℝ) : ℤ :=
  if a.2 ≤ p.2 ∧ p.2 < b.2 ∧ 0 < cross (b - a) (p - a) then 1
  else if b.2 ≤ p.2 ∧ p.2 < a.2 ∧ cross (b - a) (p - a) < 0 then -1 else 0

theorem cross_turn (a b p : Pt ℝ) : cross (a - b) (p - b) = - cross (b - a) (p - a) := by
  simp only [cross, Prod.fst_sub, Prod.snd_sub]; ring

theorem crossing_swap (a b p : Pt ℝ) : crossing b a p = - crossing a b p := by
  unfold crossing
  rw [cross_turn]
  simp only [Left.neg_pos_iff, neg_lt_zero]
  by_cases h1 : a.2 ≤ p.2 ∧ p.2 < b.2 ∧ 0 < cross (b - a) (p - a)
  · have h2 : ¬ (b.2 ≤ p.2 ∧ p.2 < a.2 ∧ cross (b - a) (p - a) < 0) := fun h => by linarith [h1.2.2, h.2.2]
    rw [if_neg h2, if_pos h1, if_pos h1]
  · rw [if_neg h1, if_neg h1]
    split <;> simp

/-- The winding number of a triangle. -/
noncomputable def triWind (a b c p : Pt ℝ) : ℤ := crossing a b p + crossing b c p + crossing c a p

theorem triWind_turn (a b c p : Pt ℝ) : triWind b c a p = triWind a b c p := by unfold triWind; ring

theorem triWind_swap (a b c p : Pt ℝ) : triWind a c b p = - triWind a b c p := by
  unfold triWind
  rw [crossing_swap c a, crossing_swap b c, crossing_swap a b]; ring

/-- The three cross products are the barycentric coordinates, up to a factor. -/
theorem tri_weights (a b c p : Pt ℝ) :
    cross (b - a) (p - a) + cross (c - b) (p - b) + cross (a - c) (p - c) = cross (b - a) (c - a) ∧
    cross (c - b) (p - b) * (a.2 - p.2) + cross (a - c) (p - c) * (b.2 - p.2) + cross (b - a) (p - a) * (c.2 - p.2) = 0 ∧
    cross (c - b) (p - b) * (a.1 - p.1) + cross (a - c) (p - c) * (b.1 - p.1) + cross (b - a) (p - a) * (c.1 - p.1) = 0 := by
  simp only [cross, Prod.fst_sub, Prod.snd_sub]
  refine ⟨by ring, by ring, by ring⟩

theorem crossing_up {a b p : Pt ℝ} (ha : a.2 ≤ p.2) (hb : p.2 < b.2) :
    crossing a b p = if 0 < cross (b - a) (p - a) then 1 else 0 := by
  unfold crossing
  by_cases h : 0 < cross (b - a) (p - a)
  · rw [if_pos ⟨ha, hb, h⟩, if_pos h]
  · rw [if_neg (fun h' => h h'.2.2), if_neg (fun h' => absurd h'.2.1 (not_lt.2 ha)), if_neg h]

theorem crossing_down {a b p : Pt ℝ} (ha : p.2 < a.2) (hb : b.2 ≤ p.2) :
    crossing a b p = if cross (b - a) (p - a) < 0 then -1 else 0 := by
  unfold crossing
  rw [if_neg (fun h' => absurd h'.1 (not_le.2 ha))]
  by_cases h : cross (b - a) (p - a) < 0
  · rw [if_pos ⟨hb, ha, h⟩, if_pos h]
  · rw [if_neg (fun h' => h h'.2.2), if_neg h]

theorem crossing_low {a b p : Pt ℝ} (ha : a.2 ≤ p.2) (hb : b.2 ≤ p.2) : crossing a b p = 0 := by
  unfold crossing
  rw [if_neg (fun h' => absurd h'.2.1 (not_lt.2 hb)), if_neg (fun h' => absurd h'.2.1 (not_lt.2 ha))]

theorem crossing_high {a b p : Pt ℝ} (ha : p.2 < a.2) (hb : p.2 < b.2) : crossing a b p = 0 := by
  unfold crossing
  rw [if_neg (fun h' => absurd h'.1 (not_le.2 ha)), if_neg (fun h' => absurd h'.1 (not_le.2 hb))]

/-- What is said of the winding number of a counter-clockwise triangle. -/
def TriGood (a b c p : Pt ℝ) : Prop :=
  (triWind a b c p = 0 ∨ triWind a b c p = 1) ∧
  (0 < cross (b - a) (p - a) → 0 < cross (c - b) (p - b) → 0 < cross (a - c) (p - c) → triWind a b c p = 1) ∧
  (cross (b - a) (p - a) < 0 ∨ cross (c - b) (p - b) < 0 ∨ cross (a - c) (p - c) < 0 → triWind a b c p = 0)

theorem triGood_turn {a b c p : Pt ℝ} (h : TriGood b c a p) : TriGood a b c p := by
  obtain ⟨h1, h2, h3⟩ := h
  rw [triWind_turn] at h1 h2 h3
  exact ⟨h1, fun a1 a2 a3 => h2 a2 a3 a1, fun h => h3 (by tauto)⟩

theorem tri_one_high {a b c p : Pt ℝ} (hD : 0 < cross (b - a) (c - a)) (ha : a.2 ≤ p.2) (hb : p.2 < b.2) (hc : c.2 ≤ p.2) :
    TriGood a b c p := by
  obtain ⟨e1, e2, -⟩ := tri_weights a b c p
  have e : triWind a b c p = (if 0 < cross (b - a) (p - a) then 1 else 0) + (if cross (c - b) (p - b) < 0 then -1 else 0) := by
    rw [triWind, crossing_up ha hb, crossing_down hb hc, crossing_low hc ha]; ring
  unfold TriGood
  rw [e]
  set γ := cross (b - a) (p - a)
  set α := cross (c - b) (p - b)
  set β := cross (a - c) (p - c)
  have k1 : γ ≤ 0 → ¬ α < 0 := by
    intro h1 h2
    have : 0 < β := by linarith
    nlinarith [mul_nonneg_of_nonpos_of_nonpos h2.le (sub_nonpos.2 ha), mul_nonneg_of_nonpos_of_nonpos h1 (sub_nonpos.2 hc),
      mul_pos this (sub_pos.2 hb)]
  have k2 : β < 0 → 0 < γ → α < 0 := by
    intro h1 h2
    by_contra h3
    nlinarith [mul_nonneg (not_lt.1 h3) (sub_nonneg.2 ha), mul_nonneg h2.le (sub_nonneg.2 hc), mul_pos (neg_pos.2 h1) (sub_pos.2 hb)]
  by_cases g : 0 < γ <;> by_cases a' : α < 0
  · simp only [if_pos g, if_pos a']
    exact ⟨by norm_num, fun _ h _ => absurd h (not_lt.2 a'.le), fun _ => by norm_num⟩
  · simp only [if_pos g, if_neg a']
    refine ⟨by norm_num, fun _ _ _ => by norm_num, ?_⟩
    rintro (h | h | h)
    · exact absurd h (not_lt.2 g.le)
    · exact absurd h a'
    · exact absurd (k2 h g) a'
  · exact absurd a' (k1 (not_lt.1 g))
  · simp only [if_neg g, if_neg a']
    exact ⟨by norm_num, fun h => absurd h g, fun _ => by norm_num⟩

theorem tri_two_high {a b c p : Pt ℝ} (hD : 0 < cross (b - a) (c - a)) (ha : p.2 < a.2) (hb : b.2 ≤ p.2) (hc : p.2 < c.2) :
    TriGood a b c p := by
  obtain ⟨e1, e2, -⟩ := tri_weights a b c p
  have e : triWind a b c p = (if cross (b - a) (p - a) < 0 then -1 else 0) + (if 0 < cross (c - b) (p - b) then 1 else 0) := by
    rw [triWind, crossing_down ha hb, crossing_up hb hc, crossing_high hc ha]; ring
  unfold TriGood
  rw [e]
  set γ := cross (b - a) (p - a)
  set α := cross (c - b) (p - b)
  set β := cross (a - c) (p - c)
  have k1 : α ≤ 0 → ¬ γ < 0 := by
    intro h1 h2
    have : 0 < β := by linarith
    nlinarith [mul_nonneg (neg_nonneg.2 h1) (sub_pos.2 ha).le, mul_pos (neg_pos.2 h2) (sub_pos.2 hc),
      mul_nonneg this.le (sub_nonneg.2 hb)]
  have k2 : β < 0 → 0 < α → γ < 0 := by
    intro h1 h2
    by_contra h3
    nlinarith [mul_pos h2 (sub_pos.2 ha), mul_nonneg (not_lt.1 h3) (sub_pos.2 hc).le, mul_nonneg (neg_pos.2 h1).le (sub_nonneg.2 hb)]
  by_cases g : 0 < α <;> by_cases a' : γ < 0
  · simp only [if_pos g, if_pos a']
    exact ⟨by norm_num, fun h _ _ => absurd h (not_lt.2 a'.le), fun _ => by norm_num⟩
  · simp only [if_pos g, if_neg a']
    refine ⟨by norm_num, fun _ _ _ => by norm_num, ?_⟩
    rintro (h | h | h)
    · exact absurd h a'
    · exact absurd h (not_lt.2 g.le)
    · exact absurd (k2 h g) a'
  · exact absurd a' (k1 (not_lt.1 g))
  · simp only [if_neg g, if_neg a']
    exact ⟨by norm_num, fun _ h => absurd h g, fun _ => by norm_num⟩

theorem tri_turned (a b c : Pt ℝ) : cross (c - b) (a - b) = cross (b - a) (c - a) := by
  simp only [cross, Prod.fst_sub, Prod.snd_sub]; ring

/-- Around a counter-clockwise triangle: 1 in the interior, 0 outside, and one of them on the edges. -/
theorem tri_good {a b c : Pt ℝ} (hD : 0 < cross (b - a) (c - a)) (p : Pt ℝ) : TriGood a b c p := by
  have hD1 : 0 < cross (c - b) (a - b) := by rw [tri_turned]; exact hD
  have hD2 : 0 < cross (a - c) (b - c) := by rw [tri_turned]; exact hD1
  obtain ⟨e1, e2, -⟩ := tri_weights a b c p
  rcases lt_or_ge p.2 a.2 with ha | ha <;> rcases lt_or_ge p.2 b.2 with hb | hb <;> rcases lt_or_ge p.2 c.2 with hc | hc
  · have e : triWind a b c p = 0 := by rw [triWind, crossing_high ha hb, crossing_high hb hc, crossing_high hc ha]; rfl
    refine ⟨Or.inl e, fun h1 h2 h3 => ?_, fun _ => e⟩
    nlinarith [mul_pos h2 (sub_pos.2 ha), mul_pos h3 (sub_pos.2 hb), mul_pos h1 (sub_pos.2 hc)]
  · exact triGood_turn (tri_two_high hD1 hb hc ha)
  · exact tri_two_high hD ha hb hc
  · exact triGood_turn (triGood_turn (tri_one_high hD2 hc ha hb))
  · exact triGood_turn (triGood_turn (tri_two_high hD2 hc ha hb))
  · exact tri_one_high hD ha hb hc
  · exact triGood_turn (tri_one_high hD1 hb hc ha)
  · have e : triWind a b c p = 0 := by rw [triWind, crossing_low ha hb, crossing_low hb hc, crossing_low hc ha]; rfl
    refine ⟨Or.inl e, fun h1 h2 h3 => ?_, fun _ => e⟩
    have z1 := mul_nonneg h2.le (sub_nonneg.2 ha)
    have z2 := mul_nonneg h3.le (sub_nonneg.2 hb)
    have z3 := mul_nonneg h1.le (sub_nonneg.2 hc)
    have y1 : p.2 - a.2 = 0 := by
      have : cross (c - b) (p - b) * (p.2 - a.2) = 0 := by nlinarith
      exact (mul_eq_zero.1 this).resolve_left h2.ne'
    have y2 : p.2 - b.2 = 0 := by
      have : cross (a - c) (p - c) * (p.2 - b.2) = 0 := by nlinarith
      exact (mul_eq_zero.1 this).resolve_left h3.ne'
    exfalso
    have : cross (b - a) (p - a) = 0 := by
      simp only [cross, Prod.fst_sub, Prod.snd_sub]
      rw [y1, show b.2 - a.2 = 0 by linarith]; ring
    linarith

/-- A triangle without area has winding number 0. -/
theorem triWind_flat {a b c : Pt ℝ} (hD : cross (b - a) (c - a) = 0) (p : Pt ℝ) : triWind a b c p = 0 := by
  have key : ∀ {a b c : Pt ℝ}, cross (b - a) (c - a) = 0 → a.2 ≤ p.2 → p.2 < b.2 → c.2 ≤ p.2 → triWind a b c p = 0 := by
    intro a b c hD ha hb hc
    obtain ⟨e1, e2, -⟩ := tri_weights a b c p
    rw [triWind, crossing_up ha hb, crossing_down hb hc, crossing_low hc ha]
    have h : (c.2 - b.2) * cross (b - a) (p - a) = (b.2 - a.2) * cross (c - b) (p - b) := by
      simp only [cross, Prod.fst_sub, Prod.snd_sub] at hD ⊢
      linear_combination (p.2 - b.2) * hD
    by_cases g : 0 < cross (b - a) (p - a) <;> by_cases g' : cross (c - b) (p - b) < 0
    · simp [g, g']
    · nlinarith [mul_nonneg (sub_nonneg.2 (ha.trans hb.le)) (not_lt.1 g'), mul_pos (sub_pos.2 (hc.trans_lt hb)) g]
    · nlinarith [mul_pos (sub_pos.2 (ha.trans_lt hb)) (neg_pos.2 g'), mul_nonneg (sub_pos.2 (hc.trans_lt hb)).le (neg_nonneg.2 (not_lt.1 g))]
    · simp [g, g']
  have key2 : ∀ {a b c : Pt ℝ}, cross (b - a) (c - a) = 0 → p.2 < a.2 → b.2 ≤ p.2 → p.2 < c.2 → triWind a b c p = 0 := by
    intro a b c hD ha hb hc
    rw [triWind, crossing_down ha hb, crossing_up hb hc, crossing_high hc ha]
    have h : (c.2 - b.2) * cross (b - a) (p - a) = (b.2 - a.2) * cross (c - b) (p - b) := by
      simp only [cross, Prod.fst_sub, Prod.snd_sub] at hD ⊢
      linear_combination (p.2 - b.2) * hD
    by_cases g : 0 < cross (c - b) (p - b) <;> by_cases g' : cross (b - a) (p - a) < 0
    · simp [g, g']
    · nlinarith [mul_nonneg (sub_pos.2 (hb.trans_lt hc)).le (not_lt.1 g'), mul_pos (sub_pos.2 (hb.trans_lt ha)) g]
    · nlinarith [mul_pos (sub_pos.2 (hb.trans_lt hc)) (neg_pos.2 g'), mul_nonneg (sub_pos.2 (hb.trans_lt ha)).le (neg_nonneg.2 (not_lt.1 g))]
    · simp [g, g']
  have hD1 : cross (c - b) (a - b) = 0 := by rw [tri_turned]; exact hD
  have hD2 : cross (a - c) (b - c) = 0 := by rw [tri_turned]; exact hD1
  rcases lt_or_ge p.2 a.2 with ha | ha <;> rcases lt_or_ge p.2 b.2 with hb | hb <;> rcases lt_or_ge p.2 c.2 with hc | hc
  · rw [triWind, crossing_high ha hb, crossing_high hb hc, crossing_high hc ha]; rfl
  · rw [← triWind_turn]; exact key2 hD1 hb hc ha
  · exact key2 hD ha hb hc
  · rw [← triWind_turn, ← triWind_turn]; exact key hD2 hc ha hb
  · rw [← triWind_turn, ← triWind_turn]; exact key2 hD2 hc ha hb
  · exact key hD ha hb hc
  · rw [← triWind_turn]; exact key hD1 hb hc ha
  · rw [triWind, crossing_low ha hb, crossing_low hb hc, crossing_low hc ha]; rfl

end Starworlds
