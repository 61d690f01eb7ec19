import Verif.Proofs.StarKernel

/-! # A criterion for star-shaped polygons that can be computed -/

namespace Starworlds

open Real Spec

/-- The angle of a vector relative to `u`, in a full turn. -/
theorem relative_angle {u w : Pt ℝ} (hu : u ≠ 0) (hw : w ≠ 0) :
    ∃ θ α r s : ℝ, 0 < r ∧ 0 < s ∧ 0 ≤ α ∧ α < 2 * π ∧ u = polar 0 s θ ∧ w = polar 0 r (θ + α) ∧
      θ = rawAngle 0 u := by
  obtain ⟨s, hs, eu⟩ := seenAt_pos (seenAt_rawAngle 0 u) hu
  obtain ⟨r, hr, ew⟩ := seenAt_pos (seenAt_rawAngle 0 w) hw
  have hpi := pi_pos
  set θ := rawAngle 0 u
  set β := rawAngle 0 w
  set k := ⌊(β - θ) / (2 * π)⌋
  have hk1 : (k : ℝ) * (2 * π) ≤ β - θ := by
    have := Int.floor_le ((β - θ) / (2 * π))
    rwa [le_div_iff₀ (by linarith)] at this
  have hk2 : β - θ < (k + 1) * (2 * π) := by
    have := Int.lt_floor_add_one ((β - θ) / (2 * π))
    rwa [div_lt_iff₀ (by linarith)] at this
  refine ⟨θ, β - θ - k * (2 * π), r, s, hr, hs, by linarith, by linarith, eu, ?_, rfl⟩
  rw [ew, show θ + (β - θ - k * (2 * π)) = β - k * (2 * π) by ring]
  simp only [polar, cos_sub_int_mul_two_pi, sin_sub_int_mul_two_pi]

/-- `w` is in the half plane to the left of `u`, or in the direction of `u`. -/
def UpperHalf (u w : Pt ℝ) : Prop := 0 < cross u w ∨ (cross u w = 0 ∧ 0 < dot u w)

/-- `w` is in the half plane to the right of `u`, or in the direction opposite to `u`. -/
def LowerHalf (u w : Pt ℝ) : Prop := cross u w < 0 ∨ (cross u w = 0 ∧ dot u w < 0)

theorem upper_angle {u w : Pt ℝ} (hu : u ≠ 0) (h : UpperHalf u w) :
    ∃ α r : ℝ, 0 < r ∧ 0 ≤ α ∧ α < π ∧ w = polar 0 r (rawAngle 0 u + α) := by
  have hw : w ≠ 0 := by
    rintro rfl
    rcases h with h | ⟨_, h⟩ <;> simp [cross, dot] at h
  obtain ⟨θ, α, r, s, hr, hs, h0, h1, eu, ew, rfl⟩ := relative_angle hu hw
  refine ⟨α, r, hr, h0, ?_, ew⟩
  have hc : cross u w = s * r * sin α := by
    rw [eu, ew]
    have := cross_polar_about 0 s r (rawAngle 0 u) (rawAngle 0 u + α)
    simpa using this
  have hd : dot u w = s * r * cos α := by
    rw [eu, ew]
    have := cos_sub (rawAngle 0 u + α) (rawAngle 0 u)
    rw [add_sub_cancel_left] at this
    simp only [dot, polar_fst, polar_snd, this]
    simp; ring
  by_contra hge
  rw [not_lt] at hge
  have hsin : sin α ≤ 0 := by
    have := sin_nonneg_of_nonneg_of_le_pi (x := α - π) (by linarith) (by linarith)
    rw [sin_sub_pi] at this
    linarith
  rcases h with h | ⟨h, h'⟩
  · rw [hc] at h
    have := pos_of_mul_pos_right h (mul_pos hs hr).le
    linarith
  · rw [hc] at h
    have hz : sin α = 0 := (mul_eq_zero.1 h).resolve_left (mul_pos hs hr).ne'
    rw [hd] at h'
    have hcos := pos_of_mul_pos_right h' (mul_pos hs hr).le
    rcases hge.eq_or_lt with e | e
    · rw [← e, cos_pi] at hcos; linarith
    · have := sin_pos_of_pos_of_lt_pi (x := α - π) (by linarith) (by linarith)
      rw [sin_sub_pi] at this
      linarith

theorem rawAngle_neg_polar {u : Pt ℝ} {r α : ℝ} (hu : u ≠ 0) : ∃ α' : ℝ,
    polar 0 r (rawAngle 0 (-u) + α) = polar 0 r (rawAngle 0 u + α') ∧ α' = π + α := by
  refine ⟨π + α, ?_, rfl⟩
  obtain ⟨s, hs, eu⟩ := seenAt_pos (seenAt_rawAngle 0 u) hu
  obtain ⟨t, ht, en⟩ := seenAt_pos (seenAt_rawAngle 0 (-u)) (neg_ne_zero.2 hu)
  have e : polar 0 t (rawAngle 0 (-u)) = polar 0 s (rawAngle 0 u + π) := by
    rw [← en]
    conv_lhs => rw [eu]
    ext <;> simp [polar]
  obtain ⟨_, k, hk⟩ := polar_inj ht hs e
  rw [hk, show rawAngle 0 u + π + k * (2 * π) + α = rawAngle 0 u + (π + α) + k * (2 * π) by ring]
  simp only [polar, cos_add_int_mul_two_pi, sin_add_int_mul_two_pi]

theorem lower_angle {u w : Pt ℝ} (hu : u ≠ 0) (h : LowerHalf u w) :
    ∃ α r : ℝ, 0 < r ∧ π ≤ α ∧ α < 2 * π ∧ w = polar 0 r (rawAngle 0 u + α) := by
  have h' : UpperHalf (-u) w := by
    have e1 : cross (-u) w = -cross u w := by simp [cross]; ring
    have e2 : dot (-u) w = -dot u w := by simp [dot]; ring
    rw [UpperHalf, e1, e2]
    rcases h with h | ⟨h, h'⟩
    · left; linarith
    · right; exact ⟨by linarith, by linarith⟩
  obtain ⟨α, r, hr, h0, h1, e⟩ := upper_angle (neg_ne_zero.2 hu) h'
  obtain ⟨α', e', rfl⟩ := rawAngle_neg_polar (r := r) (α := α) hu
  exact ⟨π + α, r, hr, by linarith, by linarith, e.trans e'⟩

/-- A polygon is star-shaped about `c` if every edge turns to the left about `c` and the vertices pass the half planes of
some direction once. -/
theorem starAbout_of_halves {c : Pt ℝ} {v : List (Pt ℝ)} (u : Pt ℝ) (hu : u ≠ 0) (k : ℕ) (hk0 : 0 < k) (hkn : k < v.length)
    (hup : ∀ i < k, UpperHalf u (corner v i - c)) (hlo : ∀ i < v.length, k ≤ i → LowerHalf u (corner v i - c))
    (hpos : ∀ i < v.length, 0 < cross (corner v i - c) (corner v (i + 1) - c)) : StarAbout c v := by
  have hpi := pi_pos
  have ex : ∀ i, ∃ α r : ℝ, i < v.length → 0 < r ∧ (i < k → 0 ≤ α ∧ α < π) ∧ (k ≤ i → π ≤ α ∧ α < 2 * π) ∧
      corner v i - c = polar 0 r (rawAngle 0 u + α) := by
    intro i
    by_cases hi : i < v.length
    · rcases Nat.lt_or_ge i k with h | h
      · obtain ⟨α, r, h1, h2, h3, h4⟩ := upper_angle hu (hup i h)
        exact ⟨α, r, fun _ => ⟨h1, fun _ => ⟨h2, h3⟩, fun h' => by omega, h4⟩⟩
      · obtain ⟨α, r, h1, h2, h3, h4⟩ := lower_angle hu (hlo i hi h)
        exact ⟨α, r, fun _ => ⟨h1, fun h' => by omega, fun _ => ⟨h2, h3⟩, h4⟩⟩
    · exact ⟨0, 0, fun h => absurd h hi⟩
  choose α r hα using ex
  have hsin : ∀ i j, i < v.length → j < v.length → cross (corner v i - c) (corner v j - c) =
      r i * r j * sin (α j - α i) := by
    intro i j hi hj
    rw [(hα i hi).2.2.2, (hα j hj).2.2.2]
    have := cross_polar_about 0 (r i) (r j) (rawAngle 0 u + α i) (rawAngle 0 u + α j)
    simp only [sub_zero] at this
    rw [this]; congr 2; ring
  -- the angles
  refine ⟨fun i => rawAngle 0 u + (if i = v.length then α 0 + 2 * π else α i), ?_, ?_, ?_⟩
  · intro i hi
    obtain ⟨h1, _, _, h4⟩ := hα i hi
    have e : corner v i = polar c (r i) (rawAngle 0 u + α i) := by
      have := congrArg (c + ·) h4
      simp only [add_sub_cancel] at this
      rw [this]
      ext <;> simp [polar]
    simp only [if_neg hi.ne]
    refine ⟨⟨r i, h1.le, e⟩, ?_⟩
    rw [e]
    exact polar_ne h1.ne'
  · intro i hi
    have hp := hpos i hi
    simp only [if_neg hi.ne]
    have hs : ∀ j, j < v.length → corner v (i + 1) = corner v j → 0 < sin (α j - α i) := by
      intro j hj e
      rw [e, hsin i j hi hj] at hp
      exact pos_of_mul_pos_right hp (mul_pos (hα i hi).1 (hα j hj).1).le
    by_cases hlast : i + 1 = v.length
    · rw [if_pos hlast]
      have h0 := hs 0 (by omega) (by rw [hlast, corner_length])
      obtain ⟨a1, a2⟩ := (hα 0 (by omega)).2.1 hk0
      obtain ⟨b1, b2⟩ := (hα i hi).2.2.1 (by omega)
      rw [← sin_add_two_pi] at h0
      constructor
      · linarith
      · by_contra hge
        have := sin_nonneg_of_nonneg_of_le_pi (x := α 0 - α i + 2 * π - π) (by linarith) (by linarith)
        rw [sin_sub_pi] at this
        linarith
    · rw [if_neg hlast]
      have hi1 : i + 1 < v.length := by omega
      have h0 := hs (i + 1) hi1 rfl
      have same : -π < α (i + 1) - α i → α (i + 1) - α i < π → 0 < α (i + 1) - α i := by
        intro g1 g2
        by_contra hh
        have := sin_nonpos_of_nonpos_of_neg_pi_le (x := α (i + 1) - α i) (by linarith) (by linarith)
        linarith
      rcases Nat.lt_or_ge (i + 1) k with h1 | h1
      · obtain ⟨a1, a2⟩ := (hα i hi).2.1 (by omega)
        obtain ⟨b1, b2⟩ := (hα (i + 1) hi1).2.1 h1
        have := same (by linarith) (by linarith)
        constructor <;> linarith
      · obtain ⟨b1, b2⟩ := (hα (i + 1) hi1).2.2.1 h1
        rcases Nat.lt_or_ge i k with h2 | h2
        · obtain ⟨a1, a2⟩ := (hα i hi).2.1 h2
          constructor
          · linarith
          · by_contra hge
            have := sin_nonneg_of_nonneg_of_le_pi (x := α (i + 1) - α i - π) (by linarith) (by linarith)
            rw [sin_sub_pi] at this
            linarith
        · obtain ⟨a1, a2⟩ := (hα i hi).2.2.1 h2
          have := same (by linarith) (by linarith)
          constructor <;> linarith
  · simp only [if_true, if_neg (show (0 : ℕ) ≠ v.length by omega)]
    ring

end Starworlds
