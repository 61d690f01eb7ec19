import Verif.Spec.StarPolygon
import Verif.Proofs.Angles
import Verif.Proofs.Polygon
import Mathlib.Tactic.Positivity
import Mathlib.Tactic.FieldSimp

/-! # Helper lemmas: rays from the centre of a star-shaped ring -/

namespace Starworlds

open Real Spec

/-- The point at distance `r` from `c` in direction `t`. -/
noncomputable def polar (c : Pt ℝ) (r t : ℝ) : Pt ℝ := c + r • ((cos t, sin t) : Pt ℝ)

theorem seenAt_iff (c p : Pt ℝ) (t : ℝ) : SeenAt c p t ↔ ∃ r, 0 ≤ r ∧ p = polar c r t := Iff.rfl

theorem polar_fst (c : Pt ℝ) (r t : ℝ) : (polar c r t).1 = c.1 + r * cos t := rfl
theorem polar_snd (c : Pt ℝ) (r t : ℝ) : (polar c r t).2 = c.2 + r * sin t := rfl

theorem polar_zero (c : Pt ℝ) (t : ℝ) : polar c 0 t = c := by
  ext <;> simp [polar]

theorem seenAt_pos {c p : Pt ℝ} {t : ℝ} (h : SeenAt c p t) (hp : p ≠ c) : ∃ r, 0 < r ∧ p = polar c r t := by
  obtain ⟨r, hr, e⟩ := h
  rcases hr.eq_or_lt with rfl | hr
  · exact absurd (e.trans (polar_zero c t)) hp
  · exact ⟨r, hr, e⟩

theorem polar_ne {c : Pt ℝ} {r t : ℝ} (hr : r ≠ 0) : polar c r t ≠ c := by
  intro h
  have h1 := congrArg Prod.fst h
  have h2 := congrArg Prod.snd h
  rw [polar_fst] at h1
  rw [polar_snd] at h2
  have e1 : r * cos t = 0 := by linarith
  have e2 : r * sin t = 0 := by linarith
  have e3 := (mul_eq_zero.1 e1).resolve_left hr
  have e4 := (mul_eq_zero.1 e2).resolve_left hr
  have := sin_sq_add_cos_sq t
  rw [e3, e4] at this
  norm_num at this

/-- Two polar representations with positive radii agree in radius, and in angle up to full turns. -/
theorem polar_inj {c : Pt ℝ} {r s t u : ℝ} (hr : 0 < r) (hs : 0 < s) (h : polar c r t = polar c s u) :
    r = s ∧ ∃ k : ℤ, t = u + k * (2 * π) := by
  have h1 := congrArg Prod.fst h
  have h2 := congrArg Prod.snd h
  simp only [polar_fst, polar_snd, add_right_inj] at h1 h2
  have e1 := sin_sq_add_cos_sq t
  have e2 := sin_sq_add_cos_sq u
  have hsq : r ^ 2 = s ^ 2 := by
    linear_combination (r * cos t + s * cos u) * h1 + (r * sin t + s * sin u) * h2 - r ^ 2 * e1 + s ^ 2 * e2
  have hrs : r = s := by
    rcases sq_eq_sq_iff_eq_or_eq_neg.1 hsq with h | h
    · exact h
    · linarith
  refine ⟨hrs, ?_⟩
  subst hrs
  have h3 := mul_left_cancel₀ hr.ne' h1
  have h4 := mul_left_cancel₀ hr.ne' h2
  have hc : cos (t - u) = 1 := by rw [cos_sub, h3, h4]; linarith
  obtain ⟨k, hk⟩ := (cos_eq_one_iff _).1 hc
  exact ⟨k, by linarith⟩

/-- The ray at an angle between those of the ends of an edge meets the edge. -/
theorem ray_hits_edge {c : Pt ℝ} {ra rb α β θ : ℝ} (ha : 0 < ra) (hb : 0 < rb) (h1 : α ≤ θ) (h2 : θ ≤ β) (h3 : α < β)
    (h4 : β < α + π) : ∃ r, 0 < r ∧ OnSegment (polar c ra α) (polar c rb β) (polar c r θ) := by
  have hs1 : 0 ≤ sin (β - θ) := sin_nonneg_of_nonneg_of_le_pi (by linarith) (by linarith)
  have hs2 : 0 ≤ sin (θ - α) := sin_nonneg_of_nonneg_of_le_pi (by linarith) (by linarith)
  have hs : 0 < sin (β - α) := sin_pos_of_pos_of_lt_pi (by linarith) (by linarith)
  set w1 := sin (β - θ) * rb with hw1
  set w2 := sin (θ - α) * ra with hw2
  have hw1' : 0 ≤ w1 := mul_nonneg hs1 hb.le
  have hw2' : 0 ≤ w2 := mul_nonneg hs2 ha.le
  have hW : 0 < w1 + w2 := by
    rcases h1.eq_or_lt with h | h
    · have : 0 < w1 := by rw [hw1, ← h]; positivity
      linarith
    · have : 0 < w2 := by
        rw [hw2]; exact mul_pos (sin_pos_of_pos_of_lt_pi (by linarith) (by linarith)) ha
      linarith
  have key1 : sin (β - θ) * cos α + sin (θ - α) * cos β = sin (β - α) * cos θ := by
    have e := sin_sq_add_cos_sq θ
    rw [sin_sub, sin_sub, sin_sub]
    ring
  have key2 : sin (β - θ) * sin α + sin (θ - α) * sin β = sin (β - α) * sin θ := by
    rw [sin_sub, sin_sub, sin_sub]
    ring
  refine ⟨ra * rb * sin (β - α) / (w1 + w2), by positivity, w2 / (w1 + w2), by positivity, ?_, ?_⟩
  · rw [div_le_one hW]; linarith
  · have hk : (w1 + w2) ≠ 0 := hW.ne'
    generalize hWd : w1 + w2 = W at *
    ext
    · simp only [polar_fst, Prod.fst_add, Prod.smul_fst, Prod.fst_sub, smul_eq_mul]
      field_simp
      rw [← hWd]
      linear_combination -(ra * rb) * key1
    · simp only [polar_snd, Prod.snd_add, Prod.smul_snd, Prod.snd_sub, smul_eq_mul]
      field_simp
      rw [← hWd]
      linear_combination -(ra * rb) * key2

/-- A ray meets an edge at most once, if the edge does not point to the centre. -/
theorem ray_edge_unique {c : Pt ℝ} {ra rb α β θ r s : ℝ} (ha : 0 < ra) (hb : 0 < rb) (h3 : α < β) (h4 : β < α + π)
    (h5 : OnSegment (polar c ra α) (polar c rb β) (polar c r θ))
    (h6 : OnSegment (polar c ra α) (polar c rb β) (polar c s θ)) : r = s := by
  have hs : 0 < sin (β - α) := sin_pos_of_pos_of_lt_pi (by linarith) (by linarith)
  have hx : 0 < ra * rb * sin (β - α) := by positivity
  rw [sin_sub] at hx
  obtain ⟨t, _, _, e⟩ := h5
  obtain ⟨u, _, _, e'⟩ := h6
  have e1 := congrArg Prod.fst e
  have e2 := congrArg Prod.snd e
  have e3 := congrArg Prod.fst e'
  have e4 := congrArg Prod.snd e'
  simp only [polar_fst, polar_snd, Prod.fst_add, Prod.smul_fst, Prod.fst_sub, smul_eq_mul, Prod.snd_add,
    Prod.smul_snd, Prod.snd_sub] at e1 e2 e3 e4
  by_contra hne
  have hd : r - s ≠ 0 := sub_ne_zero.2 hne
  -- the direction of the ray is that of the edge
  have hdir : (rb * cos β - ra * cos α) * sin θ - (rb * sin β - ra * sin α) * cos θ = 0 := by
    have : (r - s) * ((rb * cos β - ra * cos α) * sin θ - (rb * sin β - ra * sin α) * cos θ) = 0 := by
      linear_combination (rb * cos β - ra * cos α) * (e2 - e4) - (rb * sin β - ra * sin α) * (e1 - e3)
    exact (mul_eq_zero.1 this).resolve_left hd
  have : ra * rb * (sin β * cos α - cos β * sin α) = 0 := by
    linear_combination (rb * cos β - ra * cos α) * e2 - (rb * sin β - ra * sin α) * e1 - r * hdir
  linarith

/-- The centre is not on an edge. -/
theorem centre_not_on_edge {c : Pt ℝ} {ra rb α β : ℝ} (ha : 0 < ra) (hb : 0 < rb) (h3 : α < β) (h4 : β < α + π)
    : ¬ OnSegment (polar c ra α) (polar c rb β) c := by
  intro h5
  have h6 : OnSegment (polar c ra α) (polar c rb β) (polar c 0 α) := by rwa [polar_zero]
  have h7 : OnSegment (polar c ra α) (polar c rb β) (polar c ra α) := ⟨0, le_rfl, zero_le_one, by simp⟩
  exact ha.ne (ray_edge_unique ha hb h3 h4 h6 h7)

/-! ## The whole ring -/

theorem corner_length (v : List (Pt ℝ)) : corner v v.length = corner v 0 := by
  simp [corner]

/-- A star-shaped ring in polar form. -/
theorem starAbout_polar {c : Pt ℝ} {v : List (Pt ℝ)} (h : StarAbout c v) :
    ∃ (φ r : ℕ → ℝ), (∀ i ≤ v.length, 0 < r i ∧ corner v i = polar c (r i) (φ i)) ∧
      (∀ i < v.length, φ i < φ (i + 1) ∧ φ (i + 1) < φ i + π) ∧ φ v.length = φ 0 + 2 * π ∧ 0 < v.length := by
  obtain ⟨φ, h1, h2, h3⟩ := h
  have hpos : 0 < v.length := by
    rcases Nat.eq_zero_or_pos v.length with h | h
    · rw [h] at h3; linarith [pi_pos]
    · exact h
  have key : ∀ i, ∃ r, i ≤ v.length → 0 < r ∧ corner v i = polar c r (φ i) := by
    intro i
    by_cases hi : i < v.length
    · obtain ⟨r, hr, e⟩ := seenAt_pos (h1 i hi).1 (h1 i hi).2
      exact ⟨r, fun _ => ⟨hr, e⟩⟩
    · by_cases he : i = v.length
      · obtain ⟨r, hr, e⟩ := seenAt_pos (h1 0 hpos).1 (h1 0 hpos).2
        refine ⟨r, fun _ => ⟨hr, ?_⟩⟩
        rw [he, corner_length, e, h3]
        simp only [polar, cos_add_two_pi, sin_add_two_pi]
      · exact ⟨0, fun h => absurd h (by omega)⟩
  choose r hr using key
  exact ⟨φ, r, hr, h2, h3, hpos⟩

theorem mono_angles {φ : ℕ → ℝ} {n : ℕ} (h : ∀ i < n, φ i < φ (i + 1) ∧ φ (i + 1) < φ i + π) :
    ∀ j ≤ n, ∀ i < j, φ i < φ j := by
  intro j
  induction j with
  | zero => intro _ i hi; omega
  | succ j ih =>
    intro hj i hi
    have h1 := (h j (by omega)).1
    rcases Nat.lt_succ_iff_lt_or_eq.1 hi with h2 | rfl
    · exact (ih (by omega) i h2).trans h1
    · exact h1

theorem find_gap {φ : ℕ → ℝ} {t : ℝ} : ∀ {n : ℕ}, φ 0 ≤ t → t < φ n → ∃ i < n, φ i ≤ t ∧ t < φ (i + 1)
  | 0, h1, h2 => absurd h2 (not_lt.2 h1)
  | n + 1, h1, h2 => by
    by_cases h : t < φ n
    · obtain ⟨i, hi, h3⟩ := find_gap h1 h
      exact ⟨i, by omega, h3⟩
    · exact ⟨n, by omega, not_lt.1 h, h2⟩

/-- Every ray from the centre meets the ring. -/
theorem star_exists {c : Pt ℝ} {v : List (Pt ℝ)} (h : StarAbout c v) (θ : ℝ) :
    ∃ r, 0 < r ∧ OnRing v (polar c r θ) := by
  obtain ⟨φ, ρ, h1, h2, h3, hpos⟩ := starAbout_polar h
  -- shift into the range of the angles
  have hpi := pi_pos
  set k := ⌊(θ - φ 0) / (2 * π)⌋ with hk
  have hk1 : (k : ℝ) * (2 * π) ≤ θ - φ 0 := by
    have := Int.floor_le ((θ - φ 0) / (2 * π))
    rwa [le_div_iff₀ (by linarith)] at this
  have hk2 : θ - φ 0 < (k + 1) * (2 * π) := by
    have := Int.lt_floor_add_one ((θ - φ 0) / (2 * π))
    rwa [div_lt_iff₀ (by linarith)] at this
  obtain ⟨i, hi, h4, h5⟩ := find_gap (φ := φ) (t := θ - k * (2 * π)) (n := v.length) (by linarith) (by rw [h3]; linarith)
  obtain ⟨r, hr, hs⟩ := ray_hits_edge (c := c) (h1 i hi.le).1 (h1 (i + 1) hi).1 h4 h5.le (h2 i hi).1 (h2 i hi).2
  refine ⟨r, hr, i, hi, ?_⟩
  rw [(h1 i hi.le).2, (h1 (i + 1) hi).2]
  have : polar c r θ = polar c r (θ - k * (2 * π)) := by
    simp only [polar, cos_sub_int_mul_two_pi, sin_sub_int_mul_two_pi]
  rwa [this]

/-- A point of the ring, with its edge and an angle in the range of the edge. -/
theorem star_point {c : Pt ℝ} {v : List (Pt ℝ)} {φ ρ : ℕ → ℝ}
    (h1 : ∀ i ≤ v.length, 0 < ρ i ∧ corner v i = polar c (ρ i) (φ i))
    (h2 : ∀ i < v.length, φ i < φ (i + 1) ∧ φ (i + 1) < φ i + π) {r θ : ℝ} (hr : 0 ≤ r) (h : OnRing v (polar c r θ)) :
    0 < r ∧ ∃ i < v.length, ∃ k : ℤ, φ i ≤ θ + k * (2 * π) ∧ θ + k * (2 * π) ≤ φ (i + 1) ∧
      OnSegment (polar c (ρ i) (φ i)) (polar c (ρ (i + 1)) (φ (i + 1))) (polar c r (θ + k * (2 * π))) := by
  obtain ⟨i, hi, hs⟩ := h
  rw [(h1 i hi.le).2, (h1 (i + 1) hi).2] at hs
  have hr' : 0 < r := by
    rcases hr.eq_or_lt with rfl | h
    · rw [polar_zero] at hs
      exact absurd hs (centre_not_on_edge (h1 i hi.le).1 (h1 (i + 1) hi).1 (h2 i hi).1 (h2 i hi).2)
    · exact h
  refine ⟨hr', i, hi, ?_⟩
  obtain ⟨θ', h3, h4, h5⟩ := seenAt_segment (x := c) (α := φ i) (β := φ (i + 1)) ⟨_, (h1 i hi.le).1.le, rfl⟩
    ⟨_, (h1 (i + 1) hi).1.le, rfl⟩ (by rw [abs_le]; constructor <;> linarith [(h2 i hi).1, (h2 i hi).2, pi_pos]) hs
  rw [min_eq_left (h2 i hi).1.le] at h3
  rw [max_eq_right (h2 i hi).1.le] at h4
  obtain ⟨r', hr2, e⟩ := seenAt_pos h5 (polar_ne hr'.ne')
  obtain ⟨_, k, hk⟩ := polar_inj hr2 hr' e.symm
  refine ⟨k, by rw [← hk]; exact h3, by rw [← hk]; exact h4, ?_⟩
  have : polar c r (θ + k * (2 * π)) = polar c r θ := by
    simp only [polar, cos_add_int_mul_two_pi, sin_add_int_mul_two_pi]
  rwa [this]

/-- A ray from the centre meets the ring at most once. -/
theorem star_unique {c : Pt ℝ} {v : List (Pt ℝ)} (h : StarAbout c v) {θ r s : ℝ} (hr : 0 ≤ r) (hs : 0 ≤ s)
    (h5 : OnRing v (polar c r θ)) (h6 : OnRing v (polar c s θ)) : r = s := by
  obtain ⟨φ, ρ, h1, h2, h3, hpos⟩ := starAbout_polar h
  obtain ⟨hr', i, hi, k, a1, a2, a3⟩ := star_point h1 h2 hr h5
  obtain ⟨hs', j, hj, l, b1, b2, b3⟩ := star_point h1 h2 hs h6
  have hpi := pi_pos
  have hmono := mono_angles h2
  have hle : ∀ i ≤ v.length, ∀ j ≤ i, φ j ≤ φ i := by
    intro i hi j hj
    rcases hj.eq_or_lt with rfl | h
    · exact le_rfl
    · exact (hmono i hi j h).le
  -- at the first end of an edge the radius is that of the corner
  have hfirst : ∀ {i : ℕ} {r t : ℝ}, i < v.length → t = φ i →
      OnSegment (polar c (ρ i) (φ i)) (polar c (ρ (i + 1)) (φ (i + 1))) (polar c r t) → r = ρ i := by
    intro i r t hi ht hseg
    subst ht
    exact ray_edge_unique (h1 i hi.le).1 (h1 (i + 1) hi).1 (h2 i hi).1 (h2 i hi).2 hseg ⟨0, le_rfl, zero_le_one, by simp⟩
  have hsecond : ∀ {i : ℕ} {r t : ℝ}, i < v.length → t = φ (i + 1) →
      OnSegment (polar c (ρ i) (φ i)) (polar c (ρ (i + 1)) (φ (i + 1))) (polar c r t) → r = ρ (i + 1) := by
    intro i r t hi ht hseg
    subst ht
    exact ray_edge_unique (h1 i hi.le).1 (h1 (i + 1) hi).1 (h2 i hi).1 (h2 i hi).2 hseg ⟨1, zero_le_one, le_rfl, by simp⟩
  have hend : ρ v.length = ρ 0 := by
    have e := (h1 v.length le_rfl).2
    rw [corner_length, (h1 0 (Nat.zero_le _)).2] at e
    exact (polar_inj (h1 v.length le_rfl).1 (h1 0 (Nat.zero_le _)).1 e.symm).1
  -- the general case, without wrap-around
  have main : ∀ {i j : ℕ} {r s t : ℝ}, i < v.length → j < v.length → i ≤ j → φ i ≤ t → t ≤ φ (i + 1) → φ j ≤ t →
      t ≤ φ (j + 1) → OnSegment (polar c (ρ i) (φ i)) (polar c (ρ (i + 1)) (φ (i + 1))) (polar c r t) →
      OnSegment (polar c (ρ j) (φ j)) (polar c (ρ (j + 1)) (φ (j + 1))) (polar c s t) → r = s := by
    intro i j r s t hi hj hij c1 c2 c3 c4 c5 c6
    rcases hij.eq_or_lt with rfl | hlt
    · exact ray_edge_unique (h1 i hi.le).1 (h1 (i + 1) hi).1 (h2 i hi).1 (h2 i hi).2 c5 c6
    · have hm := hle j hj.le (i + 1) hlt
      have et : t = φ (i + 1) := by linarith
      have et' : t = φ j := by linarith
      have hji : j = i + 1 := by
        by_contra hne
        have := hmono j hj.le (i + 1) (by omega)
        linarith
      rw [hsecond hi et c5, hfirst hj et' c6, hji]
  have lo : ∀ {i : ℕ}, i < v.length → φ 0 ≤ φ i := fun hi => hle _ hi.le 0 (Nat.zero_le _)
  have hi' : ∀ {i : ℕ}, i < v.length → φ (i + 1) ≤ φ 0 + 2 * π := fun hi => by rw [← h3]; exact hle _ le_rfl _ hi
  have wrap : ∀ {i j : ℕ} {r s t : ℝ}, i < v.length → j < v.length → φ i ≤ t → φ j ≤ t + 2 * π → t + 2 * π ≤ φ (j + 1) →
      OnSegment (polar c (ρ i) (φ i)) (polar c (ρ (i + 1)) (φ (i + 1))) (polar c r t) →
      OnSegment (polar c (ρ j) (φ j)) (polar c (ρ (j + 1)) (φ (j + 1))) (polar c s (t + 2 * π)) → r = s := by
    intro i j r s t hi hj c1 c3 c4 c5 c6
    have t0 : t = φ 0 := by linarith [lo hi, hi' hj]
    have ei : i = 0 := by
      by_contra hne
      have := hmono i hi.le 0 (by omega)
      linarith
    have ej : j + 1 = v.length := by
      by_contra hne
      have := hmono v.length le_rfl (j + 1) (by omega)
      linarith
    rw [hsecond hj (by rw [ej, h3, t0]) c6, ej, hend]
    subst ei
    exact hfirst hi t0 c5
  have hdiff : ∀ {a b : ℤ}, θ + a * (2 * π) ≤ φ 0 + 2 * π → φ 0 ≤ θ + b * (2 * π) → a ≤ b + 1 := by
    intro a b ha hb
    have : ((a - b : ℤ) : ℝ) * (2 * π) ≤ 1 * (2 * π) := by push_cast; linarith
    have := le_of_mul_le_mul_right this (by linarith)
    have : a - b ≤ 1 := by exact_mod_cast this
    omega
  have d1 := hdiff (a := k) (b := l) (a2.trans (hi' hi)) ((lo hj).trans b1)
  have d2 := hdiff (a := l) (b := k) (b2.trans (hi' hj)) ((lo hi).trans a1)
  have cases3 : k = l ∨ l = k + 1 ∨ k = l + 1 := by omega
  rcases cases3 with rfl | rfl | rfl
  · rcases le_total i j with hij | hij
    · exact main hi hj hij a1 a2 b1 b2 a3 b3
    · exact (main hj hi hij b1 b2 a1 a2 b3 a3).symm
  · have e : θ + ((k + 1 : ℤ) : ℝ) * (2 * π) = θ + k * (2 * π) + 2 * π := by push_cast; ring
    rw [e] at b1 b2 b3
    exact wrap hi hj a1 b1 b2 a3 b3
  · have e : θ + ((l + 1 : ℤ) : ℝ) * (2 * π) = θ + l * (2 * π) + 2 * π := by push_cast; ring
    rw [e] at a1 a2 a3
    exact (wrap hj hi b1 a1 a2 b3 a3).symm

end Starworlds
