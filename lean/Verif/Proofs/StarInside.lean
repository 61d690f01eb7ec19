import Verif.Proofs.StarRing
import Verif.Proofs.KernelVisible
import Mathlib.Data.ZMod.Basic
import Mathlib.Algebra.BigOperators.Group.Finset.Basic
import Mathlib.Topology.Order.Basic
import Mathlib.Topology.Algebra.Order.Field
import Mathlib.Tactic.Module

/-! # The interior of a star-shaped polygon: even-odd rule and rays from the centre -/

namespace Starworlds

open Real Spec

theorem rayCrosses_signs {a b p : Pt ℝ} : RayCrosses a b p ↔
    (a.2 - p.2 ≤ 0 ∧ 0 < b.2 - p.2 ∧ 0 < cross (b - a) (p - a)) ∨
      (b.2 - p.2 ≤ 0 ∧ 0 < a.2 - p.2 ∧ cross (b - a) (p - a) < 0) := by
  have e : ∀ a b : Pt ℝ, cross (b - a) (p - a) = (b.1 - a.1) * (p.2 - a.2) - (b.2 - a.2) * (p.1 - a.1) := by
    intro a b; simp [cross]
  rcases lt_trichotomy a.2 b.2 with h | h | h
  · rw [rayCrosses_up h, e]
    constructor
    · rintro ⟨h1, h2, h3⟩; left; exact ⟨by linarith, by linarith, h3⟩
    · rintro (⟨h1, h2, h3⟩ | ⟨h1, h2, h3⟩)
      · exact ⟨by linarith, by linarith, h3⟩
      · linarith
  · constructor
    · rintro ⟨h1 | h1, _⟩ <;> linarith [h1.1, h1.2]
    · rintro (⟨h1, h2, h3⟩ | ⟨h1, h2, h3⟩) <;> linarith
  · rw [rayCrosses_swap, rayCrosses_up h, e]
    constructor
    · rintro ⟨h1, h2, h3⟩; right; exact ⟨by linarith, by linarith, by nlinarith⟩
    · rintro (⟨h1, h2, h3⟩ | ⟨h1, h2, h3⟩)
      · linarith
      · exact ⟨by linarith, by linarith, by nlinarith⟩

open scoped Classical in
/-- Even-odd rule for a triangle, in terms of the three signed areas and the heights. -/
theorem triangle_signs {o1 o2 o3 A B C : ℝ} (h1 : o1 ≠ 0) (h2 : o2 ≠ 0) (hD : 0 < o1 + o2 + o3)
    (hid : o2 * A + o1 * B + o3 * C = 0) (h3 : o3 = 0 → ¬ (0 < o1 ∧ 0 < o2))
    (hne : ¬ (A = 0 ∧ B = 0 ∧ C = 0)) :
    ((if (A ≤ 0 ∧ 0 < B ∧ 0 < o3) ∨ (B ≤ 0 ∧ 0 < A ∧ o3 < 0) then 1 else 0) +
      ((if (C ≤ 0 ∧ 0 < A ∧ 0 < o1) ∨ (A ≤ 0 ∧ 0 < C ∧ o1 < 0) then 1 else 0) +
        (if (C ≤ 0 ∧ 0 < B ∧ 0 < -o2) ∨ (B ≤ 0 ∧ 0 < C ∧ -o2 < 0) then 1 else 0)) : ZMod 2) =
      if 0 < o1 ∧ 0 < o2 ∧ 0 < o3 then 1 else 0 := by
  have hz : (1 + 1 : ZMod 2) = 0 := by decide
  rcases lt_or_gt_of_ne h1 with s1 | s1 <;> rcases lt_or_gt_of_ne h2 with s2 | s2 <;>
    rcases lt_trichotomy o3 0 with s3 | s3 | s3 <;> rcases le_or_gt A 0 with a | a <;> rcases le_or_gt B 0 with b | b <;>
    rcases le_or_gt C 0 with c | c <;>
    first
    | (exfalso; linarith)
    | (simp [s1, s2, s3, a, b, c, not_lt.2 s1.le, not_lt.2 s2.le, not_lt.2 s3.le, not_le.2, not_lt.2, hz]; done)
    | (simp [s1, s2, s3, a, b, c, not_lt.2 s1.le, not_lt.2 s2.le, not_le.2, not_lt.2, hz]; done)
    | (exfalso; nlinarith)
    | (exfalso; exact h3 s3 ⟨s1, s2⟩)
    | (exfalso; exact hne ⟨by nlinarith [mul_nonpos_of_nonneg_of_nonpos s1.le b, mul_nonpos_of_nonneg_of_nonpos s2.le a, mul_nonpos_of_nonneg_of_nonpos s3.le c], by nlinarith [mul_nonpos_of_nonneg_of_nonpos s1.le b, mul_nonpos_of_nonneg_of_nonpos s2.le a, mul_nonpos_of_nonneg_of_nonpos s3.le c], by nlinarith [mul_nonpos_of_nonneg_of_nonpos s1.le b, mul_nonpos_of_nonneg_of_nonpos s2.le a, mul_nonpos_of_nonneg_of_nonpos s3.le c]⟩)

open scoped Classical in
/-- Even-odd rule for the triangle `c, a, b`. -/
theorem triangle_parity {a b c p : Pt ℝ} (hD : 0 < cross (a - c) (b - c)) (h1 : cross (a - c) (p - c) ≠ 0)
    (h2 : cross (p - c) (b - c) ≠ 0)
    (h3 : cross (b - a) (p - a) = 0 → ¬ (0 < cross (a - c) (p - c) ∧ 0 < cross (p - c) (b - c))) :
    ((if RayCrosses a b p then 1 else 0) + ((if RayCrosses c a p then 1 else 0) + (if RayCrosses c b p then 1 else 0)) :
      ZMod 2) = if 0 < cross (a - c) (p - c) ∧ 0 < cross (p - c) (b - c) ∧ 0 < cross (b - a) (p - a) then 1 else 0 := by
  have e : cross (b - c) (p - c) = -cross (p - c) (b - c) := by simp only [cross]; ring
  simp only [rayCrosses_signs, e]
  refine triangle_signs h1 h2 ?_ ?_ h3 ?_
  · have : cross (a - c) (p - c) + cross (p - c) (b - c) + cross (b - a) (p - a) = cross (a - c) (b - c) := by
      simp [cross]; ring
    linarith
  · simp [cross]; ring
  · rintro ⟨hA, hB, hC⟩
    simp only [cross, Prod.fst_sub, Prod.snd_sub] at hD
    rw [show a.2 - c.2 = 0 by linarith, show b.2 - c.2 = 0 by linarith] at hD
    simp at hD

/-! ## Sectors -/

theorem cross_polar_about (c : Pt ℝ) (r s t u : ℝ) : cross (polar c r t - c) (polar c s u - c) = r * s * sin (u - t) := by
  simp only [cross, Prod.fst_sub, Prod.snd_sub, polar_fst, polar_snd, sin_sub]; ring

/-- The plane around `c` is divided into sectors, one for each edge. -/
structure Sectors (c : Pt ℝ) (v : List (Pt ℝ)) : Prop where
  pos : ∀ i < v.length, 0 < cross (corner v i - c) (corner v (i + 1) - c)
  cover : ∀ p, ∃ i < v.length, 0 ≤ cross (corner v i - c) (p - c) ∧ 0 ≤ cross (p - c) (corner v (i + 1) - c)
  unique : ∀ p, ∀ i < v.length, ∀ j < v.length, 0 < cross (corner v i - c) (p - c) →
    0 < cross (p - c) (corner v (i + 1) - c) → 0 < cross (corner v j - c) (p - c) →
    0 < cross (p - c) (corner v (j + 1) - c) → i = j

/-- The angle of a point in an open sector. -/
theorem sector_angle {α β θ : ℝ} (h3 : α < β) (h4 : β < α + π) (h1 : 0 < sin (θ - α)) (h2 : 0 < sin (β - θ)) :
    ∃ k : ℤ, α < θ + k * (2 * π) ∧ θ + k * (2 * π) < β := by
  have hpi := pi_pos
  set k := ⌊(θ - α + π) / (2 * π)⌋ with hk
  have hk1 : (k : ℝ) * (2 * π) ≤ θ - α + π := by
    have := Int.floor_le ((θ - α + π) / (2 * π))
    rwa [le_div_iff₀ (by linarith)] at this
  have hk2 : θ - α + π < (k + 1) * (2 * π) := by
    have := Int.lt_floor_add_one ((θ - α + π) / (2 * π))
    rwa [div_lt_iff₀ (by linarith)] at this
  have e1 : sin (θ - α) = sin (θ - k * (2 * π) - α) := by
    rw [show θ - k * (2 * π) - α = θ - α - k * (2 * π) by ring, sin_sub_int_mul_two_pi]
  have e2 : sin (β - θ) = sin (β - (θ - k * (2 * π))) := by
    rw [show β - (θ - k * (2 * π)) = β - θ + k * (2 * π) by ring, sin_add_int_mul_two_pi]
  rw [e1] at h1
  rw [e2] at h2
  have g1 : α < θ - k * (2 * π) := by
    by_contra h
    have := sin_nonpos_of_nonpos_of_neg_pi_le (x := θ - k * (2 * π) - α) (by linarith) (by linarith)
    linarith
  refine ⟨-k, by push_cast; linarith, ?_⟩
  push_cast
  by_contra h
  have := sin_nonpos_of_nonpos_of_neg_pi_le (x := β - (θ - k * (2 * π))) (by linarith) (by linarith)
  linarith

theorem star_sectors {c : Pt ℝ} {v : List (Pt ℝ)} (h : StarAbout c v) : Sectors c v := by
  obtain ⟨φ, ρ, h1, h2, h3, hpos⟩ := starAbout_polar h
  have hpi := pi_pos
  have hmono := mono_angles h2
  refine ⟨?_, ?_, ?_⟩
  · intro i hi
    rw [(h1 i hi.le).2, (h1 (i + 1) hi).2, cross_polar_about]
    have := sin_pos_of_pos_of_lt_pi (x := φ (i + 1) - φ i) (by linarith [(h2 i hi).1]) (by linarith [(h2 i hi).2])
    exact mul_pos (mul_pos (h1 i hi.le).1 (h1 (i + 1) hi).1) this
  · intro p
    obtain ⟨r, hr, hp⟩ := seenAt_rawAngle c p
    change p = polar c r (rawAngle c p) at hp
    set θ := rawAngle c p
    obtain ⟨k, hk1, hk2⟩ : ∃ k : ℤ, φ 0 ≤ θ - k * (2 * π) ∧ θ - k * (2 * π) < φ 0 + 2 * π := by
      refine ⟨⌊(θ - φ 0) / (2 * π)⌋, ?_, ?_⟩
      · have := Int.floor_le ((θ - φ 0) / (2 * π))
        rw [le_div_iff₀ (by linarith)] at this
        linarith
      · have := Int.lt_floor_add_one ((θ - φ 0) / (2 * π))
        rw [div_lt_iff₀ (by linarith)] at this
        linarith
    obtain ⟨i, hi, h4, h5⟩ := find_gap (φ := φ) (t := θ - k * (2 * π)) (n := v.length) hk1 (by rw [h3]; linarith)
    have hp' : p = polar c r (θ - k * (2 * π)) := by
      rw [hp]; simp only [polar, cos_sub_int_mul_two_pi, sin_sub_int_mul_two_pi]
    refine ⟨i, hi, ?_, ?_⟩
    · rw [hp', (h1 i hi.le).2, cross_polar_about]
      exact mul_nonneg (mul_nonneg (h1 i hi.le).1.le hr) (sin_nonneg_of_nonneg_of_le_pi (by linarith)
        (by linarith [(h2 i hi).2]))
    · rw [hp', (h1 (i + 1) hi).2, cross_polar_about]
      exact mul_nonneg (mul_nonneg hr (h1 (i + 1) hi).1.le) (sin_nonneg_of_nonneg_of_le_pi (by linarith)
        (by linarith [(h2 i hi).2]))
  · intro p i hi j hj a1 a2 b1 b2
    obtain ⟨r, hr, hp⟩ := seenAt_rawAngle c p
    change p = polar c r (rawAngle c p) at hp
    set θ := rawAngle c p
    rw [hp, (h1 i hi.le).2, cross_polar_about] at a1
    rw [hp, (h1 (i + 1) hi).2, cross_polar_about] at a2
    rw [hp, (h1 j hj.le).2, cross_polar_about] at b1
    rw [hp, (h1 (j + 1) hj).2, cross_polar_about] at b2
    have s1 : 0 < sin (θ - φ i) := pos_of_mul_pos_right a1 (mul_nonneg (h1 i hi.le).1.le hr)
    have s2 : 0 < sin (φ (i + 1) - θ) := pos_of_mul_pos_right a2 (mul_nonneg hr (h1 (i + 1) hi).1.le)
    have s3 : 0 < sin (θ - φ j) := pos_of_mul_pos_right b1 (mul_nonneg (h1 j hj.le).1.le hr)
    have s4 : 0 < sin (φ (j + 1) - θ) := pos_of_mul_pos_right b2 (mul_nonneg hr (h1 (j + 1) hj).1.le)
    obtain ⟨k, k1, k2⟩ := sector_angle (h2 i hi).1 (h2 i hi).2 s1 s2
    obtain ⟨l, l1, l2⟩ := sector_angle (h2 j hj).1 (h2 j hj).2 s3 s4
    have hlo : ∀ i < v.length, φ 0 ≤ φ i := by
      intro i hi
      rcases Nat.eq_zero_or_pos i with rfl | h
      · exact le_rfl
      · exact (hmono i hi.le 0 h).le
    have hhi : ∀ i < v.length, φ (i + 1) ≤ φ 0 + 2 * π := by
      intro i hi
      rw [← h3]
      rcases Nat.lt_or_ge (i + 1) v.length with h | h
      · exact (hmono _ le_rfl _ h).le
      · rw [show i + 1 = v.length by omega]
    have e : k = l := by
      have f1 : ((k - l : ℤ) : ℝ) < 1 := by
        push_cast
        have := hlo j hj; have := hhi i hi
        by_contra hh
        nlinarith
      have f2 : ((l - k : ℤ) : ℝ) < 1 := by
        push_cast
        have := hlo i hi; have := hhi j hj
        by_contra hh
        nlinarith
      have f1' : k - l < 1 := by exact_mod_cast f1
      have f2' : l - k < 1 := by exact_mod_cast f2
      omega
    subst e
    by_contra hne
    rcases Nat.lt_or_gt_of_ne hne with h | h
    · have : φ (i + 1) ≤ φ j := by
        rcases Nat.lt_or_ge (i + 1) j with h' | h'
        · exact (hmono j hj.le _ h').le
        · rw [show i + 1 = j by omega]
      linarith
    · have : φ (j + 1) ≤ φ i := by
        rcases Nat.lt_or_ge (j + 1) i with h' | h'
        · exact (hmono i hi.le _ h').le
        · rw [show j + 1 = i by omega]
      linarith

/-! ## Counting -/

open scoped Classical in
theorem count_zmod (n : ℕ) (P : ℕ → Prop) :
    ((((List.range n).filter fun i => decide (P i)).length : ℕ) : ZMod 2) = ∑ i ∈ Finset.range n, if P i then 1 else 0 := by
  induction n with
  | zero => simp
  | succ n ih =>
    rw [List.range_succ, List.filter_append, List.length_append, Nat.cast_add, ih, Finset.sum_range_succ]
    by_cases h : P n <;> simp [h]

theorem odd_zmod (k : ℕ) : k % 2 = 1 ↔ (k : ZMod 2) = 1 := by
  rw [show (1 : ZMod 2) = ((1 : ℕ) : ZMod 2) by simp, ZMod.natCast_eq_natCast_iff']

theorem sum_steps (s : ℕ → ZMod 2) (n : ℕ) : ∑ i ∈ Finset.range n, (s i + s (i + 1)) = s 0 + s n := by
  have two : ∀ x : ZMod 2, x + x = 0 := by decide
  induction n with
  | zero => simp [two]
  | succ n ih =>
    rw [Finset.sum_range_succ, ih]
    have := two (s n)
    linear_combination this

open scoped Classical in
/-- The parity of the crossings for a point in the open sector of edge `j`. -/
theorem sector_parity {c : Pt ℝ} {v : List (Pt ℝ)} (hS : Sectors c v) {p : Pt ℝ} {j : ℕ} (hj : j < v.length)
    (hoff : ∀ i ≤ v.length, cross (corner v i - c) (p - c) ≠ 0) (h1 : 0 < cross (corner v j - c) (p - c))
    (h2 : 0 < cross (p - c) (corner v (j + 1) - c)) (h3 : cross (corner v (j + 1) - corner v j) (p - corner v j) ≠ 0) :
    ((List.range v.length).filter fun i => decide (RayCrosses (corner v i) (corner v (i + 1)) p)).length % 2 = 1 ↔
      0 < cross (corner v (j + 1) - corner v j) (p - corner v j) := by
  rw [odd_zmod, count_zmod]
  have hsum : ∑ i ∈ Finset.range v.length, (if RayCrosses (corner v i) (corner v (i + 1)) p then (1 : ZMod 2) else 0) =
      ∑ i ∈ Finset.range v.length, if 0 < cross (corner v i - c) (p - c) ∧ 0 < cross (p - c) (corner v (i + 1) - c) ∧
        0 < cross (corner v (i + 1) - corner v i) (p - corner v i) then (1 : ZMod 2) else 0 := by
    have two : ∀ x : ZMod 2, x + x = 0 := by decide
    have hs := sum_steps (fun i => if RayCrosses c (corner v i) p then (1 : ZMod 2) else 0) v.length
    simp only [corner_length, two] at hs
    refine (add_zero _).symm.trans ?_
    refine (congrArg (_ + ·) hs.symm).trans ?_
    refine (Finset.sum_add_distrib).symm.trans ?_
    refine Finset.sum_congr rfl fun i hi => ?_
    have hi' : i < v.length := Finset.mem_range.1 hi
    have hneg : cross (p - c) (corner v (i + 1) - c) ≠ 0 := by
      have := hoff (i + 1) hi'
      rw [show cross (p - c) (corner v (i + 1) - c) = -cross (corner v (i + 1) - c) (p - c) by simp only [cross]; ring]
      exact neg_ne_zero.2 this
    refine triangle_parity (hS.pos i hi') (hoff i hi'.le) hneg ?_
    rintro h ⟨g1, g2⟩
    have : i = j := hS.unique p i hi' j hj g1 g2 h1 h2
    subst this
    exact h3 h
  rw [hsum]
  have hone : (∑ i ∈ Finset.range v.length, if 0 < cross (corner v i - c) (p - c) ∧ 0 < cross (p - c) (corner v (i + 1) - c) ∧
      0 < cross (corner v (i + 1) - corner v i) (p - corner v i) then (1 : ZMod 2) else 0) =
      if 0 < cross (corner v (j + 1) - corner v j) (p - corner v j) then 1 else 0 := by
    rw [Finset.sum_eq_single j]
    · simp [h1, h2]
    · intro i hi hne
      rw [if_neg]
      rintro ⟨g1, g2, -⟩
      exact hne (hS.unique p i (Finset.mem_range.1 hi) j hj g1 g2 h1 h2)
    · intro h
      exact absurd (Finset.mem_range.2 hj) h
  rw [hone]
  split <;> simp [*]

/-- Coordinates in the sector of the edge from `a` to `b`. -/
theorem sector_coords {a b c p : Pt ℝ} (hD : 0 < cross (a - c) (b - c)) :
    p = c + (cross (p - c) (b - c) / cross (a - c) (b - c)) • (a - c) +
      (cross (a - c) (p - c) / cross (a - c) (b - c)) • (b - c) := by
  obtain ⟨D, hDe⟩ : ∃ D, cross (a - c) (b - c) = D := ⟨_, rfl⟩
  rw [hDe] at hD ⊢
  have hD' := hD.ne'
  ext
  · simp only [Prod.fst_add, Prod.smul_fst, Prod.fst_sub, smul_eq_mul]
    field_simp
    rw [← hDe]
    simp [cross]
    ring
  · simp only [Prod.snd_add, Prod.smul_snd, Prod.snd_sub, smul_eq_mul]
    field_simp
    rw [← hDe]
    simp [cross]
    ring

theorem areas_add (a b c p : Pt ℝ) :
    cross (a - c) (p - c) + cross (p - c) (b - c) + cross (b - a) (p - a) = cross (a - c) (b - c) := by
  simp [cross]; ring

theorem on_edge_of {a b c p : Pt ℝ} (hD : 0 < cross (a - c) (b - c)) (h1 : 0 ≤ cross (a - c) (p - c))
    (h2 : 0 ≤ cross (p - c) (b - c)) (h0 : cross (b - a) (p - a) = 0) : OnSegment a b p := by
  have hs := areas_add a b c p
  refine ⟨cross (a - c) (p - c) / cross (a - c) (b - c), div_nonneg h1 hD.le, ?_, ?_⟩
  · rw [div_le_one hD]; linarith
  · have e : cross (p - c) (b - c) / cross (a - c) (b - c) = 1 - cross (a - c) (p - c) / cross (a - c) (b - c) := by
      field_simp; linarith
    conv_lhs => rw [sector_coords hD (p := p), e]
    module

/-! ## Moving the point a little -/

open Filter Topology

theorem ev_pos {A : ℝ} (B : ℝ) (h : 0 < A) : ∀ᶠ ε in 𝓝[>] (0 : ℝ), 0 < A + ε * B := by
  have : Tendsto (fun ε : ℝ => A + ε * B) (𝓝[>] 0) (𝓝 (A + 0 * B)) :=
    tendsto_nhdsWithin_of_tendsto_nhds ((continuous_const.add (continuous_id.mul continuous_const)).tendsto 0)
  exact this.eventually (lt_mem_nhds (by simpa using h))

theorem ev_neg {A : ℝ} (B : ℝ) (h : A < 0) : ∀ᶠ ε in 𝓝[>] (0 : ℝ), A + ε * B < 0 := by
  filter_upwards [ev_pos (-B) (neg_pos.2 h)] with ε hε
  linarith

theorem ev_ne {A B : ℝ} (h : B ≠ 0) : ∀ᶠ ε in 𝓝[>] (0 : ℝ), A + ε * B ≠ 0 := by
  rcases lt_trichotomy A 0 with hA | hA | hA
  · filter_upwards [ev_neg B hA] with ε hε; exact hε.ne
  · filter_upwards [self_mem_nhdsWithin] with ε hε
    rw [hA, zero_add]
    exact mul_ne_zero (ne_of_gt hε) h
  · filter_upwards [ev_pos B hA] with ε hε; exact hε.ne'

theorem ev_sign (A B : ℝ) : ∀ᶠ ε in 𝓝[>] (0 : ℝ), (0 < A → 0 < A + ε * B) ∧ (A < 0 → A + ε * B < 0) := by
  rcases lt_trichotomy A 0 with hA | hA | hA
  · filter_upwards [ev_neg B hA] with ε hε; exact ⟨fun h => absurd h (by linarith), fun _ => hε⟩
  · exact Eventually.of_forall fun ε => ⟨fun h => absurd h (by linarith), fun h => absurd h (by linarith)⟩
  · filter_upwards [ev_pos B hA] with ε hε; exact ⟨fun _ => hε, fun h => absurd h (by linarith)⟩

theorem cross_move (u p d x : Pt ℝ) (ε : ℝ) : cross u (p + ε • d - x) = cross u (p - x) + ε * cross u d := by
  simp [cross]; ring

/-- Off an edge, a small step that does not lead down does not change whether the ray crosses it. -/
theorem ev_crosses {a b p : Pt ℝ} (h : ¬ OnSegment a b p) {d : Pt ℝ} (hd : 0 ≤ d.2) :
    ∀ᶠ ε in 𝓝[>] (0 : ℝ), (RayCrosses a b (p + ε • d) ↔ RayCrosses a b p) := by
  filter_upwards [ev_sign (a.2 - p.2) (-d.2), ev_sign (b.2 - p.2) (-d.2), ev_sign (cross (b - a) (p - a)) (cross (b - a) d),
    self_mem_nhdsWithin] with ε h1 h2 h3 h4
  have hε : 0 < ε := h4
  rw [rayCrosses_signs, rayCrosses_signs, cross_move]
  have e1 : a.2 - (p + ε • d).2 = a.2 - p.2 + ε * -d.2 := by simp; ring
  have e2 : b.2 - (p + ε • d).2 = b.2 - p.2 + ε * -d.2 := by simp; ring
  rw [e1, e2]
  have hm : ε * -d.2 ≤ 0 := by nlinarith
  have k1 : a.2 - p.2 + ε * -d.2 ≤ 0 ↔ a.2 - p.2 ≤ 0 := by
    constructor
    · intro g; by_contra g'; linarith [h1.1 (not_le.1 g')]
    · intro g; linarith
  have k2 : b.2 - p.2 + ε * -d.2 ≤ 0 ↔ b.2 - p.2 ≤ 0 := by
    constructor
    · intro g; by_contra g'; linarith [h2.1 (not_le.1 g')]
    · intro g; linarith
  have k1' : 0 < a.2 - p.2 + ε * -d.2 ↔ 0 < a.2 - p.2 := by rw [← not_le, k1, not_le]
  have k2' : 0 < b.2 - p.2 + ε * -d.2 ↔ 0 < b.2 - p.2 := by rw [← not_le, k2, not_le]
  rw [k1, k2, k1', k2']
  have ee : ∀ a b : Pt ℝ, cross (b - a) (p - a) = (b.1 - a.1) * (p.2 - a.2) - (b.2 - a.2) * (p.1 - a.1) := by
    intro a b; simp [cross]
  rcases lt_trichotomy (cross (b - a) (p - a)) 0 with g | g | g
  · have := h3.2 g
    simp [g, this, not_lt.2 g.le, not_lt.2 this.le]
  · have n1 : ¬ (a.2 - p.2 ≤ 0 ∧ 0 < b.2 - p.2) := by
      rintro ⟨q1, q2⟩
      refine h ((onSegment_up (by linarith)).2 ⟨by linarith, by linarith, ?_⟩)
      rw [← ee, g]
    have n2 : ¬ (b.2 - p.2 ≤ 0 ∧ 0 < a.2 - p.2) := by
      rintro ⟨q1, q2⟩
      refine h (onSegment_swap.1 ((onSegment_up (by linarith)).2 ⟨by linarith, by linarith, ?_⟩))
      rw [ee] at g
      linarith
    constructor
    · rintro (⟨q1, q2, -⟩ | ⟨q1, q2, -⟩)
      · exact absurd ⟨q1, q2⟩ n1
      · exact absurd ⟨q1, q2⟩ n2
    · rintro (⟨q1, q2, -⟩ | ⟨q1, q2, -⟩)
      · exact absurd ⟨q1, q2⟩ n1
      · exact absurd ⟨q1, q2⟩ n2
  · have := h3.1 g
    simp [g, this, not_lt.2 g.le, not_lt.2 this.le]

/-- There is a direction that leads up and is not parallel to any of finitely many vectors. -/
theorem generic_direction (n : ℕ) (u : ℕ → Pt ℝ) (h : ∀ i < n, u i ≠ 0) : ∃ d : Pt ℝ, 0 ≤ d.2 ∧ ∀ i < n, cross (u i) d ≠ 0 := by
  obtain ⟨η, hη⟩ := Infinite.exists_notMem_finset ((Finset.range n).image fun i => (u i).1 / (u i).2)
  refine ⟨(η, 1), zero_le_one, fun i hi h0 => ?_⟩
  simp only [cross, mul_one] at h0
  by_cases hy : (u i).2 = 0
  · rw [hy] at h0
    exact h i hi (Prod.ext (by simpa using h0) hy)
  · apply hη
    rw [Finset.mem_image]
    refine ⟨i, Finset.mem_range.2 hi, ?_⟩
    rw [div_eq_iff hy]
    linarith

/-- A point off the ring lies in the sector of an edge, and is in the interior iff it is to the left of it. -/
theorem star_sector_inside {c : Pt ℝ} {v : List (Pt ℝ)} (h : StarAbout c v) {p : Pt ℝ} (hp : ¬ OnRing v p) :
    ∃ j < v.length, 0 ≤ cross (corner v j - c) (p - c) ∧ 0 ≤ cross (p - c) (corner v (j + 1) - c) ∧
      (Inside v p ↔ 0 < cross (corner v (j + 1) - corner v j) (p - corner v j)) := by
  classical
  have hS := star_sectors h
  have hne : ∀ i < v.length, corner v i - c ≠ 0 := by
    intro i hi h0
    have := hS.pos i hi
    rw [h0] at this
    simp [cross] at this
  have hpos : 0 < v.length := (starAbout_polar h).choose_spec.choose_spec.2.2.2
  obtain ⟨d, hd, hgen⟩ := generic_direction v.length (fun i => corner v i - c) hne
  have E1 : ∀ᶠ ε in 𝓝[>] (0 : ℝ), ∀ i ∈ Finset.range v.length,
      (RayCrosses (corner v i) (corner v (i + 1)) (p + ε • d) ↔ RayCrosses (corner v i) (corner v (i + 1)) p) := by
    rw [Filter.eventually_all_finset]
    intro i hi
    exact ev_crosses (fun hs => hp ⟨i, Finset.mem_range.1 hi, hs⟩) hd
  have E2 : ∀ᶠ ε in 𝓝[>] (0 : ℝ), ∀ i ∈ Finset.range v.length, cross (corner v i - c) (p + ε • d - c) ≠ 0 := by
    rw [Filter.eventually_all_finset]
    intro i hi
    simp only [cross_move]
    exact ev_ne (hgen i (Finset.mem_range.1 hi))
  have E3 : ∀ᶠ ε in 𝓝[>] (0 : ℝ), ∀ i ∈ Finset.range v.length, (0 < cross (corner v i - c) (p - c) →
      0 < cross (corner v i - c) (p + ε • d - c)) ∧ (cross (corner v i - c) (p - c) < 0 →
      cross (corner v i - c) (p + ε • d - c) < 0) := by
    rw [Filter.eventually_all_finset]
    intro i hi
    simp only [cross_move]
    exact ev_sign _ _
  have E4 : ∀ᶠ ε in 𝓝[>] (0 : ℝ), ∀ i ∈ Finset.range v.length,
      (0 < cross (corner v (i + 1) - corner v i) (p - corner v i) →
        0 < cross (corner v (i + 1) - corner v i) (p + ε • d - corner v i)) ∧
      (cross (corner v (i + 1) - corner v i) (p - corner v i) < 0 →
        cross (corner v (i + 1) - corner v i) (p + ε • d - corner v i) < 0) := by
    rw [Filter.eventually_all_finset]
    intro i hi
    simp only [cross_move]
    exact ev_sign _ _
  obtain ⟨ε, ⟨⟨h1, h2⟩, h3⟩, h4⟩ := (((E1.and E2).and E3).and E4).exists
  have h2' : ∀ i ≤ v.length, cross (corner v i - c) (p + ε • d - c) ≠ 0 := by
    intro i hi
    rcases Nat.lt_or_ge i v.length with hi' | hi'
    · exact h2 i (Finset.mem_range.2 hi')
    · rw [show i = v.length by omega, corner_length]
      exact h2 0 (Finset.mem_range.2 hpos)
  have h3' : ∀ i ≤ v.length, (0 < cross (corner v i - c) (p - c) →
      0 < cross (corner v i - c) (p + ε • d - c)) ∧ (cross (corner v i - c) (p - c) < 0 →
      cross (corner v i - c) (p + ε • d - c) < 0) := by
    intro i hi
    rcases Nat.lt_or_ge i v.length with hi' | hi'
    · exact h3 i (Finset.mem_range.2 hi')
    · rw [show i = v.length by omega, corner_length]
      exact h3 0 (Finset.mem_range.2 hpos)
  have anti : ∀ x y : Pt ℝ, cross x y = -cross y x := by intro x y; simp only [cross]; ring
  obtain ⟨j, hj, q1, q2⟩ := hS.cover (p + ε • d)
  have q1' : 0 < cross (corner v j - c) (p + ε • d - c) := lt_of_le_of_ne q1 (h2' j hj.le).symm
  have q2' : 0 < cross (p + ε • d - c) (corner v (j + 1) - c) := by
    refine lt_of_le_of_ne q2 fun h0 => h2' (j + 1) hj ?_
    rw [anti, ← h0, neg_zero]
  have r1 : 0 ≤ cross (corner v j - c) (p - c) := by
    by_contra hh
    linarith [(h3' j hj.le).2 (not_le.1 hh)]
  have r2 : 0 ≤ cross (p - c) (corner v (j + 1) - c) := by
    by_contra hh
    rw [anti] at hh q2'
    linarith [(h3' (j + 1) hj).1 (by linarith)]
  have r3 : cross (corner v (j + 1) - corner v j) (p - corner v j) ≠ 0 := by
    intro h0
    apply hp
    exact ⟨j, hj, on_edge_of (hS.pos j hj) r1 r2 h0⟩
  have r4 := h4 j (Finset.mem_range.2 hj)
  have r3' : cross (corner v (j + 1) - corner v j) (p + ε • d - corner v j) ≠ 0 := by
    rcases lt_or_gt_of_ne r3 with g | g
    · exact (r4.2 g).ne
    · exact (r4.1 g).ne'
  have key := sector_parity hS hj h2' q1' q2' r3'
  have hcount : ((List.range v.length).filter fun i => decide (RayCrosses (corner v i) (corner v (i + 1)) (p + ε • d))) =
      (List.range v.length).filter fun i => decide (RayCrosses (corner v i) (corner v (i + 1)) p) := by
    refine List.filter_congr fun i hi => ?_
    have := h1 i (Finset.mem_range.2 (List.mem_range.1 hi))
    simp only [this]
  rw [hcount] at key
  refine ⟨j, hj, r1, r2, ?_⟩
  have : Inside v p ↔ 0 < cross (corner v (j + 1) - corner v j) (p + ε • d - corner v j) := by
    rw [← key]
    exact ⟨fun hh => hh.2, fun hh => ⟨hp, hh⟩⟩
  rw [this]
  constructor
  · intro g
    rcases lt_or_gt_of_ne r3 with g' | g'
    · linarith [r4.2 g']
    · exact g'
  · exact r4.1

end Starworlds
