import Verif.Proofs.StarCriterion
import Mathlib.Topology.Order.IntermediateValue

/-!
# Changing the centre

A polygon that is star-shaped about some point is star-shaped about every point that is to the left of all edges.
-/

namespace Starworlds

open Real Spec

/-- The angle from `a` to `b`, for `b` to the left of `a`. -/
noncomputable def stepAngle (a b : Pt ℝ) : ℝ := arccos (dot a b / (len a * len b))

theorem len_sq (a : Pt ℝ) : len a ^ 2 = dot a a := by
  rw [len, sq_sqrt (by simp only [normSq]; positivity)]
  simp only [normSq, dot]; ring

theorem len_pos_of_cross {a b : Pt ℝ} (h : 0 < cross a b) : 0 < len a ∧ 0 < len b := by
  constructor
  · refine (Real.sqrt_nonneg _).lt_of_ne fun h0 => ?_
    have := len_sq a
    rw [show len a = 0 from h0.symm] at this
    simp only [dot] at this
    have h1 : a.1 = 0 := by nlinarith [sq_nonneg a.1, sq_nonneg a.2]
    have h2 : a.2 = 0 := by nlinarith [sq_nonneg a.1, sq_nonneg a.2]
    simp [cross, h1, h2] at h
  · refine (Real.sqrt_nonneg _).lt_of_ne fun h0 => ?_
    have := len_sq b
    rw [show len b = 0 from h0.symm] at this
    simp only [dot] at this
    have h1 : b.1 = 0 := by nlinarith [sq_nonneg b.1, sq_nonneg b.2]
    have h2 : b.2 = 0 := by nlinarith [sq_nonneg b.1, sq_nonneg b.2]
    simp [cross, h1, h2] at h

theorem stepAngle_spec {a b : Pt ℝ} (h : 0 < cross a b) :
    0 < stepAngle a b ∧ stepAngle a b < π ∧ cos (stepAngle a b) = dot a b / (len a * len b) ∧
      sin (stepAngle a b) = cross a b / (len a * len b) := by
  obtain ⟨ha, hb⟩ := len_pos_of_cross h
  have hD : 0 < len a * len b := mul_pos ha hb
  have hl : dot a b ^ 2 + cross a b ^ 2 = (len a * len b) ^ 2 := by
    rw [mul_pow, len_sq, len_sq]; simp only [dot, cross]; ring
  obtain ⟨D, hDe⟩ : ∃ D, len a * len b = D := ⟨_, rfl⟩
  unfold stepAngle
  rw [hDe] at hl hD ⊢
  have h1 : dot a b < D := by nlinarith
  have h2 : -D < dot a b := by nlinarith
  have b1 : -1 < dot a b / D := by rw [lt_div_iff₀ hD]; linarith
  have b2 : dot a b / D < 1 := by rw [div_lt_one hD]; exact h1
  refine ⟨arccos_pos.mpr b2, ?_, cos_arccos b1.le b2.le, ?_⟩
  · refine (arccos_le_pi _).lt_of_ne fun h0 => ?_
    rw [arccos_eq_pi] at h0
    linarith
  · rw [sin_arccos, show 1 - (dot a b / D) ^ 2 = (cross a b / D) ^ 2 by
      field_simp; linarith, sqrt_sq (by positivity)]

theorem polar_step {a b : Pt ℝ} (h : 0 < cross a b) {φ : ℝ} (ha : a = polar 0 (len a) φ) :
    b = polar 0 (len b) (φ + stepAngle a b) := by
  obtain ⟨_, _, hc, hs⟩ := stepAngle_spec h
  obtain ⟨la, lb⟩ := len_pos_of_cross h
  have e1 := congrArg Prod.fst ha
  have e2 := congrArg Prod.snd ha
  have hl := len_sq a
  obtain ⟨A, hA⟩ : ∃ A, len a = A := ⟨_, rfl⟩
  obtain ⟨B, hB⟩ : ∃ B, len b = B := ⟨_, rfl⟩
  rw [hA] at la hl hc hs e1 e2
  rw [hB] at lb hc hs ⊢
  simp only [polar_fst, polar_snd, Prod.fst_zero, Prod.snd_zero, zero_add] at e1 e2
  have c1 : cos φ = a.1 / A := by rw [e1]; field_simp
  have c2 : sin φ = a.2 / A := by rw [e2]; field_simp
  simp only [dot] at hl
  apply Prod.ext
  · rw [polar_fst, cos_add, hc, hs, c1, c2]
    simp only [dot, cross, Prod.fst_zero, zero_add]
    field_simp
    linear_combination b.1 * hl
  · rw [polar_snd, sin_add, hc, hs, c1, c2]
    simp only [dot, cross, Prod.snd_zero, zero_add]
    field_simp
    linear_combination b.2 * hl

/-- The sum of the angles between consecutive corners as seen from `c`. -/
noncomputable def turning (c : Pt ℝ) (v : List (Pt ℝ)) : ℕ → ℝ
  | 0 => 0
  | i + 1 => turning c v i + stepAngle (corner v i - c) (corner v (i + 1) - c)

theorem turning_polar {c : Pt ℝ} {v : List (Pt ℝ)} (hpos : ∀ i < v.length, 0 < cross (corner v i - c) (corner v (i + 1) - c))
    {φ : ℝ} (h0 : corner v 0 - c = polar 0 (len (corner v 0 - c)) φ) :
    ∀ i ≤ v.length, corner v i - c = polar 0 (len (corner v i - c)) (φ + turning c v i)
  | 0, _ => by simpa [turning] using h0
  | i + 1, hi => by
    have := turning_polar hpos h0 i (by omega)
    rw [turning, ← add_assoc]
    exact polar_step (hpos i (by omega)) this

theorem len_polar (c : Pt ℝ) {r : ℝ} (hr : 0 ≤ r) (t : ℝ) : len (polar c r t - c) = r := by
  unfold len normSq
  rw [show (polar c r t - c).1 ^ 2 + (polar c r t - c).2 ^ 2 = r ^ 2 by
    simp only [Prod.fst_sub, Prod.snd_sub, polar_fst, polar_snd]
    linear_combination r ^ 2 * sin_sq_add_cos_sq t, sqrt_sq hr]

theorem polar_len {w : Pt ℝ} (hw : w ≠ 0) : w = polar 0 (len w) (rawAngle 0 w) := by
  obtain ⟨r, hr, e⟩ := seenAt_pos (seenAt_rawAngle 0 w) hw
  have : len w = r := by
    rw [e]
    have := len_polar (0 : Pt ℝ) hr.le (rawAngle 0 w)
    rw [sub_zero] at this
    exact this
  rw [this]; exact e

theorem turning_int {c : Pt ℝ} {v : List (Pt ℝ)} (hv : 0 < v.length)
    (hpos : ∀ i < v.length, 0 < cross (corner v i - c) (corner v (i + 1) - c)) :
    ∃ k : ℤ, turning c v v.length = k * (2 * π) := by
  have l0 := (len_pos_of_cross (hpos 0 hv)).1
  have hne : corner v 0 - c ≠ 0 := by
    intro h; rw [h] at l0; simp [len, normSq] at l0
  have h0 := polar_len hne
  have h1 := turning_polar hpos h0 v.length le_rfl
  rw [corner_length] at h1
  have e : polar 0 (len (corner v 0 - c)) (rawAngle 0 (corner v 0 - c)) =
    polar 0 (len (corner v 0 - c)) (rawAngle 0 (corner v 0 - c) + turning c v v.length) := h0.symm.trans h1
  have e1 := congrArg Prod.fst e
  have e2 := congrArg Prod.snd e
  simp only [polar_fst, polar_snd] at e1 e2
  set φ := rawAngle 0 (corner v 0 - c)
  have c1 : cos (φ + turning c v v.length) = cos φ := by
    have := add_left_cancel e1; exact (mul_left_cancel₀ l0.ne' this).symm
  have c2 : sin (φ + turning c v v.length) = sin φ := by
    have := add_left_cancel e2; exact (mul_left_cancel₀ l0.ne' this).symm
  have h2 : cos (turning c v v.length) = 1 := by
    have : turning c v v.length = (φ + turning c v v.length) - φ := by ring
    rw [this, cos_sub, c1, c2]
    nlinarith [sin_sq_add_cos_sq φ]
  obtain ⟨k, hk⟩ := (cos_eq_one_iff _).mp h2
  exact ⟨k, hk.symm⟩

theorem starAbout_of_turning {c : Pt ℝ} {v : List (Pt ℝ)} (hv : 0 < v.length)
    (hpos : ∀ i < v.length, 0 < cross (corner v i - c) (corner v (i + 1) - c)) (ht : turning c v v.length = 2 * π) :
    StarAbout c v := by
  have hne : ∀ i < v.length, corner v i - c ≠ 0 := by
    intro i hi h
    have := (len_pos_of_cross (hpos i hi)).1
    rw [h] at this; simp [len, normSq] at this
  refine ⟨fun i => rawAngle 0 (corner v 0 - c) + turning c v i, ?_, ?_, ?_⟩
  · intro i hi
    refine ⟨⟨len (corner v i - c), Real.sqrt_nonneg _, ?_⟩, sub_ne_zero.mp (hne i hi)⟩
    have := turning_polar hpos (polar_len (hne 0 hv)) i hi.le
    obtain ⟨L, hL⟩ : ∃ L, len (corner v i - c) = L := ⟨_, rfl⟩
    rw [hL] at this ⊢
    have := congrArg (c + ·) this
    simp only [add_sub_cancel] at this
    rw [this]
    simp [polar]
  · intro i hi
    obtain ⟨h1, h2, _⟩ := stepAngle_spec (hpos i hi)
    simp only [turning]
    constructor <;> linarith
  · simp only [ht, turning]; ring

theorem turning_of_starAbout {c : Pt ℝ} {v : List (Pt ℝ)} (h : StarAbout c v) : turning c v v.length = 2 * π := by
  obtain ⟨φ, ρ, h1, h2, h3, hpos⟩ := starAbout_polar h
  have hs := star_sectors h
  have key : ∀ i ≤ v.length, turning c v i = φ i - φ 0 := by
    intro i
    induction i with
    | zero => intro _; simp [turning]
    | succ i ih =>
      intro hi
      rw [turning, ih (by omega)]
      have hc := hs.pos i (by omega)
      obtain ⟨_, _, e, _⟩ := stepAngle_spec hc
      have l1 : len (corner v i - c) = ρ i := by
        rw [(h1 i (by omega)).2]; exact len_polar c (h1 i (by omega)).1.le _
      have l2 : len (corner v (i + 1) - c) = ρ (i + 1) := by
        rw [(h1 (i + 1) hi).2]; exact len_polar c (h1 (i + 1) hi).1.le _
      have hd : dot (corner v i - c) (corner v (i + 1) - c) / (len (corner v i - c) * len (corner v (i + 1) - c)) =
          cos (φ (i + 1) - φ i) := by
        rw [l1, l2, (h1 i (by omega)).2, (h1 (i + 1) hi).2, cos_sub]
        have p1 := (h1 i (by omega)).1
        have p2 := (h1 (i + 1) hi).1
        simp only [dot, Prod.fst_sub, Prod.snd_sub, polar_fst, polar_snd]
        field_simp
        ring
      unfold stepAngle
      rw [hd, arccos_cos (by linarith [(h2 i (by omega)).1]) (by linarith [(h2 i (by omega)).2])]
      ring
  rw [key _ le_rfl, h3]; ring

theorem continuous_len {f : ℝ → Pt ℝ} (hf : Continuous f) : Continuous fun t => len (f t) := by
  unfold len normSq; fun_prop

/-- A polygon that is star-shaped about some point is star-shaped about every point to the left of all edges. -/
theorem starAbout_move {c c' : Pt ℝ} {v : List (Pt ℝ)} (h : StarAbout c v)
    (hc' : ∀ i < v.length, 0 < cross (corner v (i + 1) - corner v i) (c' - corner v i)) : StarAbout c' v := by
  have hs := star_sectors h
  have hv : 0 < v.length := by
    obtain ⟨i, hi, _⟩ := hs.cover c; omega
  have tri : ∀ (a b p : Pt ℝ), cross (a - p) (b - p) = cross (b - a) (p - a) := by
    intro a b p; simp only [cross, Prod.fst_sub, Prod.snd_sub]; ring
  let m : ℝ → Pt ℝ := fun t => c + t • (c' - c)
  have hpos : ∀ t ∈ Set.Icc (0 : ℝ) 1, ∀ i < v.length, 0 < cross (corner v i - m t) (corner v (i + 1) - m t) := by
    rintro t ⟨t0, t1⟩ i hi
    have e : cross (corner v i - m t) (corner v (i + 1) - m t) =
        (1 - t) * cross (corner v i - c) (corner v (i + 1) - c) + t * cross (corner v (i + 1) - corner v i) (c' - corner v i) := by
      rw [tri, tri]
      simp only [m, cross, Prod.fst_sub, Prod.snd_sub, Prod.fst_add, Prod.snd_add, Prod.smul_fst, Prod.smul_snd, smul_eq_mul]
      ring
    rw [e]
    have p1 := hs.pos i hi
    have p2 := hc' i hi
    rcases t0.eq_or_lt with rfl | t0
    · simpa using p1
    · have : 0 ≤ (1 - t) * cross (corner v i - c) (corner v (i + 1) - c) := mul_nonneg (by linarith) p1.le
      have : 0 < t * cross (corner v (i + 1) - corner v i) (c' - corner v i) := mul_pos t0 p2
      linarith
  have hcm : Continuous m := by fun_prop
  have hcont : ∀ i ≤ v.length, ContinuousOn (fun t => turning (m t) v i) (Set.Icc 0 1) := by
    intro i
    induction i with
    | zero => intro _; simp only [turning]; exact continuousOn_const
    | succ i ih =>
      intro hi
      simp only [turning, stepAngle]
      refine (ih (by omega)).add (Real.continuous_arccos.comp_continuousOn ?_)
      have hf1 : Continuous fun t => corner v i - m t := by fun_prop
      have hf2 : Continuous fun t => corner v (i + 1) - m t := by fun_prop
      refine ContinuousOn.div ?_ ?_ ?_
      · unfold dot; fun_prop
      · exact ((continuous_len hf1).mul (continuous_len hf2)).continuousOn
      · intro t ht
        obtain ⟨l1, l2⟩ := len_pos_of_cross (hpos t ht i (by omega))
        exact (mul_pos l1 l2).ne'
  have hpi := pi_pos
  have hint : ∀ t ∈ Set.Icc (0 : ℝ) 1, ∃ k : ℤ, turning (m t) v v.length = k * (2 * π) :=
    fun t ht => turning_int hv (hpos t ht)
  have m0 : m 0 = c := by simp [m]
  have m1 : m 1 = c' := by simp [m]
  refine starAbout_of_turning hv (by have := hpos 1 (by simp); rwa [m1] at this) ?_
  -- a continuous function with values in the multiples of 2π is constant
  by_contra hne
  obtain ⟨k, hk⟩ := hint 1 (by simp)
  have hz : turning (m 0) v v.length = 2 * π := by rw [m0]; exact turning_of_starAbout h
  rw [← m1, hk] at hne
  have hk1 : k ≠ 1 := by rintro rfl; apply hne; push_cast; ring
  have himg := intermediate_value_uIcc (f := fun t => turning (m t) v v.length) (a := 0) (b := 1)
    (by rw [Set.uIcc_of_le zero_le_one]; exact hcont _ le_rfl)
  simp only [hz, hk] at himg
  rcases lt_or_gt_of_ne hk1 with hlt | hgt
  · have hkr : (k : ℝ) ≤ 0 := by exact_mod_cast Int.lt_add_one_iff.mp (by simpa using hlt)
    have hmem : π ∈ Set.uIcc (2 * π) (k * (2 * π)) := by
      rw [Set.mem_uIcc]; right; constructor <;> nlinarith
    obtain ⟨t, ht, et⟩ := himg hmem
    rw [Set.uIcc_of_le zero_le_one] at ht
    obtain ⟨j, hj⟩ := hint t ht
    have : (j : ℝ) * 2 = 1 := by
      have : turning (m t) v v.length = π := et
      rw [hj] at this
      have h' : π * ((j : ℝ) * 2 - 1) = 0 := by linarith
      rcases mul_eq_zero.mp h' with h' | h'
      · linarith
      · linarith
    have : j * 2 = 1 := by exact_mod_cast this
    omega
  · have hkr : (2 : ℝ) ≤ k := by exact_mod_cast hgt
    have hmem : 3 * π ∈ Set.uIcc (2 * π) (k * (2 * π)) := by
      rw [Set.mem_uIcc]; left; constructor <;> nlinarith
    obtain ⟨t, ht, et⟩ := himg hmem
    rw [Set.uIcc_of_le zero_le_one] at ht
    obtain ⟨j, hj⟩ := hint t ht
    have : (j : ℝ) * 2 = 3 := by
      have : turning (m t) v v.length = 3 * π := et
      rw [hj] at this
      have h' : π * ((j : ℝ) * 2 - 3) = 0 := by linarith
      rcases mul_eq_zero.mp h' with h' | h'
      · linarith
      · linarith
    have : j * 2 = 3 := by exact_mod_cast this
    omega

end Starworlds
