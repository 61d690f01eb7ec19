import Verif.Proofs.Motion
import Verif.Spec.Sinus
import Mathlib.MeasureTheory.Integral.IntervalIntegral.FundThmCalculus
import Mathlib.Analysis.SpecialFunctions.Integrals.Basic
import Mathlib.RingTheory.RootsOfUnity.Complex

/-! # C128: a SinusVelocity obstacle moves along the curve of its velocity and comes back -/

namespace Starworlds

open Real Spec MeasureTheory

theorem oscillation_model (m p t : ℝ) : m * cos (sinusFreq p * t) = oscillation m p t := by
  simp only [sinusFreq, oscillation]
  split
  · simp
  · congr 2; ring

theorem cos_diff (a b : ℝ) : |cos a - cos b| ≤ |a - b| := by
  rw [cos_sub_cos, abs_mul, abs_mul, abs_neg, abs_two]
  have h1 : |sin ((a + b) / 2)| ≤ 1 := abs_sin_le_one _
  have h2 : |sin ((a - b) / 2)| ≤ |(a - b) / 2| := abs_sin_le_abs
  rw [abs_div, abs_two] at h2
  nlinarith [abs_nonneg (sin ((a + b) / 2)), abs_nonneg (sin ((a - b) / 2)), abs_nonneg (a - b)]

theorem sin_diff (a b : ℝ) : |sin a - sin b| ≤ |a - b| := by
  have := cos_diff (π / 2 - a) (π / 2 - b)
  rw [cos_pi_div_two_sub, cos_pi_div_two_sub] at this
  rwa [show π / 2 - a - (π / 2 - b) = b - a by ring, abs_sub_comm b a] at this

theorem oscillation_lip (m p a b : ℝ) : |oscillation m p a - oscillation m p b| ≤ jerk m p * |a - b| := by
  simp only [oscillation, jerk]
  split
  · simp
  · rw [← mul_sub, abs_mul]
    have := cos_diff (2 * π * a / p) (2 * π * b / p)
    rw [show 2 * π * a / p - 2 * π * b / p = 2 * π / p * (a - b) by ring, abs_mul, abs_div, abs_of_pos (by positivity : 0 < 2 * π)] at this
    exact (mul_le_mul_of_nonneg_left this (abs_nonneg m)).trans (le_of_eq (by ring))

theorem oscillation_le (m p t : ℝ) : |oscillation m p t| ≤ |m| := by
  simp only [oscillation]
  split
  · exact le_refl _
  · rw [abs_mul]
    exact mul_le_of_le_one_right (abs_nonneg _) (abs_cos_le_one _)

theorem jerk_nonneg (m p : ℝ) : 0 ≤ jerk m p := by
  simp only [jerk]
  split
  · exact le_refl _
  · positivity

theorem continuous_of_lip {f : ℝ → ℝ} {L : ℝ} (h : ∀ a b, |f a - f b| ≤ L * |a - b|) : Continuous f := by
  have hL : 0 ≤ L := by
    have := (abs_nonneg _).trans (h 1 0)
    simpa using this
  refine (LipschitzWith.of_dist_le_mul (K := ⟨L, hL⟩) fun a b => ?_).continuous
  rw [Real.dist_eq, Real.dist_eq]
  exact h a b

/-- One step of the Euler method. -/
theorem euler_step {f : ℝ → ℝ} {L t dt : ℝ} (h : ∀ a b, |f a - f b| ≤ L * |a - b|) (hd : 0 ≤ dt) :
    |dt * f t - ∫ u in t..t + dt, f u| ≤ L * dt ^ 2 / 2 := by
  have hc := continuous_of_lip h
  have e : dt * f t - ∫ u in t..t + dt, f u = ∫ u in t..t + dt, (f t - f u) := by
    rw [intervalIntegral.integral_sub (by simp) (hc.intervalIntegrable _ _)]
    simp
  rw [e, ← Real.norm_eq_abs]
  refine (intervalIntegral.norm_integral_le_of_norm_le (g := fun u => L * (u - t)) (by linarith) (Filter.Eventually.of_forall fun u hu => ?_)
    (Continuous.intervalIntegrable (by fun_prop) _ _)).trans ?_
  · rw [Real.norm_eq_abs]
    refine (h t u).trans (le_of_eq ?_)
    rw [abs_sub_comm, abs_of_nonneg (by linarith [hu.1])]
  · rw [intervalIntegral.integral_const_mul, intervalIntegral.integral_sub (by simp) (by simp)]
    simp only [integral_id, intervalIntegral.integral_const, smul_eq_mul]
    apply le_of_eq; ring

theorem travelled_add (m p a b c : ℝ) : travelled m p a b + travelled m p b c = travelled m p a c := by
  have hc := continuous_of_lip (oscillation_lip m p)
  exact intervalIntegral.integral_add_adjacent_intervals (hc.intervalIntegrable _ _) (hc.intervalIntegrable _ _)

theorem travelled_lip (m p a b c : ℝ) : |travelled m p a b - travelled m p a c| ≤ |m| * |b - c| := by
  rw [← travelled_add m p a c b, add_sub_cancel_left, travelled, ← Real.norm_eq_abs]
  exact intervalIntegral.norm_integral_le_of_norm_le_const fun x _ => oscillation_le m p x

/-! ## Along the axes -/

/-- C128, cartesian: up to a multiple of the sum of the squares of the steps, which is as small as wanted for short steps, the obstacle is where its velocity
takes it. -/
theorem C128_axes_partial (m1 p1 m2 p2 : ℝ) (dts : List ℝ) (hd : ∀ dt ∈ dts, 0 ≤ dt) : ∀ s : MotionState,
    ∃ s', runMoves (.sinus true m1 p1 m2 p2) s dts = .ok s' ∧ s'.rot = s.rot ∧ s'.t = s.t + dts.sum ∧
      |s'.pos.1 - (s.pos.1 + travelled m1 p1 s.t s'.t)| ≤ jerk m1 p1 * sumSq dts / 2 ∧
      |s'.pos.2 - (s.pos.2 + travelled m2 p2 s.t s'.t)| ≤ jerk m2 p2 * sumSq dts / 2 := by
  induction dts with
  | nil => intro s; exact ⟨s, rfl, rfl, by simp, by simp [travelled, sumSq], by simp [travelled, sumSq]⟩
  | cons dt dts ih =>
    intro s
    have hm : motionMove (.sinus true m1 p1 m2 p2) s dt = .ok { s with
        pos := s.pos + dt • ((oscillation m1 p1 s.t, oscillation m2 p2 s.t) : Pt ℝ), rot := s.rot + 0 * dt, t := s.t + dt } := by
      simp only [motionMove, linVel, rotVel, oscillation_model]
    obtain ⟨s', h1, h2, h3, h4, h5⟩ := ih (fun d h => hd d (by simp [h])) { s with
        pos := s.pos + dt • ((oscillation m1 p1 s.t, oscillation m2 p2 s.t) : Pt ℝ), rot := s.rot + 0 * dt, t := s.t + dt }
    simp only [Prod.fst_add, Prod.snd_add, Prod.smul_fst, Prod.smul_snd, smul_eq_mul, zero_mul, add_zero] at h2 h3 h4 h5
    have hs : sumSq (dt :: dts) = dt ^ 2 + sumSq dts := by simp [sumSq]
    have step : ∀ m p x y : ℝ, |y - (x + dt * oscillation m p s.t + travelled m p (s.t + dt) s'.t)| ≤ jerk m p * sumSq dts / 2 →
        |y - (x + travelled m p s.t s'.t)| ≤ jerk m p * sumSq (dt :: dts) / 2 := by
      intro m p x y h
      have hst := euler_step (t := s.t) (oscillation_lip m p) (hd dt (by simp))
      rw [← travelled_add m p s.t (s.t + dt) s'.t, hs]
      have := abs_add_le (y - (x + dt * oscillation m p s.t + travelled m p (s.t + dt) s'.t))
        (dt * oscillation m p s.t - travelled m p s.t (s.t + dt))
      rw [show y - (x + dt * oscillation m p s.t + travelled m p (s.t + dt) s'.t) + (dt * oscillation m p s.t - travelled m p s.t (s.t + dt)) =
        y - (x + (travelled m p s.t (s.t + dt) + travelled m p (s.t + dt) s'.t)) by ring] at this
      change |dt * oscillation m p s.t - travelled m p s.t (s.t + dt)| ≤ _ at hst
      linarith
    refine ⟨s', by simp only [runMoves, hm, h1], h2, by rw [h3, List.sum_cons]; ring, step _ _ _ _ h4, step _ _ _ _ h5⟩

/-! ## With a heading -/

theorem heading_lip (m p a r b c : ℝ) : |headingAt m p a r b - headingAt m p a r c| ≤ |m| * |b - c| := by
  simp only [headingAt, add_sub_add_left_eq_sub]
  exact travelled_lip m p a b c

theorem mul_lip {f g : ℝ → ℝ} {L M B : ℝ} (hf : ∀ a b, |f a - f b| ≤ L * |a - b|) (hg : ∀ a b, |g a - g b| ≤ M * |a - b|) (hB : ∀ a, |f a| ≤ B)
    (h1 : ∀ a, |g a| ≤ 1) : ∀ a b, |f a * g a - f b * g b| ≤ (L + B * M) * |a - b| := by
  intro a b
  have e : f a * g a - f b * g b = f a * (g a - g b) + (f a - f b) * g b := by ring
  rw [e]
  refine (abs_add_le _ _).trans ?_
  rw [abs_mul, abs_mul]
  have i1 : |f a| * |g a - g b| ≤ B * (M * |a - b|) :=
    mul_le_mul (hB a) (hg a b) (abs_nonneg _) ((abs_nonneg _).trans (hB a))
  have i2 : |f a - f b| * |g b| ≤ L * |a - b| * 1 := mul_le_mul (hf a b) (h1 b) (abs_nonneg _) ((abs_nonneg _).trans (hf a b))
  linarith

/-- The position after some steps, when the heading `r` is used in place of the heading `q`. -/
theorem driven_step {m1 p1 m2 p2 a q r t dt e : ℝ} {trig : ℝ → ℝ} (ht : ∀ a b, |trig a - trig b| ≤ |a - b|) (h1 : ∀ a, |trig a| ≤ 1)
    (hr : |r - headingAt m2 p2 a q t| ≤ e) (hd : 0 ≤ dt) :
    |dt * (oscillation m1 p1 t * trig r) - ∫ u in t..t + dt, oscillation m1 p1 u * trig (headingAt m2 p2 a q u)| ≤
      |m1| * e * dt + (jerk m1 p1 + |m1| * |m2|) * dt ^ 2 / 2 := by
  have hl := mul_lip (oscillation_lip m1 p1) (g := fun u => trig (headingAt m2 p2 a q u))
    (fun b c => (ht _ _).trans (heading_lip m2 p2 a q b c)) (oscillation_le m1 p1) (fun _ => h1 _)
  have hs := euler_step (t := t) hl hd
  have hx : |dt * (oscillation m1 p1 t * trig r) - dt * (oscillation m1 p1 t * trig (headingAt m2 p2 a q t))| ≤ |m1| * e * dt := by
    rw [← mul_sub, ← mul_sub, abs_mul, abs_mul, abs_of_nonneg hd]
    have := mul_le_mul (oscillation_le m1 p1 t) ((ht r _).trans hr) (abs_nonneg _) (abs_nonneg _)
    nlinarith
  have := abs_sub_le (dt * (oscillation m1 p1 t * trig r)) (dt * (oscillation m1 p1 t * trig (headingAt m2 p2 a q t)))
    (∫ u in t..t + dt, oscillation m1 p1 u * trig (headingAt m2 p2 a q u))
  linarith

theorem driven_split {m1 p1 m2 p2 a q t t' t'' : ℝ} {trig : ℝ → ℝ} (ht : ∀ a b, |trig a - trig b| ≤ |a - b|) (h1 : ∀ a, |trig a| ≤ 1) :
    (∫ u in t..t', oscillation m1 p1 u * trig (headingAt m2 p2 a q u)) + (∫ u in t'..t'', oscillation m1 p1 u * trig (headingAt m2 p2 a q u)) =
      ∫ u in t..t'', oscillation m1 p1 u * trig (headingAt m2 p2 a q u) := by
  have hl := mul_lip (oscillation_lip m1 p1) (g := fun u => trig (headingAt m2 p2 a q u))
    (fun b c => (ht _ _).trans (heading_lip m2 p2 a q b c)) (oscillation_le m1 p1) (fun _ => h1 _)
  have hc := continuous_of_lip hl
  exact intervalIntegral.integral_add_adjacent_intervals (hc.intervalIntegrable _ _) (hc.intervalIntegrable _ _)

theorem driven_run (m1 p1 m2 p2 a q : ℝ) (dts : List ℝ) (hd : ∀ dt ∈ dts, 0 ≤ dt) : ∀ (s : MotionState) (e : ℝ), |s.rot - headingAt m2 p2 a q s.t| ≤ e →
    ∃ s', runMoves (.sinus false m1 p1 m2 p2) s dts = .ok s' ∧ s'.t = s.t + dts.sum ∧
      |s'.rot - headingAt m2 p2 a q s'.t| ≤ e + jerk m2 p2 * sumSq dts / 2 ∧
      |s'.pos.1 - (s.pos.1 + ∫ u in s.t..s'.t, oscillation m1 p1 u * cos (headingAt m2 p2 a q u))| ≤
        |m1| * (e + jerk m2 p2 * sumSq dts / 2) * dts.sum + (jerk m1 p1 + |m1| * |m2|) * sumSq dts / 2 ∧
      |s'.pos.2 - (s.pos.2 + ∫ u in s.t..s'.t, oscillation m1 p1 u * sin (headingAt m2 p2 a q u))| ≤
        |m1| * (e + jerk m2 p2 * sumSq dts / 2) * dts.sum + (jerk m1 p1 + |m1| * |m2|) * sumSq dts / 2 := by
  induction dts with
  | nil => intro s e he; exact ⟨s, rfl, by simp, by simpa [sumSq] using he, by simp [sumSq], by simp [sumSq]⟩
  | cons dt dts ih =>
    intro s e he
    have hdt := hd dt (by simp)
    have hm : motionMove (.sinus false m1 p1 m2 p2) s dt = .ok { s with
        pos := s.pos + dt • ((cos s.rot * oscillation m1 p1 s.t + -sin s.rot * 0, sin s.rot * oscillation m1 p1 s.t + cos s.rot * 0) : Pt ℝ),
        rot := s.rot + oscillation m2 p2 s.t * dt, t := s.t + dt } := by
      simp only [motionMove, linVel, rotVel, oscillation_model]
    have hst := euler_step (t := s.t) (oscillation_lip m2 p2) hdt
    change |dt * oscillation m2 p2 s.t - travelled m2 p2 s.t (s.t + dt)| ≤ _ at hst
    have hrot : |s.rot + oscillation m2 p2 s.t * dt - headingAt m2 p2 a q (s.t + dt)| ≤ e + jerk m2 p2 * dt ^ 2 / 2 := by
      have := abs_add_le (s.rot - headingAt m2 p2 a q s.t) (dt * oscillation m2 p2 s.t - travelled m2 p2 s.t (s.t + dt))
      simp only [headingAt] at this he ⊢
      rw [← travelled_add m2 p2 a s.t (s.t + dt)]
      rw [show s.rot - (q + travelled m2 p2 a s.t) + (dt * oscillation m2 p2 s.t - travelled m2 p2 s.t (s.t + dt)) =
        s.rot + oscillation m2 p2 s.t * dt - (q + (travelled m2 p2 a s.t + travelled m2 p2 s.t (s.t + dt))) by ring] at this
      linarith
    obtain ⟨s', h1, h3, h4, h5, h6⟩ := ih (fun d h => hd d (by simp [h])) { s with
        pos := s.pos + dt • ((cos s.rot * oscillation m1 p1 s.t + -sin s.rot * 0, sin s.rot * oscillation m1 p1 s.t + cos s.rot * 0) : Pt ℝ),
        rot := s.rot + oscillation m2 p2 s.t * dt, t := s.t + dt } _ hrot
    simp only [Prod.fst_add, Prod.snd_add, Prod.smul_fst, Prod.smul_snd, smul_eq_mul, mul_zero, add_zero] at h1 h3 h4 h5 h6
    have hs : sumSq (dt :: dts) = dt ^ 2 + sumSq dts := by simp [sumSq]
    have hq : 0 ≤ sumSq dts := List.sum_nonneg fun x hx => by
      obtain ⟨d, -, rfl⟩ := List.mem_map.1 hx
      positivity
    have he0 : 0 ≤ e := (abs_nonneg _).trans he
    have hj := jerk_nonneg m2 p2
    have hsum : 0 ≤ dts.sum := List.sum_nonneg fun x hx => hd x (by simp [hx])
    have step : ∀ (trig : ℝ → ℝ), (∀ a b, |trig a - trig b| ≤ |a - b|) → (∀ a, |trig a| ≤ 1) → ∀ x y : ℝ,
        |y - (x + dt * (trig s.rot * oscillation m1 p1 s.t) + ∫ u in s.t + dt..s'.t, oscillation m1 p1 u * trig (headingAt m2 p2 a q u))| ≤
          |m1| * (e + jerk m2 p2 * dt ^ 2 / 2 + jerk m2 p2 * sumSq dts / 2) * dts.sum + (jerk m1 p1 + |m1| * |m2|) * sumSq dts / 2 →
        |y - (x + ∫ u in s.t..s'.t, oscillation m1 p1 u * trig (headingAt m2 p2 a q u))| ≤
          |m1| * (e + jerk m2 p2 * sumSq (dt :: dts) / 2) * (dt :: dts).sum + (jerk m1 p1 + |m1| * |m2|) * sumSq (dt :: dts) / 2 := by
      intro trig ht h1 x y h
      have hds := driven_step (m1 := m1) (p1 := p1) (trig := trig) ht h1 he hdt
      rw [← driven_split (t' := s.t + dt) ht h1, hs, List.sum_cons]
      have := abs_add_le (y - (x + dt * (trig s.rot * oscillation m1 p1 s.t) + ∫ u in s.t + dt..s'.t, oscillation m1 p1 u * trig (headingAt m2 p2 a q u)))
        (dt * (oscillation m1 p1 s.t * trig s.rot) - ∫ u in s.t..s.t + dt, oscillation m1 p1 u * trig (headingAt m2 p2 a q u))
      rw [show ∀ A B : ℝ, y - (x + dt * (trig s.rot * oscillation m1 p1 s.t) + A) + (dt * (oscillation m1 p1 s.t * trig s.rot) - B) =
        y - (x + (B + A)) by intro A B; ring] at this
      have hb : |m1| * e * dt ≤ |m1| * (e + jerk m2 p2 * (dt ^ 2 + sumSq dts) / 2) * dt := by
        apply mul_le_mul_of_nonneg_right _ hdt
        apply mul_le_mul_of_nonneg_left _ (abs_nonneg _)
        have : 0 ≤ jerk m2 p2 * (dt ^ 2 + sumSq dts) := by positivity
        linarith
      nlinarith
    refine ⟨s', by simp only [runMoves, hm, mul_zero, add_zero, h1], by rw [h3, List.sum_cons]; ring, ?_, step cos cos_diff abs_cos_le_one _ _ h5,
      step sin sin_diff abs_sin_le_one _ _ h6⟩
    rw [hs]; linarith

/-- C128, with a heading: the same for heading and position. -/
theorem C128_heading_partial (m1 p1 m2 p2 : ℝ) (dts : List ℝ) (hd : ∀ dt ∈ dts, 0 ≤ dt) (s : MotionState) :
    ∃ s', runMoves (.sinus false m1 p1 m2 p2) s dts = .ok s' ∧ s'.t = s.t + dts.sum ∧
      |s'.rot - headingAt m2 p2 s.t s.rot s'.t| ≤ jerk m2 p2 * sumSq dts / 2 ∧
      |s'.pos.1 - (s.pos + drivenTo m1 p1 m2 p2 s.t s.rot s'.t).1| ≤ (jerk m1 p1 + |m1| * |m2| + |m1| * jerk m2 p2 * dts.sum) * sumSq dts / 2 ∧
      |s'.pos.2 - (s.pos + drivenTo m1 p1 m2 p2 s.t s.rot s'.t).2| ≤ (jerk m1 p1 + |m1| * |m2| + |m1| * jerk m2 p2 * dts.sum) * sumSq dts / 2 := by
  obtain ⟨s', h1, h2, h3, h4, h5⟩ := driven_run m1 p1 m2 p2 s.t s.rot dts hd s 0 (by simp [headingAt, travelled])
  refine ⟨s', h1, h2, by simpa using h3, h4.trans (le_of_eq ?_), h5.trans (le_of_eq ?_)⟩ <;> ring

/-! ## Whole periods -/

theorem oscillation_sum (m p t : ℝ) (hp : p ≠ 0) {n : ℕ} (hn : 2 ≤ n) : ∑ k ∈ Finset.range n, oscillation m p (t + k * (p / n)) = 0 := by
  have hn0 : (n : ℝ) ≠ 0 := by positivity
  have hz := (Complex.isPrimitiveRoot_exp n (by omega)).geom_sum_eq_zero (by omega)
  have e : ∀ k : ℕ, oscillation m p (t + k * (p / n)) =
      m * (Complex.exp (Complex.I * (2 * π * t / p : ℝ)) * Complex.exp (2 * π * Complex.I / n) ^ k).re := by
    intro k
    rw [oscillation, if_neg hp, ← Complex.exp_nat_mul, ← Complex.exp_add]
    congr 1
    rw [show Complex.I * ((2 * π * t / p : ℝ) : ℂ) + k * (2 * π * Complex.I / n) = ((2 * π * (t + k * (p / n)) / p : ℝ) : ℂ) * Complex.I by
      have hp' : (p : ℂ) ≠ 0 := by exact_mod_cast hp
      have hn' : (n : ℂ) ≠ 0 := by exact_mod_cast hn0
      push_cast
      field_simp]
    rw [Complex.exp_ofReal_mul_I_re]
  simp only [e]
  rw [← Finset.mul_sum, ← Complex.re_sum, ← Finset.mul_sum, hz]
  simp

theorem replicate_axes (m1 p1 m2 p2 dt : ℝ) (n : ℕ) : ∀ s : MotionState, ∃ s', runMoves (.sinus true m1 p1 m2 p2) s (List.replicate n dt) = .ok s' ∧
    s'.pos.1 = s.pos.1 + dt * ∑ k ∈ Finset.range n, oscillation m1 p1 (s.t + k * dt) ∧
    s'.pos.2 = s.pos.2 + dt * ∑ k ∈ Finset.range n, oscillation m2 p2 (s.t + k * dt) := by
  induction n with
  | zero => intro s; exact ⟨s, rfl, by simp, by simp⟩
  | succ n ih =>
    intro s
    have hm : motionMove (.sinus true m1 p1 m2 p2) s dt = .ok { s with
        pos := s.pos + dt • ((oscillation m1 p1 s.t, oscillation m2 p2 s.t) : Pt ℝ), rot := s.rot + 0 * dt, t := s.t + dt } := by
      simp only [motionMove, linVel, rotVel, oscillation_model]
    obtain ⟨s', h1, h2, h3⟩ := ih { s with
        pos := s.pos + dt • ((oscillation m1 p1 s.t, oscillation m2 p2 s.t) : Pt ℝ), rot := s.rot + 0 * dt, t := s.t + dt }
    simp only [Prod.fst_add, Prod.snd_add, Prod.smul_fst, Prod.smul_snd, smul_eq_mul] at h2 h3
    refine ⟨s', by simp only [List.replicate_succ, runMoves, hm, h1], ?_, ?_⟩
    · rw [h2, Finset.sum_range_succ']
      have : ∀ k : ℕ, s.t + dt + k * dt = s.t + ((k + 1 : ℕ) : ℝ) * dt := by intro k; push_cast; ring
      simp only [this, Nat.cast_zero, zero_mul, add_zero]
      ring
    · rw [h3, Finset.sum_range_succ']
      have : ∀ k : ℕ, s.t + dt + k * dt = s.t + ((k + 1 : ℕ) : ℝ) * dt := by intro k; push_cast; ring
      simp only [this, Nat.cast_zero, zero_mul, add_zero]
      ring

/-- C128, return: a period that is made of two or more equal steps leads back exactly, on each axis. -/
theorem C128_return_partial (m1 p1 m2 p2 : ℝ) {n : ℕ} (hn : 2 ≤ n) (s : MotionState) :
    (p1 ≠ 0 → ∃ s', runMoves (.sinus true m1 p1 m2 p2) s (List.replicate n (p1 / n)) = .ok s' ∧ s'.pos.1 = s.pos.1) ∧
    (p2 ≠ 0 → ∃ s', runMoves (.sinus true m1 p1 m2 p2) s (List.replicate n (p2 / n)) = .ok s' ∧ s'.pos.2 = s.pos.2) := by
  constructor
  · intro hp
    obtain ⟨s', h1, h2, -⟩ := replicate_axes m1 p1 m2 p2 (p1 / n) n s
    exact ⟨s', h1, by rw [h2, oscillation_sum m1 p1 s.t hp hn, mul_zero, add_zero]⟩
  · intro hp
    obtain ⟨s', h1, -, h2⟩ := replicate_axes m1 p1 m2 p2 (p2 / n) n s
    exact ⟨s', h1, by rw [h2, oscillation_sum m2 p2 s.t hp hn, mul_zero, add_zero]⟩

/-- Magnitude 3 and period 4, four steps of length 1, started at time 0: right by 3, stay, left by 3, stay. -/
example : ∃ s', runMoves (.sinus true 3 4 0 0) (initState (5, 6) 0) (List.replicate 4 1) = .ok s' ∧ s'.pos.1 = 5 := by
  have := (C128_return_partial 3 4 0 0 (n := 4) (by norm_num) (initState (5, 6) 0)).1 (by norm_num)
  simpa [initState] using this

/-- The same obstacle with 1000 steps of one millisecond is within 0.003 of its curve. -/
example : ∃ s', runMoves (.sinus true 3 4 0 0) (initState (5, 6) 0) (List.replicate 1000 (1 / 1000)) = .ok s' ∧
    |s'.pos.1 - (5 + travelled 3 4 0 s'.t)| ≤ 3 / 1000 := by
  obtain ⟨s', h1, -, -, h2, -⟩ := C128_axes_partial 3 4 0 0 (List.replicate 1000 (1 / 1000))
    (by intro d hd; rw [List.eq_of_mem_replicate hd]; norm_num) (initState (5, 6) 0)
  refine ⟨s', h1, h2.trans ?_⟩
  have hp := pi_le_four
  simp only [jerk, sumSq, List.map_replicate, List.sum_replicate]
  norm_num
  linarith

/-- C128 is false as it stands: after a period of one step, or of two steps of which one is a quarter, the obstacle is not where it was. -/
theorem C128_steps_false (m p : ℝ) (hm : m ≠ 0) (hp : 0 < p) :
    (∃ s', runMoves (.sinus true m p 0 0) (initState (0, 0) 0) [p] = .ok s' ∧ s'.pos = (m * p, 0) ∧ s'.t = p) ∧
    (∃ s', runMoves (.sinus true m p 0 0) (initState (0, 0) 0) [p / 4, 3 * p / 4] = .ok s' ∧ s'.pos = (m * p / 4, 0) ∧ s'.t = p) ∧
    travelled m p 0 p = 0 ∧ m * p ≠ 0 := by
  have f : sinusFreq p = 2 * π / p := by rw [sinusFreq, if_neg hp.ne']
  refine ⟨⟨_, rfl, ?_, ?_⟩, ⟨_, rfl, ?_, ?_⟩, ?_, mul_ne_zero hm hp.ne'⟩
  · simp [initState, mul_comm]
  · simp [initState]
  · have : 2 * π / p * (p / 4) = π / 2 := by field_simp; ring
    simp only [initState, f, mul_zero, cos_zero, mul_one, zero_mul, zero_add, this, cos_pi_div_two]
    ext
    · simp; ring
    · simp
  · simp only [initState]; ring
  · have e : ∀ t, oscillation m p t = m * cos (2 * π / p * t) := by
      intro t; rw [oscillation, if_neg hp.ne']; congr 2; ring
    have hw : 2 * π / p ≠ 0 := by positivity
    simp only [travelled, e]
    rw [intervalIntegral.integral_const_mul, intervalIntegral.integral_comp_mul_left (fun x => cos x) hw]
    have : 2 * π / p * p = 2 * π := by field_simp
    rw [this, integral_cos]
    simp

end Starworlds
