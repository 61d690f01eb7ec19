import Verif.Spec.EllipseForm
import Verif.Props.DistanceFunction
import Mathlib.Topology.Algebra.Order.Field

/-! # C136: the distance function of an ellipse in closed form -/

namespace Starworlds

open Real Spec

theorem ellGauge_continuous (a c : Pt ℝ) : Continuous (ellGauge a c) := by
  unfold ellGauge ellForm
  fun_prop

/-- The value is the square of the factor. -/
theorem ellGauge_eq {a c d : Pt ℝ} (h0 : 0 < a.1) (h1 : 0 < a.2) (hd : d ≠ 0) (hc : ellForm a c < 1) {t : ℝ} (ht : 0 ≤ t)
    (he : ellForm a (c + t • d) = 1) : 0 < t ∧ ellGauge a c (c + d) = (1 / t) ^ 2 := by
  have ht0 : 0 < t := by
    refine lt_of_le_of_ne ht fun h => ?_
    rw [← h, zero_smul, add_zero] at he
    linarith
  refine ⟨ht0, ?_⟩
  rw [ellForm_quad] at he
  have hA := ellForm_pos h0 h1 hd
  unfold ellGauge
  simp only [add_sub_cancel_left, Prod.fst_add, Prod.snd_add]
  set A := ellForm a d
  set B := c.1 * d.1 / a.1 ^ 2 + c.2 * d.2 / a.2 ^ 2
  set C := 1 - ellForm a c with hC
  have hC0 : 0 < C := by linarith
  have key : B ^ 2 + C * A = (A * t + B) ^ 2 := by linear_combination (-A) * he
  have hpos : 0 ≤ A * t + B := by
    have : t * (A * t + 2 * B) = C := by linear_combination he
    have : 0 < A * t + 2 * B := by
      by_contra h
      push Not at h
      nlinarith
    nlinarith [mul_pos hA ht0]
  rw [key, sqrt_sq hpos]
  congr 1
  rw [div_eq_div_iff hC0.ne' ht0.ne']
  linear_combination he

/-- C136 (partial), any reference point inside of the ellipse: in directions that are not steeper than 100, with a chord that is more than
`2·10⁻⁴` wide, the value is given by a formula that is continuous everywhere. Missing: steep directions, see `C136_false`. -/
theorem C136_partial (e : Ell) (h0 : 0 < e.a.1) (h1 : 0 < e.a.2) (hD : 1 / 100 ≤ e.diameter) (hxr : ellForm e.a e.xr < 1) :
    Continuous (ellGauge e.a e.xr) ∧ ∀ f : Frame, f.Valid → ∀ y, y ≠ e.xr → |y.2 - e.xr.2| ≤ 100 * |y.1 - e.xr.1| →
      (∃ p q, OnLine e.xr y p ∧ OnLine e.xr y q ∧ ellForm e.a p = 1 ∧ ellForm e.a q = 1 ∧ p.1 + 2 / 10 ^ 4 < q.1) →
      e.distanceFunction (inFrame e.mm f y) f = .ok (ellGauge e.a e.xr y) := by
  refine ⟨ellGauge_continuous _ _, fun f hf y hy hs hch => ?_⟩
  obtain ⟨b, v, ⟨t, ht, rfl⟩, hb, hv, hval, -⟩ := C71_ellipse_partial e h0 h1 hD f hf hxr y hy hs hch
  obtain ⟨ht0, hg⟩ := ellGauge_eq h0 h1 (sub_ne_zero.2 hy) hxr ht hb
  rw [add_sub_cancel] at hg
  have hl := len_pos_of_ne (sub_ne_zero.2 hy)
  rw [hval, hg, hv, add_sub_cancel_left, len_smul_nonneg ht]
  congr 2
  field_simp

/-- With the centre as the reference point the line to a point in a steep direction is cut at the top or bottom of the ellipse. -/
theorem ell_steep {a d : Pt ℝ} (h0 : 0 < a.1) (h1 : 0 < a.2) (h2 : a.2 ≤ 40 * a.1) (hd : normSq d = 1)
    (hs : 100 * |d.1| < |d.2|) : ellLine a 0 (0 + (1.1 * max (2 * a.1) (2 * a.2)) • d) = .ok [(0, if 0 < d.2 then a.2 else -a.2)] := by
  have hM2 := le_max_right (2 * a.1) (2 * a.2)
  have hM1 : max (2 * a.1) (2 * a.2) ≤ 80 * a.1 := max_le (by linarith) (by linarith)
  set M := max (2 * a.1) (2 * a.2)
  have hM0 : 0 < M := by linarith
  have e1 : |d.1| ^ 2 = d.1 ^ 2 := sq_abs _
  have e2 : |d.2| ^ 2 = d.2 ^ 2 := sq_abs _
  simp only [normSq] at hd
  have n1 := abs_nonneg d.1
  have hd1 : |d.1| ≤ 1 / 100 := by
    by_contra h
    push Not at h
    nlinarith
  have hd2 : 99 / 100 ≤ |d.2| := by
    by_contra h
    push Not at h
    nlinarith
  have hx : 1.1 * M * |d.1| ≤ 88 / 100 * a.1 := by
    calc 1.1 * M * |d.1| ≤ 1.1 * (80 * a.1) * (1 / 100) := by gcongr
      _ = 88 / 100 * a.1 := by norm_num; ring
  have hy : a.2 ≤ 1.1 * M * |d.2| := by
    calc a.2 ≤ 1.1 * (2 * a.2) * (99 / 100) := by norm_num; nlinarith
      _ ≤ 1.1 * M * |d.2| := by gcongr
  rw [zero_add]
  set l1 : Pt ℝ := (1.1 * M) • d with hl1
  have x1 : l1.1 = 1.1 * M * d.1 := by simp [hl1]
  have x2 : l1.2 = 1.1 * M * d.2 := by simp [hl1]
  have hMM : 0 < 1.1 * M := by linarith
  have hxa : |l1.1| ≤ 88 / 100 * a.1 := by rw [x1, abs_mul, abs_of_pos hMM]; exact hx
  have hvert : ellVertical a (if (0 : Pt ℝ).1 < l1.1 then 0 else l1) (if (0 : Pt ℝ).1 < l1.1 then l1 else 0) =
      [(0, if 0 < d.2 then a.2 else -a.2)] := by
    have hxa' := abs_le.1 hxa
    have hxr : ¬ ((if (0 : Pt ℝ).1 < l1.1 then l1 else (0 : Pt ℝ)).1 < -a.1 ∨ (if (0 : Pt ℝ).1 < l1.1 then l1 else (0 : Pt ℝ)).1 > a.1) := by
      split_ifs with h
      · rintro (h' | h') <;> linarith
      · simp only [Prod.fst_zero]; rintro (h' | h') <;> linarith
    unfold ellVertical
    rw [if_neg hxr]
    rcases lt_or_ge 0 d.2 with hp | hp
    · have hl2 : a.2 ≤ l1.2 := by rw [x2, ← abs_of_pos hp]; exact hy
      rw [if_pos hp]
      have ht : (if (if (0 : Pt ℝ).1 < l1.1 then l1 else 0).2 > (if (0 : Pt ℝ).1 < l1.1 then 0 else l1).2 then
          (if (0 : Pt ℝ).1 < l1.1 then l1 else 0) else (if (0 : Pt ℝ).1 < l1.1 then 0 else l1)) = l1 := by
        split_ifs with h h' h' <;> first | rfl | (simp only [Prod.snd_zero] at *; linarith)
      have hb : (if (if (0 : Pt ℝ).1 < l1.1 then l1 else 0).2 > (if (0 : Pt ℝ).1 < l1.1 then 0 else l1).2 then
          (if (0 : Pt ℝ).1 < l1.1 then 0 else l1) else (if (0 : Pt ℝ).1 < l1.1 then l1 else 0)) = 0 := by
        split_ifs with h h' h' <;> first | rfl | (simp only [Prod.snd_zero] at *; linarith)
      simp only [ht, hb]
      rw [if_neg (by simp only [Prod.snd_zero]; rintro ⟨-, h⟩; linarith), if_pos ⟨hl2, by simp only [Prod.snd_zero]; linarith⟩]
    · have hn : d.2 < 0 := lt_of_le_of_ne hp fun h => by rw [h, abs_zero] at hd2; linarith
      have hl2 : l1.2 ≤ -a.2 := by
        rw [abs_of_neg hn] at hy
        rw [x2]; linarith
      rw [if_neg (show ¬ 0 < d.2 by linarith)]
      have ht : (if (if (0 : Pt ℝ).1 < l1.1 then l1 else 0).2 > (if (0 : Pt ℝ).1 < l1.1 then 0 else l1).2 then
          (if (0 : Pt ℝ).1 < l1.1 then l1 else 0) else (if (0 : Pt ℝ).1 < l1.1 then 0 else l1)) = 0 := by
        split_ifs with h h' h' <;> first | rfl | (simp only [Prod.snd_zero] at *; linarith)
      have hb : (if (if (0 : Pt ℝ).1 < l1.1 then l1 else 0).2 > (if (0 : Pt ℝ).1 < l1.1 then 0 else l1).2 then
          (if (0 : Pt ℝ).1 < l1.1 then 0 else l1) else (if (0 : Pt ℝ).1 < l1.1 then l1 else 0)) = l1 := by
        split_ifs with h h' h' <;> first | rfl | (simp only [Prod.snd_zero] at *; linarith)
      simp only [ht, hb]
      rw [if_neg (by simp only [Prod.snd_zero]; rintro ⟨h, -⟩; linarith), if_neg (by simp only [Prod.snd_zero]; rintro ⟨h, -⟩; linarith),
        if_pos ⟨by simp only [Prod.snd_zero]; linarith, hl2⟩]
  have hm : ((if (0 : Pt ℝ).1 < l1.1 then l1 else 0).2 - (if (0 : Pt ℝ).1 < l1.1 then (0 : Pt ℝ) else l1).2) /
      ((if (0 : Pt ℝ).1 < l1.1 then l1 else 0).1 - (if (0 : Pt ℝ).1 < l1.1 then (0 : Pt ℝ) else l1).1) = d.2 / d.1 := by
    have e0 : (0 : Pt ℝ).1 = 0 := rfl
    have e0' : (0 : Pt ℝ).2 = 0 := rfl
    split_ifs
    · rw [x1, x2, e0, e0', sub_zero, sub_zero, mul_div_mul_left _ _ hMM.ne']
    · rw [x1, x2, e0, e0', zero_sub, zero_sub, neg_div_neg_eq, mul_div_mul_left _ _ hMM.ne']
  have hw0 : d.1 = 0 → |(if (0 : Pt ℝ).1 < l1.1 then l1 else 0).1 - (if (0 : Pt ℝ).1 < l1.1 then (0 : Pt ℝ) else l1).1| < 1 / 10 ^ 4 := by
    intro h
    have : l1.1 = 0 := by rw [x1, h, mul_zero]
    split_ifs <;> simp [this]
  unfold ellLine
  simp only
  rw [hvert, hm]
  by_cases hw : |(if (0 : Pt ℝ).1 < l1.1 then l1 else 0).1 - (if (0 : Pt ℝ).1 < l1.1 then (0 : Pt ℝ) else l1).1| < 1 / 10 ^ 4
  · rw [if_pos hw]
  · have hne : d.1 ≠ 0 := fun h => hw (hw0 h)
    rw [if_neg hw, if_pos]
    rw [abs_div, gt_iff_lt, lt_div_iff₀ (abs_pos.2 hne)]
    exact hs

/-- C136 (partial), the default reference point: all values, for axes of at least 1/50 that are not too different. Up to the steepness 100 the
value is the quadratic form of the ellipse, which is `point_location(x) + 1`; in steeper directions it is the square of the distance to the
centre in units of the second half axis. -/
theorem C136_centre_partial (e : Ell) (h0 : 1 / 50 ≤ e.a.1) (h1 : 1 / 50 ≤ e.a.2) (h2 : e.a.2 ≤ 40 * e.a.1) (hxr : e.xr = 0) (f : Frame)
    (hf : f.Valid) (y : Pt ℝ) (hy : y ≠ 0) :
    e.distanceFunction (inFrame e.mm f y) f =
        .ok (if |y.2| ≤ 100 * |y.1| then ellForm e.a y else normSq y / e.a.2 ^ 2) ∧
      e.pointLocation (inFrame e.mm f y) f = .ok (ellForm e.a y - 1) := by
  have p0 : 0 < e.a.1 := by linarith
  have p1 : 0 < e.a.2 := by linarith
  constructor
  swap
  · simp only [Ell.pointLocation, transform_to_obstacle _ _ hf, bind, Except.bind]
    rw [if_neg (by rintro (h | h) <;> linarith), ellForm, div_pow, div_pow]
  split
  · rename_i hs
    have hy1 : 0 < |y.1| := by
      rw [abs_pos]
      intro h
      rw [h, abs_zero, mul_zero] at hs
      exact hy (Prod.ext h (abs_eq_zero.1 (le_antisymm hs (abs_nonneg _))))
    have hA := ellForm_pos p0 p1 hy
    have hg : ellGauge e.a e.xr y = ellForm e.a y := by
      rw [hxr]
      simp only [ellGauge, ellForm, Prod.fst_zero, Prod.snd_zero, sub_zero, zero_mul, zero_div, add_zero, zero_add, ne_eq, OfNat.ofNat_ne_zero,
        not_false_eq_true, zero_pow, one_mul, div_one]
      rw [sq_sqrt (by positivity)]
    rw [← hg]
    refine (C136_partial e p0 p1 ?_ ?_).2 f hf y (by rwa [hxr]) (by rw [hxr]; simpa using hs) ?_
    · unfold Ell.diameter
      exact le_trans (by linarith) (le_max_left _ _)
    · rw [hxr]; simp [ellForm]
    · -- the chord
      set k := 1 / √(ellForm e.a y) with hk
      have hk0 : 0 < k := by positivity
      have hkk : k ^ 2 * ellForm e.a y = 1 := by
        rw [hk, div_pow, sq_sqrt hA.le]; field_simp
      have hform : ∀ c : ℝ, ellForm e.a (c • y) = c ^ 2 * ellForm e.a y := by
        intro c; simp only [ellForm, Prod.smul_fst, Prod.smul_snd, smul_eq_mul]; ring
      have hwide : 1 / 10 ^ 4 < k * |y.1| := by
        have hb : ellForm e.a y < 10 ^ 8 * |y.1| ^ 2 := by
          have a1 : y.1 ^ 2 / e.a.1 ^ 2 ≤ |y.1| ^ 2 * 2500 := by
            rw [sq_abs, div_le_iff₀ (by positivity)]
            nlinarith [sq_nonneg y.1, mul_le_mul h0 h0 (by norm_num) p0.le, mul_nonneg (sq_nonneg y.1) (show 0 ≤ e.a.1 ^ 2 - 1 / 2500 by nlinarith)]
          have a2 : y.2 ^ 2 / e.a.2 ^ 2 ≤ (100 * |y.1|) ^ 2 * 2500 := by
            have h3 : y.2 ^ 2 ≤ (100 * |y.1|) ^ 2 := by rw [← sq_abs y.2]; gcongr
            rw [div_le_iff₀ (by positivity)]
            have h4 : 0 ≤ e.a.2 ^ 2 - 1 / 2500 := by nlinarith
            nlinarith [mul_nonneg (sq_nonneg (100 * |y.1|)) h4]
          have : 0 < |y.1| ^ 2 := by positivity
          unfold ellForm
          nlinarith
        have h5 : (1 : ℝ) < (10 ^ 4 * (k * |y.1|)) ^ 2 := by
          have : 0 < k ^ 2 := by positivity
          nlinarith
        have h6 : 1 < 10 ^ 4 * (k * |y.1|) := by
          by_contra h
          push Not at h
          have : 0 ≤ 10 ^ 4 * (k * |y.1|) := by positivity
          nlinarith
        linarith
      have on : ∀ c : ℝ, OnLine e.xr y (c • y) := fun c => ⟨c, by rw [hxr]; simp⟩
      have val : ∀ c : ℝ, c ^ 2 = k ^ 2 → ellForm e.a (c • y) = 1 := fun c hc => by rw [hform, hc, hkk]
      rcases le_or_gt 0 y.1 with h | h
      · refine ⟨(-k) • y, k • y, on _, on _, val _ (by ring), val _ rfl, ?_⟩
        rw [abs_of_nonneg h] at hwide
        simp only [Prod.smul_fst, smul_eq_mul]
        linarith
      · refine ⟨k • y, (-k) • y, on _, on _, val _ rfl, val _ (by ring), ?_⟩
        rw [abs_of_neg h] at hwide
        simp only [Prod.smul_fst, smul_eq_mul]
        linarith
  · rename_i hs
    push Not at hs
    have hid : ∀ p, transform e.mm p .obstacle .obstacle = .ok p := fun p =>
      (C21_identity e.mm p .obstacle .obstacle (Or.inl rfl)).1
    obtain ⟨d, hd, hd1, c, hc, hdc⟩ := C26_unit e.mm e.xr y .obstacle .obstacle y e.xr (hid y) (hid e.xr) (by rwa [hxr])
    rw [hxr, sub_zero] at hdc
    have hds : 100 * |d.1| < |d.2| := by
      rw [hdc]
      simp only [Prod.smul_fst, Prod.smul_snd, smul_eq_mul, abs_mul, abs_of_pos hc]
      nlinarith
    have hl := ell_steep p0 p1 h2 hd1 hds
    have hcall := lineIntersection_eq e .obstacle .obstacle (Or.inr rfl) (Or.inr rfl) _ _ hl
    have hb : e.boundaryMapping y .obstacle .obstacle = .ok (some (0, if 0 < d.2 then e.a.2 else -e.a.2)) := by
      simp only [inFrame, List.map_cons, List.map_nil] at hcall
      simp only [Ell.boundaryMapping, hid, hd, bind, Except.bind]
      rw [hxr, Ell.diameter, hcall]
    have hn : norm2 (((0, if 0 < d.2 then e.a.2 else -e.a.2) : Pt ℝ) - e.xr) = e.a.2 := by
      rw [hxr, sub_zero, norm2]
      split_ifs
      · simp [sqrt_sq p1.le]
      · simp [sqrt_sq p1.le]
    simp only [Ell.distanceFunction, transform_to_obstacle _ _ hf, bind, Except.bind, hb, hn]
    rw [if_neg p1.ne', hxr, sub_zero, div_pow, norm2, normSq, sq_sqrt (by positivity)]

/-- C136 (partial), circles: for all points but the centre the value is the square of the distance to the centre in units of the radius, and
it is `point_location(x) + 1`. -/
theorem C136_circle_partial (e : Ell) {r : ℝ} (hr : 1 / 50 ≤ r) (ha : e.a = (r, r)) (hxr : e.xr = 0) (f : Frame) (hf : f.Valid) (y : Pt ℝ)
    (hy : y ≠ 0) : e.distanceFunction (inFrame e.mm f y) f = .ok (normSq y / r ^ 2) ∧
      e.pointLocation (inFrame e.mm f y) f = .ok (normSq y / r ^ 2 - 1) := by
  obtain ⟨h1, h2⟩ := C136_centre_partial e (by rw [ha]; exact hr) (by rw [ha]; exact hr) (by rw [ha]; simp only; linarith) hxr f hf y hy
  have e1 : ellForm e.a y = normSq y / r ^ 2 := by rw [ha, ellForm, normSq]; ring
  rw [e1] at h1 h2
  refine ⟨?_, h2⟩
  rw [h1, ha]
  simp

/-- C136 is false for steep directions: with half axes 2 and 1, and the centre as the reference point, the distance function has no
continuous values at (1, 100). -/
theorem C136_false : ¬ ∃ D : Pt ℝ → ℝ, ContinuousAt D (1, 100) ∧
    ∀ y : Pt ℝ, y ≠ 0 → (⟨(2, 1), 0, 20, none⟩ : Ell).distanceFunction y .global = .ok (D y) := by
  rintro ⟨D, hD, hval⟩
  have hv : ∀ c : ℝ, 0 < c → c ≤ 1 → D (c, 100) = if (1 : ℝ) ≤ c then c ^ 2 / 4 + 10000 else c ^ 2 + 10000 := by
    intro c hc hc1
    have h := (C136_centre_partial (⟨(2, 1), 0, 20, none⟩ : Ell) (by norm_num) (by norm_num) (by norm_num) rfl .global (Or.inl rfl) (c, 100)
      (by simp [Prod.ext_iff])).1
    have hi : inFrame none .global ((c, 100) : Pt ℝ) = (c, 100) := rfl
    simp only [hi] at h
    rw [hval _ (by simp [Prod.ext_iff])] at h
    have h' := Except.ok.inj h
    rw [h', abs_of_pos hc, abs_of_pos (by norm_num : (0 : ℝ) < 100)]
    by_cases h1 : (1 : ℝ) ≤ c
    · rw [if_pos h1, if_pos (by linarith), ellForm]; norm_num
    · rw [if_neg h1, if_neg (by intro h; apply h1; linarith), normSq]; norm_num
  have hc : ContinuousAt (fun c : ℝ => D (c, 100)) 1 :=
    ContinuousAt.comp (f := fun c : ℝ => ((c, 100) : Pt ℝ)) (g := D) hD (by fun_prop)
  have h1 : Filter.Tendsto (fun c : ℝ => D (c, 100)) (nhdsWithin 1 (Set.Iio 1)) (nhds (D (1, 100))) := hc.tendsto.mono_left nhdsWithin_le_nhds
  have h2 : Filter.Tendsto (fun c : ℝ => c ^ 2 + 10000) (nhdsWithin 1 (Set.Iio 1)) (nhds (1 ^ 2 + 10000)) :=
    (Continuous.tendsto (f := fun c : ℝ => c ^ 2 + 10000) (by fun_prop) 1).mono_left nhdsWithin_le_nhds
  have h3 : (fun c : ℝ => D (c, 100)) =ᶠ[nhdsWithin 1 (Set.Iio 1)] fun c : ℝ => c ^ 2 + 10000 := by
    filter_upwards [Ioo_mem_nhdsLT (show (0 : ℝ) < 1 by norm_num)] with c hc
    rw [hv c hc.1 hc.2.le, if_neg (by linarith [hc.2])]
  have h4 := tendsto_nhds_unique (h1.congr' h3) h2
  rw [hv 1 one_pos le_rfl, if_pos le_rfl] at h4
  norm_num at h4

/-- The unit circle at (3, 0): at (3, 2), straight above the centre, the value is 4; with half axes 2 and 1 it is 4 too, and at the point
(2, 0) on the boundary it is 1. -/
example : (⟨(1, 1), 0, 20, some ⟨(3, 0), 0⟩⟩ : Ell).distanceFunction (3, 2) .global = .ok 4 ∧
    (⟨(2, 1), 0, 20, none⟩ : Ell).distanceFunction (0, 2) .global = .ok 4 ∧
    (⟨(2, 1), 0, 20, none⟩ : Ell).distanceFunction (2, 0) .global = .ok 1 := by
  refine ⟨?_, ?_, ?_⟩
  · have h := (C136_circle_partial (⟨(1, 1), 0, 20, some ⟨(3, 0), 0⟩⟩ : Ell) (r := 1) (by norm_num) rfl rfl .global (Or.inl rfl) (0, 2)
      (by simp [Prod.ext_iff])).1
    norm_num [inFrame, normSq, worldOf] at h
    exact h
  · have h := (C136_centre_partial (⟨(2, 1), 0, 20, none⟩ : Ell) (by norm_num) (by norm_num) (by norm_num) rfl .global (Or.inl rfl) (0, 2)
      (by simp [Prod.ext_iff])).1
    norm_num [inFrame, normSq, worldOf, ellForm] at h
    exact h
  · have h := (C136_centre_partial (⟨(2, 1), 0, 20, none⟩ : Ell) (by norm_num) (by norm_num) (by norm_num) rfl .global (Or.inl rfl) (2, 0)
      (by simp [Prod.ext_iff])).1
    norm_num [inFrame, normSq, worldOf, ellForm] at h
    exact h

end Starworlds
