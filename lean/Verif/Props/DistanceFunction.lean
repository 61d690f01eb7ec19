import Verif.Props.Combination
import Verif.Props.Ellipse

/-! # C71: the inherited distance_function -/

namespace Starworlds

open Real Spec

/-- Where the ray from an inner point leaves the ellipse decides on which side the point at parameter 1 is. -/
theorem ell_order {a p d : Pt ℝ} (h0 : 0 < a.1) (h1 : 0 < a.2) (hd : d ≠ 0) (hp : ellForm a p < 1) {t : ℝ} (ht0 : 0 ≤ t)
    (ht : ellForm a (p + t • d) = 1) :
    0 < t ∧ (ellForm a (p + d) < 1 ↔ 1 < t) ∧ (ellForm a (p + d) = 1 ↔ t = 1) := by
  have hA := ellForm_pos h0 h1 hd
  have hq : ∀ s : ℝ, ellForm a (p + s • d) = _ := fun s => ellForm_quad a p d s
  have e1 := hq 1
  rw [one_smul] at e1
  rw [hq] at ht
  set A := ellForm a d
  set B := 2 * (p.1 * d.1 / a.1 ^ 2 + p.2 * d.2 / a.2 ^ 2)
  have htp : 0 < t := by
    rcases ht0.eq_or_lt with h | h
    · subst h; norm_num at ht; linarith
    · exact h
  have hk : t * (ellForm a (p + d) - 1) = (1 - t) * (A * t + (1 - ellForm a p)) := by
    rw [e1]; linear_combination ht
  have hpos : 0 < A * t + (1 - ellForm a p) := by
    have := mul_pos hA htp
    linarith
  refine ⟨htp, ⟨fun h => ?_, fun h => ?_⟩, ⟨fun h => ?_, fun h => ?_⟩⟩
  · by_contra hc
    push Not at hc
    have := mul_nonneg (sub_nonneg.2 hc) hpos.le
    have := mul_neg_of_pos_of_neg htp (sub_neg.2 h)
    linarith
  · by_contra hc
    push Not at hc
    have := mul_neg_of_neg_of_pos (sub_neg.2 h) hpos
    have := mul_nonneg htp.le (sub_nonneg.2 hc)
    linarith
  · rw [h, sub_self, mul_zero] at hk
    rcases mul_eq_zero.1 hk.symm with h' | h'
    · linarith
    · exact absurd h' hpos.ne'
  · rw [h, sub_self, zero_mul, one_mul] at hk
    linarith

/-- The length of a multiple. -/
theorem len_smul_nonneg {t : ℝ} (ht : 0 ≤ t) (v : Pt ℝ) : len (t • v) = t * len v := by
  rw [len, len, normSq, normSq]
  rw [show (t • v).1 ^ 2 + (t • v).2 ^ 2 = t ^ 2 * (v.1 ^ 2 + v.2 ^ 2) by
    simp only [Prod.smul_fst, Prod.smul_snd, smul_eq_mul]; ring, sqrt_mul (sq_nonneg t), sqrt_sq ht]

theorem len_pos_of_ne {v : Pt ℝ} (hv : v ≠ 0) : 0 < len v := by
  rw [len, sqrt_pos, normSq]
  rcases eq_or_ne v.1 0 with h | h
  · have : v.2 ≠ 0 := fun h2 => hv (Prod.ext h h2)
    positivity
  · positivity

/-- C71 for an ellipse, partial: for directions from the reference point that are not steep, with a chord that is not
too short, the value is the square of the distance to the reference point in units of the distance of the boundary point;
it is below 1 inside of the ellipse, 1 on it and above 1 outside, and grows with the square along the ray.
Missing: the other directions, for which it is false, and the reference point itself. -/
theorem C71_ellipse_partial (e : Ell) (h0 : 0 < e.a.1) (h1 : 0 < e.a.2) (hD : 1 / 100 ≤ e.diameter) (f : Frame)
    (hf : f.Valid) (hxr : ellForm e.a e.xr < 1) (y : Pt ℝ) (hy : y ≠ e.xr)
    (hs : |y.2 - e.xr.2| ≤ 100 * |y.1 - e.xr.1|)
    (hch : ∃ p q, OnLine e.xr y p ∧ OnLine e.xr y q ∧ ellForm e.a p = 1 ∧ ellForm e.a q = 1 ∧
      p.1 + 2 / 10 ^ 4 < q.1) :
    ∃ b v, OnRay e.xr y b ∧ ellForm e.a b = 1 ∧ v = (len (y - e.xr) / len (b - e.xr)) ^ 2 ∧
      e.distanceFunction (inFrame e.mm f y) f = .ok v ∧ (v < 1 ↔ ellForm e.a y < 1) ∧ (v = 1 ↔ ellForm e.a y = 1) ∧
      ∀ k : ℝ, 0 < k → e.distanceFunction (inFrame e.mm f (e.xr + k • (y - e.xr))) f = .ok (k ^ 2 * v) := by
  have hdne : y - e.xr ≠ 0 := sub_ne_zero.2 hy
  -- the same boundary point for the whole ray
  have hmap : ∀ k : ℝ, 0 < k → ∃ b, e.boundaryMapping (e.xr + k • (y - e.xr)) .obstacle .obstacle = .ok (some b) ∧
      OnRay e.xr y b ∧ ellForm e.a b = 1 ∧ ∀ b', OnRay e.xr y b' → ellForm e.a b' = 1 → b' = b := by
    intro k hk
    have hray : ∀ b, OnRay e.xr (e.xr + k • (y - e.xr)) b ↔ OnRay e.xr y b := by
      intro b
      constructor
      · rintro ⟨t, ht, rfl⟩
        exact ⟨t * k, by positivity, by rw [add_sub_cancel_left, smul_smul]⟩
      · rintro ⟨t, ht, rfl⟩
        refine ⟨t / k, by positivity, ?_⟩
        rw [add_sub_cancel_left, smul_smul, div_mul_cancel₀ _ hk.ne']
    have hline : ∀ b, OnLine e.xr y b → OnLine e.xr (e.xr + k • (y - e.xr)) b := by
      rintro b ⟨t, rfl⟩
      refine ⟨t / k, ?_⟩
      rw [add_sub_cancel_left, smul_smul, div_mul_cancel₀ _ hk.ne']
    obtain ⟨p, q, hp, hq, hp1, hq1, hpq⟩ := hch
    obtain ⟨b, hb, hb1, hb2, hb3⟩ := C30_unique_partial e h0 h1 hD .obstacle .obstacle (Or.inr rfl) (Or.inr rfl) hxr
      (e.xr + k • (y - e.xr)) (by
        intro h
        have h' : k • (y - e.xr) = 0 := by simpa using h
        rcases smul_eq_zero.1 h' with h | h
        · exact hk.ne' h
        · exact hdne h)
      (by
        simp only [Prod.fst_add, Prod.snd_add, Prod.smul_fst, Prod.smul_snd, Prod.fst_sub, Prod.snd_sub, smul_eq_mul,
          add_sub_cancel_left, abs_mul, abs_of_pos hk]
        nlinarith)
      ⟨p, q, hline p hp, hline q hq, hp1, hq1, hpq⟩
    exact ⟨b, hb, (hray b).1 hb1, hb2, fun b' h h' => hb3 b' ((hray b').2 h) h'⟩
  obtain ⟨b, _, hb1, hb2, hb3⟩ := hmap 1 one_pos
  obtain ⟨t, ht0, hbt⟩ := hb1
  have hb1 : OnRay e.xr y b := ⟨t, ht0, hbt⟩
  have hord := ell_order h0 h1 hdne hxr ht0 (by rw [← hbt]; exact hb2)
  rw [add_sub_cancel] at hord
  obtain ⟨htp, hlt, heq⟩ := hord
  have hl := len_pos_of_ne hdne
  have hlb : len (b - e.xr) = t * len (y - e.xr) := by rw [hbt, add_sub_cancel_left, len_smul_nonneg ht0]
  have hlb0 : 0 < len (b - e.xr) := by rw [hlb]; positivity
  have hv : ∀ k : ℝ, 0 < k → e.distanceFunction (inFrame e.mm f (e.xr + k • (y - e.xr))) f =
      .ok (k ^ 2 * (len (y - e.xr) / len (b - e.xr)) ^ 2) := by
    intro k hk
    obtain ⟨b', hb', hr, h2, _⟩ := hmap k hk
    have : b' = b := hb3 b' hr h2
    subst this
    simp only [Ell.distanceFunction, transform_to_obstacle _ _ hf, bind, Except.bind, hb']
    rw [norm2_eq_len, norm2_eq_len, if_neg hlb0.ne', add_sub_cancel_left, len_smul_nonneg hk.le]
    congr 1
    ring
  have hval : (len (y - e.xr) / len (b - e.xr)) ^ 2 = (1 / t) ^ 2 := by
    rw [hlb]; field_simp
  refine ⟨b, _, hb1, hb2, rfl, ?_, ?_, ?_, hv⟩
  · have := hv 1 one_pos
    rwa [one_smul, add_sub_cancel, one_pow, one_mul] at this
  · rw [hval, hlt, sq_lt_one_iff₀ (by positivity), div_lt_one htp]
  · rw [hval, heq, pow_eq_one_iff_of_nonneg (by positivity) two_ne_zero, div_eq_one_iff_eq htp.ne']
    exact eq_comm

/-- C71 is false for an ellipse in steep directions: (1, 6/5) is outside of the ellipse with half axes 2 and 1, but from the
reference point (1, 0) the value is below 1. -/
theorem C71_steep_false : ellForm offEll.a offEll.xr < 1 ∧ 1 < ellForm offEll.a (1, 6 / 5) ∧
    ∃ v, offEll.distanceFunction (1, 6 / 5) .global = .ok v ∧ v < 1 := by
  refine ⟨by norm_num [ellForm, offEll], by norm_num [ellForm, offEll], ?_⟩
  have hn : norm2 ((0, 6 / 5) : Pt ℝ) = 6 / 5 := by
    rw [norm2, show ((0 : ℝ) ^ 2 + (6 / 5) ^ 2) = (6 / 5) ^ 2 by norm_num, sqrt_sq (by norm_num)]
  have hd : referenceDirection offEll.mm offEll.xr (1, 6 / 5) .obstacle .obstacle = .ok (0, 1) := by
    simp [referenceDirection, transform, offEll, bind, Except.bind, hn]
  have hl : ellLine offEll.a offEll.xr (offEll.xr + (1.1 * offEll.diameter) • ((0, 1) : Pt ℝ)) = .ok [(0, 1)] := by
    norm_num [ellLine, ellVertical, offEll, Ell.diameter]
  have hcall := lineIntersection_eq offEll .obstacle .obstacle (Or.inr rfl) (Or.inr rfl) _ _ hl
  simp only [inFrame] at hcall
  have hb : offEll.boundaryMapping (1, 6 / 5) .obstacle .obstacle = .ok (some (0, 1)) := by
    simp [Ell.boundaryMapping, hd, bind, Except.bind, transform, offEll] at *
    simp [hcall, inFrame]
  have hn2 : norm2 (((0, 1) : Pt ℝ) - offEll.xr) = √2 := by
    rw [norm2]; congr 1; norm_num [offEll]
  have hn1 : norm2 (((1, 6 / 5) : Pt ℝ) - offEll.xr) = 6 / 5 := by
    rw [show ((1, 6 / 5) : Pt ℝ) - offEll.xr = (0, 6 / 5) by ext <;> norm_num [offEll], hn]
  refine ⟨(6 / 5 / √2) ^ 2, ?_, ?_⟩
  · have ht : transform offEll.mm (1, 6 / 5) .global .obstacle = .ok (1, 6 / 5) := by simp [transform, offEll]
    simp only [Ell.distanceFunction, ht, bind, Except.bind, hb, hn1, hn2]
    rw [if_neg (by positivity)]
  · rw [div_pow, sq_sqrt (by norm_num)]; norm_num

/-- The hypotheses of `C71_ellipse_partial` hold for the ellipse above: at (7, 0), six times as far from (1, 0) as the
boundary point (2, 0), the value is 36. -/
example : offEll.distanceFunction (7, 0) .global = .ok 36 := by
  obtain ⟨b, v, hr, hb, rfl, hv, _⟩ := C71_ellipse_partial offEll (by norm_num [offEll]) (by norm_num [offEll])
    (by norm_num [offEll, Ell.diameter]) .global (Or.inl rfl) (by norm_num [ellForm, offEll])
    (7, 0) (by norm_num [offEll]) (by norm_num [offEll])
    ⟨(-2, 0), (2, 0), ⟨-1 / 2, by ext <;> norm_num [offEll]⟩, ⟨1 / 6, by ext <;> norm_num [offEll]⟩,
      by norm_num [ellForm, offEll], by norm_num [ellForm, offEll], by norm_num⟩
  obtain ⟨t, ht, rfl⟩ := hr
  have ht6 : t = 1 / 6 := by
    by_contra hne
    have := ell_sides (a := offEll.a) (p := offEll.xr) (d := (7, 0) - offEll.xr) (t := t) (s := 1 / 6)
      (by norm_num [offEll]) (by norm_num [offEll]) (by norm_num [offEll]) (by norm_num [ellForm, offEll]) hb
      (by norm_num [ellForm, offEll]) hne
    linarith [mul_nonneg ht (show (0 : ℝ) ≤ 1 / 6 by norm_num)]
  have hl : 0 < len (((7, 0) : Pt ℝ) - offEll.xr) := len_pos_of_ne (by norm_num [offEll])
  rw [add_sub_cancel_left, len_smul_nonneg ht, ht6] at hv
  rw [show (len (((7, 0) : Pt ℝ) - offEll.xr) / (1 / 6 * len (((7, 0) : Pt ℝ) - offEll.xr))) ^ 2 = 36 by
    field_simp; norm_num] at hv
  exact hv

/-- C71 for a combination, partial: when the test segment to ten times the distance meets some boundary, and the
reference point is on none, the value is the square of the distance in units of the distance of the farthest of these
boundary points; it is at most 1 exactly when `x` is between the reference point and that point. Missing: points that
are closer to the reference point than a tenth of the boundary, for which it is false. -/
theorem C71_combination_partial (c : Combination) (B : Member → Set (Pt ℝ)) (H : Set (Pt ℝ)) (x : Pt ℝ)
    (h : Parts c B H (c.xr + (10 : ℝ) • (x - c.xr))) (hxr : c.xr ∉ allOf c B H)
    (hex : ∃ q ∈ allOf c B H, OnSegment c.xr (c.xr + (10 : ℝ) • (x - c.xr)) q) :
    ∃ p v, p ∈ allOf c B H ∧ OnRay c.xr x p ∧
      (∀ q ∈ allOf c B H, OnSegment c.xr (c.xr + (10 : ℝ) • (x - c.xr)) q → len (q - c.xr) ≤ len (p - c.xr)) ∧
      c.distanceFunction x = .ok v ∧ v = (len (x - c.xr) / len (p - c.xr)) ^ 2 ∧
      (v < 1 ↔ len (x - c.xr) < len (p - c.xr)) ∧ (v = 1 ↔ x = p) ∧ (v ≤ 1 ↔ OnSegment c.xr p x) := by
  obtain ⟨r, hr, hnone, hsome⟩ := C43_farthest c B H x h
  cases r with
  | none =>
    obtain ⟨q, hq, hq'⟩ := hex
    exact absurd hq' (hnone.1 rfl q hq)
  | some p =>
    obtain ⟨hp, _, hray, hfar⟩ := hsome p rfl
    have hpne : p - c.xr ≠ 0 := sub_ne_zero.2 fun e => hxr (e ▸ hp)
    have hl := len_pos_of_ne hpne
    obtain ⟨t, ht, e⟩ := hray
    have hxne : x - c.xr ≠ 0 := fun h0 => hpne (by rw [e, h0, smul_zero, add_zero, sub_self])
    have hx := len_pos_of_ne hxne
    have htp : 0 < t := by
      rcases ht.eq_or_lt with h0 | h0
      · subst h0; exact absurd (by rw [e, zero_smul, add_zero, sub_self]) hpne
      · exact h0
    have hlp : len (p - c.xr) = t * len (x - c.xr) := by rw [e, add_sub_cancel_left, len_smul_nonneg ht]
    have hval : (len (x - c.xr) / len (p - c.xr)) ^ 2 = (1 / t) ^ 2 := by rw [hlp]; field_simp
    refine ⟨p, _, hp, ⟨t, ht, e⟩, hfar, ?_, rfl, ?_, ?_, ?_⟩
    · simp only [Combination.distanceFunction, hr, bind, Except.bind]
      rw [norm2_eq_len, norm2_eq_len, if_neg hl.ne']
    · rw [sq_lt_one_iff₀ (by positivity), div_lt_one hl]
    · rw [hval, pow_eq_one_iff_of_nonneg (by positivity) two_ne_zero, div_eq_one_iff_eq htp.ne']
      constructor
      · intro h1; rw [e, ← h1, one_smul, add_sub_cancel]
      · intro h1
        rw [← h1] at hlp
        have : (1 - t) * len (x - c.xr) = 0 := by linarith
        rcases mul_eq_zero.1 this with h2 | h2
        · linarith
        · exact absurd h2 hx.ne'
    · rw [hval, sq_le_one_iff₀ (by positivity), div_le_one htp]
      constructor
      · intro h1
        refine ⟨1 / t, by positivity, (div_le_one htp).2 h1, ?_⟩
        rw [e, add_sub_cancel_left, smul_smul, one_div_mul_cancel htp.ne', one_smul, add_sub_cancel]
      · rintro ⟨s, hs0, hs1, hs⟩
        have : len (x - c.xr) = s * len (p - c.xr) := by
          conv_lhs => rw [hs]
          rw [add_sub_cancel_left, len_smul_nonneg hs0]
        rw [hlp] at this
        have h2 : (s * t - 1) * len (x - c.xr) = 0 := by linarith
        rcases mul_eq_zero.1 h2 with h3 | h3
        · nlinarith
        · exact absurd h3 hx.ne'

/-- C71 is false for a combination near the reference point: for the combination of one square, `distance_function` raises
for the inner point (1/20, 0). -/
theorem C71_near_false : oneSquare.distanceFunction (1 / 20, 0) = .error .typeError := by
  simp only [Combination.distanceFunction, C43_near_false.1, bind, Except.bind]

/-- The hypotheses of `C71_combination_partial` hold at (1/2, 0) for that combination; the value is 1/4. -/
example : oneSquare.distanceFunction (1 / 2, 0) = .ok (1 / 4) := by
  have hall : ∀ p, p ∈ allOf oneSquare (fun _ => {p | OnRing bigSquare p}) ∅ ↔ OnRing bigSquare p := by
    intro p
    simp [allOf, oneSquare]
  have hxr : oneSquare.xr = 0 := rfl
  have h10 : OnRing bigSquare (1, 0) := by
    obtain ⟨_, hr, _, h2⟩ := C43_farthest oneSquare _ _ (1, 0) (oneSquare_parts _)
    rw [C43_near_false.2] at hr
    injection hr with hr
    exact (hall _).1 (h2 _ hr.symm).1
  obtain ⟨p, v, hp, hray, _, hv, rfl, _⟩ := C71_combination_partial oneSquare _ _ (1 / 2, 0) (oneSquare_parts _)
    (by
      rw [hall, hxr]
      intro h0
      rcases bigSquare_ring _ h0 with h | h <;> simp at h)
    ⟨(1, 0), (hall _).2 h10, 1 / 5, by norm_num, by norm_num, by rw [hxr]; ext <;> norm_num⟩
  obtain ⟨t, ht, rfl⟩ := hray
  have ht2 : t = 2 := by
    rw [hall, hxr] at hp
    rcases bigSquare_ring _ hp with h | h
    · simp only [zero_add, sub_zero, Prod.smul_fst, smul_eq_mul, abs_mul, abs_of_nonneg ht] at h
      norm_num at h
      linarith
    · simp at h
  subst ht2
  have hl : 0 < len (((1 / 2, 0) : Pt ℝ) - oneSquare.xr) := len_pos_of_ne (by rw [hxr]; norm_num)
  rw [hv, add_sub_cancel_left, len_smul_nonneg (by norm_num)]
  congr 1
  field_simp
  norm_num

end Starworlds
