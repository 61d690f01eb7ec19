import Verif.Props.Ellipse

/-! # C32, C33: tangent points of the ellipse -/

namespace Starworlds

open Real Spec

/-- The polar form of the ellipse: `polarForm a t q = 1` is the tangent line at a boundary point `t`. -/
noncomputable def polarForm (a t q : Pt ℝ) : ℝ := t.1 * q.1 / a.1 ^ 2 + t.2 * q.2 / a.2 ^ 2

/-- Two tangent points seen from `p`: for a number `w` whose sign tells their order. -/
structure TangentPair (a p t1 t2 : Pt ℝ) (w : ℝ) : Prop where
  on1 : ellForm a t1 = 1
  on2 : ellForm a t2 = 1
  p1 : polarForm a t1 p = 1
  p2 : polarForm a t2 p = 1
  wsq : w ^ 2 = a.1 ^ 2 * a.2 ^ 2 * (ellForm a p - 1)
  cross1 : ∀ q, cross (t1 - p) (q - p) = w * (polarForm a t1 q - 1)
  cross2 : ∀ q, cross (t2 - p) (q - p) = -(w * (polarForm a t2 q - 1))
  both : polarForm a t1 t2 - 1 = -(2 * (ellForm a p - 1) / ellForm a p)

/-- The tangent point on a line of slope `m` through `p`. -/
theorem tangent_slope {a p : Pt ℝ} (h0 : 0 < a.1) (h1 : 0 < a.2) {m : ℝ}
    (hk : (p.2 - m * p.1) ^ 2 = a.2 ^ 2 + a.1 ^ 2 * m ^ 2) :
    p.2 - m * p.1 ≠ 0 ∧
    (p.1 * m ^ 2 - p.2 * m) / (a.2 ^ 2 / a.1 ^ 2 + m ^ 2) = -(a.1 ^ 2 * m) / (p.2 - m * p.1) ∧
    m * (-(a.1 ^ 2 * m) / (p.2 - m * p.1) - p.1) + p.2 = a.2 ^ 2 / (p.2 - m * p.1) := by
  have hpos : 0 < a.2 ^ 2 + a.1 ^ 2 * m ^ 2 := by positivity
  have hk0 : p.2 - m * p.1 ≠ 0 := by
    intro h; rw [h] at hk; norm_num at hk; linarith
  refine ⟨hk0, ?_, ?_⟩
  · have e : a.2 ^ 2 / a.1 ^ 2 + m ^ 2 = (p.2 - m * p.1) ^ 2 / a.1 ^ 2 := by
      rw [hk]; field_simp
    rw [e]
    set k := p.2 - m * p.1 with hkd
    have hp : p.1 * m ^ 2 - p.2 * m = -(m * k) := by rw [hkd]; ring
    rw [hp]
    field_simp
  · set k := p.2 - m * p.1 with hkd
    have hp : p.2 = k + m * p.1 := by rw [hkd]; ring
    rw [hp]
    field_simp
    linear_combination hk

theorem polar_slope {a : Pt ℝ} (h0 : 0 < a.1) (h1 : 0 < a.2) {m k : ℝ} (hk0 : k ≠ 0) (q : Pt ℝ) :
    polarForm a (-(a.1 ^ 2 * m) / k, a.2 ^ 2 / k) q = (q.2 - m * q.1) / k := by
  simp only [polarForm]
  field_simp
  ring

theorem ellForm_slope {a : Pt ℝ} (_ : 0 < a.1) (_ : 0 < a.2) {m k : ℝ} (hk0 : k ≠ 0)
    (hk : k ^ 2 = a.2 ^ 2 + a.1 ^ 2 * m ^ 2) : ellForm a (-(a.1 ^ 2 * m) / k, a.2 ^ 2 / k) = 1 := by
  simp only [ellForm]
  field_simp
  linear_combination -hk

theorem cross_slope {a p : Pt ℝ} (h0 : 0 < a.1) (h1 : 0 < a.2) {m : ℝ} (hk0 : p.2 - m * p.1 ≠ 0)
    (hk : (p.2 - m * p.1) ^ 2 = a.2 ^ 2 + a.1 ^ 2 * m ^ 2) (q : Pt ℝ) :
    cross ((-(a.1 ^ 2 * m) / (p.2 - m * p.1), a.2 ^ 2 / (p.2 - m * p.1)) - p) (q - p) =
      (m * (p.1 ^ 2 - a.1 ^ 2) - p.1 * p.2) *
        (polarForm a (-(a.1 ^ 2 * m) / (p.2 - m * p.1), a.2 ^ 2 / (p.2 - m * p.1)) q - 1) := by
  rw [polar_slope h0 h1 hk0, ← (tangent_slope h0 h1 hk).2.2]
  simp only [cross, Prod.fst_sub, Prod.snd_sub]
  set k := p.2 - m * p.1 with hkd
  have hp : p.2 = k + m * p.1 := by rw [hkd]; ring
  rw [hp]
  field_simp
  ring

theorem ellForm_tmp {a : Pt ℝ} (h0 : 0 < a.1) (h1 : 0 < a.2) (p : Pt ℝ) :
    a.1 ^ 2 * a.2 ^ 2 * (ellForm a p - 1) = a.2 ^ 2 * p.1 ^ 2 + a.1 ^ 2 * p.2 ^ 2 - a.1 ^ 2 * a.2 ^ 2 := by
  simp only [ellForm]; field_simp

/-- Outside the band of the vertical tangents, the code's two points. -/
theorem ellTangents_spec {a p : Pt ℝ} (h0 : 0 < a.1) (h1 : 0 < a.2) (hp : 1 < ellForm a p)
    (hb : 1 / 10 ^ 5 ≤ |a.1 ^ 2 - p.1 ^ 2|) :
    ∃ t1 t2 w, ellTangents a p = .ok (t1, t2) ∧ TangentPair a p t1 t2 w ∧ (0 < w ↔ a.1 ^ 2 < p.1 ^ 2) := by
  have htmp : p.1 ^ 2 - a.1 ^ 2 ≠ 0 := by
    intro h
    rw [abs_sub_comm, h, abs_zero] at hb
    norm_num at hb
  set T := p.1 ^ 2 - a.1 ^ 2 with hT
  have hv : ellVerticalTangent a p = false := by
    simp only [ellVerticalTangent, decide_eq_false_iff_not, not_lt]; exact hb
  set c1 := p.1 * p.2 / T with hc1
  set c2 := (a.2 ^ 2 - p.2 ^ 2) / T with hc2
  have hF := ellForm_tmp h0 h1 p
  have hFpos : 0 < a.1 ^ 2 * a.2 ^ 2 * (ellForm a p - 1) := by
    have : 0 < ellForm a p - 1 := by linarith
    positivity
  have hrad : c1 ^ 2 + c2 = a.1 ^ 2 * a.2 ^ 2 * (ellForm a p - 1) / T ^ 2 := by
    rw [hF, hc1, hc2]
    field_simp
    rw [hT]; ring
  set s := √(c1 ^ 2 + c2) with hs
  have hspos : 0 < s := by
    rw [hs, sqrt_pos, hrad]; positivity
  have hssq : s ^ 2 = a.1 ^ 2 * a.2 ^ 2 * (ellForm a p - 1) / T ^ 2 := by
    rw [hs, sq_sqrt (by rw [hrad]; positivity), hrad]
  have hTs : (T * s) ^ 2 = a.1 ^ 2 * a.2 ^ 2 * (ellForm a p - 1) := by
    rw [mul_pow, hssq]; field_simp
  have hTc : T * c1 = p.1 * p.2 := by rw [hc1]; field_simp
  -- both slopes solve the tangent equation
  have hroot : ∀ σ : ℝ, σ ^ 2 = s ^ 2 →
      (p.2 - (c1 + σ) * p.1) ^ 2 = a.2 ^ 2 + a.1 ^ 2 * (c1 + σ) ^ 2 := by
    intro σ hσ
    have e : T * ((p.2 - (c1 + σ) * p.1) ^ 2 - (a.2 ^ 2 + a.1 ^ 2 * (c1 + σ) ^ 2)) = 0 := by
      have e1 : (T * (c1 + σ) - p.1 * p.2) ^ 2 = a.1 ^ 2 * a.2 ^ 2 * (ellForm a p - 1) := by
        rw [← hTs, mul_add, hTc, mul_pow, ← hσ]; ring
      rw [hF] at e1
      rw [hT] at e1 ⊢
      linear_combination e1
    have := (mul_eq_zero.1 e).resolve_left htmp
    linarith
  have hr1 := hroot s rfl
  have hr2 := hroot (-s) (by ring)
  rw [← sub_eq_add_neg] at hr2
  obtain ⟨hk1, hx1, hy1⟩ := tangent_slope h0 h1 hr1
  obtain ⟨hk2, hx2, hy2⟩ := tangent_slope h0 h1 hr2
  refine ⟨(-(a.1 ^ 2 * (c1 + s)) / (p.2 - (c1 + s) * p.1), a.2 ^ 2 / (p.2 - (c1 + s) * p.1)),
    (-(a.1 ^ 2 * (c1 - s)) / (p.2 - (c1 - s) * p.1), a.2 ^ 2 / (p.2 - (c1 - s) * p.1)), T * s, ?_, ?_, ?_⟩
  · simp only [ellTangents, hv, ← hT, ← hc1, ← hc2, ← hs, hx1, hx2, hy1, hy2]
    rfl
  · refine ⟨ellForm_slope h0 h1 hk1 hr1, ellForm_slope h0 h1 hk2 hr2, ?_, ?_, hTs, ?_, ?_, ?_⟩
    · rw [polar_slope h0 h1 hk1, div_self hk1]
    · rw [polar_slope h0 h1 hk2, div_self hk2]
    · intro q
      rw [cross_slope h0 h1 hk1 hr1, ← hT]
      congr 1
      rw [add_mul, mul_comm c1, hTc]; ring
    · intro q
      rw [cross_slope h0 h1 hk2 hr2, ← hT]
      linear_combination (polarForm a (-(a.1 ^ 2 * (c1 - s)) / (p.2 - (c1 - s) * p.1),
        a.2 ^ 2 / (p.2 - (c1 - s) * p.1)) q - 1) * hTc
    · rw [polar_slope h0 h1 hk1]
      simp only
      have hE : 0 < ellForm a p := by linarith
      have hkk : (p.2 - (c1 + s) * p.1) * (p.2 - (c1 - s) * p.1) * T = -(a.1 ^ 2 * a.2 ^ 2 * ellForm a p) := by
        have e1 : a.1 ^ 2 * a.2 ^ 2 * ellForm a p = a.2 ^ 2 * p.1 ^ 2 + a.1 ^ 2 * p.2 ^ 2 := by linarith
        have e2 : T * ((p.2 - (c1 + s) * p.1) * (p.2 - (c1 - s) * p.1) * T) =
            T ^ 2 * p.2 ^ 2 - 2 * p.1 * p.2 * T * (T * c1) + p.1 ^ 2 * ((T * c1) ^ 2 - (T * s) ^ 2) := by ring
        rw [hTc, hTs, hF] at e2
        have e3 : T * ((p.2 - (c1 + s) * p.1) * (p.2 - (c1 - s) * p.1) * T) = T * -(a.1 ^ 2 * a.2 ^ 2 * ellForm a p) := by
          rw [e2, e1, hT]; ring
        exact mul_left_cancel₀ htmp e3
      have hkk0 : (p.2 - (c1 + s) * p.1) * (p.2 - (c1 - s) * p.1) ≠ 0 := mul_ne_zero hk1 hk2
      have hnum : (a.2 ^ 2 + a.1 ^ 2 * ((c1 + s) * (c1 - s))) * T = a.1 ^ 2 * a.2 ^ 2 * (ellForm a p - 2) := by
        have e2 : T * ((a.2 ^ 2 + a.1 ^ 2 * ((c1 + s) * (c1 - s))) * T) =
            a.2 ^ 2 * T ^ 2 + a.1 ^ 2 * ((T * c1) ^ 2 - (T * s) ^ 2) := by ring
        rw [hTc, hTs] at e2
        have e3 : T * ((a.2 ^ 2 + a.1 ^ 2 * ((c1 + s) * (c1 - s))) * T) = T * (a.1 ^ 2 * a.2 ^ 2 * (ellForm a p - 2)) := by
          rw [e2, hT]
          linear_combination (- a.1 ^ 2 - (p.1 ^ 2 - a.1 ^ 2)) * hF
        exact mul_left_cancel₀ htmp e3
      have e4 : (a.2 ^ 2 / (p.2 - (c1 - s) * p.1) - (c1 + s) * (-(a.1 ^ 2 * (c1 - s)) / (p.2 - (c1 - s) * p.1))) /
          (p.2 - (c1 + s) * p.1) =
          ((a.2 ^ 2 + a.1 ^ 2 * ((c1 + s) * (c1 - s))) * T) /
            ((p.2 - (c1 + s) * p.1) * (p.2 - (c1 - s) * p.1) * T) := by
        field_simp
        ring
      rw [e4, hnum, hkk]
      field_simp
      ring
  · rw [mul_pos_iff_of_pos_right hspos, hT, sub_pos]

/-- Exactly on a vertical tangent, the code's two points. -/
theorem ellTangents_vertical {a p : Pt ℝ} (h0 : 0 < a.1) (h1 : 0 < a.2) (hb : p.1 ^ 2 = a.1 ^ 2) (hp2 : p.2 ≠ 0) :
    ∃ t1 t2 w, ellTangents a p = .ok (t1, t2) ∧ TangentPair a p t1 t2 w ∧ (0 < w ↔ 0 < p.1 * p.2) := by
  have hp1 : p.1 ≠ 0 := by
    intro h
    have : 0 < a.1 ^ 2 := by positivity
    rw [← hb, h] at this
    norm_num at this
  have hv : ellVerticalTangent a p = true := by
    simp [ellVerticalTangent, hb]
  set m := (p.2 ^ 2 - a.2 ^ 2) / (2 * p.1 * p.2) with hm
  have hk : p.2 - m * p.1 = (p.2 ^ 2 + a.2 ^ 2) / (2 * p.2) := by
    rw [hm]; field_simp; ring
  have hr : (p.2 - m * p.1) ^ 2 = a.2 ^ 2 + a.1 ^ 2 * m ^ 2 := by
    rw [hk, hm, ← hb]; field_simp; ring
  obtain ⟨hk0, hx, hy⟩ := tangent_slope h0 h1 hr
  have hE : ellForm a p = 1 + p.2 ^ 2 / a.2 ^ 2 := by
    simp only [ellForm, hb]; field_simp
  refine ⟨(p.1, 0), (-(a.1 ^ 2 * m) / (p.2 - m * p.1), a.2 ^ 2 / (p.2 - m * p.1)), p.1 * p.2, ?_, ?_, Iff.rfl⟩
  · have hd : ¬ (2 * p.1 * p.2 = 0) := by simp [hp1, hp2]
    simp only [ellTangents, hv, if_true, if_neg hd, ← hm, hx, hy]
  · refine ⟨?_, ellForm_slope h0 h1 hk0 hr, ?_, ?_, ?_, ?_, ?_, ?_⟩
    · simp only [ellForm, hb]; field_simp; simp
    · simp only [polarForm, ← hb]; field_simp; ring
    · rw [polar_slope h0 h1 hk0, div_self hk0]
    · rw [hE, mul_pow, hb]; field_simp; ring
    · intro q
      simp only [cross, polarForm, Prod.fst_sub, Prod.snd_sub, ← hb]
      field_simp
      ring
    · intro q
      rw [cross_slope h0 h1 hk0 hr, ← hb]
      ring
    · rw [hE, hk]
      simp only [polarForm, hm, ← hb]
      have : p.2 ^ 2 + a.2 ^ 2 ≠ 0 := by positivity
      have : 1 + p.2 ^ 2 / a.2 ^ 2 ≠ 0 := by positivity
      field_simp
      ring

theorem polar_le {a t q : Pt ℝ} (ht : ellForm a t = 1) (hq : ellForm a q ≤ 1) : polarForm a t q ≤ 1 := ell_polar ht.le hq

/-- The line through `p` and the tangent point `t` touches the ellipse: all its points are on or outside. -/
theorem TangentPair.touch {a p t : Pt ℝ} (ht : ellForm a t = 1) (hp : polarForm a t p = 1) (z : Pt ℝ) (hz : OnLine p t z) :
    1 ≤ ellForm a z := by
  obtain ⟨s, rfl⟩ := hz
  have e1 : polarForm a t (p + s • (t - p)) = polarForm a t p + s * (ellForm a t - polarForm a t p) := by
    simp only [polarForm, ellForm, Prod.fst_add, Prod.snd_add, Prod.smul_fst, Prod.smul_snd, Prod.fst_sub, Prod.snd_sub,
      smul_eq_mul]
    ring
  rw [hp, ht, sub_self, mul_zero, add_zero] at e1
  have e : ∀ q, ellForm a (t - q) = ellForm a t + ellForm a q - 2 * polarForm a t q := by
    intro q; simp only [ellForm, polarForm, Prod.fst_sub, Prod.snd_sub]; ring
  have h : 0 ≤ ellForm a (t - (p + s • (t - p))) := by unfold ellForm; positivity
  rw [e, e1, ht] at h
  linarith

/-- Seen from `p`, the ellipse lies between the directions of `s` (on the right) and `t` (on the left), both of
which touch it. Textbook description of the ordered pair of tangent points. -/
structure Spec.TangentsFrom (a p t s : Pt ℝ) : Prop where
  on1 : ellForm a t = 1
  on2 : ellForm a s = 1
  touch1 : ∀ z, OnLine p t z → 1 ≤ ellForm a z
  touch2 : ∀ z, OnLine p s z → 1 ≤ ellForm a z
  ccw : 0 < cross (s - p) (t - p)
  right : ∀ q, ellForm a q ≤ 1 → 0 ≤ cross (s - p) (q - p)
  left : ∀ q, ellForm a q ≤ 1 → 0 ≤ cross (q - p) (t - p)

theorem crossR_swap (u v : Pt ℝ) : cross v u = -cross u v := by simp only [cross]; ring

theorem TangentPair.cross12 {a p t1 t2 : Pt ℝ} {w : ℝ} (h : TangentPair a p t1 t2 w) :
    cross (t1 - p) (t2 - p) = -(w * (2 * (ellForm a p - 1) / ellForm a p)) := by
  rw [h.cross1, h.both]; ring

/-- The order of the pair is given by the sign of `w`. -/
theorem TangentPair.ordered {a p t1 t2 : Pt ℝ} {w : ℝ} (hp : 1 < ellForm a p) (h : TangentPair a p t1 t2 w) :
    (0 < w → Spec.TangentsFrom a p t1 t2) ∧ (w < 0 → Spec.TangentsFrom a p t2 t1) := by
  have hr : 0 < 2 * (ellForm a p - 1) / ellForm a p := by
    apply div_pos <;> linarith
  have c12 := h.cross12
  constructor
  · intro hw
    refine ⟨h.on1, h.on2, fun z => TangentPair.touch h.on1 h.p1 z, fun z => TangentPair.touch h.on2 h.p2 z, ?_, ?_, ?_⟩
    · rw [crossR_swap, c12, neg_neg]; exact mul_pos hw hr
    · intro q hq
      rw [h.cross2]
      have := polar_le h.on2 hq
      nlinarith
    · intro q hq
      rw [crossR_swap, h.cross1]
      have := polar_le h.on1 hq
      nlinarith
  · intro hw
    refine ⟨h.on2, h.on1, fun z => TangentPair.touch h.on2 h.p2 z, fun z => TangentPair.touch h.on1 h.p1 z, ?_, ?_, ?_⟩
    · rw [c12]; nlinarith
    · intro q hq
      rw [h.cross1]
      have := polar_le h.on1 hq
      nlinarith
    · intro q hq
      rw [crossR_swap, h.cross2]
      have := polar_le h.on2 hq
      nlinarith

theorem TangentPair.w_ne {a p t1 t2 : Pt ℝ} {w : ℝ} (h0 : 0 < a.1) (h1 : 0 < a.2) (hp : 1 < ellForm a p)
    (h : TangentPair a p t1 t2 w) : w ≠ 0 := by
  rintro rfl
  have hw := h.wsq
  have h2 : 0 < ellForm a p - 1 := by linarith
  have h3 : 0 < a.1 ^ 2 * a.2 ^ 2 * (ellForm a p - 1) := by positivity
  rw [← hw] at h3
  norm_num at h3

/-- Where the code's formulas are exact: off the band of vertical tangents, or exactly on a vertical tangent
line (except at its point of contact). -/
def OffBand (a p : Pt ℝ) : Prop := 1 / 10 ^ 5 ≤ |a.1 ^ 2 - p.1 ^ 2| ∨ (p.1 ^ 2 = a.1 ^ 2 ∧ p.2 ≠ 0)

theorem ellTangents_pair {a p : Pt ℝ} (h0 : 0 < a.1) (h1 : 0 < a.2) (hp : 1 < ellForm a p) (hb : OffBand a p) :
    ∃ t1 t2 w, ellTangents a p = .ok (t1, t2) ∧ TangentPair a p t1 t2 w := by
  rcases hb with hb | ⟨hb, hp2⟩
  · obtain ⟨t1, t2, w, h, h', _⟩ := ellTangents_spec h0 h1 hp hb
    exact ⟨t1, t2, w, h, h'⟩
  · obtain ⟨t1, t2, w, h, h', _⟩ := ellTangents_vertical h0 h1 hb hp2
    exact ⟨t1, t2, w, h, h'⟩

theorem tangentPoints_eq (e : Ell) (h0 : 0 < e.a.1) (h1 : 0 < e.a.2) (f g : Frame) (hf : f.Valid) (hg : g.Valid)
    (p : Pt ℝ) (hp : 1 < ellForm e.a p) {t1 t2 : Pt ℝ} (h : ellTangents e.a p = .ok (t1, t2)) :
    e.tangentPoints (inFrame e.mm f p) f g =
      if isCcw (inFrame e.mm f p) (inFrame e.mm g t1) (inFrame e.mm g t2) then
        .ok [inFrame e.mm g t2, inFrame e.mm g t1] else .ok [inFrame e.mm g t1, inFrame e.mm g t2] := by
  have hext : e.exteriorPoint p .obstacle = .ok true := by
    obtain ⟨i, o, _, ho, _, h2, _⟩ := C28_sides e h0.ne' h1.ne' .obstacle (Or.inr rfl) p
    rw [h2.2 hp] at ho
    exact ho
  simp only [Ell.tangentPoints, transform_to_obstacle _ _ hf, bind, Except.bind, hext, Bool.not_true, h,
    transform_from_obstacle _ _ hg, Bool.false_eq_true, if_false]

theorem tangentPoints_left (e : Ell) (h0 : 0 < e.a.1) (h1 : 0 < e.a.2) (f g : Frame) (hf : f.Valid) (hg : g.Valid)
    (p : Pt ℝ) (hp : 1 < ellForm e.a p) {t1 t2 : Pt ℝ} (h : ellTangents e.a p = .ok (t1, t2))
    (hc : isCcw (inFrame e.mm f p) (inFrame e.mm g t1) (inFrame e.mm g t2) = true) :
    e.tangentPoints (inFrame e.mm f p) f g = .ok [inFrame e.mm g t2, inFrame e.mm g t1] := by
  rw [tangentPoints_eq e h0 h1 f g hf hg p hp h, if_pos hc]

theorem tangentPoints_right (e : Ell) (h0 : 0 < e.a.1) (h1 : 0 < e.a.2) (f g : Frame) (hf : f.Valid) (hg : g.Valid)
    (p : Pt ℝ) (hp : 1 < ellForm e.a p) {t1 t2 : Pt ℝ} (h : ellTangents e.a p = .ok (t1, t2))
    (hc : ¬ isCcw (inFrame e.mm f p) (inFrame e.mm g t1) (inFrame e.mm g t2) = true) :
    e.tangentPoints (inFrame e.mm f p) f g = .ok [inFrame e.mm g t1, inFrame e.mm g t2] := by
  rw [tangentPoints_eq e h0 h1 f g hf hg p hp h, if_neg hc]

/-- C32: a point that is not outside the ellipse has no tangent points. -/
theorem C32_empty (e : Ell) (h0 : 0 < e.a.1) (h1 : 0 < e.a.2) (f g : Frame) (hf : f.Valid) (p : Pt ℝ)
    (hp : ellForm e.a p ≤ 1) : e.tangentPoints (inFrame e.mm f p) f g = .ok [] := by
  have hext : e.exteriorPoint p .obstacle = .ok false := by
    obtain ⟨i, o, _, ho, _, h2, _⟩ := C28_sides e h0.ne' h1.ne' .obstacle (Or.inr rfl) p
    have : o = false := by
      rw [← Bool.not_eq_true, h2]; linarith
    rw [this] at ho
    exact ho
  simp only [Ell.tangentPoints, transform_to_obstacle _ _ hf, bind, Except.bind, hext, Bool.not_false, if_true]

/-- C32: from an outside point off the band, in any frames, the result is the two tangent points, in one of
the two orders. -/
theorem C32_points (e : Ell) (h0 : 0 < e.a.1) (h1 : 0 < e.a.2) (f g : Frame) (hf : f.Valid) (hg : g.Valid)
    (p : Pt ℝ) (hp : 1 < ellForm e.a p) (hb : OffBand e.a p) :
    ∃ t s, Spec.TangentsFrom e.a p t s ∧
      (e.tangentPoints (inFrame e.mm f p) f g = .ok [inFrame e.mm g t, inFrame e.mm g s] ∨
       e.tangentPoints (inFrame e.mm f p) f g = .ok [inFrame e.mm g s, inFrame e.mm g t]) := by
  obtain ⟨t1, t2, w, ht, hpair⟩ := ellTangents_pair h0 h1 hp hb
  have heq := tangentPoints_eq e h0 h1 f g hf hg p hp ht
  have hord := hpair.ordered hp
  have hres : e.tangentPoints (inFrame e.mm f p) f g = .ok [inFrame e.mm g t2, inFrame e.mm g t1] ∨
      e.tangentPoints (inFrame e.mm f p) f g = .ok [inFrame e.mm g t1, inFrame e.mm g t2] := by
    rw [heq]; split
    · exact Or.inl rfl
    · exact Or.inr rfl
  rcases lt_or_gt_of_ne (hpair.w_ne h0 h1 hp) with hw | hw
  · exact ⟨t2, t1, hord.2 hw, hres⟩
  · exact ⟨t1, t2, hord.1 hw, hres.symm⟩

theorem isCcw_cross (x s t : Pt ℝ) : isCcw x s t = true ↔ 1 / 10 ^ 10 < cross (s - x) (t - x) := by
  unfold isCcw
  rw [decide_eq_true_iff]
  simp only [orientationVal, collinearThreshold, cross, Prod.fst_sub, Prod.snd_sub]
  constructor <;> intro h <;> linarith

/-- C32 (partial): the order is right as well (first the left, then the right tangent point as seen from `x`)
when input and output frame are the same and `x` is far enough outside for the threshold of `is_ccw`. Missing:
different frames and points very close to the ellipse; `C32_frames_false`, `C32_order_false` show that the
order is wrong there. -/
theorem C32_order_partial (e : Ell) (h0 : 0 < e.a.1) (h1 : 0 < e.a.2) (f : Frame) (hf : f.Valid)
    (p : Pt ℝ) (hp : 1 < ellForm e.a p) (hb : OffBand e.a p)
    (hfar : (1 / 10 ^ 10) ^ 2 * ellForm e.a p ^ 2 < 4 * e.a.1 ^ 2 * e.a.2 ^ 2 * (ellForm e.a p - 1) ^ 3) :
    ∃ t s, Spec.TangentsFrom e.a p t s ∧
      e.tangentPoints (inFrame e.mm f p) f f = .ok [inFrame e.mm f t, inFrame e.mm f s] := by
  obtain ⟨t1, t2, w, ht, hpair⟩ := ellTangents_pair h0 h1 hp hb
  have heq := tangentPoints_eq e h0 h1 f f hf hf p hp ht
  have hord := hpair.ordered hp
  have hE : 0 < ellForm e.a p := by linarith
  have hF : 0 < ellForm e.a p - 1 := by linarith
  -- the cross product is beyond the threshold
  have hbig : (1 / 10 ^ 10 : ℝ) ^ 2 < (w * (2 * (ellForm e.a p - 1) / ellForm e.a p)) ^ 2 := by
    rw [mul_pow, hpair.wsq, div_pow (2 * _), ← mul_div_assoc, lt_div_iff₀ (by positivity)]
    calc _ < _ := hfar
      _ = _ := by ring
  have habs : (1 / 10 ^ 10 : ℝ) < |w * (2 * (ellForm e.a p - 1) / ellForm e.a p)| := by
    rw [← abs_of_pos (by norm_num : (0 : ℝ) < 1 / 10 ^ 10)]
    exact sq_lt_sq.1 hbig
  have hr : 0 < 2 * (ellForm e.a p - 1) / ellForm e.a p := by positivity
  have hc := hpair.cross12
  rcases lt_or_gt_of_ne (hpair.w_ne h0 h1 hp) with hw | hw
  · refine ⟨t2, t1, hord.2 hw, ?_⟩
    have : isCcw (inFrame e.mm f p) (inFrame e.mm f t1) (inFrame e.mm f t2) = true := by
      rw [isCcw_cross, inFrame_cross, hc]
      rwa [abs_of_neg (mul_neg_of_neg_of_pos hw hr)] at habs
    rw [heq, if_pos this]
  · refine ⟨t1, t2, hord.1 hw, ?_⟩
    have : ¬ isCcw (inFrame e.mm f p) (inFrame e.mm f t1) (inFrame e.mm f t2) = true := by
      rw [isCcw_cross, inFrame_cross, hc]
      have := mul_pos hw hr
      have : (0 : ℝ) < 1 / 10 ^ 10 := by norm_num
      linarith
    rw [heq, if_neg this]

/-- C32 is false for points very close to the ellipse: from `(0, 1 + 10⁻⁸)`, off the band, the unit circle's
tangent points come in the wrong order. -/
theorem C32_order_false : ∃ p : Pt ℝ, 1 < ellForm unitEll.a p ∧ OffBand unitEll.a p ∧
    ∃ t s, unitEll.tangentPoints p .global .global = .ok [s, t] ∧ Spec.TangentsFrom unitEll.a p t s := by
  have h0 : 0 < unitEll.a.1 := by norm_num [unitEll]
  have h1 : 0 < unitEll.a.2 := by norm_num [unitEll]
  refine ⟨(0, 1 + 1 / 10 ^ 8), by norm_num [ellForm, unitEll], Or.inl (by norm_num [unitEll]), ?_⟩
  set p : Pt ℝ := (0, 1 + 1 / 10 ^ 8) with hpd
  have hp : 1 < ellForm unitEll.a p := by norm_num [ellForm, unitEll, hpd]
  obtain ⟨t1, t2, w, ht, hpair, hsign⟩ := ellTangents_spec h0 h1 hp (by norm_num [unitEll, hpd])
  have hw : w < 0 := by
    have : ¬ 0 < w := by rw [hsign]; norm_num [unitEll, hpd]
    exact lt_of_le_of_ne (not_lt.1 this) (hpair.w_ne h0 h1 hp)
  refine ⟨t2, t1, ?_, (hpair.ordered hp).2 hw⟩
  refine tangentPoints_right unitEll h0 h1 .global .global (Or.inl rfl) (Or.inl rfl) p hp ht ?_
  rw [isCcw_cross, inFrame_cross, hpair.cross12, not_lt]
  have hwsq := hpair.wsq
  have : (-(w * (2 * (ellForm unitEll.a p - 1) / ellForm unitEll.a p))) ^ 2 ≤ (1 / 10 ^ 10) ^ 2 := by
    rw [neg_sq, mul_pow, hwsq]
    norm_num [ellForm, unitEll, hpd]
  exact le_trans (le_abs_self _) (abs_le_of_sq_le_sq this (by norm_num))

/-- The unit circle at (10, 0). -/
def farEll : Ell := ⟨(1, 1), (0, 0), 20, some ⟨(10, 0), 0⟩⟩

/-- C32 is false when input and output frame differ: from the point (2, 0) in the obstacle frame, with the
result in the global frame, the two tangent points come in the wrong order. -/
theorem C32_frames_false : ∃ p : Pt ℝ, 1 < ellForm farEll.a p ∧ OffBand farEll.a p ∧
    ∃ t s, farEll.tangentPoints p .obstacle .global =
      .ok [inFrame farEll.mm .global s, inFrame farEll.mm .global t] ∧ Spec.TangentsFrom farEll.a p t s := by
  have h0 : 0 < farEll.a.1 := by norm_num [farEll]
  have h1 : 0 < farEll.a.2 := by norm_num [farEll]
  refine ⟨(2, 0), by norm_num [ellForm, farEll], Or.inl (by norm_num [farEll]), ?_⟩
  set p : Pt ℝ := (2, 0) with hpd
  have hp : 1 < ellForm farEll.a p := by norm_num [ellForm, farEll, hpd]
  obtain ⟨t1, t2, w, ht, hpair, hsign⟩ := ellTangents_spec h0 h1 hp (by norm_num [farEll, hpd])
  have hw : 0 < w := by rw [hsign]; norm_num [farEll, hpd]
  refine ⟨t1, t2, ?_, (hpair.ordered hp).1 hw⟩
  refine tangentPoints_left farEll h0 h1 .obstacle .global (Or.inr rfl) (Or.inl rfl) p hp ht ?_
  -- both tangent points are on x = 1/2
  have hx1 : t1.1 = 1 / 2 := by
    have := hpair.p1
    simp [polarForm, farEll, hpd] at this
    linarith
  have hx2 : t2.1 = 1 / 2 := by
    have := hpair.p2
    simp [polarForm, farEll, hpd] at this
    linarith
  have hc := hpair.cross12
  have hE : ellForm farEll.a p = 4 := by norm_num [ellForm, farEll, hpd]
  have hwsq := hpair.wsq
  rw [hE] at hc hwsq
  have hw3 : 1 < w := by
    norm_num [farEll] at hwsq
    nlinarith
  rw [isCcw_cross]
  simp [cross, hpd, hx1, hx2] at hc
  simp [cross, inFrame, worldOf, farEll, hpd, hx1, hx2]
  norm_num at hc ⊢
  nlinarith

/-- From (2, 0) the unit circle's tangent points are (1/2, -√3/2) (seen on the left) and (1/2, √3/2). -/
example : ∃ t s, Spec.TangentsFrom unitEll.a (2, 0) t s ∧ unitEll.tangentPoints (2, 0) .global .global = .ok [t, s] ∧
    t.1 = 1 / 2 ∧ s.1 = 1 / 2 ∧ t.2 < s.2 := by
  obtain ⟨t, s, h, h'⟩ := C32_order_partial unitEll (by norm_num [unitEll]) (by norm_num [unitEll]) .global (Or.inl rfl)
    (2, 0) (by norm_num [ellForm, unitEll]) (Or.inl (by norm_num [unitEll])) (by norm_num [ellForm, unitEll])
  have hx : ∀ z : Pt ℝ, ellForm unitEll.a z = 1 → (∀ w, OnLine (2, 0) z w → 1 ≤ ellForm unitEll.a w) → z.1 = 1 / 2 := by
    intro z hz ht
    -- the line has a double contact at z
    have hq : ∀ r : ℝ, 0 ≤ r * (2 * (z.1 * (2 - z.1) - z.2 ^ 2)) + r ^ 2 * ((2 - z.1) ^ 2 + z.2 ^ 2) := by
      intro r
      have h1 := ht (z + r • ((2, 0) - z)) ⟨1 - r, by ext <;> simp <;> ring⟩
      simp [ellForm, unitEll] at h1 hz
      nlinarith
    have hz' : z.1 ^ 2 + z.2 ^ 2 = 1 := by simpa [ellForm, unitEll] using hz
    have e : z.1 * (2 - z.1) - z.2 ^ 2 = 2 * z.1 - 1 := by linarith
    have e2 : (2 - z.1) ^ 2 + z.2 ^ 2 = 5 - 4 * z.1 := by linarith
    rw [e, e2] at hq
    have h5 : 0 < 5 - 4 * z.1 := by nlinarith [sq_nonneg z.2, sq_nonneg (z.1 - 1)]
    have := hq (-(2 * z.1 - 1) / (5 - 4 * z.1))
    have e3 : -(2 * z.1 - 1) / (5 - 4 * z.1) * (2 * (2 * z.1 - 1)) +
        (-(2 * z.1 - 1) / (5 - 4 * z.1)) ^ 2 * (5 - 4 * z.1) = -((2 * z.1 - 1) ^ 2 / (5 - 4 * z.1)) := by
      field_simp; ring
    rw [e3] at this
    have h6 : (2 * z.1 - 1) ^ 2 / (5 - 4 * z.1) ≤ 0 := by linarith
    rw [div_le_iff₀ h5, zero_mul] at h6
    have := pow_eq_zero_iff (two_ne_zero) |>.1 (le_antisymm h6 (sq_nonneg _))
    linarith
  have ht := hx t h.on1 h.touch1
  have hs := hx s h.on2 h.touch2
  refine ⟨t, s, h, h', ht, hs, ?_⟩
  have := h.ccw
  simp [cross, ht, hs] at this
  linarith

/-! ## C33 -/

/-- C33 (partial): exactly which outside points have a result: all but those in the band of the vertical
tangents that are on an axis. `C33_false` gives such a point. -/
theorem C33_defined_partial (e : Ell) (h0 : 0 < e.a.1) (h1 : 0 < e.a.2) (f g : Frame) (hf : f.Valid) (hg : g.Valid)
    (p : Pt ℝ) (hp : 1 < ellForm e.a p) :
    (∃ u v, e.tangentPoints (inFrame e.mm f p) f g = .ok [u, v]) ↔
      ¬ (|e.a.1 ^ 2 - p.1 ^ 2| < 1 / 10 ^ 5 ∧ (p.1 = 0 ∨ p.2 = 0)) := by
  have hext : e.exteriorPoint p .obstacle = .ok true := by
    obtain ⟨i, o, _, ho, _, h2, _⟩ := C28_sides e h0.ne' h1.ne' .obstacle (Or.inr rfl) p
    rw [h2.2 hp] at ho
    exact ho
  by_cases hbad : |e.a.1 ^ 2 - p.1 ^ 2| < 1 / 10 ^ 5 ∧ (p.1 = 0 ∨ p.2 = 0)
  · refine iff_of_false ?_ (not_not.2 hbad)
    rintro ⟨u, v, h⟩
    have hv : ellVerticalTangent e.a p = true := by simp only [ellVerticalTangent, decide_eq_true_eq]; exact hbad.1
    have hz : 2 * p.1 * p.2 = 0 := by rcases hbad.2 with h | h <;> rw [h] <;> ring
    have : ellTangents e.a p = .error .nonFinite := by simp only [ellTangents, hv, if_true, if_pos hz]
    simp [Ell.tangentPoints, transform_to_obstacle _ _ hf, bind, Except.bind, hext, this] at h
  · refine iff_of_true ?_ hbad
    have : ∃ t1 t2, ellTangents e.a p = .ok (t1, t2) := by
      by_cases hv : ellVerticalTangent e.a p = true
      · have hv' := hv
        simp only [ellVerticalTangent, decide_eq_true_eq] at hv'
        have hz : ¬ (2 * p.1 * p.2 = 0) := by
          intro h
          refine hbad ⟨hv', ?_⟩
          simpa using h
        exact ⟨_, _, by simp only [ellTangents, hv, if_true, if_neg hz]; rfl⟩
      · exact ⟨_, _, by simp only [ellTangents, hv]; rfl⟩
    obtain ⟨t1, t2, ht⟩ := this
    rw [tangentPoints_eq e h0 h1 f g hf hg p hp ht]
    split
    · exact ⟨_, _, rfl⟩
    · exact ⟨_, _, rfl⟩

/-- C33 is false: for the unit circle and the outside point (1 + 10⁻⁶, 0) the code divides by zero. -/
theorem C33_false : 1 < ellForm unitEll.a (1 + 1 / 10 ^ 6, 0) ∧
    ¬ ∃ u v, unitEll.tangentPoints (1 + 1 / 10 ^ 6, 0) .global .global = .ok [u, v] := by
  refine ⟨by norm_num [ellForm, unitEll], ?_⟩
  have := C33_defined_partial unitEll (by norm_num [unitEll]) (by norm_num [unitEll]) .global .global (Or.inl rfl)
    (Or.inl rfl) (1 + 1 / 10 ^ 6, 0) (by norm_num [ellForm, unitEll])
  simp only [inFrame, worldOf, unitEll] at this
  rw [show unitEll = ⟨(1, 1), (0, 0), 20, none⟩ from rfl, this, not_not]
  refine ⟨?_, by simp⟩
  rw [abs_lt]
  constructor <;> norm_num

/-- In the band but off the axes there is a result: (1 + 10⁻⁶, 1) for the unit circle. -/
example : ∃ u v, unitEll.tangentPoints (1 + 1 / 10 ^ 6, 1) .global .global = .ok [u, v] :=
  (C33_defined_partial unitEll (by norm_num [unitEll]) (by norm_num [unitEll]) .global .global (Or.inl rfl)
    (Or.inl rfl) (1 + 1 / 10 ^ 6, 1) (by norm_num [ellForm, unitEll])).2 (by norm_num)

end Starworlds
