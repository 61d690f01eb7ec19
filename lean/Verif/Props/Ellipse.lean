import Verif.Proofs.Ellipse
import Mathlib.Tactic.NormNum
import Mathlib.Tactic.Positivity

/-! # C28-C31: points, lines and normals of the ellipse -/

namespace Starworlds

open Real Spec

/-! ## C28 -/

theorem pointLocation_eq (e : Ell) (h0 : e.a.1 ≠ 0) (h1 : e.a.2 ≠ 0) (f : Frame) (hf : f.Valid) (p : Pt ℝ) :
    e.pointLocation (inFrame e.mm f p) f = .ok (ellForm e.a p - 1) := by
  simp only [Ell.pointLocation, transform_to_obstacle _ _ hf, bind, Except.bind, h0, h1, or_self, if_false, ellForm,
    div_pow]

/-- C28: at every point (local point `p`, given in either frame) the value of `point_location` is negative,
zero, positive exactly inside, on, outside the ellipse. -/
theorem C28_sign (e : Ell) (h0 : e.a.1 ≠ 0) (h1 : e.a.2 ≠ 0) (f : Frame) (hf : f.Valid) (p : Pt ℝ) :
    ∃ v, e.pointLocation (inFrame e.mm f p) f = .ok v ∧ (v < 0 ↔ ellForm e.a p < 1) ∧
      (v = 0 ↔ ellForm e.a p = 1) ∧ (0 < v ↔ 1 < ellForm e.a p) :=
  ⟨_, pointLocation_eq e h0 h1 f hf p, sub_neg, sub_eq_zero, sub_pos⟩

/-- C28: the points inside the ellipse are the images of the open unit disc under scaling by the half axes. -/
theorem C28_disc (a p : Pt ℝ) (h0 : a.1 ≠ 0) (h1 : a.2 ≠ 0) :
    ellForm a p < 1 ↔ ∃ u : Pt ℝ, normSq u < 1 ∧ p = (a.1 * u.1, a.2 * u.2) := by
  constructor
  · intro h
    refine ⟨(p.1 / a.1, p.2 / a.2), ?_, ?_⟩
    · simpa only [normSq, div_pow, ellForm] using h
    · ext <;> simp only [mul_div_cancel₀ _ h0, mul_div_cancel₀ _ h1]
  · rintro ⟨u, hu, rfl⟩
    simp only [ellForm, mul_pow, mul_div_cancel_left₀ _ (pow_ne_zero 2 h0), mul_div_cancel_left₀ _ (pow_ne_zero 2 h1)]
    exact hu

/-- C28: `interior_point` and `exterior_point` are the two sides of the boundary: exactly one holds off the
boundary, none on it. -/
theorem C28_sides (e : Ell) (h0 : e.a.1 ≠ 0) (h1 : e.a.2 ≠ 0) (f : Frame) (hf : f.Valid) (p : Pt ℝ) :
    ∃ i o, e.interiorPoint (inFrame e.mm f p) f = .ok i ∧ e.exteriorPoint (inFrame e.mm f p) f = .ok o ∧
      (i = true ↔ ellForm e.a p < 1) ∧ (o = true ↔ 1 < ellForm e.a p) ∧
      (ellForm e.a p ≠ 1 → (i ^^ o) = true) := by
  refine ⟨decide (ellForm e.a p - 1 < 0), decide (0 < ellForm e.a p - 1), ?_, ?_, ?_, ?_, ?_⟩
  · simp only [Ell.interiorPoint, pointLocation_eq e h0 h1 f hf, bind, Except.bind]
  · simp only [Ell.exteriorPoint, pointLocation_eq e h0 h1 f hf, bind, Except.bind]
  · simp [sub_neg]
  · simp [sub_pos]
  · intro hne
    rcases lt_or_gt_of_ne hne with h | h
    · simp [h, h.le]
    · simp [h, h.le]

/-- C28: `boundary_point` accepts the boundary and a band around it of width `10⁻⁸` in the value. -/
theorem C28_boundary (e : Ell) (h0 : e.a.1 ≠ 0) (h1 : e.a.2 ≠ 0) (f : Frame) (hf : f.Valid) (p : Pt ℝ) :
    ∃ b, e.boundaryPoint (inFrame e.mm f p) f = .ok b ∧ (b = true ↔ |ellForm e.a p - 1| ≤ 1 / 10 ^ 8) := by
  refine ⟨_, by simp only [Ell.boundaryPoint, pointLocation_eq e h0 h1 f hf, bind, Except.bind]; rfl, ?_⟩
  simp [isClose]

/-- The two points of the statement are all points: `inFrame` reaches everything. -/
example (e : Ell) (x : Pt ℝ) : ∃ p, x = inFrame e.mm .global p := inFrame_surj e.mm .global (Or.inl rfl) x

/-- An ellipse with half axes 2 and 1, turned by a quarter and put at (5, 5): (5, 6.5) is inside, (6.5, 5)
outside. -/
noncomputable def turnedEll : Ell := ⟨(2, 1), (0, 0), 20, some ⟨(5, 5), π / 2⟩⟩

example : turnedEll.interiorPoint (5, 13 / 2) .global = .ok true ∧
    turnedEll.exteriorPoint (13 / 2, 5) .global = .ok true := by
  have e1 : ((5, 13 / 2) : Pt ℝ) = inFrame turnedEll.mm .global (3 / 2, 0) := by
    simp [inFrame, worldOf, turnedEll]; norm_num
  have e2 : ((13 / 2, 5) : Pt ℝ) = inFrame turnedEll.mm .global (0, -(3 / 2)) := by
    simp [inFrame, worldOf, turnedEll]; norm_num
  have h1 := pointLocation_eq turnedEll (by norm_num [turnedEll]) (by norm_num [turnedEll]) .global (Or.inl rfl)
    (3 / 2, 0)
  have h2 := pointLocation_eq turnedEll (by norm_num [turnedEll]) (by norm_num [turnedEll]) .global (Or.inl rfl)
    (0, -(3 / 2))
  rw [e1, e2]
  simp only [Ell.interiorPoint, Ell.exteriorPoint, h1, h2, bind, Except.bind, ellForm]
  norm_num [turnedEll]

/-! ## C29 -/

theorem lineIntersection_eq (e : Ell) (f g : Frame) (hf : f.Valid) (hg : g.Valid) (p0 p1 : Pt ℝ) {L : List (Pt ℝ)}
    (h : ellLine e.a p0 p1 = .ok L) :
    e.lineIntersection (inFrame e.mm f p0) (inFrame e.mm f p1) f g = .ok (L.map (inFrame e.mm g)) := by
  simp only [Ell.lineIntersection, transform_to_obstacle _ _ hf, bind, Except.bind, h, mapM_transform _ _ hg]

theorem mem_map_inFrame (mm : Option Pose) (g : Frame) (hg : g.Valid) (L : List (Pt ℝ)) (q : Pt ℝ) :
    inFrame mm g q ∈ L.map (inFrame mm g) ↔ q ∈ L := by
  rw [List.mem_map]
  constructor
  · rintro ⟨r, hr, h⟩
    rwa [← inFrame_inj mm g hg h]
  · exact fun h => ⟨q, h, rfl⟩

/-- C29 (partial): for a segment that is, in the obstacle frame, at least `10⁻⁴` wide and not steeper than 100,
and whose line misses the ellipse or cuts it in two points with abscissas more than `2·10⁻⁴` apart, the result
is exactly the set of boundary points on the segment, each once. Missing: steep and narrow segments, tangents
and very short chords; `C29_vertical_false` and `C29_tangent_false` show that the claim fails there. -/
theorem C29_exact_partial (e : Ell) (h0 : 0 < e.a.1) (h1 : 0 < e.a.2) (f g : Frame) (hf : f.Valid) (hg : g.Valid)
    (p0 p1 : Pt ℝ) (hw : 1 / 10 ^ 4 ≤ |p1.1 - p0.1|) (hs : |p1.2 - p0.2| ≤ 100 * |p1.1 - p0.1|)
    (hch : (∀ p, OnLine p0 p1 p → ellForm e.a p ≠ 1) ∨
      ∃ p q, OnLine p0 p1 p ∧ OnLine p0 p1 q ∧ ellForm e.a p = 1 ∧ ellForm e.a q = 1 ∧ p.1 + 2 / 10 ^ 4 < q.1) :
    ∃ L, e.lineIntersection (inFrame e.mm f p0) (inFrame e.mm f p1) f g = .ok L ∧ L.Nodup ∧
      ∀ q, inFrame e.mm g q ∈ L ↔
        OnSegment (inFrame e.mm f p0) (inFrame e.mm f p1) (inFrame e.mm f q) ∧ ellForm e.a q = 1 := by
  obtain ⟨L, hL, hnd, hmem⟩ := ellLine_spec h0 h1 hw hs hch
  refine ⟨_, lineIntersection_eq e f g hf hg p0 p1 hL, ?_, ?_⟩
  · exact hnd.map fun p q h => inFrame_inj e.mm g hg h
  · intro q
    rw [mem_map_inFrame _ _ hg, hmem, inFrame_segment _ _ hf]

theorem onAxisSegment {y0 y1 : ℝ} (h : y0 ≤ y1) (q : Pt ℝ) :
    OnSegment (0, y0) (0, y1) q ↔ q.1 = 0 ∧ y0 ≤ q.2 ∧ q.2 ≤ y1 := by
  constructor
  · rintro ⟨t, h0, h1, rfl⟩
    simp only [Prod.fst_add, Prod.smul_fst, Prod.fst_sub, Prod.snd_add, Prod.smul_snd, Prod.snd_sub, smul_eq_mul]
    refine ⟨by ring, by nlinarith, by nlinarith⟩
  · rintro ⟨h0, h1, h2⟩
    rcases h.eq_or_lt with he | hlt
    · refine ⟨0, le_refl _, zero_le_one, ?_⟩
      ext
      · simp [h0]
      · simp; linarith
    · refine ⟨(q.2 - y0) / (y1 - y0), div_nonneg (by linarith) (by linarith), ?_, ?_⟩
      · rw [div_le_one (by linarith)]; linarith
      · ext
        · simp [h0]
        · simp [div_mul_cancel₀ _ (sub_ne_zero.2 hlt.ne')]

theorem ellForm_axis {a : Pt ℝ} (h1 : 0 < a.2) (q : Pt ℝ) (hq : q.1 = 0) :
    ellForm a q = 1 ↔ q = (0, a.2) ∨ q = (0, -a.2) := by
  have e : ellForm a q = 1 ↔ q.2 ^ 2 = a.2 ^ 2 := by
    simp only [ellForm, hq]
    rw [zero_pow two_ne_zero, zero_div, zero_add, div_eq_one_iff_eq (pow_ne_zero 2 h1.ne')]
  rw [e, sq_eq_sq_iff_eq_or_eq_neg, Prod.ext_iff, Prod.ext_iff]
  simp [hq]

/-- The vertical branch on the axis, for a segment from `bottom` to `top`. -/
theorem ellVertical_axis {a : Pt ℝ} (h1 : 0 < a.2) {y0 y1 : ℝ} (h : y0 ≤ y1) (L : List (Pt ℝ))
    (hL : L = if y1 ≥ a.2 ∧ y0 ≤ -a.2 then [(0, a.2), (0, -a.2)]
      else if y1 ≥ a.2 ∧ y0 ≤ a.2 then [(0, a.2)]
      else if y1 ≥ -a.2 ∧ y0 ≤ -a.2 then [(0, -a.2)] else []) (q : Pt ℝ) :
    q ∈ L ↔ OnSegment (0, y0) (0, y1) q ∧ ellForm a q = 1 := by
  rw [onAxisSegment h]
  have hm : ((q.1 = 0 ∧ y0 ≤ q.2 ∧ q.2 ≤ y1) ∧ ellForm a q = 1) ↔
      (q = (0, a.2) ∧ y0 ≤ a.2 ∧ a.2 ≤ y1) ∨ (q = (0, -a.2) ∧ y0 ≤ -a.2 ∧ -a.2 ≤ y1) := by
    constructor
    · rintro ⟨⟨hq, h2, h3⟩, he⟩
      rcases (ellForm_axis h1 q hq).1 he with rfl | rfl
      · exact Or.inl ⟨rfl, h2, h3⟩
      · exact Or.inr ⟨rfl, h2, h3⟩
    · rintro (⟨rfl, h2, h3⟩ | ⟨rfl, h2, h3⟩)
      · exact ⟨⟨rfl, h2, h3⟩, (ellForm_axis h1 _ rfl).2 (Or.inl rfl)⟩
      · exact ⟨⟨rfl, h2, h3⟩, (ellForm_axis h1 _ rfl).2 (Or.inr rfl)⟩
  rw [hm, hL]
  split_ifs with c1 c2 c3
  · simp only [List.mem_cons, List.not_mem_nil, or_false]
    constructor
    · rintro (h | h)
      · exact Or.inl ⟨h, by linarith [c1.2], c1.1⟩
      · exact Or.inr ⟨h, c1.2, by linarith [c1.1]⟩
    · rintro (h | h)
      · exact Or.inl h.1
      · exact Or.inr h.1
  · simp only [List.mem_singleton]
    constructor
    · exact fun h => Or.inl ⟨h, c2.2, c2.1⟩
    · rintro (h | h)
      · exact h.1
      · exact absurd ⟨c2.1, h.2.1⟩ c1
  · simp only [List.mem_singleton]
    constructor
    · exact fun h => Or.inr ⟨h, c3.2, c3.1⟩
    · rintro (h | h)
      · exact absurd ⟨h.2.2, h.2.1⟩ c2
      · exact h.1
  · simp only [List.not_mem_nil, false_iff]
    rintro (h | h)
    · exact c2 ⟨h.2.2, h.2.1⟩
    · exact c3 ⟨h.2.2, h.2.1⟩

/-- C29 (partial): also exact for segments on the second axis of the ellipse. -/
theorem C29_axis_partial (e : Ell) (h0 : 0 < e.a.1) (h1 : 0 < e.a.2) (f g : Frame) (hf : f.Valid) (hg : g.Valid)
    (y0 y1 : ℝ) :
    ∃ L, e.lineIntersection (inFrame e.mm f (0, y0)) (inFrame e.mm f (0, y1)) f g = .ok L ∧
      ∀ q, inFrame e.mm g q ∈ L ↔
        OnSegment (inFrame e.mm f (0, y0)) (inFrame e.mm f (0, y1)) (inFrame e.mm f q) ∧ ellForm e.a q = 1 := by
  have hv : ellLine e.a (0, y0) (0, y1) = .ok (ellVertical e.a (0, y1) (0, y0)) := by
    simp [ellLine]
  refine ⟨_, lineIntersection_eq e f g hf hg _ _ hv, ?_⟩
  intro q
  rw [mem_map_inFrame _ _ hg, inFrame_segment _ _ hf]
  have hb : ¬ ((0 : ℝ) < -e.a.1 ∨ (0 : ℝ) > e.a.1) := by
    rintro (h | h) <;> linarith
  by_cases hlt : y1 < y0
  · rw [onSegment_symm]
    refine ellVertical_axis h1 hlt.le _ ?_ q
    simp only [ellVertical, if_neg hb, gt_iff_lt, if_pos hlt]
  · refine ellVertical_axis h1 (not_lt.1 hlt) _ ?_ q
    simp only [ellVertical, if_neg hb, gt_iff_lt, if_neg hlt]

/-- The unit circle at the origin. -/
def unitEll : Ell := ⟨(1, 1), (0, 0), 20, none⟩

/-- C29 is false for vertical lines off the axis: for the unit circle and the segment from (1/2, -2) to
(1/2, 2) the result is (0, ±1); neither is on the segment, and the crossing (1/2, √3/2) is not returned. -/
theorem C29_vertical_false :
    unitEll.lineIntersection (1 / 2, -2) (1 / 2, 2) .global .global = .ok [(0, 1), (0, -1)] ∧
    ¬ OnSegment ((1 / 2, -2) : Pt ℝ) (1 / 2, 2) (0, 1) ∧
    OnSegment ((1 / 2, -2) : Pt ℝ) (1 / 2, 2) (1 / 2, √3 / 2) ∧ ellForm unitEll.a (1 / 2, √3 / 2) = 1 := by
  have h3 : √3 ^ 2 = 3 := sq_sqrt (by norm_num)
  refine ⟨?_, ?_, ?_, ?_⟩
  · have hv : ellLine unitEll.a (1 / 2, -2) (1 / 2, 2) = .ok [(0, 1), (0, -1)] := by
      norm_num [ellLine, ellVertical, unitEll]
    have := lineIntersection_eq unitEll .global .global (Or.inl rfl) (Or.inl rfl) _ _ hv
    simpa [inFrame, worldOf, unitEll] using this
  · rintro ⟨t, _, _, h⟩
    have := congrArg Prod.fst h
    norm_num at this
  · refine ⟨1 / 2 + √3 / 8, ?_, ?_, ?_⟩
    · positivity
    · nlinarith
    · ext <;> simp
      ring
  · simp only [ellForm, unitEll, div_pow, h3]; norm_num

/-- C29 is false for tangent lines: for the unit circle and the segment from (2, 1) to (3, 1) the result is
(0, 1), which is not on the segment. -/
theorem C29_tangent_false :
    unitEll.lineIntersection (2, 1) (3, 1) .global .global = .ok [(0, 1)] ∧
    ¬ OnSegment ((2, 1) : Pt ℝ) (3, 1) (0, 1) := by
  refine ⟨?_, ?_⟩
  · have hv : ellLine unitEll.a (2, 1) (3, 1) = .ok [(0, 1)] := by
      norm_num [ellLine, ellSloped, unitEll]
    have := lineIntersection_eq unitEll .global .global (Or.inl rfl) (Or.inl rfl) _ _ hv
    simpa [inFrame, worldOf, unitEll] using this
  · rintro ⟨t, h0, _, h⟩
    have := congrArg Prod.fst h
    norm_num at this
    linarith

/-- The hypotheses of `C29_exact_partial` hold for the segment from (0, 0) to (2, 0); the crossing is (1, 0). -/
example : ∃ L, unitEll.lineIntersection (0, 0) (2, 0) .global .global = .ok L ∧ ∀ q : Pt ℝ, q ∈ L ↔ q = (1, 0) := by
  obtain ⟨L, h1, _, h2⟩ := C29_exact_partial unitEll (by norm_num [unitEll]) (by norm_num [unitEll]) .global .global
    (Or.inl rfl) (Or.inl rfl) (0, 0) (2, 0) (by norm_num) (by norm_num)
    (Or.inr ⟨(-1, 0), (1, 0), ⟨-1 / 2, by ext <;> norm_num⟩, ⟨1 / 2, by ext <;> norm_num⟩,
      by norm_num [ellForm, unitEll], by norm_num [ellForm, unitEll], by norm_num⟩)
  refine ⟨L, h1, fun q => ?_⟩
  have := h2 q
  simp only [inFrame, worldOf, unitEll] at this
  rw [this]
  constructor
  · rintro ⟨⟨t, ht0, ht1, rfl⟩, he⟩
    simp [ellForm] at he ⊢
    rcases he with he | he
    · exact he
    · linarith
  · rintro rfl
    exact ⟨⟨1 / 2, by norm_num, by norm_num, by ext <;> norm_num⟩, by norm_num [ellForm]⟩

/-! ## C30 -/

/-- On a line, the ellipse form is a quadratic. -/
theorem ellForm_quad (a p d : Pt ℝ) (t : ℝ) :
    ellForm a (p + t • d) = ellForm a d * t ^ 2 + 2 * (p.1 * d.1 / a.1 ^ 2 + p.2 * d.2 / a.2 ^ 2) * t + ellForm a p := by
  simp only [ellForm, Prod.fst_add, Prod.snd_add, Prod.smul_fst, Prod.smul_snd, smul_eq_mul]
  ring

theorem ellForm_pos {a d : Pt ℝ} (h0 : 0 < a.1) (h1 : 0 < a.2) (hd : d ≠ 0) : 0 < ellForm a d := by
  unfold ellForm
  by_cases h : d.1 = 0
  · have h2 : d.2 ≠ 0 := fun h2 => hd (Prod.ext h h2)
    positivity
  · positivity

/-- Two different crossings of a line from an inside point are on different sides of it. -/
theorem ell_sides {a p d : Pt ℝ} (h0 : 0 < a.1) (h1 : 0 < a.2) (hd : d ≠ 0) (hp : ellForm a p < 1) {t s : ℝ}
    (ht : ellForm a (p + t • d) = 1) (hs : ellForm a (p + s • d) = 1) (hne : t ≠ s) : t * s < 0 := by
  rw [ellForm_quad] at ht hs
  have hA := ellForm_pos h0 h1 hd
  set A := ellForm a d
  set B := 2 * (p.1 * d.1 / a.1 ^ 2 + p.2 * d.2 / a.2 ^ 2)
  have h2 : (t - s) * (A * (t + s) + B) = 0 := by linear_combination ht - hs
  have h3 : A * (t + s) + B = 0 := (mul_eq_zero.1 h2).resolve_left (sub_ne_zero.2 hne)
  have h4 : A * (t * s) = ellForm a p - 1 := by linear_combination t * h3 - ht
  by_contra hge
  push Not at hge
  have := mul_nonneg hA.le hge
  linarith

theorem ell_radius {a p : Pt ℝ} (h0 : 0 < a.1) (h1 : 0 < a.2) (hp : ellForm a p ≤ 1) {M : ℝ} (hM0 : a.1 ≤ M)
    (hM1 : a.2 ≤ M) : normSq p ≤ M ^ 2 := by
  have hM : 0 < M := by linarith
  have e1 : p.1 ^ 2 / M ^ 2 ≤ p.1 ^ 2 / a.1 ^ 2 := by gcongr
  have e2 : p.2 ^ 2 / M ^ 2 ≤ p.2 ^ 2 / a.2 ^ 2 := by gcongr
  have e3 : (p.1 ^ 2 + p.2 ^ 2) / M ^ 2 ≤ 1 := by
    rw [add_div]; unfold ellForm at hp; linarith
  rw [div_le_one (by positivity)] at e3
  exact e3

theorem ell_diameter {a p q : Pt ℝ} (h0 : 0 < a.1) (h1 : 0 < a.2) (hp : ellForm a p ≤ 1) (hq : ellForm a q ≤ 1) :
    normSq (p - q) ≤ (max (2 * a.1) (2 * a.2)) ^ 2 := by
  have hM0 : a.1 ≤ max (2 * a.1) (2 * a.2) / 2 := by linarith [le_max_left (2 * a.1) (2 * a.2)]
  have hM1 : a.2 ≤ max (2 * a.1) (2 * a.2) / 2 := by linarith [le_max_right (2 * a.1) (2 * a.2)]
  have e1 := ell_radius h0 h1 hp hM0 hM1
  have e2 := ell_radius h0 h1 hq hM0 hM1
  simp only [normSq, Prod.fst_sub, Prod.snd_sub] at *
  nlinarith [sq_nonneg (p.1 + q.1), sq_nonneg (p.2 + q.2)]

theorem eq_singleton_of {α : Type*} {L : List α} {b : α} (hn : L.Nodup) (h : ∀ p, p ∈ L ↔ p = b) : L = [b] := by
  match L, hn, h with
  | [], _, h => exact absurd ((h b).2 rfl) List.not_mem_nil
  | [x], _, h => rw [(h x).1 (List.mem_singleton.2 rfl)]
  | x :: y :: l, hn, h =>
    have hx := (h x).1 List.mem_cons_self
    have hy := (h y).1 (List.mem_cons_of_mem _ List.mem_cons_self)
    rw [hx, hy] at hn
    simp at hn

theorem onLine_scale {p q : Pt ℝ} {c : ℝ} (hc : c ≠ 0) (w : Pt ℝ) : OnLine p (p + c • (q - p)) w ↔ OnLine p q w := by
  constructor
  · rintro ⟨t, rfl⟩
    exact ⟨t * c, by rw [add_sub_cancel_left, mul_smul]⟩
  · rintro ⟨t, rfl⟩
    exact ⟨t / c, by rw [add_sub_cancel_left, ← mul_smul, div_mul_cancel₀ _ hc]⟩

/-- C30 (partial): for `xr` strictly inside, `x` in a direction that is not steeper than 100 in the obstacle
frame, an ellipse of diameter at least 1/100, and a chord through `xr` and `x` that is more than `2·10⁻⁴`
wide, `boundary_mapping` returns the unique boundary point on the ray from `xr` through `x`. Missing: steep
directions and short chords; `C30_false` shows that the claim fails for steep directions. -/
theorem C30_unique_partial (e : Ell) (h0 : 0 < e.a.1) (h1 : 0 < e.a.2) (hD : 1 / 100 ≤ e.diameter) (f g : Frame)
    (hf : f.Valid) (hg : g.Valid) (hxr : ellForm e.a e.xr < 1) (y : Pt ℝ) (hy : y ≠ e.xr)
    (hs : |y.2 - e.xr.2| ≤ 100 * |y.1 - e.xr.1|)
    (hch : ∃ p q, OnLine e.xr y p ∧ OnLine e.xr y q ∧ ellForm e.a p = 1 ∧ ellForm e.a q = 1 ∧
      p.1 + 2 / 10 ^ 4 < q.1) :
    ∃ b, e.boundaryMapping (inFrame e.mm f y) f g = .ok (some (inFrame e.mm g b)) ∧
      OnRay e.xr y b ∧ ellForm e.a b = 1 ∧ ∀ b', OnRay e.xr y b' → ellForm e.a b' = 1 → b' = b := by
  have hdne : y - e.xr ≠ 0 := sub_ne_zero.2 hy
  -- the unique point
  have huniq : ∀ b b', OnRay e.xr y b → ellForm e.a b = 1 → OnRay e.xr y b' → ellForm e.a b' = 1 → b' = b := by
    rintro b b' ⟨t, ht0, rfl⟩ hb ⟨s, hs0, rfl⟩ hb'
    by_contra hne
    have hts : t ≠ s := fun h => hne (by rw [h])
    have := ell_sides h0 h1 hdne hxr hb hb' hts
    have := mul_nonneg ht0 hs0
    linarith
  have hex : ∃ b, OnRay e.xr y b ∧ ellForm e.a b = 1 := by
    obtain ⟨p, q, ⟨t, rfl⟩, ⟨s, rfl⟩, hp, hq, hpq⟩ := hch
    have hts : t ≠ s := by
      rintro rfl
      norm_num at hpq
    have hneg := ell_sides h0 h1 hdne hxr hp hq hts
    rcases le_or_gt 0 t with h | h
    · exact ⟨_, ⟨t, h, rfl⟩, hp⟩
    · have hs0 : 0 ≤ s := by
        by_contra hlt
        push Not at hlt
        have := mul_pos_of_neg_of_neg h hlt
        linarith
      exact ⟨_, ⟨s, hs0, rfl⟩, hq⟩
  obtain ⟨b, hbray, hb1⟩ := hex
  refine ⟨b, ?_, hbray, hb1, fun b' h h' => huniq b b' hbray hb1 h h'⟩
  -- the direction
  have hy' := transform_to_obstacle e.mm f hf y
  have hid : ∀ p, transform e.mm p .obstacle .obstacle = .ok p := fun p =>
    (C21_identity e.mm p .obstacle .obstacle (Or.inl rfl)).1
  obtain ⟨d, hd, hd1, c, hc, hdc⟩ := C26_unit e.mm e.xr y .obstacle .obstacle y e.xr (hid y) (hid e.xr) hy
  have hDpos : 0 < e.diameter := by linarith
  set l1 := e.xr + (1.1 * e.diameter) • d with hl1
  have hl1' : l1 = e.xr + (1.1 * e.diameter * c) • (y - e.xr) := by rw [hl1, hdc, mul_smul (1.1 * e.diameter)]
  have hcc : 0 < 1.1 * e.diameter * c := by positivity
  have hx1 : l1.1 - e.xr.1 = 1.1 * e.diameter * c * (y.1 - e.xr.1) := by
    rw [hl1']; simp
  have hx2 : l1.2 - e.xr.2 = 1.1 * e.diameter * c * (y.2 - e.xr.2) := by
    rw [hl1']; simp
  have hd1' : d.1 = c * (y.1 - e.xr.1) := by rw [hdc]; simp
  have hd2' : d.2 = c * (y.2 - e.xr.2) := by rw [hdc]; simp
  -- the segment is wide
  have hd2le : |d.2| ≤ 100 * |d.1| := by
    rw [hd1', hd2', abs_mul, abs_mul, abs_of_pos hc]
    nlinarith
  have hdw : 1 / 101 ≤ |d.1| := by
    have e1 : d.2 ^ 2 ≤ (100 * |d.1|) ^ 2 := by
      rw [← sq_abs d.2]; gcongr
    have e2 : |d.1| ^ 2 = d.1 ^ 2 := sq_abs _
    simp only [normSq] at hd1
    by_contra hlt
    push Not at hlt
    have := abs_nonneg d.1
    nlinarith
  have hw : 1 / 10 ^ 4 ≤ |l1.1 - e.xr.1| := by
    have e1 : l1.1 - e.xr.1 = 1.1 * e.diameter * d.1 := by rw [hx1, hd1']; ring
    rw [e1, abs_mul, abs_of_pos (by positivity : 0 < 1.1 * e.diameter)]
    have : 1.1 * (1 / 100) * (1 / 101) ≤ 1.1 * e.diameter * |d.1| := by gcongr
    refine le_trans ?_ this
    norm_num
  have hslope : |l1.2 - e.xr.2| ≤ 100 * |l1.1 - e.xr.1| := by
    rw [hx1, hx2, abs_mul (1.1 * e.diameter * c), abs_mul (1.1 * e.diameter * c), abs_of_pos hcc]
    nlinarith
  have hline : ∀ w, OnLine e.xr l1 w ↔ OnLine e.xr y w := by
    intro w; rw [hl1']; exact onLine_scale hcc.ne' w
  obtain ⟨L, hL, hnd, hmem⟩ := ellLine_spec h0 h1 hw hslope (Or.inr (by
    obtain ⟨p, q, hp, hq, h⟩ := hch
    exact ⟨p, q, (hline p).2 hp, (hline q).2 hq, h⟩))
  have hLb : L = [b] := by
    refine eq_singleton_of hnd fun p => ?_
    rw [hmem]
    constructor
    · rintro ⟨⟨t, ht0, _, rfl⟩, hp⟩
      refine huniq b _ hbray hb1 ⟨t * (1.1 * e.diameter * c), by positivity, ?_⟩ hp
      rw [hl1', add_sub_cancel_left, mul_smul t]
    · rintro rfl
      refine ⟨?_, hb1⟩
      obtain ⟨t, ht0, rfl⟩ := hbray
      have hdist := ell_diameter h0 h1 hb1.le hxr.le
      rw [add_sub_cancel_left] at hdist
      refine ⟨t / (1.1 * e.diameter * c), by positivity, ?_, ?_⟩
      · rw [div_le_one hcc]
        have e1 : normSq d = c ^ 2 * normSq (y - e.xr) := by
          rw [hdc]; simp only [normSq, Prod.smul_fst, Prod.smul_snd, smul_eq_mul]; ring
        have e2 : normSq (t • (y - e.xr)) = t ^ 2 * normSq (y - e.xr) := by
          simp only [normSq, Prod.smul_fst, Prod.smul_snd, smul_eq_mul]; ring
        rw [hd1] at e1
        rw [e2] at hdist
        have e3 : t ^ 2 ≤ (e.diameter * c) ^ 2 := by
          have : t ^ 2 * (c ^ 2 * normSq (y - e.xr)) ≤ c ^ 2 * (max (2 * e.a.1) (2 * e.a.2)) ^ 2 := by
            nlinarith [sq_nonneg c]
          rw [← e1, mul_one] at this
          rw [Ell.diameter, mul_pow]; linarith
        have e4 := abs_le_of_sq_le_sq e3 (by positivity)
        have : 0 < e.diameter * c := by positivity
        linarith [le_abs_self t]
      · rw [hl1', add_sub_cancel_left, ← mul_smul, div_mul_cancel₀ _ hcc.ne']
  have hcall : e.lineIntersection e.xr l1 .obstacle .obstacle = .ok [b] := by
    have := lineIntersection_eq e .obstacle .obstacle (Or.inr rfl) (Or.inr rfl) e.xr l1 hL
    rw [hLb] at this
    exact this
  rw [hl1] at hcall
  simp only [Ell.boundaryMapping, hy', bind, Except.bind, hd, hcall, transform_from_obstacle _ _ hg]

/-- An ellipse with half axes 2 and 1 and reference point (1, 0). -/
def offEll : Ell := ⟨(2, 1), (1, 0), 20, none⟩

/-- C30 is false for steep directions: from the reference point (1, 0), strictly inside the ellipse with half
axes 2 and 1, straight up to (1, 5), the result is (0, 1), which is not on the ray. -/
theorem C30_false : ellForm offEll.a offEll.xr < 1 ∧
    offEll.boundaryMapping (1, 5) .global .global = .ok (some (0, 1)) ∧ ¬ OnRay offEll.xr (1, 5) (0, 1) := by
  refine ⟨by norm_num [ellForm, offEll], ?_, ?_⟩
  · have hn : norm2 ((0, 5) : Pt ℝ) = 5 := by
      rw [norm2, show ((0 : ℝ) ^ 2 + 5 ^ 2) = 5 ^ 2 by norm_num, sqrt_sq (by norm_num)]
    have hd : referenceDirection offEll.mm offEll.xr (1, 5) .obstacle .obstacle = .ok (0, 1) := by
      simp [referenceDirection, transform, offEll, bind, Except.bind, hn]
    have hl : ellLine offEll.a offEll.xr (offEll.xr + (1.1 * offEll.diameter) • ((0, 1) : Pt ℝ)) = .ok [(0, 1)] := by
      norm_num [ellLine, ellVertical, offEll, Ell.diameter]
    have hcall := lineIntersection_eq offEll .obstacle .obstacle (Or.inr rfl) (Or.inr rfl) _ _ hl
    simp only [inFrame] at hcall
    simp [Ell.boundaryMapping, hd, bind, Except.bind, transform, offEll] at *
    simp [hcall, inFrame]
  · rintro ⟨t, _, h⟩
    have := congrArg Prod.fst h
    simp [offEll] at this

/-- The hypotheses of `C30_unique_partial` hold for the ellipse above and the point (7, 0): the result is (2, 0). -/
example : offEll.boundaryMapping (7, 0) .global .global = .ok (some (2, 0)) := by
  obtain ⟨b, h, _, _, h3⟩ := C30_unique_partial offEll (by norm_num [offEll]) (by norm_num [offEll])
    (by norm_num [offEll, Ell.diameter]) .global .global (Or.inl rfl) (Or.inl rfl) (by norm_num [ellForm, offEll])
    (7, 0) (by norm_num [offEll]) (by norm_num [offEll])
    ⟨(-2, 0), (2, 0), ⟨-1 / 2, by ext <;> norm_num [offEll]⟩, ⟨1 / 6, by ext <;> norm_num [offEll]⟩,
      by norm_num [ellForm, offEll], by norm_num [ellForm, offEll], by norm_num⟩
  rw [h3 (2, 0) ⟨1 / 6, by norm_num, by ext <;> norm_num [offEll]⟩ (by norm_num [ellForm, offEll])]
  exact h

/-! ## C31 -/

theorem rotate_from_obstacle (mm : Option Pose) (f : Frame) (hf : f.Valid) (v : Pt ℝ) :
    rotate mm v .obstacle f = .ok (inFrame mm f v - inFrame mm f 0) := by
  have := C21_difference mm v 0 _ _ .obstacle f (transform_from_obstacle mm f hf v)
    (transform_from_obstacle mm f hf 0)
  rwa [sub_zero] at this

theorem inFrame_dot (mm : Option Pose) (f : Frame) (p q r s : Pt ℝ) :
    dot (inFrame mm f p - inFrame mm f q) (inFrame mm f r - inFrame mm f s) = dot (p - q) (r - s) := by
  cases mm with
  | none => cases f <;> rfl
  | some w =>
    have e := sin_sq_add_cos_sq w.rot
    cases f <;> (try rfl) <;>
      simp only [inFrame, worldOf, dot, Prod.fst_sub, Prod.snd_sub] <;>
      linear_combination ((p.1 - q.1) * (r.1 - s.1) + (p.2 - q.2) * (r.2 - s.2)) * e

theorem normSq_eq_dot (v : Pt ℝ) : normSq v = dot v v := by simp only [normSq, dot]; ring

theorem inFrame_normSq (mm : Option Pose) (f : Frame) (p q : Pt ℝ) :
    normSq (inFrame mm f p - inFrame mm f q) = normSq (p - q) := by
  rw [normSq_eq_dot, inFrame_dot, ← normSq_eq_dot]

/-- The polar form of two points of the ellipse is at most 1. -/
theorem ell_polar {a p q : Pt ℝ} (hp : ellForm a p ≤ 1) (hq : ellForm a q ≤ 1) :
    p.1 * q.1 / a.1 ^ 2 + p.2 * q.2 / a.2 ^ 2 ≤ 1 := by
  have e : ellForm a (p - q) = ellForm a p + ellForm a q - 2 * (p.1 * q.1 / a.1 ^ 2 + p.2 * q.2 / a.2 ^ 2) := by
    simp only [ellForm, Prod.fst_sub, Prod.snd_sub]; ring
  have h : 0 ≤ ellForm a (p - q) := by unfold ellForm; positivity
  linarith

/-- C31: at every boundary point, in every pair of frames, `normal` is a unit vector and the whole ellipse lies
in the half-plane behind the line through the boundary point perpendicular to it. -/
theorem C31_outward (e : Ell) (h0 : 0 < e.a.1) (h1 : 0 < e.a.2) (f g : Frame) (hf : f.Valid) (hg : g.Valid)
    (b : Pt ℝ) (hb : ellForm e.a b = 1) :
    ∃ n, e.normal (inFrame e.mm f b) f g true = .ok (some n) ∧ normSq n = 1 ∧
      ∀ q, ellForm e.a q ≤ 1 → dot n (inFrame e.mm g q - inFrame e.mm g b) ≤ 0 := by
  set n : Pt ℝ := (e.a.2 ^ 2 * b.1, e.a.1 ^ 2 * b.2) with hn
  have hbne : ¬ (b.1 = 0 ∧ b.2 = 0) := by
    rintro ⟨hb0, hb1⟩
    simp [ellForm, hb0, hb1] at hb
  have hn0 : n ≠ 0 := by
    intro h
    have e1 := congrArg Prod.fst h
    have e2 := congrArg Prod.snd h
    simp only [hn, Prod.fst_zero, Prod.snd_zero, mul_eq_zero, pow_eq_zero_iff two_ne_zero, h0.ne', h1.ne',
      false_or] at e1 e2
    exact hbne ⟨e1, e2⟩
  have hz : norm2 n ≠ 0 := by rw [ne_eq, norm2_eq_zero]; exact hn0
  have hpos : 0 < norm2 n := lt_of_le_of_ne (norm2_nonneg _) (Ne.symm hz)
  refine ⟨inFrame e.mm g (n.1 / norm2 n, n.2 / norm2 n) - inFrame e.mm g 0, ?_, ?_, ?_⟩
  · simp only [Ell.normal, if_true, transform_to_obstacle _ _ hf, Except.map, bind, Except.bind, ← hn, if_neg hz,
      rotate_from_obstacle _ _ hg]
    rfl
  · rw [inFrame_normSq, sub_zero]
    have := norm2_sq n
    simp only [normSq]
    field_simp
    linarith
  · intro q hq
    rw [inFrame_dot, sub_zero]
    have hpol := ell_polar hb.le hq
    have e1 : dot (n.1 / norm2 n, n.2 / norm2 n) (q - b) =
        e.a.1 ^ 2 * e.a.2 ^ 2 / norm2 n * (b.1 * q.1 / e.a.1 ^ 2 + b.2 * q.2 / e.a.2 ^ 2 - ellForm e.a b) := by
      simp only [dot, hn, ellForm, Prod.fst_sub, Prod.snd_sub]
      field_simp
      ring
    rw [e1, hb]
    exact mul_nonpos_of_nonneg_of_nonpos (by positivity) (by linarith)

/-- C31: for a point that is not on the boundary, `normal` is the normal at its boundary point. -/
theorem C31_mapped (e : Ell) (x : Pt ℝ) (f g : Frame) (b : Pt ℝ)
    (hb : e.boundaryMapping x f .obstacle = .ok (some b)) :
    e.normal x f g false = e.normal b .obstacle g true := by
  simp [Ell.normal, hb, (C21_identity e.mm b .obstacle .obstacle (Or.inl rfl)).1, Except.map, bind, Except.bind]

/-- The normal of the ellipse with half axes 2 and 1 at its end (2, 0), turned by a quarter, points up. -/
example : turnedEll.normal (2, 0) .obstacle .global true = .ok (some (0, 1)) := by
  have hn : norm2 ((2, 0) : Pt ℝ) = 2 := by
    rw [norm2, show ((2 : ℝ) ^ 2 + 0 ^ 2) = 2 ^ 2 by norm_num, sqrt_sq (by norm_num)]
  have h := rotate_from_obstacle turnedEll.mm .global (Or.inl rfl) (1, 0)
  simp [Ell.normal, turnedEll, transform, Except.map, bind, Except.bind, hn] at h ⊢
  rw [h]
  simp [inFrame, worldOf]

end Starworlds
