import Verif.Props.EllipseTangent
import Mathlib.Analysis.LocallyConvex.Separation
import Mathlib.Analysis.Normed.Module.Convex
import Mathlib.Analysis.SpecialFunctions.Complex.Arg
import Mathlib.Analysis.Complex.Trigonometric
import Mathlib.Analysis.SpecialFunctions.Trigonometric.Bounds

/-! # C34, C35: dilation and polygon of the ellipse -/

namespace Starworlds

open Real Spec

/-! ## C34 -/

/-- C34: every point of the dilated ellipse is within the padding of a point of the ellipse, whatever the
pose, in both frames. -/
theorem C34_within (e : Ell) (h0 : 0 < e.a.1) (h1 : 0 < e.a.2) (r : ℝ) (hr : 0 ≤ r) (f : Frame) (hf : f.Valid)
    (x : Pt ℝ) (v : ℝ) (hx : (e.dilated r).pointLocation x f = .ok v) (hv : v ≤ 0) :
    ∃ y w, e.pointLocation y f = .ok w ∧ w ≤ 0 ∧ normSq (x - y) ≤ r ^ 2 := by
  obtain ⟨p, rfl⟩ := inFrame_surj e.mm f hf x
  have hA0 : 0 < e.a.1 + r := by linarith
  have hA1 : 0 < e.a.2 + r := by linarith
  have hloc := pointLocation_eq (e.dilated r) hA0.ne' hA1.ne' f hf p
  rw [show (e.dilated r).mm = e.mm from rfl] at hloc
  rw [hloc, Except.ok.injEq] at hx
  have hform : p.1 ^ 2 / (e.a.1 + r) ^ 2 + p.2 ^ 2 / (e.a.2 + r) ^ 2 ≤ 1 := by
    have : ellForm (e.dilated r).a p ≤ 1 := by linarith
    exact this
  set u : Pt ℝ := (p.1 / (e.a.1 + r), p.2 / (e.a.2 + r)) with hu
  have hun : u.1 ^ 2 + u.2 ^ 2 ≤ 1 := by
    simp only [hu, div_pow]; exact hform
  have hp1 : p.1 = (e.a.1 + r) * u.1 := by simp only [hu]; field_simp
  have hp2 : p.2 = (e.a.2 + r) * u.2 := by simp only [hu]; field_simp
  set q : Pt ℝ := (e.a.1 * u.1, e.a.2 * u.2) with hq
  have hqf : ellForm e.a q = u.1 ^ 2 + u.2 ^ 2 := by
    simp only [ellForm, hq]; field_simp
  refine ⟨inFrame e.mm f q, _, pointLocation_eq e h0.ne' h1.ne' f hf q, ?_, ?_⟩
  · rw [hqf]; linarith
  · rw [inFrame_normSq]
    simp only [normSq, Prod.fst_sub, Prod.snd_sub, hp1, hp2, hq]
    nlinarith [sq_nonneg r]

/-- C34 (partial): the converse for circles: every point within the padding of the circle is in the dilated
circle. Missing: ellipses with different axes, for which it is false (`C34_false`). -/
theorem C34_circle_partial (e : Ell) (h0 : 0 < e.a.1) (h1 : e.a.2 = e.a.1) (r : ℝ) (hr : 0 ≤ r) (f : Frame)
    (hf : f.Valid) (x y : Pt ℝ) (w : ℝ) (hy : e.pointLocation y f = .ok w) (hw : w ≤ 0)
    (hxy : normSq (x - y) ≤ r ^ 2) : ∃ v, (e.dilated r).pointLocation x f = .ok v ∧ v ≤ 0 := by
  obtain ⟨p, rfl⟩ := inFrame_surj e.mm f hf x
  obtain ⟨q, rfl⟩ := inFrame_surj e.mm f hf y
  have h1' : 0 < e.a.2 := by rw [h1]; exact h0
  have hA0 : 0 < e.a.1 + r := by linarith
  have hA1 : 0 < e.a.2 + r := by linarith
  rw [pointLocation_eq e h0.ne' h1'.ne' f hf q, Except.ok.injEq] at hy
  rw [inFrame_normSq] at hxy
  have hloc := pointLocation_eq (e.dilated r) hA0.ne' hA1.ne' f hf p
  rw [show (e.dilated r).mm = e.mm from rfl] at hloc
  refine ⟨_, hloc, ?_⟩
  have hqn : q.1 ^ 2 + q.2 ^ 2 ≤ e.a.1 ^ 2 := by
    have : ellForm e.a q ≤ 1 := by linarith
    rw [ellForm, h1, ← add_div, div_le_one (by positivity)] at this
    exact this
  have hpn : p.1 ^ 2 + p.2 ^ 2 ≤ (e.a.1 + r) ^ 2 := by
    simp only [normSq, Prod.fst_sub, Prod.snd_sub] at hxy
    have hcs : (q.1 * (p.1 - q.1) + q.2 * (p.2 - q.2)) ^ 2 ≤ (e.a.1 * r) ^ 2 := by
      have e1 : (q.1 * (p.1 - q.1) + q.2 * (p.2 - q.2)) ^ 2 ≤
          (q.1 ^ 2 + q.2 ^ 2) * ((p.1 - q.1) ^ 2 + (p.2 - q.2) ^ 2) := by
        nlinarith [sq_nonneg (q.1 * (p.2 - q.2) - q.2 * (p.1 - q.1))]
      rw [mul_pow]
      refine e1.trans ?_
      gcongr
    have hcs' := (le_abs_self _).trans (abs_le_of_sq_le_sq hcs (by positivity))
    nlinarith
  have : ellForm (e.dilated r).a p ≤ 1 := by
    simp only [ellForm, Ell.dilated, h1]
    rw [← add_div, div_le_one (by positivity)]
    exact hpn
  linarith

/-- The ellipse with half axes 5/4 and 4. -/
noncomputable def slimEll : Ell := ⟨(5 / 4, 4), (0, 0), 20, none⟩

/-- C34 is false: with half axes 5/4 and 4 and padding 1, the point (3/4, 16/5) is on the ellipse, the point
(3/4 + 12/13, 16/5 + 5/13) is at distance 1 from it, and is outside the dilated ellipse. -/
theorem C34_false : ∃ x y : Pt ℝ, ∃ v w, slimEll.pointLocation y .global = .ok w ∧ w = 0 ∧ normSq (x - y) = 1 ^ 2 ∧
    (slimEll.dilated 1).pointLocation x .global = .ok v ∧ 0 < v := by
  refine ⟨(3 / 4 + 12 / 13, 16 / 5 + 5 / 13), (3 / 4, 16 / 5), _, _,
    pointLocation_eq slimEll (by norm_num [slimEll]) (by norm_num [slimEll]) .global (Or.inl rfl) (3 / 4, 16 / 5), ?_, ?_,
    pointLocation_eq (slimEll.dilated 1) (by norm_num [slimEll, Ell.dilated]) (by norm_num [slimEll, Ell.dilated])
      .global (Or.inl rfl) _, ?_⟩
  · norm_num [ellForm, slimEll]
  · norm_num [normSq]
  · norm_num [ellForm, slimEll, Ell.dilated]

/-- The unit circle dilated by 1 reaches (2, 0). -/
example : (unitEll.dilated 1).pointLocation (2, 0) .global = .ok 0 := by
  have := pointLocation_eq (unitEll.dilated 1) (by norm_num [unitEll, Ell.dilated]) (by norm_num [unitEll, Ell.dilated])
    .global (Or.inl rfl) (2, 0)
  rw [show ellForm (unitEll.dilated 1).a (2, 0) - 1 = 0 by norm_num [ellForm, unitEll, Ell.dilated]] at this
  exact this

/-! ## C35 -/

theorem ellForm_convex (a : Pt ℝ) : Convex ℝ {q : Pt ℝ | ellForm a q ≤ 1} := by
  intro p hp q hq s t hs ht hst
  simp only [Set.mem_ofPred_eq, ellForm] at *
  simp only [Prod.fst_add, Prod.snd_add, Prod.smul_fst, Prod.smul_snd, smul_eq_mul]
  have hsq : ∀ x y : ℝ, (s * x + t * y) ^ 2 ≤ s * x ^ 2 + t * y ^ 2 := by
    intro x y
    have : t = 1 - s := by linarith
    subst this
    nlinarith [mul_nonneg hs ht, sq_nonneg (x - y), mul_nonneg (mul_nonneg hs ht) (sq_nonneg (x - y))]
  have e1 : (s * p.1 + t * q.1) ^ 2 / a.1 ^ 2 ≤ (s * p.1 ^ 2 + t * q.1 ^ 2) / a.1 ^ 2 := by gcongr; exact hsq _ _
  have e2 : (s * p.2 + t * q.2) ^ 2 / a.2 ^ 2 ≤ (s * p.2 ^ 2 + t * q.2 ^ 2) / a.2 ^ 2 := by gcongr; exact hsq _ _
  calc _ ≤ (s * p.1 ^ 2 + t * q.1 ^ 2) / a.1 ^ 2 + (s * p.2 ^ 2 + t * q.2 ^ 2) / a.2 ^ 2 := add_le_add e1 e2
    _ = s * (p.1 ^ 2 / a.1 ^ 2 + p.2 ^ 2 / a.2 ^ 2) + t * (q.1 ^ 2 / a.1 ^ 2 + q.2 ^ 2 / a.2 ^ 2) := by ring
    _ ≤ s * 1 + t * 1 := by gcongr
    _ = 1 := by linarith

/-- C35: the polygon (the convex hull of its vertices) is contained in the ellipse with both axes enlarged by
`10⁻³`. -/
theorem C35_inside (e : Ell) (h0 : 0 < e.a.1) (h1 : 0 < e.a.2) (q : Pt ℝ)
    (hq : q ∈ convexHull ℝ {p | p ∈ e.polygonVertices}) :
    ellForm (e.a.1 + 1 / 10 ^ 3, e.a.2 + 1 / 10 ^ 3) q ≤ 1 := by
  refine convexHull_min ?_ (ellForm_convex _) hq
  intro p hp
  simp only [Set.mem_ofPred_eq, Ell.polygonVertices, List.mem_map] at hp ⊢
  obtain ⟨k, _, rfl⟩ := hp
  have hA0 : e.a.1 + 1 / 10 ^ 3 ≠ 0 := by positivity
  have hA1 : e.a.2 + 1 / 10 ^ 3 ≠ 0 := by positivity
  simp only [ellForm, mul_pow, mul_div_cancel_left₀ _ (pow_ne_zero 2 hA0), mul_div_cancel_left₀ _ (pow_ne_zero 2 hA1)]
  rw [cos_sq_add_sin_sq]

/-- Some multiple of the angle step is within half a step of any angle. -/
theorem near_step {n : ℕ} (hn : 0 < n) (φ : ℝ) :
    ∃ k < n, cos (π / n) ≤ cos (φ - k * (2 * π / n)) := by
  have hn' : (0 : ℝ) < n := by exact_mod_cast hn
  have hn0 : (n : ℤ) ≠ 0 := by exact_mod_cast hn.ne'
  set z := round (φ / (2 * π / n)) with hz
  have hstep : 0 < 2 * π / n := by positivity
  have hround : |φ / (2 * π / n) - z| ≤ 1 / 2 := abs_sub_round _
  have habs : |φ - z * (2 * π / n)| ≤ π / n := by
    have e : φ - z * (2 * π / n) = (φ / (2 * π / n) - z) * (2 * π / n) := by
      rw [sub_mul, div_mul_cancel₀ _ hstep.ne']
    rw [e, abs_mul, abs_of_pos hstep]
    calc _ ≤ 1 / 2 * (2 * π / n) := by gcongr
      _ = π / n := by ring
  refine ⟨(z % n).toNat, ?_, ?_⟩
  · have h1 := Int.emod_lt_of_pos z (by exact_mod_cast hn : (0 : ℤ) < n)
    have h2 := Int.emod_nonneg z hn0
    omega
  · have h2 := Int.emod_nonneg z hn0
    have hcast : (((z % n).toNat : ℕ) : ℝ) = ((z % n : ℤ) : ℝ) := by
      exact_mod_cast congrArg (Int.cast : ℤ → ℝ) (Int.toNat_of_nonneg h2)
    have hdiv : (z : ℝ) = ((z % n : ℤ) : ℝ) + n * ((z / n : ℤ) : ℝ) := by
      exact_mod_cast (Int.emod_add_mul_ediv z n).symm
    have e : φ - ((z % n).toNat : ℕ) * (2 * π / n) = φ - z * (2 * π / n) + ((z / n : ℤ) : ℝ) * (2 * π) := by
      rw [hcast, hdiv]
      field_simp
      ring
    rw [e, cos_add_int_mul_two_pi, ← cos_abs (φ - _)]
    apply cos_le_cos_of_nonneg_of_le_pi (abs_nonneg _) _ habs
    apply div_le_self pi_pos.le
    exact_mod_cast hn

/-- C35 (partial): the polygon contains the ellipse if the enlargement by `10⁻³` makes up for the corners cut
off: `a ≤ (a + 10⁻³) cos(π/n)` for both axes. Missing: larger axes, for which it is false (`C35_false`). -/
theorem C35_contains_partial (e : Ell) (h0 : 0 < e.a.1) (h1 : 0 < e.a.2) (hn : 0 < e.nPol)
    (hc0 : e.a.1 ≤ (e.a.1 + 1 / 10 ^ 3) * cos (π / e.nPol))
    (hc1 : e.a.2 ≤ (e.a.2 + 1 / 10 ^ 3) * cos (π / e.nPol))
    (q : Pt ℝ) (hq : ellForm e.a q ≤ 1) : q ∈ convexHull ℝ {p | p ∈ e.polygonVertices} := by
  by_contra hnot
  have hfin : {p | p ∈ e.polygonVertices}.Finite := List.finite_toSet _
  have hclosed : IsClosed (convexHull ℝ {p | p ∈ e.polygonVertices}) := hfin.isClosed_convexHull ℝ
  obtain ⟨g, s, hlt, hs⟩ := geometric_hahn_banach_closed_point (convex_convexHull ℝ _) hclosed hnot
  set A : Pt ℝ := (e.a.1 + 1 / 10 ^ 3, e.a.2 + 1 / 10 ^ 3) with hA
  have hA0 : 0 < A.1 := by simp only [hA]; positivity
  have hA1 : 0 < A.2 := by simp only [hA]; positivity
  have hg : ∀ p : Pt ℝ, g p = p.1 * g (1, 0) + p.2 * g (0, 1) := by
    intro p
    have : p = p.1 • ((1, 0) : Pt ℝ) + p.2 • ((0, 1) : Pt ℝ) := by ext <;> simp
    conv_lhs => rw [this]
    rw [map_add, map_smul, map_smul, smul_eq_mul, smul_eq_mul]
  -- the functional in the coordinates of the unit circle, in polar form
  set z : ℂ := ⟨A.1 * g (1, 0), A.2 * g (0, 1)⟩ with hz
  have hre : ‖z‖ * cos z.arg = A.1 * g (1, 0) := Complex.norm_mul_cos_arg z
  have him : ‖z‖ * sin z.arg = A.2 * g (0, 1) := Complex.norm_mul_sin_arg z
  have hgz : ∀ u v : ℝ, g (A.1 * u, A.2 * v) = ‖z‖ * (cos z.arg * u + sin z.arg * v) := by
    intro u v
    rw [hg]
    simp only
    linear_combination -u * hre - v * him
  obtain ⟨k, hk, hcos⟩ := near_step hn z.arg
  have hvert : ((A.1 * cos (k * (2 * π / e.nPol)), A.2 * sin (k * (2 * π / e.nPol))) : Pt ℝ) ∈ e.polygonVertices := by
    simp only [Ell.polygonVertices, List.mem_map, List.mem_range]
    exact ⟨k, hk, rfl⟩
  have h2 := hlt _ (subset_convexHull ℝ _ hvert)
  rw [hgz, ← cos_sub] at h2
  have hc : 0 < cos (π / e.nPol) := by
    by_contra hle
    push Not at hle
    have : (e.a.1 + 1 / 10 ^ 3) * cos (π / e.nPol) ≤ 0 := mul_nonpos_of_nonneg_of_nonpos hA0.le hle
    linarith
  -- the point in the coordinates of the unit circle
  set u := q.1 / A.1 with hu
  set v := q.2 / A.2 with hv
  have hq' : q = (A.1 * u, A.2 * v) := by
    ext
    · simp only [hu]; field_simp
    · simp only [hv]; field_simp
  have huv : u ^ 2 + v ^ 2 ≤ cos (π / e.nPol) ^ 2 := by
    have e1 : u ^ 2 ≤ cos (π / e.nPol) ^ 2 * (q.1 ^ 2 / e.a.1 ^ 2) := by
      rw [hu, div_pow, div_le_iff₀ (by positivity), mul_comm (cos _ ^ 2), div_mul_eq_mul_div, div_mul_eq_mul_div,
        le_div_iff₀ (by positivity)]
      have : e.a.1 ^ 2 ≤ (A.1 * cos (π / e.nPol)) ^ 2 := by gcongr
      nlinarith [sq_nonneg q.1]
    have e2 : v ^ 2 ≤ cos (π / e.nPol) ^ 2 * (q.2 ^ 2 / e.a.2 ^ 2) := by
      rw [hv, div_pow, div_le_iff₀ (by positivity), mul_comm (cos _ ^ 2), div_mul_eq_mul_div, div_mul_eq_mul_div,
        le_div_iff₀ (by positivity)]
      have : e.a.2 ^ 2 ≤ (A.2 * cos (π / e.nPol)) ^ 2 := by gcongr
      nlinarith [sq_nonneg q.2]
    have : cos (π / e.nPol) ^ 2 * ellForm e.a q ≤ cos (π / e.nPol) ^ 2 * 1 := by gcongr
    unfold ellForm at this
    linarith
  have h3 : g q ≤ ‖z‖ * cos (π / e.nPol) := by
    rw [hq', hgz]
    gcongr
    have hcs : (cos z.arg * u + sin z.arg * v) ^ 2 ≤ cos (π / e.nPol) ^ 2 := by
      nlinarith [sq_nonneg (cos z.arg * v - sin z.arg * u), sin_sq_add_cos_sq z.arg]
    exact (le_abs_self _).trans (abs_le_of_sq_le_sq hcs hc.le)
  have h4 : ‖z‖ * cos (π / e.nPol) ≤ ‖z‖ * cos (z.arg - k * (2 * π / e.nPol)) := by gcongr
  linarith

/-- The unit circle with a polygon of four vertices. -/
def squareEll : Ell := ⟨(1, 1), (0, 0), 4, none⟩

/-- C35 is false: the polygon with four vertices of the unit circle does not contain the point (3/5, 3/5)
inside the circle. -/
theorem C35_false : ellForm squareEll.a (3 / 5, 3 / 5) < 1 ∧
    ((3 / 5, 3 / 5) : Pt ℝ) ∉ convexHull ℝ {p | p ∈ squareEll.polygonVertices} := by
  refine ⟨by norm_num [ellForm, squareEll], ?_⟩
  intro h
  have hconv : Convex ℝ {q : Pt ℝ | q.1 + q.2 ≤ 1 + 1 / 10 ^ 3} := by
    intro p hp q hq s t hs ht hst
    simp only [Set.mem_ofPred_eq, Prod.fst_add, Prod.snd_add, Prod.smul_fst, Prod.smul_snd, smul_eq_mul] at *
    have : t = 1 - s := by linarith
    subst this
    nlinarith
  have hsub : {p | p ∈ squareEll.polygonVertices} ⊆ {q : Pt ℝ | q.1 + q.2 ≤ 1 + 1 / 10 ^ 3} := by
    intro p hp
    simp only [Set.mem_ofPred_eq, Ell.polygonVertices, List.mem_map, List.mem_range, squareEll] at hp ⊢
    obtain ⟨k, hk, rfl⟩ := hp
    have e1 : (1 : ℝ) * (2 * π / 4) = π / 2 := by ring
    have e2 : (2 : ℝ) * (2 * π / 4) = π := by ring
    have e3 : (3 : ℝ) * (2 * π / 4) = π + π / 2 := by ring
    have hc : ∀ c s : ℝ, c + s ≤ 1 → (1 + 1 / 10 ^ 3) * c + (1 + 1 / 10 ^ 3) * s ≤ 1 + 1 / 10 ^ 3 := by
      intro c s h; nlinarith
    apply hc
    interval_cases k
    · simp
    · push_cast; rw [e1]; simp
    · push_cast; rw [e2]; simp
    · push_cast; rw [e3, cos_add, sin_add]; simp
  have := convexHull_min hsub hconv h
  norm_num at this

/-- C35 is false with the default number of vertices too: for the unit circle with 20 vertices, the boundary
point of the circle halfway between two vertices is not in the polygon. -/
theorem C35_default_false : ellForm unitEll.a (cos (π / 20), sin (π / 20)) = 1 ∧
    ((cos (π / 20), sin (π / 20)) : Pt ℝ) ∉ convexHull ℝ {p | p ∈ unitEll.polygonVertices} := by
  have hcs := sin_sq_add_cos_sq (π / 20)
  refine ⟨by simp [ellForm, unitEll], ?_⟩
  intro h
  have hconv : Convex ℝ {q : Pt ℝ | cos (π / 20) * q.1 + sin (π / 20) * q.2 ≤ (1 + 1 / 10 ^ 3) * cos (π / 20)} := by
    intro p hp q hq s t hs ht hst
    simp only [Set.mem_ofPred_eq, Prod.fst_add, Prod.snd_add, Prod.smul_fst, Prod.smul_snd, smul_eq_mul] at *
    have : t = 1 - s := by linarith
    subst this
    nlinarith
  have hpi := pi_pos
  have hsub : {p | p ∈ unitEll.polygonVertices} ⊆
      {q : Pt ℝ | cos (π / 20) * q.1 + sin (π / 20) * q.2 ≤ (1 + 1 / 10 ^ 3) * cos (π / 20)} := by
    intro p hp
    simp only [Set.mem_ofPred_eq, Ell.polygonVertices, List.mem_map, List.mem_range, unitEll] at hp ⊢
    obtain ⟨k, hk, rfl⟩ := hp
    have hle : cos (k * (2 * π / (20 : ℕ)) - π / 20) ≤ cos (π / 20) := by
      push_cast
      have hk' : (k : ℝ) ≤ 19 := by exact_mod_cast (by omega : k ≤ 19)
      rcases Nat.eq_zero_or_pos k with rfl | hk0
      · simp
      · have hk1 : (1 : ℝ) ≤ k := by exact_mod_cast hk0
        rcases le_total ((k : ℝ) * (2 * π / 20) - π / 20) π with h1 | h1
        · exact cos_le_cos_of_nonneg_of_le_pi (by positivity) h1 (by nlinarith)
        · rw [← cos_two_pi_sub]
          exact cos_le_cos_of_nonneg_of_le_pi (by positivity) (by linarith) (by nlinarith)
    rw [cos_sub] at hle
    nlinarith
  have := convexHull_min hsub hconv h
  simp only [Set.mem_ofPred_eq] at this
  have hup := cos_le_one_sub_mul_cos_sq (x := π / 20) (by rw [abs_of_pos (by positivity)]; linarith)
  have e : 2 / π ^ 2 * (π / 20) ^ 2 = 1 / 200 := by field_simp; norm_num
  rw [e] at hup
  nlinarith

/-- The default number of vertices (20) suffices for a circle of radius 1/100: `1/100 ≤ 11/1000 · cos(π/20)`. -/
example (q : Pt ℝ) (hq : ellForm (1 / 100, 1 / 100) q ≤ 1) :
    q ∈ convexHull ℝ {p | p ∈ (⟨(1 / 100, 1 / 100), (0, 0), 20, none⟩ : Ell).polygonVertices} := by
  have hc : (1 : ℝ) / 100 ≤ (1 / 100 + 1 / 10 ^ 3) * cos (π / (20 : ℕ)) := by
    have h1 := one_sub_sq_div_two_le_cos (x := π / (20 : ℕ))
    have h2 : π ≤ 4 := pi_le_four
    have h3 := pi_pos
    push_cast at *
    nlinarith
  exact C35_contains_partial ⟨(1 / 100, 1 / 100), (0, 0), 20, none⟩ (by norm_num) (by norm_num) (by norm_num) hc hc q hq

end Starworlds
