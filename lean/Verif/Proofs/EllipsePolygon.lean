import Verif.Proofs.SimpleRing
import Verif.Proofs.StarConvex
import Verif.Model.Ellipse

/-! # The polygon of an ellipse -/

namespace Starworlds

open Real Spec

/-- The regular polygon in the unit circle. -/
noncomputable def regular (n : ℕ) : List (Pt ℝ) := (List.range n).map fun k : ℕ => (cos (k * (2 * π / n)), sin (k * (2 * π / n)))

theorem regular_length (n : ℕ) : (regular n).length = n := by simp [regular]

theorem regular_corner {n : ℕ} (hn : 0 < n) (i : ℕ) : corner (regular n) i = (cos (i * (2 * π / n)), sin (i * (2 * π / n))) := by
  have h : i % n < n := Nat.mod_lt _ hn
  have hn' : (n : ℝ) ≠ 0 := by exact_mod_cast hn.ne'
  have e : (i : ℝ) * (2 * π / n) = ((i % n : ℕ) : ℝ) * (2 * π / n) + ((i / n : ℕ) : ℝ) * (2 * π) := by
    have : (i : ℝ) = ((i % n : ℕ) : ℝ) + n * ((i / n : ℕ) : ℝ) := by exact_mod_cast (Nat.mod_add_div i n).symm
    conv_lhs => rw [this]
    field_simp
  unfold corner
  rw [regular_length, List.getD_eq_getElem _ _ (by rw [regular_length]; exact h)]
  simp only [regular, List.getElem_map, List.getElem_range]
  rw [e, cos_add_nat_mul_two_pi, sin_add_nat_mul_two_pi]

theorem step_bounds {n : ℕ} (hn : 3 ≤ n) : 0 < 2 * π / n ∧ 2 * π / n < π := by
  have hpi := pi_pos
  have hn' : (3 : ℝ) ≤ n := by exact_mod_cast hn
  refine ⟨by positivity, ?_⟩
  rw [div_lt_iff₀ (by linarith)]
  nlinarith

theorem regular_star {n : ℕ} (hn : 3 ≤ n) : StarAbout 0 (regular n) := by
  obtain ⟨h0, h1⟩ := step_bounds hn
  have hn' : (n : ℝ) ≠ 0 := by exact_mod_cast (by omega : n ≠ 0)
  refine ⟨fun i => i * (2 * π / n), ?_, ?_, ?_⟩
  · intro i _
    rw [regular_corner (by omega)]
    refine ⟨⟨1, zero_le_one, by simp⟩, fun e => ?_⟩
    have e1 : cos (i * (2 * π / n)) = 0 := congrArg Prod.fst e
    have e2 : sin (i * (2 * π / n)) = 0 := congrArg Prod.snd e
    have := sin_sq_add_cos_sq (i * (2 * π / n))
    rw [e1, e2] at this
    norm_num at this
  · intro i _
    push_cast
    constructor <;> nlinarith
  · rw [regular_length]
    push_cast
    field_simp
    ring

theorem regular_turn {n : ℕ} (hn : 3 ≤ n) (j : ℕ) : 0 < turn (regular n) j := by
  obtain ⟨h0, h1⟩ := step_bounds hn
  have hn' : (n : ℝ) ≠ 0 := by exact_mod_cast (by omega : n ≠ 0)
  obtain ⟨α, hα⟩ : ∃ α, α = 2 * π / n := ⟨_, rfl⟩
  unfold turn
  rw [regular_length]
  have e : corner (regular n) (j + n - 1) = (cos (j * α - α), sin (j * α - α)) := by
    rw [regular_corner (by omega)]
    have : ((j + n - 1 : ℕ) : ℝ) * (2 * π / n) = j * α - α + 2 * π := by
      rw [Nat.cast_sub (by omega), hα]
      push_cast
      field_simp
      ring
    rw [this, cos_add_two_pi, sin_add_two_pi]
  rw [e, regular_corner (by omega), regular_corner (by omega), ← hα]
  push_cast
  rw [← hα] at h0 h1
  have hs := sin_pos_of_pos_of_lt_pi h0 h1
  have hc : cos α < 1 := by
    by_contra hge
    push Not at hge
    have := sin_sq_add_cos_sq α
    nlinarith
  have key : cross ((cos (j * α), sin (j * α)) - ((cos (j * α - α), sin (j * α - α)) : Pt ℝ))
      ((cos ((j + 1) * α), sin ((j + 1) * α)) - ((cos (j * α), sin (j * α)) : Pt ℝ)) = 2 * sin α * (1 - cos α) := by
    have hx : ((j : ℝ) + 1) * α = j * α + α := by ring
    rw [hx]
    simp only [cross, Prod.fst_sub, Prod.snd_sub, cos_sub, sin_sub, cos_add, sin_add]
    have := sin_sq_add_cos_sq (j * α)
    linear_combination (2 * sin α * (1 - cos α)) * this
  rw [key]
  have : 0 < 1 - cos α := by linarith
  positivity

/-- Scaling the axes. -/
def scaleAxes (A : Pt ℝ) (p : Pt ℝ) : Pt ℝ := (A.1 * p.1, A.2 * p.2)

theorem scaleAxes_injective {A : Pt ℝ} (h0 : 0 < A.1) (h1 : 0 < A.2) : Function.Injective (scaleAxes A) := by
  intro a b h
  exact Prod.ext (mul_left_cancel₀ h0.ne' (congrArg Prod.fst h)) (mul_left_cancel₀ h1.ne' (congrArg Prod.snd h))

theorem scaleAxes_line (A a b : Pt ℝ) (t : ℝ) : scaleAxes A (a + t • (b - a)) = scaleAxes A a + t • (scaleAxes A b - scaleAxes A a) := by
  ext <;> simp [scaleAxes] <;> ring

theorem filled_scaleAxes {A : Pt ℝ} (h0 : 0 < A.1) (h1 : 0 < A.2) (v : List (Pt ℝ)) :
    filled (v.map (scaleAxes A)) = scaleAxes A '' filled v := by
  have inj := scaleAxes_injective h0 h1
  have surj : ∀ x, ∃ p, scaleAxes A p = x := fun x =>
    ⟨(x.1 / A.1, x.2 / A.2), Prod.ext (mul_div_cancel₀ _ h0.ne') (mul_div_cancel₀ _ h1.ne')⟩
  by_cases hv : v = []
  · subst hv
    ext p
    simp [filled, Inside, OnRing]
  have hring : ∀ p, OnRing (v.map (scaleAxes A)) (scaleAxes A p) ↔ OnRing v p := by
    intro p
    simp only [OnRing, List.length_map, corner_map _ hv]
    refine exists_congr fun i => and_congr_right fun _ => ?_
    constructor
    · rintro ⟨t, a, b, e⟩
      rw [← scaleAxes_line] at e
      exact ⟨t, a, b, inj e⟩
    · rintro ⟨t, a, b, rfl⟩
      exact ⟨t, a, b, scaleAxes_line A _ _ t⟩
  have hray : ∀ a b p, RayCrosses (scaleAxes A a) (scaleAxes A b) (scaleAxes A p) ↔ RayCrosses a b p := by
    intro a b p
    rw [rayCrosses_signs, rayCrosses_signs]
    have e1 : ∀ x y : Pt ℝ, (scaleAxes A x).2 - (scaleAxes A y).2 = A.2 * (x.2 - y.2) := by
      intro x y; simp [scaleAxes]; ring
    have e2 : cross (scaleAxes A b - scaleAxes A a) (scaleAxes A p - scaleAxes A a) = (A.1 * A.2) * cross (b - a) (p - a) := by
      simp [scaleAxes, cross]; ring
    have hm : 0 < A.1 * A.2 := mul_pos h0 h1
    rw [e1, e1, e2]
    have k1 : ∀ x : ℝ, A.2 * x ≤ 0 ↔ x ≤ 0 := fun x =>
      ⟨fun h => by by_contra hn; push Not at hn; linarith [mul_pos h1 hn], fun h => mul_nonpos_of_nonneg_of_nonpos h1.le h⟩
    have k2 : ∀ x : ℝ, A.1 * A.2 * x < 0 ↔ x < 0 := fun x =>
      ⟨fun h => by by_contra hn; push Not at hn; linarith [mul_nonneg hm.le hn], fun h => mul_neg_of_pos_of_neg hm h⟩
    simp only [mul_pos_iff_of_pos_left h1, mul_pos_iff_of_pos_left hm, k1, k2]
  ext x
  obtain ⟨p, rfl⟩ := surj x
  rw [inj.mem_set_image]
  show (_ ∨ _) ↔ (_ ∨ _)
  have hc : ∀ i, RayCrosses (corner (v.map (scaleAxes A)) i) (corner (v.map (scaleAxes A)) (i + 1)) (scaleAxes A p) ↔
      RayCrosses (corner v i) (corner v (i + 1)) p := by
    intro i
    rw [corner_map _ hv, corner_map _ hv, hray]
  classical
  have hf : ∀ l : List ℕ, l.filter (fun i => decide (RayCrosses (corner (v.map (scaleAxes A)) i) (corner (v.map (scaleAxes A)) (i + 1)) (scaleAxes A p))) =
      l.filter fun i => decide (RayCrosses (corner v i) (corner v (i + 1)) p) := fun l =>
    List.filter_congr fun i _ => decide_eq_decide.2 (hc i)
  unfold Inside
  rw [hring, List.length_map]
  refine or_congr (and_congr_right fun _ => ?_) Iff.rfl
  convert Iff.rfl using 4
  exact (hf _).symm

theorem polygonVertices_eq (e : Ell) :
    e.polygonVertices = (regular e.nPol).map (scaleAxes (e.a.1 + 1 / 10 ^ 3, e.a.2 + 1 / 10 ^ 3)) := by
  simp [Ell.polygonVertices, regular, scaleAxes, List.map_map, Function.comp_def]

/-- The polygon of an ellipse is simple. -/
theorem ellPolygon_simple (e : Ell) (h0 : 0 < e.a.1) (h1 : 0 < e.a.2) (hn : 3 ≤ e.nPol) : SimpleRing e.polygonVertices := by
  rw [polygonVertices_eq]
  exact simple_map (scaleAxes_injective (by simp only; positivity) (by simp only; positivity)) (scaleAxes_line _)
    (star_simple (regular_star hn))

/-- The region of the polygon of an ellipse is the convex hull of the vertices. -/
theorem ellPolygon_filled (e : Ell) (h0 : 0 < e.a.1) (h1 : 0 < e.a.2) (hn : 3 ≤ e.nPol) :
    filled e.polygonVertices = convexHull ℝ {p | p ∈ e.polygonVertices} := by
  have hA0 : 0 < e.a.1 + 1 / 10 ^ 3 := by positivity
  have hA1 : 0 < e.a.2 + 1 / 10 ^ 3 := by positivity
  rw [polygonVertices_eq, filled_scaleAxes hA0 hA1, (convex_filled (regular_star hn) fun j _ => regular_turn hn j).1]
  obtain ⟨L, hL⟩ : ∃ L : Pt ℝ →ₗ[ℝ] Pt ℝ, ⇑L = scaleAxes (e.a.1 + 1 / 10 ^ 3, e.a.2 + 1 / 10 ^ 3) :=
    ⟨{ toFun := scaleAxes (e.a.1 + 1 / 10 ^ 3, e.a.2 + 1 / 10 ^ 3)
       map_add' := fun a b => by ext <;> simp [scaleAxes] <;> ring
       map_smul' := fun a b => by ext <;> simp [scaleAxes] <;> ring }, rfl⟩
  unfold region
  rw [← hL, L.image_convexHull]
  congr 1
  ext p
  simp

end Starworlds
