import Verif.Props.Together
import Verif.Props.EllipseShape
import Verif.Props.Intersects
import Mathlib.Analysis.Real.Pi.Bounds

/-! # Ellipses: what their polygons cover, and when they come into the same cluster (C35, C111, C140) -/

namespace Starworlds

open Real Spec

/-- The polygon of an ellipse contains the ellipse with the enlarged axes, shrunk by `cos(π/n)`. -/
theorem ellPolygon_inner (e : Ell) (h0 : 0 < e.a.1) (h1 : 0 < e.a.2) (hn : 3 ≤ e.nPol) (q : Pt ℝ)
    (hq : ellForm (e.a.1 + 1 / 10 ^ 3, e.a.2 + 1 / 10 ^ 3) q ≤ cos (π / e.nPol) ^ 2) : q ∈ convexHull ℝ {p | p ∈ e.polygonVertices} := by
  have hc : 0 < cos (π / e.nPol) := by
    have h3 : (3 : ℝ) ≤ e.nPol := by exact_mod_cast hn
    have hp := pi_pos
    have : π / e.nPol ≤ π / 3 := by gcongr
    have : 0 < π / e.nPol := by positivity
    exact cos_pos_of_mem_Ioo ⟨by linarith, by linarith⟩
  by_contra hnot
  have hfin : {p | p ∈ e.polygonVertices}.Finite := List.finite_toSet _
  have hclosed : IsClosed (convexHull ℝ {p | p ∈ e.polygonVertices}) := hfin.isClosed_convexHull ℝ
  obtain ⟨g, s, hlt, hs⟩ := geometric_hahn_banach_closed_point (convex_convexHull ℝ _) hclosed hnot
  set A : Pt ℝ := (e.a.1 + 1 / 10 ^ 3, e.a.2 + 1 / 10 ^ 3) with hA
  have hA0 : 0 < A.1 := by simp only [hA]; positivity
  have hA1 : 0 < A.2 := by simp only [hA]; positivity
  have hg : ∀ p : Pt ℝ, g p = p.1 * g (1, 0) + p.2 * g (0, 1) := by
    intro p
    have : p = p.1 • ((1, 0) : Pt ℝ) + p.2 • ((0, 1) : Pt ℝ) := by ext <;> simp
    conv_lhs => rw [this]
    rw [map_add, map_smul, map_smul, smul_eq_mul, smul_eq_mul]
  -- the functional in the coordinates of the unit circle, in polar form
  set z : ℂ := ⟨A.1 * g (1, 0), A.2 * g (0, 1)⟩ with hz
  have hre : ‖z‖ * cos z.arg = A.1 * g (1, 0) := Complex.norm_mul_cos_arg z
  have him : ‖z‖ * sin z.arg = A.2 * g (0, 1) := Complex.norm_mul_sin_arg z
  have hgz : ∀ u v : ℝ, g (A.1 * u, A.2 * v) = ‖z‖ * (cos z.arg * u + sin z.arg * v) := by
    intro u v
    rw [hg]
    simp only
    linear_combination -u * hre - v * him
  obtain ⟨k, hk, hcos⟩ := near_step (n := e.nPol) (by omega) z.arg
  have hvert : ((A.1 * cos (k * (2 * π / e.nPol)), A.2 * sin (k * (2 * π / e.nPol))) : Pt ℝ) ∈ e.polygonVertices := by
    simp only [Ell.polygonVertices, List.mem_map, List.mem_range]
    exact ⟨k, hk, rfl⟩
  have h2 := hlt _ (subset_convexHull ℝ _ hvert)
  rw [hgz, ← cos_sub] at h2
  -- the point in the coordinates of the unit circle
  set u := q.1 / A.1 with hu
  set v := q.2 / A.2 with hv
  have hq' : q = (A.1 * u, A.2 * v) := by
    ext
    · simp only [hu]; field_simp
    · simp only [hv]; field_simp
  have huv : u ^ 2 + v ^ 2 ≤ cos (π / e.nPol) ^ 2 := by
    simpa only [ellForm, hu, hv, div_pow] using hq
  have h3 : g q ≤ ‖z‖ * cos (π / e.nPol) := by
    rw [hq', hgz]
    gcongr
    have hcs : (cos z.arg * u + sin z.arg * v) ^ 2 ≤ cos (π / e.nPol) ^ 2 := by
      nlinarith [sq_nonneg (cos z.arg * v - sin z.arg * u), sin_sq_add_cos_sq z.arg]
    exact (le_abs_self _).trans (abs_le_of_sq_le_sq hcs hc.le)
  have h4 : ‖z‖ * cos (π / e.nPol) ≤ ‖z‖ * cos (z.arg - k * (2 * π / e.nPol)) := by gcongr
  linarith

/-- C35 for all axes: the polygon contains the ellipse shrunk by `cos(π/n)`. Missing: the rest of the ellipse, which need not be in the
polygon (`C35_default_false`). -/
theorem C35_inner_partial (e : Ell) (h0 : 0 < e.a.1) (h1 : 0 < e.a.2) (hn : 3 ≤ e.nPol) (q : Pt ℝ)
    (hq : ellForm e.a q ≤ cos (π / e.nPol) ^ 2) : q ∈ convexHull ℝ {p | p ∈ e.polygonVertices} := by
  refine ellPolygon_inner e h0 h1 hn q (le_trans ?_ hq)
  have g : ∀ a x : ℝ, 0 < a → x ^ 2 / (a + 1 / 10 ^ 3) ^ 2 ≤ x ^ 2 / a ^ 2 := by
    intro a x ha
    have : a ≤ a + 1 / 10 ^ 3 := by norm_num
    gcongr
  exact add_le_add (g _ _ h0) (g _ _ h1)

/-- The ellipse shrunk by `cos(π/n)`, in the world. -/
def innerPoints (e : Ell) : Set (Pt ℝ) := {q | ∃ p, ellForm e.a p ≤ cos (π / e.nPol) ^ 2 ∧ q = inFrame e.mm .global p}

theorem innerPoints_polygon {e : Ell} (h0 : 0 < e.a.1) (h1 : 0 < e.a.2) (hn : 3 ≤ e.nPol) (id : Option Nat) :
    innerPoints e ⊆ (ellipseObs id e).polygon := by
  rintro q ⟨p, hp, rfl⟩
  exact ⟨p, C35_inner_partial e h0 h1 hn p hp, rfl⟩

/-- C140 for ellipses that, shrunk by `cos(π/n)`, have a common point (for 20 corners, by less than 1.3 percent): they are in the same
cluster. Missing: ellipses that overlap less (`C140_false`). -/
theorem C140_ellipse_partial {par : Params} {cfg : StarCfg} {prev : Option (List (Cl ConvObs ClusterObs Triple (Set (Pt ℝ))))} {fuel : Nat}
    {obstacles : List ConvObs} {r : Res ConvObs ClusterObs Triple (Set (Pt ℝ))} (hs : IsSetList cfg.setList)
    (hid : (obstacles.map (·.id)).Nodup)
    (h : clusterAndStarify (starGeo cfg) par prev fuel obstacles = some (.ok r)) (hf : r.flag ≠ .incomplete)
    {id1 id2 : Option Nat} {e1 e2 : Ell} (h1 : ellipseObs id1 e1 ∈ obstacles) (h2 : ellipseObs id2 e2 ∈ obstacles)
    (ha1 : 0 < e1.a.1 ∧ 0 < e1.a.2 ∧ 3 ≤ e1.nPol) (ha2 : 0 < e2.a.1 ∧ 0 < e2.a.2 ∧ 3 ≤ e2.nPol)
    (hm : (innerPoints e1 ∩ innerPoints e2).Nonempty) :
    ∃ c ∈ r.clusters, ellipseObs id1 e1 ∈ c.obstacles ∧ ellipseObs id2 e2 ∈ c.obstacles := by
  obtain ⟨p, hp1, hp2⟩ := hm
  exact C140_together_partial (pts := (·.polygon)) hs hid (fun _ _ => subset_rfl) h hf h1 (Relation.EqvGen.rel _ _ ⟨h1, h2, p,
    innerPoints_polygon ha1.1 ha1.2.1 ha1.2.2 _ hp1, innerPoints_polygon ha2.1 ha2.2.1 ha2.2.2 _ hp2⟩)

/-- For 20 corners the factor is above 0.987. -/
theorem cos_pi_twenty : 987 / 1000 < cos (π / 20) := by
  have h := Real.one_sub_sq_div_two_le_cos (x := π / 20)
  have hp := pi_lt_d2
  have hp0 := pi_pos
  nlinarith

/-- The point (0.98, 0) is in the polygon of the unit circle with 20 corners, and unit circles at the distance 1.96 have a point in common
that is in both polygons. -/
example : ((98 / 100, 0) : Pt ℝ) ∈ convexHull ℝ {p | p ∈ unitEll.polygonVertices} ∧
    (innerPoints unitEll ∩ innerPoints ⟨(1, 1), (0, 0), 20, some ⟨(196 / 100, 0), 0⟩⟩).Nonempty := by
  have hc : (98 / 100) ^ 2 ≤ cos (π / (20 : ℕ)) ^ 2 := by
    have := cos_pi_twenty
    push_cast
    gcongr
    linarith
  refine ⟨C35_inner_partial unitEll (by norm_num [unitEll]) (by norm_num [unitEll]) (by norm_num [unitEll]) _ ?_, (98 / 100, 0),
    ⟨(98 / 100, 0), ?_, ?_⟩, (-(98 / 100), 0), ?_, ?_⟩
  · simp only [ellForm, unitEll]
    refine le_trans (by norm_num) hc
  · simp only [ellForm, unitEll]
    refine le_trans (by norm_num) hc
  · simp [inFrame, unitEll, worldOf]
  · simp only [ellForm]
    refine le_trans (by norm_num) hc
  · simp [inFrame, worldOf]; norm_num

/-- C111 for ellipses of any size: `intersects` is True when the ellipses shrunk by `cos(π/n)` have a common point. Missing: ellipses that
overlap less (`C111_missed_false`). -/
theorem C111_inner_partial (inter : Shape → Shape → Bool) (hin : InterOk inter) (src : Nat → KernelSrc) (nr : Bool)
    (ell : Nat → Ell) (mm : Nat → Option Pose) (xr : Nat → Pt ℝ) (eager static : Nat → Bool) (ops : List PairOp) (i j : Nat)
    (hpos : ∀ k, 0 < (ell k).a.1 ∧ 0 < (ell k).a.2 ∧ 3 ≤ (ell k).nPol)
    (hm : ∃ x, x ∈ placed (lastPose i (mm i) ops) {p | ellForm (ell i).a p ≤ cos (π / (ell i).nPol) ^ 2} ∧
      x ∈ placed (lastPose j (mm j) ops) {p | ellForm (ell j).a p ≤ cos (π / (ell j).nPol) ^ 2}) :
    (intersectsCall inter (pairRun inter src nr (fresh (fun k => (ell k).polygonVertices) mm xr eager static) ops) i j).1 = .ok true := by
  have hs : ∀ k, SimpleRing (ell k).polygonVertices := fun k => ellPolygon_simple _ (hpos k).1 (hpos k).2.1 (hpos k).2.2
  have hf : ∀ k, filled (ell k).polygonVertices = convexHull ℝ {p | p ∈ (ell k).polygonVertices} := fun k =>
    ellPolygon_filled _ (hpos k).1 (hpos k).2.1 (hpos k).2.2
  have hc : ∀ k p, ellForm (ell k).a p ≤ cos (π / (ell k).nPol) ^ 2 → p ∈ filled (ell k).polygonVertices := fun k p hp => by
    rw [hf]; exact C35_inner_partial _ (hpos k).1 (hpos k).2.1 (hpos k).2.2 p hp
  obtain ⟨b, h1, h2⟩ := C111_partial inter hin src nr (fun k => (ell k).polygonVertices) mm xr eager static ops i j (hs i) (hs j)
  obtain ⟨x, ⟨p, hp, e⟩, q, hq, e'⟩ := hm
  rw [h1, h2.2 ⟨x, ⟨p, hc i p hp, e⟩, q, hc j q hq, e'⟩]

/-- Unit circles at the distance 1.96 are found to intersect. -/
example (inter : Shape → Shape → Bool) (hin : InterOk inter) (xr : Nat → Pt ℝ) (eager static : Nat → Bool) :
    (intersectsCall inter (fresh (fun _ => unitEll.polygonVertices) (fun k => some ⟨(k * (196 / 100), 0), 0⟩) xr eager static) 0 1).1 = .ok true := by
  have hc : (98 / 100) ^ 2 ≤ cos (π / (20 : ℕ)) ^ 2 := by
    have := cos_pi_twenty
    push_cast
    gcongr
    linarith
  refine C111_inner_partial inter hin (fun _ => .fromPolygon) true (fun _ => unitEll) _ xr eager static [] 0 1
    (fun _ => ⟨by norm_num [unitEll], by norm_num [unitEll], by norm_num [unitEll]⟩) ⟨(98 / 100, 0), ⟨(98 / 100, 0), ?_, ?_⟩, (-(98 / 100), 0), ?_, ?_⟩
  · simp only [Set.mem_ofPred_eq, ellForm, unitEll]
    refine le_trans (by norm_num) hc
  · simp [lastPose, worldOf]
  · simp only [Set.mem_ofPred_eq, ellForm, unitEll]
    refine le_trans (by norm_num) hc
  · simp [lastPose, worldOf]; norm_num

end Starworlds
