import Verif.Props.EllipseInner
import Verif.Spec.Kernel

/-! # C141: the kernel that an Ellipse reports -/

namespace Starworlds

open Real Spec

theorem forall_world {mm : Option Pose} {k q : Shape}
    (h : List.Forall₂ (fun v w => transform mm v .obstacle .global = .ok w) k q) : q = k.map (worldOf mm) := by
  have uniq : ∀ {k q q' : Shape}, List.Forall₂ (fun v w => transform mm v .obstacle .global = .ok w) k q →
      List.Forall₂ (fun v w => transform mm v .obstacle .global = .ok w) k q' → q = q' := by
    intro k
    induction k with
    | nil => intro q q' h h'; cases h; cases h'; rfl
    | cons a k ih =>
      intro q q' h h'
      cases h with
      | cons h1 h2 =>
        cases h' with
        | cons h3 h4 =>
          rw [h1] at h3
          injection h3 with h3
          rw [h3, ih h2 h4]
  cases mm with
  | none =>
    refine uniq h ?_
    clear h
    induction k with
    | nil => exact .nil
    | cons a k ih => exact .cons rfl ih
  | some p => rw [uniq h (affMatrix_transform p k), affMatrix_world]

/-- The points of an ellipse with half axes `a` that is placed somewhere: all of them see all of it, and no other point does. -/
theorem ellipse_visKernel (a : Pt ℝ) (mm : Option Pose) : visKernel (placed mm {p | ellForm a p ≤ 1}) = placed mm {p | ellForm a p ≤ 1} := by
  refine Set.Subset.antisymm (fun p hp => hp.1) fun p hp => ⟨hp, fun q hq r hr => ?_⟩
  have hc : Convex ℝ (placed mm {p | ellForm a p ≤ 1}) := convex_inFrame (ellForm_convex a) mm
  exact convex_seg hc hp hq hr

/-- C141: once the polygon of the ellipse has been computed (before kernel() is called), `kernel()` contains, after any history, the
ellipse shrunk by `cos(π/n)`, all of the visibility kernel (which is the ellipse) if both axes are small for `n`, and only points of the
visibility kernel of the ellipse with axes longer by `10⁻³`. Missing: that it is the visibility kernel, which is false (`C141_false`). -/
theorem C141_partial (e : Ell) (h0 : 0 < e.a.1) (h1 : 0 < e.a.2) (hn : 3 ≤ e.nPol) (mm : Option Pose) (xr : Pt ℝ) (static nr : Bool)
    (pre ops : List ObOp) (f : Frame)
    (hpre : ∀ op ∈ pre, (∃ m, op = .setMotionModel m) ∨ (∃ p, op = .setPose p) ∨ (∃ g, op = .xr g)) :
    let s := runOps .fromPolygon nr (construct e.polygonVertices mm xr false static) (pre ++ .polygon f :: ops)
    let pose := poseAfter mm (pre ++ .polygon f :: ops)
    ∃ q, (kernelCall .fromPolygon nr s .global).1 = .ok (some q) ∧
      placed pose {p | ellForm e.a p ≤ cos (π / e.nPol) ^ 2} ⊆ filled q ∧
      (e.a.1 ≤ (e.a.1 + 1 / 10 ^ 3) * cos (π / e.nPol) → e.a.2 ≤ (e.a.2 + 1 / 10 ^ 3) * cos (π / e.nPol) →
        visKernel (placed pose {p | ellForm e.a p ≤ 1}) ⊆ filled q) ∧
      filled q ⊆ visKernel (placed pose {p | ellForm (e.a.1 + 1 / 10 ^ 3, e.a.2 + 1 / 10 ^ 3) p ≤ 1}) := by
  intro s pose
  obtain ⟨q, hq, hw⟩ := C23_polygon_first_partial e.polygonVertices mm xr static nr pre ops f hpre
  have e1 : filled q = placed pose (convexHull ℝ {p | p ∈ e.polygonVertices}) := by
    rw [forall_world hw, placed_filled, ellPolygon_filled e h0 h1 hn]
  have mono : ∀ {A B : Set (Pt ℝ)}, (∀ p ∈ A, p ∈ B) → placed pose A ⊆ placed pose B := by
    rintro A B h x ⟨p, hp, rfl⟩
    exact ⟨p, h p hp, rfl⟩
  refine ⟨q, hq, ?_, ?_, ?_⟩
  · rw [e1]
    exact mono fun p hp => C35_inner_partial e h0 h1 hn p hp
  · intro c0 c1
    rw [e1, ellipse_visKernel]
    exact mono fun p hp => C35_contains_partial e h0 h1 (by omega) c0 c1 p hp
  · rw [e1, ellipse_visKernel]
    exact mono fun p hp => C35_inside e h0 h1 p hp

/-- C141 is false: the kernel of the unit circle with 20 corners has a point that is not even in the circle, and the circle has a point
that sees all of it and is not in the kernel. -/
theorem C141_false (xr : Pt ℝ) (static nr : Bool) : ∃ q,
    (kernelCall .fromPolygon nr (runOps .fromPolygon nr (construct unitEll.polygonVertices none xr false static) [.polygon .global]) .global).1 =
      .ok (some q) ∧
    (∃ p ∈ filled q, p ∉ visKernel {p | ellForm unitEll.a p ≤ 1}) ∧ ∃ p ∈ visKernel {p | ellForm unitEll.a p ≤ 1}, p ∉ filled q := by
  obtain ⟨q, hq, hw⟩ := C23_polygon_first_partial unitEll.polygonVertices none xr static nr [] [] .global (by simp)
  have e1 : filled q = convexHull ℝ {p | p ∈ unitEll.polygonVertices} := by
    have e := forall_world hw
    have : worldOf (poseAfter none ([] ++ ObOp.polygon Frame.global :: [])) = id := by
      funext p; simp [poseAfter, worldOf]
    rw [this, List.map_id] at e
    rw [e, ellPolygon_filled unitEll (by norm_num [unitEll]) (by norm_num [unitEll]) (by norm_num [unitEll])]
  refine ⟨q, hq, ⟨(1001 / 1000, 0), ?_, fun h => ?_⟩, (cos (π / 20), sin (π / 20)), ⟨C35_default_false.1.le, fun p hp r hr => ?_⟩, ?_⟩
  · rw [e1]
    refine subset_convexHull ℝ _ ?_
    simp only [Set.mem_ofPred_eq, Ell.polygonVertices, unitEll, List.mem_map, List.mem_range]
    exact ⟨0, by norm_num, by simp; norm_num⟩
  · have := h.1
    simp only [Set.mem_ofPred_eq, ellForm, unitEll] at this
    norm_num at this
  · exact convex_seg (ellForm_convex _) C35_default_false.1.le hp hr
  · rw [e1]; exact C35_default_false.2

/-- A circle of radius 1/20 with 20 corners that is placed at (3, 4): its kernel has the point (3 + 49/1000, 4). -/
example (xr : Pt ℝ) (static nr : Bool) : ∃ q, (kernelCall .fromPolygon nr (runOps .fromPolygon nr
      (construct (Ell.polygonVertices ⟨(1 / 20, 1 / 20), (0, 0), 20, none⟩) none xr false static) [.setMotionModel (some ⟨(3, 4), 0⟩), .polygon .global]) .global).1 =
      .ok (some q) ∧ ((3 + 49 / 1000, 4) : Pt ℝ) ∈ filled q := by
  obtain ⟨q, hq, hin, -⟩ := C141_partial ⟨(1 / 20, 1 / 20), (0, 0), 20, none⟩ (by norm_num) (by norm_num) (by norm_num) none xr static nr
    [.setMotionModel (some ⟨(3, 4), 0⟩)] [] .global (by simp)
  refine ⟨q, hq, hin ⟨(49 / 1000, 0), ?_, ?_⟩⟩
  · have hc := cos_pi_twenty
    have : (49 / 50) ^ 2 ≤ cos (π / (20 : ℕ)) ^ 2 := by
      push_cast
      gcongr
      linarith
    simp only [Set.mem_ofPred_eq, ellForm]
    refine le_trans (by norm_num) this
  · simp [poseAfter, worldOf]; norm_num

end Starworlds
