import Verif.Props.Exclude
import Verif.Props.AdmissibleExample

/-! # C94: a box and a triangle whose corners are not in the way -/

namespace Starworlds

open Real Spec

/-- A triangle in front of `nearBox`. -/
def frontTri : List (Pt ℝ) := [(-1, -10), (0, 10), (-2, 10)]

noncomputable def boxEx : ExObs := polygonEx (some 0) nearBox (polyRegion none nearBox)
noncomputable def frontEx : ExObs := polygonEx (some 1) frontTri (polyRegion none frontTri)

theorem nearBox_inner : (interior (polyRegion none nearBox)).Nonempty := by
  refine (tri_inner (a := (2, -1)) (b := (2, 1)) (c := (1, 1)) (by norm_num [cross])).mono (interior_mono ?_)
  rw [polyRegion_none, polyRegion_none]
  refine convexHull_mono fun p hp => ?_
  simp only [Set.mem_ofPred_eq, List.mem_cons, List.not_mem_nil, or_false, nearBox] at hp ⊢
  rcases hp with rfl | rfl | rfl <;> simp

/-- The points left of the box are reported to be outside. -/
theorem nearBox_exterior {p : Pt ℝ} (h : p.1 < 1) : boxEx.exterior p = .ok true := by
  have : polyLocation nearBox p = 1 := by
    have : ¬ 1 < p.1 := not_lt.2 h.le
    simp [polyLocation, nearBox, boundsOf, this]
  have e : polygonLoc none nearBox p .global = .ok ((1 : Int) : ℝ) := by
    have := C37_placed none nearBox .global (Or.inl rfl) p
    rw [show inFrame none .global p = p from rfl] at this
    simp only [polygonLoc, bind, Except.bind, *]
  simp [boxEx, polygonEx, exteriorPoint, e, bind, Except.bind]

/-- The tangent points of the box from the corners of the triangle. -/
noncomputable def frontLeft (v : Pt ℝ) : Pt ℝ := if v.2 < 0 then (1, 1) else (2, 1)
noncomputable def frontRight (v : Pt ℝ) : Pt ℝ := if v.2 < 0 then (2, -1) else (1, -1)

theorem front_ok : ∀ v ∈ frontTri, ExtremeOk (polyRegion none nearBox) boxEx v (frontLeft v) (frontRight v) := by
  intro v hv
  simp only [frontTri, List.mem_cons, List.not_mem_nil, or_false] at hv
  rcases hv with rfl | rfl | rfl
  · refine ⟨by norm_num, by norm_num, polygon_view (id := some 0) (b := true) (1, 0) ?_ ?_ ?_ ?_ ?_ ?_ ?_ nearBox_inner, nearBox_exterior (by norm_num)⟩ <;>
      norm_num [nearBox, frontLeft, frontRight, cross, normSq]
  · refine ⟨by norm_num, by norm_num, polygon_view (id := some 0) (b := true) (1, 0) ?_ ?_ ?_ ?_ ?_ ?_ ?_ nearBox_inner, nearBox_exterior (by norm_num)⟩ <;>
      norm_num [nearBox, frontLeft, frontRight, cross, normSq]
  · refine ⟨by norm_num, by norm_num, polygon_view (id := some 0) (b := true) (1, 0) ?_ ?_ ?_ ?_ ?_ ?_ ?_ nearBox_inner, nearBox_exterior (by norm_num)⟩ <;>
      norm_num [nearBox, frontLeft, frontRight, cross, normSq]

/-- Membership in the cone of a corner of the triangle. -/
theorem front_free {v p : Pt ℝ} (hv : v ∈ frontTri) : p ∈ closure (freeFrom (polyRegion none nearBox) v) ↔
    ¬ (0 < cross (v - frontRight v) (p - v) ∧ 0 < cross (p - v) (v - frontLeft v)) := by
  have h := front_ok v hv
  rw [free_sweep h.view.convex h.view.inner h.view.outside h.view.seen, sweep_reflex]
  have := seen_pos h.view.convex h.view.inner h.view.outside h.view.seen
  have e : cross (v - frontLeft v) (v - frontRight v) = -cross (frontRight v - v) (frontLeft v - v) := by
    simp only [cross, Prod.fst_sub, Prod.snd_sub]; ring
  linarith

/-- C94 is false for the obstacle as a whole: the triangle is between the box and inner points of the entry, so that it meets the
hull although the hull contains none of its corners. -/
theorem C94_disjoint_false : Disjoint (polyRegion none nearBox) (polyRegion none frontTri) ∧
    ∃ g, excludeKernel setGeo boxEx frontTri = .ok (some g) ∧ ∃ k ∈ interior g, InBox k ∧
      (∀ v ∈ frontTri, v ∉ convexHull ℝ (insert k (polyRegion none nearBox))) ∧
      ∃ y ∈ polyRegion none frontTri, y ∈ convexHull ℝ (insert k (polyRegion none nearBox)) := by
  constructor
  · rw [Set.disjoint_left]
    intro q h1 h2
    rw [polyRegion_none] at h1 h2
    have a := nearBox_right q h1
    have hc : Convex ℝ {q : Pt ℝ | q.1 ≤ 0} := by
      intro a ha b hb r w hr hw hrw
      simp only [Set.mem_ofPred_eq, Prod.fst_add, Prod.smul_fst, smul_eq_mul] at *
      nlinarith
    have b : q.1 ≤ 0 := by
      refine convexHull_min (t := {q : Pt ℝ | q.1 ≤ 0}) ?_ hc h2
      intro p hp
      simp only [Set.mem_ofPred_eq, frontTri, List.mem_cons, List.not_mem_nil, or_false] at hp ⊢
      rcases hp with rfl | rfl | rfl <;> norm_num
    linarith
  · obtain ⟨g, h1, h2⟩ := C94_kernel_partial setGeo_ok (by simp [frontTri]) front_ok (fun _ _ _ _ => trivial)
    obtain ⟨g', h1', h3⟩ := C94_hull_partial setGeo_ok (by simp [frontTri]) front_ok (fun _ _ _ _ => trivial)
    rw [h1] at h1'
    simp only [Except.ok.injEq, Option.some.injEq] at h1'
    subst h1'
    have hk : ((-5, 0) : Pt ℝ) ∈ interior g := by
      let U : Set (Pt ℝ) := {p | InBox p} ∩ {p | cross ((-3, -9) : Pt ℝ) (p - (-1, -10)) < 0} ∩ {p | cross (p - (0, 10)) ((-2, 9) : Pt ℝ) < 0} ∩
        {p | cross (p - (-2, 10)) ((-4, 9) : Pt ℝ) < 0}
      have hU : IsOpen U := by
        refine ((inBox_open.inter (isOpen_lt ?_ continuous_const)).inter (isOpen_lt ?_ continuous_const)).inter (isOpen_lt ?_ continuous_const) <;>
        · unfold cross; fun_prop
      refine mem_interior.2 ⟨U, ?_, hU, ?_⟩
      · rintro p ⟨⟨⟨hb, u1⟩, u2⟩, u3⟩
        refine (h2 p hb).2 fun v hv => (front_free hv).2 ?_
        simp only [frontTri, List.mem_cons, List.not_mem_nil, or_false] at hv
        simp only [Set.mem_ofPred_eq] at u1 u2 u3
        rcases hv with rfl | rfl | rfl
        · rintro ⟨a, -⟩
          norm_num [frontRight, cross] at a u1
          linarith
        · rintro ⟨-, a⟩
          norm_num [frontLeft, cross] at a u2
          linarith
        · rintro ⟨-, a⟩
          norm_num [frontLeft, cross] at a u3
          linarith
      · refine ⟨⟨⟨?_, ?_⟩, ?_⟩, ?_⟩ <;> norm_num [InBox, cross]
    refine ⟨g, h1, (-5, 0), hk, by norm_num [InBox], h3 _ hk (by norm_num [InBox]), (-1, 0), ?_, ?_⟩
    · rw [polyRegion_none]
      have hm : ((-1, 10) : Pt ℝ) ∈ convexHull ℝ {p | p ∈ frontTri} := by
        have e : ((-1, 10) : Pt ℝ) = (1 / 2 : ℝ) • (0, 10) + (1 / 2 : ℝ) • (-2, 10) := by ext <;> norm_num
        rw [e]
        exact convex_convexHull ℝ _ (subset_convexHull ℝ _ (by simp [frontTri])) (subset_convexHull ℝ _ (by simp [frontTri])) (by norm_num) (by norm_num) (by norm_num)
      have e : ((-1, 0) : Pt ℝ) = (1 / 2 : ℝ) • (-1, -10) + (1 / 2 : ℝ) • (-1, 10) := by ext <;> norm_num
      rw [e]
      exact convex_convexHull ℝ _ (subset_convexHull ℝ _ (by simp [frontTri])) hm (by norm_num) (by norm_num) (by norm_num)
    · have hm : ((1, 0) : Pt ℝ) ∈ polyRegion none nearBox := by
        rw [polyRegion_none]
        have e : ((1, 0) : Pt ℝ) = (1 / 2 : ℝ) • (1, 1) + (1 / 2 : ℝ) • (1, -1) := by ext <;> norm_num
        rw [e]
        exact convex_convexHull ℝ _ (subset_convexHull ℝ _ (by simp [nearBox])) (subset_convexHull ℝ _ (by simp [nearBox])) (by norm_num) (by norm_num) (by norm_num)
      have e : ((-1, 0) : Pt ℝ) = (1 / 3 : ℝ) • (-5, 0) + (2 / 3 : ℝ) • (1, 0) := by ext <;> norm_num
      rw [e]
      exact convex_convexHull ℝ _ (subset_convexHull ℝ _ (Set.mem_insert _ _)) (subset_convexHull ℝ _ (Set.mem_insert_of_mem _ hm)) (by norm_num) (by norm_num) (by norm_num)

/-- A concrete case of `C94_kernel_partial`: the corner (-1, -10) is between (-7/2, -20) and the box. -/
example : ∃ g, excludeKernel setGeo boxEx frontTri = .ok (some g) ∧ (-5, 0) ∈ g ∧ (-7 / 2, -20) ∉ g := by
  obtain ⟨g, h1, h2⟩ := C94_kernel_partial setGeo_ok (by simp [frontTri]) front_ok (fun _ _ _ _ => trivial)
  refine ⟨g, h1, (h2 _ (by norm_num [InBox])).2 fun v hv => (front_free hv).2 ?_, fun h => ?_⟩
  · simp only [frontTri, List.mem_cons, List.not_mem_nil, or_false] at hv
    rcases hv with rfl | rfl | rfl <;> norm_num [frontLeft, frontRight, cross]
  · have := (front_free (by simp [frontTri])).1 ((h2 _ (by norm_num [InBox])).1 h (-1, -10) (by simp [frontTri]))
    norm_num [frontLeft, frontRight, cross] at this

/-- A concrete case of `C94_polygon_partial`: the triangle as an obstacle of the call. -/
example : ∃ g, excludeRow setGeo [boxEx, frontEx] boxEx = .ok [some g] ∧ (-5, 0) ∈ g ∧ (-7 / 2, -20) ∉ g := by
  obtain ⟨g, h1, h2⟩ := C94_polygon_partial setGeo_ok (id := some 1) (by simp [boxEx, polygonEx]) (by simp [frontTri])
    (polyRegion none frontTri) front_ok (fun _ _ _ _ => trivial)
  refine ⟨g, h1, (h2 _ (by norm_num [InBox])).2 fun v hv => (front_free hv).2 ?_, fun h => ?_⟩
  · simp only [frontTri, List.mem_cons, List.not_mem_nil, or_false] at hv
    rcases hv with rfl | rfl | rfl <;> norm_num [frontLeft, frontRight, cross]
  · have := (front_free (by simp [frontTri])).1 ((h2 _ (by norm_num [InBox])).1 h (-1, -10) (by simp [frontTri]))
    norm_num [frontLeft, frontRight, cross] at this

/-- A concrete case of `C94_none`: a corner of the other obstacle is in the box. -/
example : excludeKernel setGeo boxEx [((3 / 2, 0) : Pt ℝ), (0, 1), (0, -1)] = .ok none := by
  have e : boxEx.exterior (3 / 2, 0) = .ok false := by
    have hb : polyLocation nearBox (3 / 2, 0) = -1 := by
      rw [C37_interior]
      refine (inside_bits ?_).2 ?_
      · rintro ⟨i, hi, r, h0, h1, e⟩
        have e1 := congrArg Prod.fst e
        have e2 := congrArg Prod.snd e
        simp only [nearBox, List.length_cons, List.length_nil] at hi
        interval_cases i <;> first
          | (norm_num [nearBox, corner] at e1; done)
          | (norm_num [nearBox, corner] at e2; done)
          | (norm_num [nearBox, corner] at e1; linarith)
          | (norm_num [nearBox, corner] at e2; linarith)
      · simp only [nearBox, List.length_cons, List.length_nil, Finset.sum_range_succ, Finset.sum_range_zero, crossBit, rayCrosses_signs, corner]
        norm_num [cross]
    have e : polygonLoc none nearBox (3 / 2, 0) .global = .ok ((-1 : Int) : ℝ) := by
      have := C37_placed none nearBox .global (Or.inl rfl) (3 / 2, 0)
      rw [show inFrame none .global ((3 / 2, 0) : Pt ℝ) = (3 / 2, 0) from rfl] at this
      simp only [polygonLoc, bind, Except.bind, *]
    simp [boxEx, polygonEx, exteriorPoint, e, bind, Except.bind]
  refine C94_none (fun v hv => ?_) ⟨_, List.mem_cons_self, e⟩
  simp only [List.mem_cons, List.not_mem_nil, or_false] at hv
  rcases hv with rfl | rfl | rfl
  · exact ⟨_, e⟩
  · exact ⟨_, nearBox_exterior (by norm_num)⟩
  · exact ⟨_, nearBox_exterior (by norm_num)⟩

end Starworlds
