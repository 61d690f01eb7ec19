import Verif.Props.Admissible
import Verif.Props.StarifyExample

/-! # C93: two triangles that touch, and two that do not -/

namespace Starworlds

open Real Spec

/-- The tangent points of a polygon, given the corners with all others on one side. -/
theorem tangents_of {v : List (Pt ℝ)} {x t s : Pt ℝ} (u : Pt ℝ) (hu : ∀ p ∈ v, 0 < u.1 * (p.1 - x.1) + u.2 * (p.2 - x.2))
    (ht : t ∈ v) (hs : s ∈ v) (hl : ∀ p ∈ v, p = t ∨ cross (t - x) (p - x) < 0) (hr : ∀ p ∈ v, p = s ∨ 0 < cross (s - x) (p - x)) :
    x ∉ polyRegion none v ∧ polygonTangentPoints none v x .global .global = .ok [t, s] ∧ SeenBetween (polyRegion none v) x t s := by
  have hx : x ∉ convexHull ℝ {p | p ∈ v} := by
    intro h
    have hc : Convex ℝ {p : Pt ℝ | 0 < u.1 * (p.1 - x.1) + u.2 * (p.2 - x.2)} := by
      intro a ha b hb r w hr hw hrw
      have : r = 1 - w := by linarith
      subst this
      simp only [Set.mem_ofPred_eq, Prod.fst_add, Prod.smul_fst, Prod.snd_add, Prod.smul_snd, smul_eq_mul] at *
      have e : u.1 * ((1 - w) * a.1 + w * b.1 - x.1) + u.2 * ((1 - w) * a.2 + w * b.2 - x.2) =
        (1 - w) * (u.1 * (a.1 - x.1) + u.2 * (a.2 - x.2)) + w * (u.1 * (b.1 - x.1) + u.2 * (b.2 - x.2)) := by ring
      rw [e]
      rcases hw.eq_or_lt with h0 | h0
      · rw [← h0]; linarith
      · have := mul_pos h0 hb
        have := mul_nonneg hr ha.le
        linarith
    have : 0 < u.1 * (x.1 - x.1) + u.2 * (x.2 - x.2) := convexHull_min (s := {p | p ∈ v}) (fun p hp => hu p hp) hc h
    simp at this
  obtain ⟨t', s', h1, ht', hs', h2⟩ := polygon_seen none v (by rintro rfl; simp at ht) x hx
  have e : ∀ p : Pt ℝ, inFrame none .global p = p := fun p => rfl
  simp only [e] at h1 h2
  have m : ∀ p ∈ v, p ∈ polyRegion none v := fun p hp => ⟨p, subset_convexHull ℝ _ hp, rfl⟩
  have et : t' = t := by
    refine (hl t' ht').resolve_right fun h => ?_
    have := h2.left t (m _ ht)
    linarith
  have es : s' = s := by
    refine (hr s' hs').resolve_right fun h => ?_
    have := h2.right s (m _ hs)
    have e : cross (s' - x) (s - x) = -cross (s - x) (s' - x) := by simp only [cross]; ring
    linarith
  subst et es
  rw [polyRegion_none] at *
  exact ⟨hx, h1, h2⟩

/-- A polygon with a centre that is left of all its edges has inner points. -/
theorem polygon_view {id : Option Nat} {b : Bool} {v : List (Pt ℝ)} {x t s : Pt ℝ} (u : Pt ℝ)
    (hu : ∀ p ∈ v, 0 < u.1 * (p.1 - x.1) + u.2 * (p.2 - x.2)) (ht : t ∈ v) (hs : s ∈ v) (hl : ∀ p ∈ v, p = t ∨ cross (t - x) (p - x) < 0)
    (hr : ∀ p ∈ v, p = s ∨ 0 < cross (s - x) (p - x)) (h1 : (1 / 10 ^ 9) ^ 2 ≤ normSq (x - t)) (h2 : (1 / 10 ^ 9) ^ 2 ≤ normSq (x - s))
    (hi : (interior (polyRegion none v)).Nonempty) :
    ViewOk (polyRegion none v) (polygonObs id b none v).tangentPoints x t s := by
  obtain ⟨a1, a2, a3⟩ := tangents_of u hu ht hs hl hr
  exact ⟨polyRegion_convex none v, hi, a1, a2, a3, h1, h2⟩

/-- A triangle has inner points. -/
theorem tri_inner {a b c : Pt ℝ} (h : 0 < cross (b - a) (c - a)) : (interior (polyRegion none [a, b, c])).Nonempty := by
  rw [polyRegion_none]
  set D := cross (b - a) (c - a) with hD
  let U : Set (Pt ℝ) := {p | 0 < cross (b - p) (c - p)} ∩ {p | 0 < cross (c - p) (a - p)} ∩ {p | 0 < cross (a - p) (b - p)}
  have hU : IsOpen U := by
    refine (IsOpen.inter (isOpen_lt continuous_const ?_) (isOpen_lt continuous_const ?_)).inter (isOpen_lt continuous_const ?_) <;>
    · unfold cross; fun_prop
  refine ⟨(1 / 3 : ℝ) • (a + b + c), mem_interior.2 ⟨U, ?_, hU, ?_⟩⟩
  · rintro p ⟨⟨h1, h2⟩, h3⟩
    simp only [Set.mem_ofPred_eq] at h1 h2 h3
    have hs : cross (b - p) (c - p) + cross (c - p) (a - p) + cross (a - p) (b - p) = D := by
      rw [hD]; simp only [cross, Prod.fst_sub, Prod.snd_sub]; ring
    have e : p = (cross (b - p) (c - p) / D) • a + ((cross (c - p) (a - p) / D) • b + (cross (a - p) (b - p) / D) • c) := by
      have hD0 := h.ne'
      ext
      · simp only [Prod.fst_add, Prod.smul_fst, smul_eq_mul]
        rw [eq_comm]
        field_simp
        rw [hD]; simp only [cross, Prod.fst_sub, Prod.snd_sub]; ring
      · simp only [Prod.snd_add, Prod.smul_snd, smul_eq_mul]
        rw [eq_comm]
        field_simp
        rw [hD]; simp only [cross, Prod.fst_sub, Prod.snd_sub]; ring
    have hsub : ({a, b, c} : Set (Pt ℝ)) ⊆ {p | p ∈ [a, b, c]} := by
      rintro q (rfl | rfl | rfl) <;> simp
    apply convexHull_mono hsub
    rw [e]
    have := (convex_convexHull ℝ ({a, b, c} : Set (Pt ℝ)))
    have key := this.sum_mem (t := Finset.univ) (w := ![cross (b - p) (c - p) / D, cross (c - p) (a - p) / D, cross (a - p) (b - p) / D]) (z := ![a, b, c])
      (by intro i _; fin_cases i <;> simp <;> positivity)
      (by simp [Fin.sum_univ_three, ← add_div, hs]; exact h.ne')
      (by intro i _; fin_cases i <;> exact subset_convexHull ℝ _ (by simp))
    simpa [Fin.sum_univ_three, add_assoc] using key
  · refine ⟨⟨?_, ?_⟩, ?_⟩ <;>
    · simp only [Set.mem_ofPred_eq]
      rw [hD] at h
      simp only [cross, Prod.fst_sub, Prod.snd_sub, Prod.smul_fst, Prod.smul_snd, Prod.fst_add, Prod.snd_add, smul_eq_mul] at h ⊢
      nlinarith

/-- Two triangles that touch. -/
noncomputable def triUp : List (Pt ℝ) := [(1, 0), (2, 1), (1, 1)]
noncomputable def triDown : List (Pt ℝ) := [(1, -1), (2, -1), (1, 1 / 10 ^ 11)]

theorem triUp_robot : ViewOk (polyRegion none triUp) (polygonObs (some 0) true none triUp).tangentPoints 0 (1, 1) (1, 0) := by
  apply polygon_view (1, 0)
  · simp [triUp]
  · simp [triUp]
  · simp [triUp]
  · simp [triUp, cross]
  · simp [triUp, cross]
  · norm_num [normSq]
  · norm_num [normSq]
  · exact tri_inner (by norm_num [cross])

theorem triDown_robot : ViewOk (polyRegion none triDown) (polygonObs (some 1) true none triDown).tangentPoints 0 (1, 1 / 10 ^ 11) (1, -1) := by
  apply polygon_view (1, 0)
  · simp [triDown]
  · simp [triDown]
  · simp [triDown]
  · norm_num [triDown, cross]
  · norm_num [triDown, cross]
  · norm_num [normSq]
  · norm_num [normSq]
  · exact tri_inner (by norm_num [cross])

theorem triUp_goal : ViewOk (polyRegion none triUp) (polygonObs (some 0) true none triUp).tangentPoints (0, 10) (2, 1) (1, 0) := by
  apply polygon_view (1, 0)
  · simp [triUp]
  · simp [triUp]
  · simp [triUp]
  · norm_num [triUp, cross]
  · norm_num [triUp, cross]
  · norm_num [normSq]
  · norm_num [normSq]
  · exact tri_inner (by norm_num [cross])

theorem triDown_goal : ViewOk (polyRegion none triDown) (polygonObs (some 1) true none triDown).tangentPoints (0, 10) (2, -1) (1, -1) := by
  apply polygon_view (1, 0)
  · simp [triDown]
  · simp [triDown]
  · simp [triDown]
  · norm_num [triDown, cross]
  · norm_num [triDown, cross]
  · norm_num [normSq]
  · norm_num [normSq]
  · exact tri_inner (by norm_num [cross])

noncomputable def obsUp : ConvObs := polygonObs (some 0) true none triUp
noncomputable def obsDown : ConvObs := polygonObs (some 1) true none triDown

/-- The tangent points from the goal (0, 10). -/
noncomputable def goalLeft (o : ConvObs) : Pt ℝ := if o.id = some 0 then (2, 1) else (2, -1)
noncomputable def goalRight (o : ConvObs) : Pt ℝ := if o.id = some 0 then (1, 0) else (1, -1)

theorem views_goal : ∀ o ∈ [obsUp, obsDown], ViewOk o.polygon o.tangentPoints (0, 10) (goalLeft o) (goalRight o) := by
  intro o ho
  simp only [List.mem_cons, List.not_mem_nil, or_false] at ho
  rcases ho with rfl | rfl
  · exact triUp_goal
  · exact triDown_goal

/-- The kernel for the goal. -/
theorem goal_region : ∃ b, ([obsUp, obsDown].mapM (coneOf (0, 10)) >>= fun cs => coneListIntersection setGeo cs true) = .ok b ∧ (-3, 1) ∈ b := by
  obtain ⟨b, h1, h2⟩ := view_list setGeo_ok (by simp) (y := (0, 10)) (by norm_num) (by norm_num) views_goal
    (by norm_num [goalLeft, goalRight, obsUp, obsDown, polygonObs, cross]) (fun _ _ _ _ => trivial)
  refine ⟨b, h1, (h2 (-3, 1) (by norm_num [InBox])).2 (by norm_num) fun o ho => ?_⟩
  rw [← (view_cone (views_goal o ho) (by norm_num) (by norm_num)).2.2.2]
  simp only [List.mem_cons, List.not_mem_nil, or_false] at ho
  rcases ho with rfl | rfl
  · change (-3, 1) - (0, 10) ∈ sweep ((0, 10) - (2, 1)) ((0, 10) - (1, 0))
    rw [sweep_reflex (by norm_num [cross])]
    norm_num [cross]
  · change (-3, 1) - (0, 10) ∈ sweep ((0, 10) - (2, -1)) ((0, 10) - (1, -1))
    rw [sweep_reflex (by norm_num [cross])]
    norm_num [cross]

/-- C93 is false for obstacles that touch where their tangents from the robot are: two triangles with a common point, seen
from the robot in the origin above and below of it. The admissible kernel of the cluster has points for which the
robot is between the point and an obstacle. -/
theorem C93_touching_false : ∃ A, admissibleLoop setGeo 0 (0, 10) [] [obsUp, obsDown] = .ok A ∧
    (polyRegion none triUp ∩ polyRegion none triDown).Nonempty ∧ (0 : Pt ℝ) ∉ polyRegion none triUp ∧ (0 : Pt ℝ) ∉ polyRegion none triDown ∧
    ∃ p, InBox p ∧ p ∈ A ∧ p ∉ closure (freeFrom (polyRegion none triDown) 0) ∧ ∃ q ∈ polyRegion none triDown, OnSegment p q 0 := by
  obtain ⟨a, -, ha, ha'⟩ := touch_region
  obtain ⟨b, hb, hb'⟩ := goal_region
  have c1 : coneOf 0 obsUp = .ok touchC := by
    rw [obsUp, (view_cone triUp_robot (by norm_num) (by norm_num)).1, touchC]
    norm_num
  have c2 : coneOf 0 obsDown = .ok touchD := by
    rw [obsDown, (view_cone triDown_robot (by norm_num) (by norm_num)).1, touchD]
    norm_num
  have hm : [obsUp, obsDown].mapM (coneOf 0) = .ok [touchC, touchD] := by
    simp [c1, c2, bind, Except.bind, pure, Except.pure]
  have hseg : ∀ y : ℝ, -1 ≤ y → y ≤ 1 / 10 ^ 11 → ((1, y) : Pt ℝ) ∈ polyRegion none triDown := by
    intro y h1 h2
    rw [polyRegion_none]
    have e : ((1, y) : Pt ℝ) = ((1 / 10 ^ 11 - y) / (1 / 10 ^ 11 + 1)) • (1, -1) + ((y + 1) / (1 / 10 ^ 11 + 1)) • (1, 1 / 10 ^ 11) := by
      ext <;> simp <;> field_simp <;> ring
    rw [e]
    exact convex_convexHull ℝ _ (subset_convexHull ℝ _ (by simp [triDown])) (subset_convexHull ℝ _ (by simp [triDown]))
      (div_nonneg (by linarith) (by norm_num)) (div_nonneg (by linarith) (by norm_num)) (by field_simp; ring)
  refine ⟨a ∩ b, ?_, ⟨(1, 0), box_mem (by simp [triUp]), hseg 0 (by norm_num) (by norm_num)⟩, triUp_robot.outside, triDown_robot.outside,
    (-3, 1), by norm_num [InBox], ⟨ha' _ (by norm_num [InBox]) (by norm_num), hb'⟩, ?_, (1, -1 / 3), hseg _ (by norm_num) (by norm_num),
    3 / 4, by norm_num, by norm_num, ?_⟩
  · cases hm' : [obsUp, obsDown].mapM (coneOf (0, 10)) with
    | error e => rw [hm'] at hb; simp [bind, Except.bind] at hb
    | ok gs =>
      rw [hm'] at hb
      simp only [bind, Except.bind] at hb
      simp only [admissibleLoop, hm, hm', ha, hb, bind, Except.bind]
      rfl
  · rw [← (view_cone triDown_robot (by norm_num) (by norm_num)).2.2.2]
    change ¬ (-3, 1) - (0 : Pt ℝ) ∈ sweep (0 - (1, 1 / 10 ^ 11)) (0 - (1, -1))
    rw [sweep_reflex (by norm_num [cross]), not_not]
    norm_num [cross]
  · ext <;> norm_num

/-- A concrete case of `C93_first_partial`. -/
example : ∃ A, admissibleFirst setGeo 0 (0, 10) obsUp = .ok A ∧ (3, 0) ∈ A ∧ (-2, -1) ∉ A := by
  obtain ⟨A, h1, h2⟩ := C93_first_partial setGeo_ok (by norm_num) (by norm_num) (by norm_num) (by norm_num) triUp_robot triUp_goal
    (fun _ _ _ _ => trivial)
  refine ⟨A, h1, (h2 _ (by norm_num [InBox])).2 ⟨?_, ?_⟩, fun h => ?_⟩
  · rw [← (view_cone triUp_robot (by norm_num) (by norm_num)).2.2.2]
    change (3, 0) - (0 : Pt ℝ) ∈ sweep (0 - (1, 1)) (0 - (1, 0))
    rw [sweep_reflex (by norm_num [cross])]
    norm_num [cross]
  · rw [← (view_cone triUp_goal (by norm_num) (by norm_num)).2.2.2]
    change (3, 0) - (0, 10) ∈ sweep ((0, 10) - (2, 1)) ((0, 10) - (1, 0))
    rw [sweep_reflex (by norm_num [cross])]
    norm_num [cross]
  · have := ((h2 _ (by norm_num [InBox])).1 h).1
    rw [← (view_cone triUp_robot (by norm_num) (by norm_num)).2.2.2] at this
    change (-2, -1) - (0 : Pt ℝ) ∈ sweep (0 - (1, 1)) (0 - (1, 0)) at this
    rw [sweep_reflex (by norm_num [cross])] at this
    norm_num [cross] at this

/-- A concrete case of `C93_loop_partial`: robot and goal in (0, 10). -/
example : ∃ A, admissibleLoop setGeo (0, 10) (0, 10) [] [obsUp, obsDown] = .ok A ∧ (-3, 1) ∈ A ∧ (-3, 38) ∉ A := by
  obtain ⟨A, h1, h2⟩ := C93_loop_partial setGeo_ok (by simp) (by norm_num) (by norm_num) (by norm_num) (by norm_num) views_goal views_goal
    (by norm_num [goalLeft, goalRight, obsUp, obsDown, polygonObs, cross]) (by norm_num [goalLeft, goalRight, obsUp, obsDown, polygonObs, cross])
    (fun _ _ _ _ => trivial) []
  refine ⟨A, h1, (h2 _ (by norm_num [InBox])).2 rfl (by norm_num) (by norm_num) fun o ho => ?_, fun h => ?_⟩
  · rw [← (view_cone (views_goal o ho) (by norm_num) (by norm_num)).2.2.2, and_self]
    simp only [List.mem_cons, List.not_mem_nil, or_false] at ho
    rcases ho with rfl | rfl
    · change (-3, 1) - (0, 10) ∈ sweep ((0, 10) - (2, 1)) ((0, 10) - (1, 0))
      rw [sweep_reflex (by norm_num [cross])]
      norm_num [cross]
    · change (-3, 1) - (0, 10) ∈ sweep ((0, 10) - (2, -1)) ((0, 10) - (1, -1))
      rw [sweep_reflex (by norm_num [cross])]
      norm_num [cross]
  · have := (((h2 _ (by norm_num [InBox])).1 h) obsUp (by simp)).1
    rw [← (view_cone (views_goal obsUp (by simp)) (by norm_num) (by norm_num)).2.2.2] at this
    change (-3, 38) - (0, 10) ∈ sweep ((0, 10) - (2, 1)) ((0, 10) - (1, 0)) at this
    rw [sweep_reflex (by norm_num [cross])] at this
    norm_num [cross] at this

end Starworlds
