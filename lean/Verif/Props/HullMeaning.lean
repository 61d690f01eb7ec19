import Verif.Proofs.HullExists
import Verif.Proofs.HullKeeps
import Verif.Proofs.FilledRational

/-! # C109: polygon_kernel_starshaped_hull returns the star-shaped hull -/

namespace Starworlds

open Real Spec

/-- C109: the hull of a polygon that is star-shaped about all of the kernel points is the polygon: the call succeeds, and the returned
polygon is the smallest region that contains the polygon and is star-shaped about the kernel points. Missing: all other polygons. -/
theorem C109_star_partial {ops : HullOps} {vertices ks : List (Pt ℝ)} (ho : HullMeaning ops (filled vertices) ks) (hks : ks ≠ [])
    (hstar : ∀ k ∈ ks, StarAbout k vertices) :
    ∃ star, polygonKernelHull ops vertices ks = .ok star ∧ IsStarHull (filled vertices) ks (filled star) ∧
      filled star = filled vertices ∧ ∀ k ∈ ks, StarAbout k star := by
  obtain ⟨n, hn⟩ := star_hull_self ho hks hstar
  obtain ⟨k0, hk0⟩ := List.exists_mem_of_ne_nil _ hks
  have e := filled_rotate (hstar k0 hk0) n
  refine ⟨_, hn, ⟨e.symm.subset, ?_, ?_⟩, e, fun k hk => starAbout_rotate (hstar k hk) n⟩
  · intro k hk
    rw [e]
    refine ⟨star_centre_mem (hstar k hk), ?_⟩
    rintro q hq r ⟨t, h0, h1, rfl⟩
    exact star_visible (hstar k hk) hq h0 h1
  · intro T hT _
    rw [e]; exact hT

/-- C109: the vertices of the returned polygon belong to every region that contains the polygon and is star-shaped about the kernel
points, so the hull is not too large at its vertices. Missing: the same for the points between the vertices. -/
theorem C109_least_partial {ops : HullOps} {S : Set (Pt ℝ)} {vertices ks star : List (Pt ℝ)} (ho : HullMeaning ops S ks)
    (hS : ∀ p ∈ vertices, p ∈ S) (h : polygonKernelHull ops vertices ks = .ok star) (T : Set (Pt ℝ)) (hT : S ⊆ T)
    (hk : ∀ k ∈ ks, k ∈ T ∧ StarConvex ℝ k T) : ∀ p ∈ star, p ∈ T :=
  hull_in (hullMeaning_ok ho) (fun k h => (hk k h).2) (fun k h => (hk k h).1) vertices star (fun p hp => hT (hS p hp)) h

/-- C109: a vertex of the polygon is a vertex of the returned polygon if the polygon has no points behind it, seen from any of the kernel
points, and it is not in the interior of the kernel points. Missing: that the edges between the vertices enclose the polygon. -/
theorem C109_vertices_partial {ops : HullOps} {S : Set (Pt ℝ)} {vertices ks star : List (Pt ℝ)} (ho : HullMeaning ops S ks)
    (h : polygonKernelHull ops vertices ks = .ok star) {v : Pt ℝ} (hv : v ∈ vertices)
    (hfree : ∀ k ∈ ks, ∀ t : ℝ, 0 < t → v + t • (v - k) ∉ S) (hin : v ∉ interior (convexHull ℝ {k | k ∈ ks})) : v ∈ star := by
  refine hull_keeps h hv (fun k hk => ?_) (Or.inr ?_)
  · rw [ho.disjoint]
    intro x hx
    obtain ⟨t, ht, rfl⟩ := onOpenRay hx
    exact hfree k hk t ht
  · rw [← Bool.not_eq_true, ho.kernel]; exact hin

/-- A half plane that contains the corners contains the polygon. -/
theorem filled_half {c : Pt ℝ} {v : List (Pt ℝ)} (h : StarAbout c v) (f g m : ℝ) (hv : ∀ p ∈ v, f * p.1 + g * p.2 ≤ m) :
    ∀ x ∈ filled v, f * x.1 + g * x.2 ≤ m := by
  intro x hx
  obtain ⟨i, hi, hx⟩ := (star_triangles h x).1 hx
  have hne : v ≠ [] := by rintro rfl; simp at hi
  have half : Convex ℝ {x : Pt ℝ | f * x.1 + g * x.2 ≤ m} := by
    intro x hx y hy s t hs ht hst
    simp only [Set.mem_ofPred_eq, Prod.fst_add, Prod.snd_add, Prod.smul_fst, Prod.smul_snd, smul_eq_mul] at *
    have h1 := mul_le_mul_of_nonneg_left hx hs
    have h2 := mul_le_mul_of_nonneg_left hy ht
    have h3 : s * m + t * m = m := by rw [← add_mul, hst, one_mul]
    linarith
  have ring : ∀ q, OnRing v q → f * q.1 + g * q.2 ≤ m := by
    rintro q ⟨j, hj, hq⟩
    have : q ∈ segment ℝ (corner v j) (corner v (j + 1)) := by rw [← segment_set]; exact hq
    exact half.segment_subset (hv _ (corner_mem hne j)) (hv _ (corner_mem hne (j + 1))) this
  have hc : f * c.1 + g * c.2 ≤ m := by
    -- two opposite rays from the centre
    obtain ⟨r, hr, h1⟩ := star_exists h 0
    obtain ⟨s, hs, h2⟩ := star_exists h π
    have g1 := ring _ h1
    have g2 := ring _ h2
    simp [polar] at g1 g2
    rcases le_total 0 f with hf | hf
    · nlinarith [mul_nonneg hf hr.le]
    · nlinarith [mul_nonneg (neg_nonneg.2 hf) hs.le]
  have sub : ({c, corner v i, corner v (i + 1)} : Set (Pt ℝ)) ⊆ {x : Pt ℝ | f * x.1 + g * x.2 ≤ m} := by
    rintro y (rfl | rfl | rfl)
    · exact hc
    · exact hv _ (corner_mem hne _)
    · exact hv _ (corner_mem hne _)
  exact convexHull_min sub half hx

/-- The triangle of C109_false. -/
def blade : List (Pt ℚ) := [(20001 / 2000, 0), (10, 5), (10, -5)]

/-- What is returned for it. -/
def bladeHull : List (Pt ℚ) := [(20001 / 2000, 0), (0, 0), (10, 5), (10, -5)]

theorem blade_star : StarAbout (toReal (100001 / 10000, 0)) (blade.map toReal) :=
  starAbout_rat (by decide +kernel)

theorem blade_real : blade.map toReal = [(20001 / 2000, 0), (10, 5), (10, -5)] := by
  simp [blade, toReal]

theorem bladeHull_real : bladeHull.map toReal = [(20001 / 2000, 0), (0, 0), (10, 5), (10, -5)] := by
  simp [bladeHull, toReal]

/-- The run for a kernel point in front of the triangle: the first vertex is the one that is farthest from the kernel point; the line to it
ends before the triangle, so the kernel point is added right behind it, and the two other vertices follow. -/
theorem blade_run {ops : HullOps} (ho : HullMeaning ops (filled (blade.map toReal)) [(0, 0)]) :
    polygonKernelHull ops (blade.map toReal) [(0, 0)] = .ok (bladeHull.map toReal) := by
  have half := fun f g m => filled_half blade_star f g m
  rw [blade_real] at half ho ⊢
  rw [bladeHull_real]
  have hx := half 1 0 (20001 / 2000) (by simp; norm_num)
  have hxl := half (-1) 0 (-10) (by simp; norm_num)
  have hy := half 0 1 5 (by simp)
  have hyl := half 0 (-1) 5 (by simp)
  have d1 : ops.disjoint (openRay (20001 / 2000, 0) (0, 0) (20001 / 2000, 0)).1 (openRay (20001 / 2000, 0) (0, 0) (20001 / 2000, 0)).2 = true := by
    rw [ho.disjoint]
    apply segment_beyond 1 0 _ hx <;> simp [openRay] <;> norm_num
  have d2 : ops.disjoint (openRay (10, 5) (0, 0) (10, 5)).1 (openRay (10, 5) (0, 0) (10, 5)).2 = true := by
    rw [ho.disjoint]
    apply segment_beyond 0 1 _ hy <;> simp [openRay] <;> norm_num
  have d3 : ops.disjoint (openRay (10, -5) (0, 0) (10, -5)).1 (openRay (10, -5) (0, 0) (10, -5)).2 = true := by
    rw [ho.disjoint]
    apply segment_beyond 0 (-1) _ hyl <;> simp [openRay] <;> norm_num
  have none : ∀ v : Pt ℝ, v.1 ≤ 20001 / 2000 → (ops.meetPolygon (openLine (0, 0) v).1 (openLine (0, 0) v).2).isEmpty = true := by
    intro v hv
    rw [meetIs_empty (ho.polygon _ _), Set.eq_empty_iff_forall_notMem]
    rintro x ⟨h1, h2⟩
    refine segment_beyond (-1) 0 _ hxl ?_ ?_ x h1 h2 <;> simp [openLine] <;> linarith
  have apart : ∀ v w : Pt ℝ, cross v w ≠ 0 → (ops.meetLine (openLine (0, 0) v) (openLine (0, 0) w)).isEmpty = true := by
    intro v w hvw
    rw [meetIs_empty (ho.line _ _), Set.eq_empty_iff_forall_notMem]
    rintro x ⟨h1, h2⟩
    obtain ⟨t, h0, _, rfl⟩ := onOpenLine h1
    obtain ⟨s, _, _, e⟩ := onOpenLine h2
    have e' : t • v = s • w := by simpa [show ((0, 0) : Pt ℝ) = 0 from rfl] using e
    apply hvw
    have : t * cross v w = 0 := by
      have := congrArg (fun x => cross x w) e'
      simp [cross] at this
      simp only [cross]; linarith
    rcases mul_eq_zero.1 this with h | h
    · linarith
    · exact h
  have self : ∀ v : Pt ℝ, v ≠ 0 → (ops.meetLine (openLine (0, 0) v) (openLine v v)).isEmpty = true := by
    intro v hv
    rw [meetIs_empty (ho.line _ _), Set.eq_empty_iff_forall_notMem]
    rintro x ⟨h1, h2⟩
    obtain ⟨t, _, h1', rfl⟩ := onOpenLine h1
    obtain ⟨s, _, _, e⟩ := onOpenLine h2
    have e' : t • v = v := by simpa [show ((0, 0) : Pt ℝ) = 0 from rfl] using e
    have : (1 - t) • v = 0 := by rw [sub_smul, e', one_smul, sub_self]
    rcases smul_eq_zero.1 this with h | h
    · linarith
    · exact hv h
  have ho' : orderVertices [((20001 / 2000, 0) : Pt ℝ), (10, 5), (10, -5)] = [(20001 / 2000, 0), (10, 5), (10, -5)] := by
    have ha : argmaxIdx ([((20001 / 2000, 0) : Pt ℝ), (10, 5), (10, -5)].map Prod.fst) = 0 := by
      simp only [List.map_cons, List.map_nil, argmaxIdx, List.length_cons, List.length_nil]
      simp only [List.range_succ_eq_map, List.range_zero, List.map_cons, List.map_nil, List.foldl_cons, List.foldl_nil]
      norm_num
    unfold orderVertices
    simp only [ha, List.rotate_zero]
    rw [if_neg]
    simp only [ptAt, isCw, orientationVal, collinearThreshold]
    norm_num
  have n1 := none (20001 / 2000, 0) le_rfl
  have n2 := none (10, 5) (by norm_num)
  have n3 := none (10, -5) (by norm_num)
  have s1 := self (20001 / 2000, 0) (by simp)
  have a2 := apart (10, 5) (20001 / 2000, 0) (by simp [cross])
  have a3 := apart (10, -5) (20001 / 2000, 0) (by simp [cross])
  have v1 : visitVertex ops [(0, 0)] ⟨[], (0, 0), 0, 0, [false]⟩ (20001 / 2000, 0) (10, -5) =
      .ok ⟨[(20001 / 2000, 0), (0, 0)], (0, 0), 1, 0, [true]⟩ := by
    unfold visitVertex
    rw [if_pos (by simp [d1])]
    simp [adjustEdge, addVertex, augment, adjustOne, augmentOne, pyGet, ptAt, bind, Except.bind, pure, Except.pure, List.range_succ,
      appendPoint, isCcw, orientationVal, collinearThreshold, n1, s1]
    norm_num
  have v2 : visitVertex ops [(0, 0)] ⟨[(20001 / 2000, 0), (0, 0)], (0, 0), 1, 0, [true]⟩ (10, 5) (20001 / 2000, 0) =
      .ok ⟨[(20001 / 2000, 0), (0, 0), (10, 5)], (10, 5), 1, 0, [true]⟩ := by
    unfold visitVertex
    rw [if_pos (by simp [d2])]
    simp [adjustEdge, addVertex, augment, adjustOne, augmentOne, pyGet, ptAt, bind, Except.bind, pure, Except.pure, List.range_succ, n2, a2]
  have v3 : visitVertex ops [(0, 0)] ⟨[(20001 / 2000, 0), (0, 0), (10, 5)], (10, 5), 1, 0, [true]⟩ (10, -5) (10, 5) =
      .ok ⟨[(20001 / 2000, 0), (0, 0), (10, 5), (10, -5)], (10, -5), 1, 0, [true]⟩ := by
    unfold visitVertex
    rw [if_pos (by simp [d3])]
    simp [adjustEdge, addVertex, augment, adjustOne, augmentOne, pyGet, ptAt, bind, Except.bind, pure, Except.pure, List.range_succ, n3, a3]
  unfold polygonKernelHull
  simp only [ho']
  rw [show List.range [((20001 / 2000, 0) : Pt ℝ), (10, 5), (10, -5)].length = [0, 1, 2] from rfl]
  simp only [List.foldlM_cons, List.foldlM_nil]
  simp [ptAt, v1, v2, v3, bind, Except.bind, pure, Except.pure, insertKernels, insertKernel, List.range_succ]

/-- C109 is false: for a thin triangle and a kernel point ten units in front of it, the returned polygon crosses itself. It neither
contains the triangle nor is it star-shaped about the kernel point. -/
theorem C109_false : ∃ (vertices : List (Pt ℝ)) (k c : Pt ℝ), vertices.length = 3 ∧ StarAbout c vertices ∧
    ∀ ops, HullMeaning ops (filled vertices) [k] → ∃ star, polygonKernelHull ops vertices [k] = .ok star ∧
      ¬ filled vertices ⊆ filled star ∧ k ∉ visKernel (filled star) := by
  refine ⟨blade.map toReal, (0, 0), _, rfl, blade_star, fun ops ho => ⟨_, blade_run ho, ?_, ?_⟩⟩
  · intro h
    have h1 := (filledB_iff blade (100001 / 10000, 2)).1 (by decide +kernel)
    have h2 := (filledB_iff bladeHull (100001 / 10000, 2)).2 (h h1)
    exact absurd h2 (by decide +kernel)
  · rintro ⟨_, h⟩
    have h1 := (filledB_iff bladeHull (10, -5)).1 (by decide +kernel)
    have h2 := h _ h1 (toReal (5, -5 / 2)) ⟨1 / 2, by norm_num, by norm_num, by ext <;> simp [toReal] <;> norm_num⟩
    exact absurd ((filledB_iff bladeHull (5, -5 / 2)).2 h2) (by decide +kernel)

/-- There are such operations, so the refutation is about an actual run. -/
example : ∃ ops, HullMeaning ops (filled (blade.map toReal)) [(0, 0)] := hullMeaning_exists blade_star _

/-- The square with a dent is star-shaped about three kernel points; there are operations for it, and the hull is the polygon. -/
example : ∃ ops star, polygonKernelHull ops ([((4 : ℚ), (0 : ℚ)), (4, 4), (2, 3), (0, 4), (0, 0)].map toReal)
    [toReal (2, 1), toReal (1, 1), toReal (2, 2)] = .ok star ∧
    filled star = filled ([((4 : ℚ), (0 : ℚ)), (4, 4), (2, 3), (0, 4), (0, 0)].map toReal) := by
  have h1 : StarAbout (toReal (2, 1)) ([((4 : ℚ), (0 : ℚ)), (4, 4), (2, 3), (0, 4), (0, 0)].map toReal) := starAbout_rat (by decide +kernel)
  have h2 : StarAbout (toReal (1, 1)) ([((4 : ℚ), (0 : ℚ)), (4, 4), (2, 3), (0, 4), (0, 0)].map toReal) := starAbout_rat (by decide +kernel)
  have h3 : StarAbout (toReal (2, 2)) ([((4 : ℚ), (0 : ℚ)), (4, 4), (2, 3), (0, 4), (0, 0)].map toReal) := starAbout_rat (by decide +kernel)
  obtain ⟨ops, ho⟩ := hullMeaning_exists h1 [toReal (2, 1), toReal (1, 1), toReal (2, 2)]
  obtain ⟨star, e, _, e', _⟩ := C109_star_partial ho (by simp) (by simp only [List.mem_cons, List.not_mem_nil, or_false]; rintro k (rfl | rfl | rfl) <;> assumption)
  exact ⟨ops, star, e, e'⟩

end Starworlds
