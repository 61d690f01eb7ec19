import Verif.Proofs.StarConvex
import Verif.Spec.DefaultXr
import Verif.Props.KernelStar
import Verif.Props.StarPolygonLocation

/-! # C84: the reference point chosen by the StarshapedPolygon constructor -/

namespace Starworlds

open Real Spec

/-- An interior point of the kernel is strictly to the left of all edges. -/
theorem interior_left {c x : Pt ℝ} {v : List (Pt ℝ)} (h : StarAbout c v) (hx : x ∈ interior (leftKernel v)) :
    ∀ i < v.length, 0 < cross (corner v (i + 1) - corner v i) (x - corner v i) := by
  intro i hi
  refine (interior_subset hx i hi).lt_of_ne fun h0 => ?_
  set e := corner v (i + 1) - corner v i with he
  have hne : 0 < dot e e := by
    have hp := (star_sectors h).pos i hi
    have : e ≠ 0 := by
      intro hz
      rw [sub_eq_zero.mp hz] at hp
      simp only [cross, Prod.fst_sub, Prod.snd_sub] at hp
      linarith
    have h4 : 0 ≤ dot e e := by simp only [dot]; nlinarith
    refine h4.lt_of_ne fun h0 => this ?_
    simp only [dot] at h0
    ext
    · have : e.1 ^ 2 = 0 := by nlinarith [sq_nonneg e.1, sq_nonneg e.2]
      simpa using this
    · have : e.2 ^ 2 = 0 := by nlinarith [sq_nonneg e.1, sq_nonneg e.2]
      simpa using this
  -- move to the right of the edge
  let m : ℝ → Pt ℝ := fun t => x + t • ((e.2, -e.1) : Pt ℝ)
  have hm : Continuous m := by fun_prop
  have hopen : IsOpen (m ⁻¹' interior (leftKernel v)) := isOpen_interior.preimage hm
  have h0' : (0 : ℝ) ∈ m ⁻¹' interior (leftKernel v) := by
    change m 0 ∈ interior (leftKernel v)
    rw [show m 0 = x by simp only [m, zero_smul, add_zero]]
    exact hx
  obtain ⟨ε, hε, hb⟩ := Metric.isOpen_iff.mp hopen 0 h0'
  have hmem : ε / 2 ∈ m ⁻¹' interior (leftKernel v) := hb (by
    rw [Metric.mem_ball, Real.dist_eq, sub_zero, abs_of_pos (by linarith)]; linarith)
  have := interior_subset hmem i hi
  rw [← he] at this
  have e2 : cross e (m (ε / 2) - corner v i) = cross e (x - corner v i) - ε / 2 * dot e e := by
    simp only [m, cross, dot, Prod.fst_sub, Prod.snd_sub, Prod.fst_add, Prod.snd_add, Prod.smul_fst, Prod.smul_snd, smul_eq_mul]
    ring
  rw [e2, ← h0] at this
  nlinarith

/-- A polygon star-shaped about `c` has `c` in its interior. -/
theorem centre_interior {c : Pt ℝ} {v : List (Pt ℝ)} (h : StarAbout c v) : c ∈ interior (filled v) := by
  have hs := star_sectors h
  have hl : leftKernel v ⊆ filled v := by rw [← star_kernel h]; exact fun p hp => hp.1
  let U : Set (Pt ℝ) := ⋂ i ∈ Finset.range v.length, {p | 0 < cross (corner v (i + 1) - corner v i) (p - corner v i)}
  have hU : IsOpen U := by
    refine isOpen_biInter_finset fun i _ => ?_
    exact isOpen_lt continuous_const (by unfold cross; fun_prop)
  refine mem_interior.mpr ⟨U, ?_, hU, ?_⟩
  · intro p hp
    refine hl fun i hi => ?_
    have := Set.mem_iInter₂.mp hp i (Finset.mem_range.mpr hi)
    exact this.le
  · refine Set.mem_iInter₂.mpr fun i hi => ?_
    have := hs.pos i (Finset.mem_range.mp hi)
    have e : cross (corner v i - c) (corner v (i + 1) - c) = cross (corner v (i + 1) - corner v i) (c - corner v i) := by
      simp only [cross, Prod.fst_sub, Prod.snd_sub]; ring
    rw [e] at this
    exact this

/-- C75 for convex polygons, given by their boundary: the kernel is the polygon, and it is the set of points from which all of it is
visible. -/
theorem C75_convex_filled (v : List (Pt ℝ)) (c : Pt ℝ) (hr : StarAbout c v) (ht : ∀ j < v.length, 1 / 10 ^ 10 < turn v j) :
    constructKernel realOps v = .ok v ∧ visKernel (filled v) = filled v := by
  have h3 : 3 ≤ v.length := by
    obtain ⟨φ, h1, h2, h3⟩ := hr
    have hpi := pi_pos
    by_contra hlt
    have h : v.length = 0 ∨ v.length = 1 ∨ v.length = 2 := by omega
    rcases h with h | h | h
    · rw [h] at h3; linarith
    · rw [h] at h2 h3; have := h2 0 (by omega); norm_num at this; linarith
    · rw [h] at h2 h3; have a := h2 0 (by omega); have b := h2 1 (by omega); norm_num at a b; linarith
  have hpos : ∀ j < v.length, 0 < turn v j := fun j hj => lt_trans (by norm_num) (ht j hj)
  refine ⟨(C75_convex v h3 (Or.inl ht)).1, ?_⟩
  rw [star_kernel hr, (convex_filled hr hpos).1, (convex_filled hr hpos).2]

/-- C84 (partial): if the computed corners are those of a polygon star-shaped about some point and bound the kernel
of the polygon (see C75), then the constructor succeeds and the polygon is star-shaped about the chosen reference point, so that all of
it is visible from there. Missing: polygons for which the computed kernel is wrong, see `C84_false`. -/
theorem C84_kernel_partial (geo : AreaOps) (hg : IsArea geo) (argsort : List ℝ → List Nat) (mm : Option Pose)
    (ring k : List (Pt ℝ)) (c c' : Pt ℝ) (hr : StarAbout c ring) (hk : constructKernel realOps ring = .ok k) (hc' : StarAbout c' k)
    (he : region k = visKernel (filled ring)) :
    ∃ s, constructDefault geo argsort mm ring = .ok s ∧ StarAbout s.xr ring ∧ s.xr ∈ visKernel (filled ring) := by
  refine ⟨StarPoly.make argsort mm ring (defaultXr geo k), by simp only [constructDefault, hk, ok_then], ?_⟩
  have hx : defaultXr geo k ∈ interior (filled k) := by
    unfold defaultXr
    split
    · rename_i h; exact (hg.contains _ _).mp h
    · exact hg.representative k ⟨c', centre_interior hc'⟩
  have hsub : filled k ⊆ leftKernel ring := by
    rw [← star_kernel hr, ← he]; exact filled_subset_region hc'
  have hx' := interior_mono hsub hx
  have hstar : StarAbout (defaultXr geo k) ring := starAbout_move hr (interior_left hr hx')
  have e : (StarPoly.make argsort mm ring (defaultXr geo k)).xr = defaultXr geo k := rfl
  rw [e]
  refine ⟨hstar, ?_⟩
  rw [star_kernel hr]
  exact interior_subset hx'

/-- C84 (partial): the reference point chosen for a convex polygon. -/
theorem C84_convex_partial (geo : AreaOps) (hg : IsArea geo) (argsort : List ℝ → List Nat) (mm : Option Pose)
    (ring : List (Pt ℝ)) (c : Pt ℝ) (hr : StarAbout c ring) (ht : ∀ j < ring.length, 1 / 10 ^ 10 < turn ring j) :
    ∃ s, constructDefault geo argsort mm ring = .ok s ∧ StarAbout s.xr ring ∧ s.xr ∈ visKernel (filled ring) := by
  have hpos : ∀ j < ring.length, 0 < turn ring j := fun j hj => lt_trans (by norm_num) (ht j hj)
  refine C84_kernel_partial geo hg argsort mm ring ring c c hr (C75_convex_filled ring c hr ht).1 hr ?_
  rw [star_kernel hr]; exact (convex_filled hr hpos).2.symm

/-- C84 (partial): the reference point chosen for an L-shape. -/
theorem C84_corner_partial (geo : AreaOps) (hg : IsArea geo) (argsort : List ℝ → List Nat) (mm : Option Pose)
    (a b c d : ℝ) (hc : 1 / 1000 ≤ c) (hd : 1 / 1000 ≤ d) (hca : c + 1 / 1000 ≤ a)
    (hdb : d + 1 / 1000 ≤ b) (ha : a ≤ 299) (hb : b ≤ 299) (ring : List (Pt ℝ))
    (he : ring = [(0, 0), (a, 0), (a, d), (c, d), (c, b), (0, b)]) :
    ∃ s, constructDefault geo argsort mm ring = .ok s ∧ StarAbout s.xr ring ∧ s.xr ∈ visKernel (filled ring) := by
  subst he
  have c0 : 0 < c := by linarith
  have d0 : 0 < d := by linarith
  refine C84_kernel_partial geo hg argsort mm _ [(c, d), (0, d), (0, 0), (c, 0)] (c / 2, d / 2) (c / 2, d / 2) ?_
    (corner_kernel ⟨hc, hd, hca, hdb, ha, hb⟩) ?_ ?_
  · refine starAbout_of_halves (-c, -d) (by simp [c0.ne']) 3 (by norm_num) (by simp) ?_ ?_ ?_
    · intro i hi
      interval_cases i <;> simp [UpperHalf, corner, cross, dot] <;> first | (left; nlinarith) | (right; constructor <;> nlinarith)
    · intro i hi h3
      simp only [List.length_cons, List.length_nil] at hi
      interval_cases i <;> simp [LowerHalf, corner, cross, dot] <;> first | (left; nlinarith) | (right; constructor <;> nlinarith)
    · intro i hi
      simp only [List.length_cons, List.length_nil] at hi
      interval_cases i <;> simp [corner, cross] <;> nlinarith
  · refine starAbout_of_halves (c, d) (by simp [c0.ne']) 2 (by norm_num) (by simp) ?_ ?_ ?_
    · intro i hi
      interval_cases i <;> simp [UpperHalf, corner, cross, dot] <;> first | (left; nlinarith) | (right; constructor <;> nlinarith)
    · intro i hi h3
      simp only [List.length_cons, List.length_nil] at hi
      interval_cases i <;> simp [LowerHalf, corner, cross, dot] <;> first | (left; nlinarith) | (right; constructor <;> nlinarith)
    · intro i hi
      simp only [List.length_cons, List.length_nil] at hi
      interval_cases i <;> simp [corner, cross] <;> nlinarith
  · rw [rectangle_region c0 d0]
    exact (corner_visible c0 d0 (by linarith) (by linarith)).symm

/-- C84 (partial): the reference point chosen for the polygons of `C75_shapes_partial`. -/
theorem C84_shapes_partial (geo : AreaOps) (hg : IsArea geo) (argsort : List ℝ → List Nat) (mm : Option Pose) :
    ∀ ring ∈ kernelShapes, ∃ s, constructDefault geo argsort mm ring = .ok s ∧ StarAbout s.xr ring ∧
      s.xr ∈ visKernel (filled ring) := by
  intro ring hr
  obtain ⟨k, c, c', h1, h2, h3, h4⟩ := kernel_shapes ring hr
  exact C84_kernel_partial geo hg argsort mm ring k c c' h2 h1 h3 h4

/-- C84 is false where the kernel is too large: all of this polygon is visible from (1/2, 1), but the reference point is
(-3/2, 1), from where the corner (1, -2) is not visible. `centroid` is used only in that it is the centre of the
returned rectangle. -/
theorem C84_false (geo : AreaOps) (hg : IsArea geo) (argsort : List ℝ → List Nat) (mm : Option Pose)
    (hcen : geo.centroid [(1, 0), (1, 2), (-4, 2), (-4, 0)] = (-3 / 2, 1)) :
    ∃ ring s, (1 / 2, 1) ∈ visKernel (filled ring) ∧ constructDefault geo argsort mm ring = .ok s ∧ s.xr = (-3 / 2, 1) ∧
      (1, -2) ∈ ring ∧ OnSegment ((-3 / 2, 1) : Pt ℝ) (1, -2) (-1 / 4, -1 / 2) ∧ (-1 / 4, -1 / 2) ∉ filled ring ∧
      s.xr ∉ visKernel (filled ring) := by
  have hstar : StarAbout (1 / 2, 1) ([(0, -2), (1, -2), (1, 0), (3, 0), (3, 3), (-4, 3), (-4, 2), (-5, 2), (-5, 0), (0, 0)] :
      List (Pt ℝ)) := by
    have := starAbout_rat (c := (1 / 2, 1))
      (v := [(0, -2), (1, -2), (1, 0), (3, 0), (3, 3), (-4, 3), (-4, 2), (-5, 2), (-5, 0), (0, 0)]) (by decide +kernel)
    simpa [toReal] using this
  have hv : ([(0, -2), (1, -2), (1, 0), (3, 0), (3, 3), (-4, 3), (-4, 2), (-5, 2), (-5, 0), (0, 0)] : List (Pt ℝ)) =
      ([(0, -2), (1, -2), (1, 0), (3, 0), (3, 3), (-4, 3), (-4, 2), (-5, 2), (-5, 0), (0, 0)] : List (Pt ℚ)).map toReal := by
    simp [toReal]
  have hk : constructKernel realOps [(0, -2), (1, -2), (1, 0), (3, 0), (3, 3), (-4, 3), (-4, 2), (-5, 2), (-5, 0), (0, 0)] =
      .ok [(1, 0), (1, 2), (-4, 2), (-4, 0)] := by
    rw [hv, constructKernel_rat (r := .ok [(1, 0), (1, 2), (-4, 2), (-4, 0)]) (by decide +kernel) (by decide)]
    simp [Except.map, toReal]
  have hrect : StarAbout (-3 / 2, 1) ([(1, 0), (1, 2), (-4, 2), (-4, 0)] : List (Pt ℝ)) := by
    have := starAbout_rat (c := (-3 / 2, 1)) (v := [(1, 0), (1, 2), (-4, 2), (-4, 0)]) (by decide +kernel)
    simpa [toReal] using this
  have hxr : defaultXr geo [(1, 0), (1, 2), (-4, 2), (-4, 0)] = (-3 / 2, 1) := by
    unfold defaultXr
    rw [hcen, if_pos ((hg.contains _ _).mpr (centre_interior hrect))]
  have hseg : OnSegment ((-3 / 2, 1) : Pt ℝ) (1, -2) (-1 / 4, -1 / 2) := ⟨1 / 2, by norm_num, by norm_num, by norm_num⟩
  have hout : ((-1 / 4, -1 / 2) : Pt ℝ) ∉
      filled [(0, -2), (1, -2), (1, 0), (3, 0), (3, 3), (-4, 3), (-4, 2), (-5, 2), (-5, 0), (0, 0)] := by
    rw [star_filled_sector hstar (j := 9) (by simp) (by norm_num [corner, cross]) (by norm_num [corner, cross])]
    norm_num [corner, cross]
  have hin : ((1, -2) : Pt ℝ) ∈
      filled [(0, -2), (1, -2), (1, 0), (3, 0), (3, 3), (-4, 3), (-4, 2), (-5, 2), (-5, 0), (0, 0)] :=
    Or.inr ⟨1, by simp, 0, le_rfl, zero_le_one, by simp [corner]⟩
  refine ⟨[(0, -2), (1, -2), (1, 0), (3, 0), (3, 3), (-4, 3), (-4, 2), (-5, 2), (-5, 0), (0, 0)],
    StarPoly.make argsort mm
      [(0, -2), (1, -2), (1, 0), (3, 0), (3, 3), (-4, 3), (-4, 2), (-5, 2), (-5, 0), (0, 0)] (-3 / 2, 1), ?_, by simp only [constructDefault, hk, ok_then, hxr], rfl, by simp, hseg, hout,
    fun h => hout (h.2 _ hin _ hseg)⟩
  rw [star_kernel hstar]
  intro i hi
  simp only [List.length_cons, List.length_nil] at hi
  interval_cases i <;> norm_num [corner, cross]

/-- C83 for a polygon constructed without reference point (partial: as C84): `distance_function` and `point_location` tell the same
points to be inside. -/
theorem C83_default_partial (geo : AreaOps) (hg : IsArea geo) (argsort : List ℝ → List Nat) (ha : IsArgsort argsort)
    (mm : Option Pose) (ring k : List (Pt ℝ)) (c c' : Pt ℝ) (hr : StarAbout c ring)
    (hk : constructKernel realOps ring = .ok k) (hc' : StarAbout c' k) (he : region k = visKernel (filled ring)) :
    ∃ s, constructDefault geo argsort mm ring = .ok s ∧
      ∀ (ix : Pt ℝ → Pt ℝ → Geom), (∀ b, GeomIs (ix s.xr b) (hits s.ring s.xr b)) → ∀ (f : Frame), f.Valid → ∀ x ≠ s.xr,
        ∃ d l, s.distanceFunction ix (inFrame s.mm f x) f = .ok d ∧
          polygonPointLocation s.mm s.ring (inFrame s.mm f x) f = .ok l ∧
          (d < 1 ↔ Inside ring x) ∧ (d = 1 ↔ OnRing ring x) ∧ (l = -1 ↔ d < 1) ∧ (1 < d → l = 1) := by
  obtain ⟨s, h1, h2, -⟩ := C84_kernel_partial geo hg argsort mm ring k c c' hr hk hc' he
  refine ⟨s, h1, fun ix hix f hf x hx => ?_⟩
  have hs : s = (StarPoly.make argsort mm ring (defaultXr geo k)).run argsort [] := by
    simp only [constructDefault, hk, ok_then, Except.ok.injEq] at h1
    exact h1.symm
  obtain ⟨d, l, a1, a2, a3, a4, a5, a6, -⟩ := C83_agree argsort ha mm ring _ [] s hs h2 ix hix f hf x hx
  exact ⟨d, l, a1, a2, a3, a4, a5, a6⟩

/-- The constructor puts the reference point of the square with corners (0, 0) and (2, 2) strictly inside. -/
example (geo : AreaOps) (hg : IsArea geo) (argsort : List ℝ → List Nat) (mm : Option Pose) :
    ∃ s, constructDefault geo argsort mm [(0, 0), (2, 0), (2, 2), (0, 2)] = .ok s ∧ 0 < s.xr.1 ∧ s.xr.1 < 2 ∧ 0 < s.xr.2 ∧
      s.xr.2 < 2 := by
  have hstar : StarAbout (1, 1) ([(0, 0), (2, 0), (2, 2), (0, 2)] : List (Pt ℝ)) := by
    have := starAbout_rat (c := (1, 1)) (v := [(0, 0), (2, 0), (2, 2), (0, 2)]) (by decide +kernel)
    simpa [toReal] using this
  obtain ⟨s, h1, h2, -⟩ := C84_convex_partial geo hg argsort mm [(0, 0), (2, 0), (2, 2), (0, 2)] (1, 1) hstar (by
    intro j hj
    simp only [List.length_cons, List.length_nil] at hj
    interval_cases j <;> norm_num [turn, corner, cross])
  have hp := (star_sectors h2).pos
  refine ⟨s, h1, ?_⟩
  have p0 := hp 0 (by simp)
  have p1 := hp 1 (by simp)
  have p2 := hp 2 (by simp)
  have p3 := hp 3 (by simp)
  simp [corner, cross] at p0 p1 p2 p3
  refine ⟨?_, ?_, ?_, ?_⟩ <;> nlinarith

end Starworlds
