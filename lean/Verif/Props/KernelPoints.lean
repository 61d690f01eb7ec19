import Verif.Spec.KernelPoints
import Verif.Props.Transform
import Verif.Props.Combination
import Mathlib.Analysis.Convex.Topology
import Mathlib.Topology.Order.Lattice

/-! # C63, C64: the kernel points -/

namespace Starworlds

open Real Spec

variable {G : Type}

theorem ball_convex (c : Pt ℝ) (d : ℝ) : Convex ℝ {p : Pt ℝ | √(normSq (p - c)) < d} := by
  intro p hp q hq a b ha hb hab
  simp only [Set.mem_ofPred_eq] at *
  have e : a • p + b • q - c = (p - c) + b • ((q - c) - (p - c)) := by
    have : a = 1 - b := by linarith
    subst this
    ext
    · simp only [Prod.fst_add, Prod.fst_sub, Prod.smul_fst, smul_eq_mul]; ring
    · simp only [Prod.snd_add, Prod.snd_sub, Prod.smul_snd, smul_eq_mul]; ring
  rw [e]
  have h := normSq_convex (p - c) (q - c) hb (by linarith)
  rcases le_max_iff.1 h with h | h
  · exact lt_of_le_of_lt (sqrt_le_sqrt h) hp
  · exact lt_of_le_of_lt (sqrt_le_sqrt h) hq

/-- A disc that does not reach the border of a set is in the set. -/
theorem ball_subset {S : Set (Pt ℝ)} {c : Pt ℝ} (hc : c ∈ S) {d : ℝ} (h : ∀ r ∈ frontier S, d ≤ √(normSq (r - c))) :
    {p : Pt ℝ | √(normSq (p - c)) < d} ⊆ S := by
  intro p hp
  by_contra hpS
  have hc' : c ∈ {p : Pt ℝ | √(normSq (p - c)) < d} := by
    simp only [Set.mem_ofPred_eq] at *
    have : √(normSq (c - c)) = 0 := by simp [normSq]
    rw [this]
    exact lt_of_le_of_lt (sqrt_nonneg _) hp
  have hno : ∀ r ∈ {p : Pt ℝ | √(normSq (p - c)) < d}, r ∈ interior S ∨ r ∉ closure S := by
    intro r hr
    by_contra hcon
    push Not at hcon
    exact absurd (h r ⟨hcon.2, hcon.1⟩) (not_le.2 hr)
  obtain ⟨r, _, h1, h2⟩ := (ball_convex c d).isPreconnected (interior S) (closure S)ᶜ isOpen_interior
    isClosed_closure.isOpen_compl (fun r hr => hno r hr)
    ⟨c, hc', (hno c hc').resolve_right fun h => h (subset_closure hc)⟩
    ⟨p, hp, (hno p hp).resolve_left fun h => hpS (interior_subset h)⟩
  exact h2 (interior_subset_closure h1)

theorem foldl_min_lb (ds : List ℝ) (d : ℝ) : ds.foldl min d ≤ d ∧ ∀ e ∈ ds, ds.foldl min d ≤ e := by
  induction ds generalizing d with
  | nil => simp
  | cons a ds ih =>
    obtain ⟨h1, h2⟩ := ih (min d a)
    refine ⟨h1.trans (min_le_left _ _), ?_⟩
    intro e he
    rcases List.mem_cons.1 he with rfl | he
    · exact h1.trans (min_le_right _ _)
    · exact h2 e he

theorem foldl_min_nonneg (ds : List ℝ) (d : ℝ) (h : 0 ≤ d) (hd : ∀ e ∈ ds, 0 ≤ e) : 0 ≤ ds.foldl min d := by
  induction ds generalizing d with
  | nil => exact h
  | cons a ds ih =>
    exact ih _ (le_min h (hd a List.mem_cons_self)) fun e he => hd e (List.mem_cons_of_mem _ he)

/-- The disc around a point of the selection set with the computed radius is in the selection set. -/
theorem border_disc {geo : PolyOps G} {pts : G → Set (Pt ℝ)} {S : G} (hS : Simple geo pts S) {c : Pt ℝ} (hc : c ∈ pts S)
    {d : ℝ} (h : borderDistance geo S c = .ok d) : 0 ≤ d ∧ {p : Pt ℝ | √(normSq (p - c)) < d} ⊆ pts S := by
  unfold borderDistance at h
  unfold Simple at hS
  split at h
  · rename_i hp
    rw [if_pos hp] at hS
    exact ⟨(hS c d h).1, ball_subset hc (hS c d h).2⟩
  · rename_i hp
    rw [if_neg hp] at hS
    simp only [bind, Except.bind] at h
    cases hm : (geo.geoms S).mapM fun p => geo.exteriorDistance p c with
    | error e => rw [hm] at h; simp at h
    | ok L =>
      rw [hm] at h
      obtain ⟨L', hL1, hL2, _⟩ := mapM_exists (fun p => geo.exteriorDistance p c) (geo.geoms S) (mapM_error _ _ ⟨L, hm⟩)
      rw [hm] at hL1
      simp only [Except.ok.injEq] at hL1
      subst hL1
      have hnn : ∀ e ∈ L, 0 ≤ e := by
        intro e he
        obtain ⟨g, hg, hge⟩ := (hL2 e).1 he
        exact ((hS.2 g hg).1 c e hge).1
      have hmin : d ∈ {d | 0 ≤ d ∧ ∀ e ∈ L, d ≤ e} := by
        cases L with
        | nil => simp at h
        | cons a l =>
          simp only [Except.ok.injEq] at h
          subst h
          obtain ⟨h1, h2⟩ := foldl_min_lb l a
          refine ⟨foldl_min_nonneg l a (hnn a List.mem_cons_self) fun e he => hnn e (List.mem_cons_of_mem _ he), ?_⟩
          intro e he
          rcases List.mem_cons.1 he with rfl | he
          · exact h1
          · exact h2 e he
      obtain ⟨hd0, hdL⟩ := hmin
      refine ⟨hd0, ?_⟩
      obtain ⟨g, hg, hcg⟩ := hS.1 c hc
      obtain ⟨hng, hsub⟩ := hS.2 g hg
      obtain ⟨e, he⟩ := mapM_error _ _ ⟨L, hm⟩ g hg
      have hle := hdL e ((hL2 e).2 ⟨g, hg, he⟩)
      intro p hp
      exact hsub (ball_subset hcg (hng c e he).2 (lt_of_lt_of_le hp hle))

/-- The convex hull of the three points. -/
def triangle (T : Pt ℝ × Pt ℝ × Pt ℝ) : Set (Pt ℝ) := convexHull ℝ {T.1, T.2.1, T.2.2}

theorem triangle_subset {geo : PolyOps G} {pts : G → Set (Pt ℝ)} {S : G} (hS : Simple geo pts S) {c : Pt ℝ} (hc : c ∈ pts S)
    {eps : ℝ} (he : 0 ≤ eps) {T : Pt ℝ × Pt ℝ × Pt ℝ} (h : kernelTriangle geo S c eps = .ok T) : triangle T ⊆ pts S := by
  simp only [kernelTriangle, bind, Except.bind] at h
  cases hb : borderDistance geo S c with
  | error e => rw [hb] at h; simp at h
  | ok d =>
    rw [hb] at h
    simp only [Except.ok.injEq] at h
    obtain ⟨hd, hball⟩ := border_disc hS hc hb
    obtain ⟨_, _, _, _, h5, h6, h7⟩ := C10_centroid_partial c (min eps (0.9 * d)) 0 (Or.inl rfl)
    rw [h] at h5 h6 h7
    set L := min eps (0.9 * d) with hL
    have hL0 : 0 ≤ L := le_min he (by linarith)
    rcases hd.eq_or_lt with hd0 | hd0
    · -- no room: the three points are the centre
      have hL00 : L = 0 := le_antisymm (by rw [hL, ← hd0]; simp) hL0
      have hT : T = (c, c, c) := by
        rw [← h, hL00]
        simp [equilateralTriangle]
      rw [hT]
      unfold triangle
      simpa using hc
    · have hs3 : 1 ≤ √3 := by rw [Real.one_le_sqrt]; norm_num
      have hlt : |L| / √3 < d := by
        rw [abs_of_nonneg hL0, div_lt_iff₀ (by linarith)]
        have h1 : L ≤ 0.9 * d := min_le_right _ _
        nlinarith
      refine (convexHull_min ?_ (ball_convex c d)).trans hball
      rintro p (rfl | rfl | rfl)
      · exact lt_of_eq_of_lt h5 hlt
      · exact lt_of_eq_of_lt h6 hlt
      · exact lt_of_eq_of_lt h7 hlt

theorem foldl_inter {geo : PolyOps G} {pts : G → Set (Pt ℝ)} (hg : OpsOk geo pts) (ks : List G) (a : G) :
    pts (ks.foldl geo.intersection a) ⊆ pts a := by
  induction ks generalizing a with
  | nil => exact subset_rfl
  | cons k ks ih =>
    refine (ih _).trans ?_
    rw [hg.inter]
    exact Set.inter_subset_left

/-- The selection set is part of the admissible kernel. -/
theorem selection_subset {geo : PolyOps G} {pts : G → Set (Pt ℝ)} (hg : OpsOk geo pts) (adm poly ws : G)
    (kernels : Option (List G)) : pts (selectionSet geo adm poly ws kernels) ⊆ pts adm := by
  have h1 : pts (limitToExterior geo adm poly ws) ⊆ pts adm := by
    unfold limitToExterior
    simp only
    split
    · split
      · rw [hg.inter]; exact Set.inter_subset_left.trans (hg.diff _ _)
      · exact subset_rfl
    · exact subset_rfl
  refine Set.Subset.trans ?_ h1
  have key : ∀ tmp, pts tmp ⊆ pts (limitToExterior geo adm poly ws) →
      pts (if geo.area (if geo.area tmp < 1e-6 then geo.intersection (limitToExterior geo adm poly ws) poly else tmp) > 1e-6
        then (if geo.area tmp < 1e-6 then geo.intersection (limitToExterior geo adm poly ws) poly else tmp)
        else limitToExterior geo adm poly ws) ⊆ pts (limitToExterior geo adm poly ws) := by
    intro tmp htmp
    split_ifs <;> first | exact subset_rfl | exact htmp | (rw [hg.inter]; exact Set.inter_subset_left)
  cases kernels with
  | none => exact key _ subset_rfl
  | some ks => exact key _ (foldl_inter hg ks _)

theorem compute_steps {geo : PolyOps G} {adm poly ws : G} {kernels : Option (List G)} {x xg : Pt ℝ} {eps : ℝ}
    {prev : Option (Pt ℝ)} {draws : List (Pt ℝ)} {clock : Clock} {T : Pt ℝ × Pt ℝ × Pt ℝ}
    (h : kernelPoints geo adm poly ws kernels x xg eps prev draws clock = .ok (some T)) :
    ∃ tc, triangleCentre geo adm (selectionSet geo adm poly ws kernels) x xg prev draws = .ok (some tc) ∧
      kernelTriangle geo (selectionSet geo adm poly ws kernels) tc eps = .ok T := by
  simp only [kernelPoints, bind, Except.bind] at h
  cases h1 : triangleCentre geo adm (selectionSet geo adm poly ws kernels) x xg prev draws with
  | error e => rw [h1] at h; simp at h
  | ok r =>
    rw [h1] at h
    cases r with
    | none => simp at h
    | some tc =>
      simp only at h
      cases h2 : kernelTriangle geo (selectionSet geo adm poly ws kernels) tc eps with
      | error e => rw [h2] at h; simp at h
      | ok T' =>
        rw [h2] at h
        simp only at h
        cases h3 : timings clock with
        | error e => rw [h3] at h; simp at h
        | ok u =>
          rw [h3] at h
          simp only [Except.ok.injEq, Option.some.injEq] at h
          subst h
          exact ⟨tc, rfl, h2⟩

/-- C63 (partial): whatever `compute_kernel_points` returns, the mean of the three points is the triangle centre, and
they are at the same distance of at most epsilon from each other; if the centre is in the selection set and the
selection set has no holes, they and their convex hull are in the selection set, and hence in the admissible kernel.
Missing: selection sets with holes (`C63_hole_false`). -/
theorem C63_inside_partial (geo : PolyOps G) (pts : G → Set (Pt ℝ)) (hg : OpsOk geo pts) (adm poly ws : G)
    (kernels : Option (List G)) (x xg : Pt ℝ) (eps : ℝ) (he : 0 ≤ eps) (prev : Option (Pt ℝ)) (draws : List (Pt ℝ))
    (clock : Clock) (hS : Simple geo pts (selectionSet geo adm poly ws kernels)) (T : Pt ℝ × Pt ℝ × Pt ℝ)
    (h : kernelPoints geo adm poly ws kernels x xg eps prev draws clock = .ok (some T)) :
    ∃ tc, triangleCentre geo adm (selectionSet geo adm poly ws kernels) x xg prev draws = .ok (some tc) ∧
      (1 / 3 : ℝ) • (T.1 + T.2.1 + T.2.2) = tc ∧
      (tc ∈ pts (selectionSet geo adm poly ws kernels) →
        convexHull ℝ {T.1, T.2.1, T.2.2} ⊆ pts (selectionSet geo adm poly ws kernels) ∧
        convexHull ℝ {T.1, T.2.1, T.2.2} ⊆ pts adm ∧
        ∃ L, L ≤ eps ∧ √(normSq (T.1 - T.2.1)) = L ∧ √(normSq (T.2.1 - T.2.2)) = L ∧ √(normSq (T.2.2 - T.1)) = L) := by
  obtain ⟨tc, h1, h2⟩ := compute_steps h
  refine ⟨tc, h1, ?_, ?_⟩
  · simp only [kernelTriangle, bind, Except.bind] at h2
    split at h2
    · simp at h2
    · simp only [Except.ok.injEq] at h2
      rw [← h2]
      exact (C10_centroid_partial tc _ 0 (Or.inl rfl)).1
  · intro htc
    have hsub := triangle_subset hS htc he h2
    refine ⟨hsub, hsub.trans (selection_subset hg _ _ _ _), ?_⟩
    simp only [kernelTriangle, bind, Except.bind] at h2
    cases hb : borderDistance geo (selectionSet geo adm poly ws kernels) tc with
    | error e => rw [hb] at h2; simp at h2
    | ok d =>
      rw [hb] at h2
      simp only [Except.ok.injEq] at h2
      obtain ⟨_, h3, h4, h5, _⟩ := C10_centroid_partial tc (min eps (0.9 * d)) 0 (Or.inl rfl)
      rw [h2] at h3 h4 h5
      have hd := (border_disc hS htc hb).1
      refine ⟨|min eps (0.9 * d)|, ?_, h3, h4, h5⟩
      rw [abs_of_nonneg (le_min he (by linarith))]
      exact min_le_left _ _

/-- When the centre is on the border of the selection set, the three kernel points coincide. -/
theorem C63_degenerate (geo : PolyOps G) (S : G) (tc : Pt ℝ) (eps : ℝ) (he : 0 ≤ eps) (h : borderDistance geo S tc = .ok 0) :
    kernelTriangle geo S tc eps = .ok (tc, tc, tc) := by
  simp only [kernelTriangle, h, bind, Except.bind, mul_zero, min_eq_right he]
  simp [equilateralTriangle]

/-! ### Example: a square -/

/-- The square from -4 to 4. -/
def square4 : Set (Pt ℝ) := {p | max |p.1| |p.2| ≤ 4}

/-- A world in which every geometry is that square. -/
noncomputable def square4Ops : PolyOps Unit where
  difference _ _ := ()
  intersection _ _ := ()
  within _ _ := true
  area _ := 64
  centroid _ := .ok (0, 0)
  nearestToCentroid _ _ := .ok (0, 0)
  contains _ p := decide (max |p.1| |p.2| < 4)
  split _ _ _ := .ok [()]
  isPolygon _ := true
  geoms _ := []
  exteriorDistance _ p := .ok (abs (4 - max |p.1| |p.2|))

theorem abs_le_len (v : Pt ℝ) : max |v.1| |v.2| ≤ √(normSq v) := by
  refine max_le (abs_le_sqrt ?_) (abs_le_sqrt ?_) <;> simp only [normSq] <;> nlinarith [sq_nonneg v.1, sq_nonneg v.2]

theorem square4_simple : Simple square4Ops (fun _ => square4) () := by
  rw [Simple, if_pos (show square4Ops.isPolygon () = true from rfl)]
  intro c d h
  simp only [square4Ops, Except.ok.injEq] at h
  subst h
  refine ⟨abs_nonneg _, ?_⟩
  intro r hr
  have hcont : Continuous fun p : Pt ℝ => max |p.1| |p.2| := (continuous_fst.abs).max (continuous_snd.abs)
  have hclosed : IsClosed square4 := isClosed_le hcont continuous_const
  have hr4 : max |r.1| |r.2| = 4 := by
    refine le_antisymm (hclosed.frontier_subset hr) ?_
    by_contra hlt
    push Not at hlt
    have hopen : IsOpen {p : Pt ℝ | max |p.1| |p.2| < 4} := isOpen_lt hcont continuous_const
    have hsub : {p : Pt ℝ | max |p.1| |p.2| < 4} ⊆ square4 := by
      intro p hp
      rw [square4, Set.mem_ofPred_eq] at *
      exact le_of_lt hp
    exact hr.2 (interior_maximal hsub hopen hlt)
  refine le_trans ?_ (abs_le_len (r - c))
  rw [← hr4]
  refine (abs_max_sub_max_le_max _ _ _ _).trans ?_
  exact max_le_max (abs_abs_sub_abs_le _ _) (abs_abs_sub_abs_le _ _)

/-- The previous centre (1, 0) is kept, and the triangle with side 1 around it is in the square. -/
example : ∃ T, kernelPoints square4Ops () () () (some [()]) (0, 5) (0, -5) 1 (some (1, 0)) [] ⟨0, 1, 2, 3, 4, 5⟩ =
    .ok (some T) ∧ T.1 ≠ T.2.1 ∧ convexHull ℝ {T.1, T.2.1, T.2.2} ⊆ square4 := by
  have hc : triangleCentre square4Ops () () (0, 5) (0, -5) (some (1, 0)) [] = .ok (some (1, 0)) := by
    norm_num [triangleCentre, square4Ops, isCollinear, orientationVal, collinearThreshold]
  have hd : borderDistance square4Ops () (1, 0) = .ok 3 := by
    norm_num [borderDistance, square4Ops]
  have hT : kernelTriangle square4Ops () (1, 0) 1 = .ok (equilateralTriangle (1, 0) 1 0) := by
    simp only [kernelTriangle, hd, bind, Except.bind]
    rw [min_eq_left (by norm_num)]
  have hcomp : kernelPoints square4Ops () () () (some [()]) (0, 5) (0, -5) 1 (some (1, 0)) [] ⟨0, 1, 2, 3, 4, 5⟩ =
      .ok (some (equilateralTriangle (1, 0) 1 0)) := by
    have ht : timings ⟨0, 1, 2, 3, 4, 5⟩ = .ok () := by norm_num [timings]
    have hS : ∀ a b c d, selectionSet square4Ops a b c d = () := fun _ _ _ _ => rfl
    simp only [kernelPoints, hS, hc, hT, ht, bind, Except.bind]
  refine ⟨_, hcomp, ?_, ?_⟩
  · intro h
    have := congrArg Prod.fst h
    norm_num [equilateralTriangle] at this
  · obtain ⟨tc, h1, _, h2⟩ := C63_inside_partial square4Ops (fun _ => square4)
      ⟨fun _ _ => (Set.inter_self _).symm, fun _ _ => subset_rfl⟩ () () () (some [()]) (0, 5) (0, -5) 1 zero_le_one
      (some (1, 0)) [] ⟨0, 1, 2, 3, 4, 5⟩ square4_simple _ hcomp
    have h1' : triangleCentre square4Ops () () (0, 5) (0, -5) (some (1, 0)) [] = .ok (some tc) := h1
    rw [hc] at h1'
    simp only [Except.ok.injEq, Option.some.injEq] at h1'
    exact (h2 (by rw [← h1']; norm_num [square4])).1

/-! ## Holes -/

/-- The square from -4 to 4 without the open square from -1 to 1. -/
def squareRing : Set (Pt ℝ) := {p | |p.1| ≤ 4 ∧ |p.2| ≤ 4 ∧ (1 ≤ |p.1| ∨ 1 ≤ |p.2|)}

/-- The border of the square from -4 to 4, its exterior ring. -/
def squareExterior : Set (Pt ℝ) := {p | |p.1| ≤ 4 ∧ |p.2| ≤ 4 ∧ (|p.1| = 4 ∨ |p.2| = 4)}

/-- C63 is false for a selection set with a hole: the distance from the exterior ring ignores the border of the hole.
For the square ring and the centre (1, 0), at distance 3 from the exterior, a kernel point is in the hole. -/
theorem C63_hole_false :
    ((1, 0) : Pt ℝ) ∈ squareRing ∧ (∀ r ∈ squareExterior, (3 : ℝ) ≤ √(normSq (r - (1, 0)))) ∧
      (∃ r ∈ squareExterior, √(normSq (r - (1, 0))) = 3) ∧
      ∀ (geo : PolyOps G) (S : G), geo.isPolygon S = true → geo.exteriorDistance S (1, 0) = .ok 3 →
        ∃ T, kernelTriangle geo S (1, 0) 1 = .ok T ∧ T.2.2 ∉ squareRing := by
  refine ⟨by norm_num [squareRing], ?_, ⟨(4, 0), by norm_num [squareExterior], by
    rw [show normSq ((4, 0) - (1, 0) : Pt ℝ) = 3 ^ 2 by norm_num [normSq]]; exact sqrt_sq (by norm_num)⟩, ?_⟩
  · rintro ⟨a, b⟩ ⟨h1, h2, h3⟩
    refine le_sqrt_of_sq_le ?_
    simp only [normSq, Prod.fst_sub, Prod.snd_sub] at *
    rcases h3 with h3 | h3
    · rcases abs_eq (by norm_num) |>.1 h3 with rfl | rfl <;> nlinarith [sq_nonneg b]
    · rcases abs_eq (by norm_num) |>.1 h3 with rfl | rfl <;> nlinarith [sq_nonneg (a - 1)]
  · intro geo S hp hd
    refine ⟨equilateralTriangle (1, 0) 1 0, ?_, ?_⟩
    · simp only [kernelTriangle, borderDistance, hp, if_true, hd, bind, Except.bind]
      rw [min_eq_left (by norm_num)]
    · have h3 : 1 ≤ √3 := by rw [Real.one_le_sqrt]; norm_num
      have hb : |(-1 : ℝ) / (2 * √3)| < 1 := by
        rw [abs_div, abs_of_pos (show 0 < 2 * √3 by positivity), div_lt_one (by positivity)]
        norm_num; linarith
      rintro ⟨_, _, h | h⟩
      · norm_num [equilateralTriangle, abs_div] at h
      · simp only [equilateralTriangle, if_true, zero_add, mul_one] at h
        exact absurd h (not_le.2 hb)

/-! ## C64: the time statistics -/

/-- C64 is false: if the clock does not advance during the call (as with a coarse clock), `compute_kernel_points`
raises ZeroDivisionError after having found the kernel points. -/
theorem C64_clock_false (geo : PolyOps G) (adm poly ws : G) (kernels : Option (List G)) (x xg : Pt ℝ) (eps : ℝ)
    (prev : Option (Pt ℝ)) (draws : List (Pt ℝ)) (t : ℝ) (tc : Pt ℝ) (T : Pt ℝ × Pt ℝ × Pt ℝ)
    (h1 : triangleCentre geo adm (selectionSet geo adm poly ws kernels) x xg prev draws = .ok (some tc))
    (h2 : kernelTriangle geo (selectionSet geo adm poly ws kernels) tc eps = .ok T) :
    kernelPoints geo adm poly ws kernels x xg eps prev draws ⟨t, t, t, t, t, t⟩ = .error .zeroDivisionError := by
  simp [kernelPoints, h1, h2, timings, bind, Except.bind]

/-- C64 (partial): with a clock that never runs backwards and advances during the call, the result is that of the
geometric computation. -/
theorem C64_clock_partial (geo : PolyOps G) (adm poly ws : G) (kernels : Option (List G)) (x xg : Pt ℝ) (eps : ℝ)
    (prev : Option (Pt ℝ)) (draws : List (Pt ℝ)) (c : Clock) (h1 : c.t0 ≤ c.t1) (h3 : c.t0 ≤ c.t3)
    (h5 : c.t0 < c.t5) (tc : Pt ℝ) (T : Pt ℝ × Pt ℝ × Pt ℝ)
    (hc : triangleCentre geo adm (selectionSet geo adm poly ws kernels) x xg prev draws = .ok (some tc))
    (hT : kernelTriangle geo (selectionSet geo adm poly ws kernels) tc eps = .ok T) :
    kernelPoints geo adm poly ws kernels x xg eps prev draws c = .ok (some T) := by
  have h : timings c = .ok () := by
    rw [timings, if_neg]
    intro h0
    have : (c.t1 - c.t0) * 1000 + (c.t3 - c.t0) * 1000 + (c.t5 - c.t0) * 1000 = 0 := by linear_combination h0
    linarith
  simp [kernelPoints, hc, hT, h, bind, Except.bind]

end Starworlds
