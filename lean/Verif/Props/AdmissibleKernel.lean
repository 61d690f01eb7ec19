import Verif.Model.StarHull
import Verif.Spec.StarHull
import Verif.Proofs.Cones
import Verif.Props.EllipseTangent
import Verif.Props.PolygonTangent
import Mathlib.Analysis.LocallyConvex.Separation
import Mathlib.Analysis.Convex.Topology
import Mathlib.Analysis.Convex.Combination
import Mathlib.Tactic.IntervalCases

/-! # C58: the admissible kernel -/

namespace Starworlds

open Real Spec

theorem cross_neg_neg (u v : Pt ℝ) : cross (-u) (-v) = cross u v := by simp only [cross, Prod.fst_neg, Prod.snd_neg]; ring

theorem cross_smul (r : ℝ) (u v : Pt ℝ) : cross u (r • v) = r * cross u v := by
  simp only [cross, Prod.smul_fst, Prod.smul_snd, smul_eq_mul]; ring

/-- A convex set contains the points between two of its points. -/
theorem convex_seg {O : Set (Pt ℝ)} (h : Convex ℝ O) {a b p : Pt ℝ} (ha : a ∈ O) (hb : b ∈ O) (hp : OnSegment a b p) :
    p ∈ O := by
  obtain ⟨t, h0, h1, rfl⟩ := hp
  have := h ha hb (sub_nonneg.2 h1) h0 (by ring)
  have e : a + t • (b - a) = (1 - t) • a + t • b := by
    rw [sub_smul, one_smul, smul_sub]; abel
  rw [e]; exact this

/-- Two points of a convex set that are in opposite directions from `x` have `x` between them. -/
theorem opposite_mem {O : Set (Pt ℝ)} (h : Convex ℝ O) {x t s : Pt ℝ} (ht : t ∈ O) (hs : s ∈ O) {l : ℝ} (hl : l ≤ 0)
    (e : t - x = l • (s - x)) : x ∈ O := by
  refine convex_seg h ht hs ⟨-l / (1 - l), div_nonneg (by linarith) (by linarith), (div_le_one (by linarith)).2 (by linarith), ?_⟩
  have h1 : (1 : ℝ) - l ≠ 0 := by linarith
  have e1 : t = x + l • (s - x) := by rw [← e]; abel
  rw [e1]
  ext
  · simp only [Prod.fst_add, Prod.smul_fst, Prod.fst_sub, smul_eq_mul]; field_simp; ring
  · simp only [Prod.snd_add, Prod.smul_snd, Prod.snd_sub, smul_eq_mul]; field_simp; ring

/-- The plane coordinates with respect to two independent vectors. -/
theorem cramer {u w : Pt ℝ} (hD : cross u w ≠ 0) (v : Pt ℝ) :
    v = (cross v w / cross u w) • u + (cross u v / cross u w) • w := by
  ext
  · simp only [Prod.fst_add, Prod.smul_fst, smul_eq_mul]
    rw [div_mul_eq_mul_div, div_mul_eq_mul_div, ← add_div, eq_div_iff hD]
    simp only [cross]; ring
  · simp only [Prod.snd_add, Prod.smul_snd, smul_eq_mul]
    rw [div_mul_eq_mul_div, div_mul_eq_mul_div, ← add_div, eq_div_iff hD]
    simp only [cross]; ring

/-- Parallel vectors. -/
theorem parallel {u w : Pt ℝ} (hu : u ≠ 0) (hD : cross u w = 0) : ∃ l : ℝ, w = l • u := by
  simp only [cross] at hD
  by_cases h1 : u.1 = 0
  · have h2 : u.2 ≠ 0 := fun h2 => hu (Prod.ext h1 h2)
    refine ⟨w.2 / u.2, Prod.ext ?_ ?_⟩
    · simp only [Prod.smul_fst, smul_eq_mul, h1, mul_zero]
      rw [h1, zero_mul, zero_sub, neg_eq_zero] at hD
      exact (mul_eq_zero.1 hD).resolve_left h2
    · simp only [Prod.smul_snd, smul_eq_mul]; field_simp
  · refine ⟨w.1 / u.1, Prod.ext ?_ ?_⟩
    · simp only [Prod.smul_fst, smul_eq_mul]; field_simp
    · simp only [Prod.smul_snd, smul_eq_mul]; field_simp; linarith

/-- The cone of the admissible kernel, when the obstacle is seen between the two tangent points in the right order. -/
theorem kernel_mem {O : Set (Pt ℝ)} {x t s : Pt ℝ} (h : SeenBetween O x t s) (k : Pt ℝ) :
    (⟨x, x - t, x - s⟩ : Cone ℝ).pointInCone k = true ↔
      ¬ (1 / 10 ^ 10 < cross (x - s) (k - x) ∧ 1 / 10 ^ 10 < cross (k - x) (x - t)) := by
  have e := pointInCone_eq (⟨x, x - t, x - s⟩ : Cone ℝ) (k - x)
  simp only [add_sub_cancel] at e
  have hD : ccwDir (x - t) (x - s) = false := by
    have h1 := h.right t h.left_mem
    have h2 : cross (x - t) (x - s) = - cross (s - x) (t - x) := by
      simp only [cross, Prod.fst_sub, Prod.snd_sub]; ring
    have h0 := thr_pos (K := ℝ)
    simp only [ccwDir, decide_eq_false_iff_not, not_lt, h2]
    linarith
  rw [e, hD]
  simp only [Bool.false_eq_true, if_false, Bool.not_eq_true']
  rw [← not_iff_not, not_not, Bool.not_eq_false, Bool.and_eq_true]
  simp only [ccwDir, decide_eq_true_eq]
  rfl

/-- C58 (partial): a point of the admissible kernel that is off the two lines by the threshold of the orientation test
has no obstacle point behind `x`: no segment from it to an obstacle point passes through `x`. Missing: points within
the threshold of the lines (`C58_boundary_false`) and tangent points in the wrong order (`C58_order_false`). -/
theorem C58_sound_partial (tp : Pt ℝ → Except PyErr (List (Pt ℝ))) (O : Set (Pt ℝ)) (x t s : Pt ℝ) (hx : x ∉ O)
    (htp : tp x = .ok [t, s]) (h : SeenBetween O x t s) (k : Pt ℝ)
    (h1 : 1 / 10 ^ 10 < |cross (x - t) (k - x)|) (h2 : 1 / 10 ^ 10 < |cross (x - s) (k - x)|) :
    ∃ c, admissibleKernel tp x = .ok (some c) ∧
      (c.pointInCone k = true → ∀ q ∈ O, ¬ OnSegment k q x) := by
  refine ⟨⟨x, x - t, x - s⟩, by simp [admissibleKernel, htp, bind, Except.bind], ?_⟩
  rw [kernel_mem h]
  rintro hk q hq ⟨τ, h0, hle, e⟩
  apply hk
  have hτ : τ < 1 := by
    rcases hle.eq_or_lt with rfl | h
    · rw [one_smul, add_sub_cancel] at e
      exact absurd (e ▸ hq) hx
    · exact h
  set μ := τ / (1 - τ) with hμ
  have hμ0 : 0 ≤ μ := div_nonneg h0 (by linarith)
  have hv : k - x = (-μ) • (q - x) := by
    have h1τ : (1 : ℝ) - τ ≠ 0 := by linarith
    have e1 : x.1 = k.1 + τ * (q.1 - k.1) := by simpa using congrArg Prod.fst e
    have e2 : x.2 = k.2 + τ * (q.2 - k.2) := by simpa using congrArg Prod.snd e
    ext
    · simp only [Prod.fst_sub, Prod.smul_fst, smul_eq_mul, hμ]; field_simp; rw [e1]; ring
    · simp only [Prod.snd_sub, Prod.smul_snd, smul_eq_mul, hμ]; field_simp; rw [e2]; ring
  have c1 : cross (x - s) (k - x) = μ * cross (s - x) (q - x) := by
    rw [hv, cross_smul]; simp only [cross, Prod.fst_sub, Prod.snd_sub]; ring
  have c2 : cross (x - t) (k - x) = -(μ * cross (q - x) (t - x)) := by
    rw [hv, cross_smul]; simp only [cross, Prod.fst_sub, Prod.snd_sub]; ring
  have p1 : 0 ≤ cross (x - s) (k - x) := by rw [c1]; exact mul_nonneg hμ0 (h.right q hq)
  have p2 : cross (x - t) (k - x) ≤ 0 := by
    rw [c2]; exact neg_nonpos.2 (mul_nonneg hμ0 (h.left q hq))
  rw [abs_of_nonneg p1] at h2
  rw [abs_of_nonpos p2] at h1
  refine ⟨h2, ?_⟩
  rw [cross_swap]; exact h1

/-- C58: conversely, a point from which no segment into the (convex) obstacle passes through `x` is in the admissible
kernel. -/
theorem C58_complete (tp : Pt ℝ → Except PyErr (List (Pt ℝ))) (O : Set (Pt ℝ)) (hO : Convex ℝ O) (x t s : Pt ℝ)
    (hx : x ∉ O) (htp : tp x = .ok [t, s]) (h : SeenBetween O x t s) (k : Pt ℝ) (hk : ∀ q ∈ O, ¬ OnSegment k q x) :
    ∃ c, admissibleKernel tp x = .ok (some c) ∧ c.pointInCone k = true := by
  refine ⟨⟨x, x - t, x - s⟩, by simp [admissibleKernel, htp, bind, Except.bind], ?_⟩
  rw [kernel_mem h]
  rintro ⟨h1, h2⟩
  have h0 : (0 : ℝ) < 1 / 10 ^ 10 := by norm_num
  have h1 := h0.trans h1
  have h2 := h0.trans h2
  have hD0 := h.right t h.left_mem
  have e1 : cross (x - s) (k - x) = - cross (s - x) (k - x) := by
    simp only [cross, Prod.fst_sub, Prod.snd_sub]; ring
  have e2 : cross (k - x) (x - t) = - cross (k - x) (t - x) := by
    simp only [cross, Prod.fst_sub, Prod.snd_sub]; ring
  rcases hD0.eq_or_lt with hD | hD
  · have hs : s - x ≠ 0 := by
      intro hz
      rw [e1, hz] at h1
      simp [cross] at h1
    obtain ⟨l, hl⟩ := parallel hs hD.symm
    rcases le_or_gt l 0 with hl0 | hl0
    · exact hx (opposite_mem hO h.left_mem h.right_mem hl0 hl)
    · rw [e2, hl, cross_smul, cross_swap] at h2
      rw [e1] at h1
      nlinarith
  · have hv := cramer hD.ne' (k - x)
    set a := cross (k - x) (t - x) / cross (s - x) (t - x) with ha
    set b := cross (s - x) (k - x) / cross (s - x) (t - x) with hb
    have ha0 : a < 0 := div_neg_of_neg_of_pos (by linarith) hD
    have hb0 : b < 0 := div_neg_of_neg_of_pos (by linarith) hD
    have hab : -(a + b) ≠ 0 := by linarith
    have hab1 : 1 - (a + b) ≠ 0 := by linarith
    have hq : s + (b / (a + b)) • (t - s) ∈ O := by
      refine convex_seg hO h.right_mem h.left_mem ⟨_, ?_, ?_, rfl⟩
      · exact div_nonneg_of_nonpos hb0.le (by linarith)
      · rw [div_le_one_of_neg (by linarith)]; linarith
    refine hk _ hq ⟨-(a + b) / (1 - (a + b)), div_nonneg (by linarith) (by linarith),
      (div_le_one (by linarith)).2 (by linarith), ?_⟩
    have f1 : k.1 = x.1 + (a * (s.1 - x.1) + b * (t.1 - x.1)) := by
      have := congrArg Prod.fst hv
      simp only [Prod.fst_sub, Prod.fst_add, Prod.smul_fst, smul_eq_mul] at this
      linarith
    have f2 : k.2 = x.2 + (a * (s.2 - x.2) + b * (t.2 - x.2)) := by
      have := congrArg Prod.snd hv
      simp only [Prod.snd_sub, Prod.snd_add, Prod.smul_snd, smul_eq_mul] at this
      linarith
    have hab2 : a + b ≠ 0 := by linarith
    ext
    · simp only [Prod.fst_sub, Prod.fst_add, Prod.smul_fst, smul_eq_mul, f1]; field_simp; ring
    · simp only [Prod.snd_sub, Prod.snd_add, Prod.smul_snd, smul_eq_mul, f2]; field_simp; ring

/-! ## The obstacles of the code -/

/-- The points of an ellipse in the world. -/
def ellPoints (e : Ell) : Set (Pt ℝ) := {q | ∃ p, ellForm e.a p ≤ 1 ∧ q = inFrame e.mm .global p}

/-- The points of a convex polygon in the world. -/
def polyRegion (mm : Option Pose) (v : List (Pt ℝ)) : Set (Pt ℝ) :=
  {q | ∃ p ∈ convexHull ℝ {p | p ∈ v}, q = inFrame mm .global p}

theorem convex_inFrame {L : Set (Pt ℝ)} (h : Convex ℝ L) (mm : Option Pose) :
    Convex ℝ {q | ∃ p ∈ L, q = inFrame mm .global p} := by
  rintro _ ⟨p, hp, rfl⟩ _ ⟨q, hq, rfl⟩ a b ha hb hab
  refine ⟨p + b • (q - p), convex_seg h hp hq ⟨b, hb, by linarith, rfl⟩, ?_⟩
  have : a = 1 - b := by linarith
  subst this
  rw [inFrame_line]
  rw [sub_smul, one_smul, smul_sub]; abel

theorem ellForm_below_convex (a : Pt ℝ) : Convex ℝ {p | ellForm a p ≤ 1} := by
  intro p hp q hq s t hs ht hst
  simp only [Set.mem_ofPred_eq, ellForm] at *
  have : s = 1 - t := by linarith
  subst this
  simp only [Prod.fst_add, Prod.smul_fst, Prod.snd_add, Prod.smul_snd, smul_eq_mul]
  have e : ((1 - t) * p.1 + t * q.1) ^ 2 / a.1 ^ 2 + ((1 - t) * p.2 + t * q.2) ^ 2 / a.2 ^ 2 =
      (1 - t) * (p.1 ^ 2 / a.1 ^ 2 + p.2 ^ 2 / a.2 ^ 2) + t * (q.1 ^ 2 / a.1 ^ 2 + q.2 ^ 2 / a.2 ^ 2) -
      t * (1 - t) * ((p.1 - q.1) ^ 2 / a.1 ^ 2 + (p.2 - q.2) ^ 2 / a.2 ^ 2) := by ring
  have h2 : 0 ≤ t * (1 - t) * ((p.1 - q.1) ^ 2 / a.1 ^ 2 + (p.2 - q.2) ^ 2 / a.2 ^ 2) := by positivity
  rw [e]
  nlinarith

theorem ellPoints_convex (e : Ell) : Convex ℝ (ellPoints e) := by
  have := convex_inFrame (ellForm_below_convex e.a) e.mm
  simpa [ellPoints] using this

theorem polyRegion_convex (mm : Option Pose) (v : List (Pt ℝ)) : Convex ℝ (polyRegion mm v) :=
  convex_inFrame (convex_convexHull ℝ _) mm

theorem mem_ellPoints {e : Ell} {p : Pt ℝ} : inFrame e.mm .global p ∈ ellPoints e ↔ ellForm e.a p ≤ 1 := by
  constructor
  · rintro ⟨q, hq, h⟩
    rw [inFrame_inj _ _ (Or.inl rfl) h]; exact hq
  · intro h; exact ⟨p, h, rfl⟩

theorem mem_polyRegion {mm : Option Pose} {v : List (Pt ℝ)} {p : Pt ℝ} :
    inFrame mm .global p ∈ polyRegion mm v ↔ p ∈ convexHull ℝ {p | p ∈ v} := by
  constructor
  · rintro ⟨q, hq, h⟩
    rw [inFrame_inj _ _ (Or.inl rfl) h]; exact hq
  · intro h; exact ⟨p, h, rfl⟩

theorem tangentsFrom_seen {e : Ell} {p t s : Pt ℝ} (h : TangentsFrom e.a p t s) :
    SeenBetween (ellPoints e) (inFrame e.mm .global p) (inFrame e.mm .global t) (inFrame e.mm .global s) := by
  refine ⟨mem_ellPoints.2 h.on1.le, mem_ellPoints.2 h.on2.le, ?_, ?_⟩
  · rintro _ ⟨q, hq, rfl⟩
    rw [inFrame_cross]; exact h.right q hq
  · rintro _ ⟨q, hq, rfl⟩
    rw [inFrame_cross]; exact h.left q hq

/-- C58 for ellipses: from a point far enough outside, `admissible_kernel` is defined and its cone has the property
above. -/
theorem C58_ellipse_partial (e : Ell) (h0 : 0 < e.a.1) (h1 : 0 < e.a.2) (p : Pt ℝ) (hp : 1 < ellForm e.a p)
    (hb : OffBand e.a p)
    (hfar : (1 / 10 ^ 10) ^ 2 * ellForm e.a p ^ 2 < 4 * e.a.1 ^ 2 * e.a.2 ^ 2 * (ellForm e.a p - 1) ^ 3) :
    ∃ c t s, admissibleKernel (fun x => e.tangentPoints x .global .global) (inFrame e.mm .global p) = .ok (some c) ∧
      SeenBetween (ellPoints e) (inFrame e.mm .global p) t s ∧
      ∀ k : Pt ℝ, ((∀ q ∈ ellPoints e, ¬ OnSegment k q (inFrame e.mm .global p)) → c.pointInCone k = true) ∧
        (1 / 10 ^ 10 < |cross (inFrame e.mm .global p - t) (k - inFrame e.mm .global p)| →
          1 / 10 ^ 10 < |cross (inFrame e.mm .global p - s) (k - inFrame e.mm .global p)| →
          c.pointInCone k = true → ∀ q ∈ ellPoints e, ¬ OnSegment k q (inFrame e.mm .global p)) := by
  obtain ⟨t, s, hts, htp⟩ := C32_order_partial e h0 h1 .global (Or.inl rfl) p hp hb hfar
  have hseen := tangentsFrom_seen hts
  have hx : inFrame e.mm .global p ∉ ellPoints e := by rw [mem_ellPoints, not_le]; exact hp
  refine ⟨⟨inFrame e.mm .global p, inFrame e.mm .global p - inFrame e.mm .global t, inFrame e.mm .global p - inFrame e.mm .global s⟩,
    inFrame e.mm .global t, inFrame e.mm .global s, by simp only [admissibleKernel, htp, bind, Except.bind], hseen, ?_⟩
  intro k
  constructor
  · intro hk
    obtain ⟨c, hc, hm⟩ := C58_complete (fun x => e.tangentPoints x .global .global) _ (ellPoints_convex e) _ _ _ hx htp hseen k hk
    simp only [admissibleKernel, htp, bind, Except.bind, Except.ok.injEq, Option.some.injEq] at hc
    rw [hc]; exact hm
  · intro k1 k2 hm
    obtain ⟨c, hc, hm'⟩ := C58_sound_partial (fun x => e.tangentPoints x .global .global) _ _ _ _ hx htp hseen k k1 k2
    simp only [admissibleKernel, htp, bind, Except.bind, Except.ok.injEq, Option.some.injEq] at hc
    rw [hc] at hm; exact hm' hm

/-- A point outside of a convex polygon has the polygon on one side. -/
theorem separate {v : List (Pt ℝ)} {x : Pt ℝ} (hx : x ∉ convexHull ℝ {p | p ∈ v}) :
    ∃ u : Pt ℝ, ∀ p ∈ v, 0 < u.1 * (p.1 - x.1) + u.2 * (p.2 - x.2) := by
  have hfin : {p : Pt ℝ | p ∈ v}.Finite := List.finite_toSet v
  have hcl : IsClosed (convexHull ℝ {p : Pt ℝ | p ∈ v}) := hfin.isCompact_convexHull ℝ |>.isClosed
  obtain ⟨f, u, h1, h2⟩ := geometric_hahn_banach_point_closed (convex_convexHull ℝ _) hcl hx
  refine ⟨(f (1, 0), f (0, 1)), fun p hp => ?_⟩
  have hf : ∀ q : Pt ℝ, f q = f (1, 0) * q.1 + f (0, 1) * q.2 := by
    intro q
    have : q = q.1 • ((1, 0) : Pt ℝ) + q.2 • ((0, 1) : Pt ℝ) := by ext <;> simp
    conv_lhs => rw [this, map_add, map_smul, map_smul, smul_eq_mul, smul_eq_mul]
    ring
  have h3 := h2 p (subset_convexHull ℝ _ hp)
  rw [hf x] at h1
  rw [hf p] at h3
  simp only
  linarith

theorem polygon_seen (mm : Option Pose) (v : List (Pt ℝ)) (hv : v ≠ []) (x : Pt ℝ) (hx : x ∉ convexHull ℝ {p | p ∈ v}) :
    ∃ t s, polygonTangentPoints mm v (inFrame mm .global x) .global .global =
        .ok [inFrame mm .global t, inFrame mm .global s] ∧ t ∈ v ∧ s ∈ v ∧
      SeenBetween (polyRegion mm v) (inFrame mm .global x) (inFrame mm .global t) (inFrame mm .global s) := by
  obtain ⟨u, hu⟩ := separate hx
  obtain ⟨t, s, he, ht, hs, _, hring⟩ := C38_separated mm v hv .global .global (Or.inl rfl) (Or.inl rfl) x u hu
  refine ⟨t, s, he, ht, hs, mem_polyRegion.2 (subset_convexHull ℝ _ ht), mem_polyRegion.2 (subset_convexHull ℝ _ hs), ?_, ?_⟩
  · rintro _ ⟨q, hq, rfl⟩
    rw [inFrame_cross]
    have hsub : {p | p ∈ v} ⊆ {q : Pt ℝ | 0 ≤ cross (s - x) (q - x)} := by
      intro p hp
      refine (hring p ?_).1
      obtain ⟨i, hi, rfl⟩ := List.mem_iff_getElem.1 hp
      refine ⟨i, hi, 0, le_rfl, zero_le_one, ?_⟩
      rw [zero_smul, add_zero, corner, Nat.mod_eq_of_lt hi, List.getD_eq_getElem _ _ hi]
    have hconv : Convex ℝ {q : Pt ℝ | 0 ≤ cross (s - x) (q - x)} := by
      intro a ha b hb r w hr hw hrw
      simp only [Set.mem_ofPred_eq, cross, Prod.fst_sub, Prod.snd_sub, Prod.fst_add, Prod.snd_add, Prod.smul_fst,
        Prod.smul_snd, smul_eq_mul] at *
      have : r = 1 - w := by linarith
      subst this
      nlinarith
    exact convexHull_min hsub hconv hq
  · rintro _ ⟨q, hq, rfl⟩
    rw [inFrame_cross]
    have hsub : {p | p ∈ v} ⊆ {q : Pt ℝ | 0 ≤ cross (q - x) (t - x)} := by
      intro p hp
      refine (hring p ?_).2
      obtain ⟨i, hi, rfl⟩ := List.mem_iff_getElem.1 hp
      refine ⟨i, hi, 0, le_rfl, zero_le_one, ?_⟩
      rw [zero_smul, add_zero, corner, Nat.mod_eq_of_lt hi, List.getD_eq_getElem _ _ hi]
    have hconv : Convex ℝ {q : Pt ℝ | 0 ≤ cross (q - x) (t - x)} := by
      intro a ha b hb r w hr hw hrw
      simp only [Set.mem_ofPred_eq, cross, Prod.fst_sub, Prod.snd_sub, Prod.fst_add, Prod.snd_add, Prod.smul_fst,
        Prod.smul_snd, smul_eq_mul] at *
      have : r = 1 - w := by linarith
      subst this
      nlinarith
    exact convexHull_min hsub hconv hq

/-- C58 for polygons: from every point outside the convex hull of the vertices, `admissible_kernel` is defined and
its cone has the property above. -/
theorem C58_polygon_partial (mm : Option Pose) (v : List (Pt ℝ)) (hv : v ≠ []) (x : Pt ℝ)
    (hx : x ∉ convexHull ℝ {p | p ∈ v}) :
    ∃ c t s, admissibleKernel (fun x => polygonTangentPoints mm v x .global .global) (inFrame mm .global x) = .ok (some c) ∧
      SeenBetween (polyRegion mm v) (inFrame mm .global x) t s ∧
      ∀ k : Pt ℝ, ((∀ q ∈ polyRegion mm v, ¬ OnSegment k q (inFrame mm .global x)) → c.pointInCone k = true) ∧
        (1 / 10 ^ 10 < |cross (inFrame mm .global x - t) (k - inFrame mm .global x)| →
          1 / 10 ^ 10 < |cross (inFrame mm .global x - s) (k - inFrame mm .global x)| →
          c.pointInCone k = true → ∀ q ∈ polyRegion mm v, ¬ OnSegment k q (inFrame mm .global x)) := by
  obtain ⟨t, s, htp, ht, hs, hseen⟩ := polygon_seen mm v hv x hx
  have hx : inFrame mm .global x ∉ polyRegion mm v := by rw [mem_polyRegion]; exact hx
  refine ⟨⟨inFrame mm .global x, inFrame mm .global x - inFrame mm .global t, inFrame mm .global x - inFrame mm .global s⟩,
    inFrame mm .global t, inFrame mm .global s, by simp only [admissibleKernel, htp, bind, Except.bind], hseen, ?_⟩
  intro k
  constructor
  · intro hk
    obtain ⟨c, hc, hm⟩ := C58_complete (fun x => polygonTangentPoints mm v x .global .global) _ (polyRegion_convex mm v) _ _ _ hx htp hseen k hk
    simp only [admissibleKernel, htp, bind, Except.bind, Except.ok.injEq, Option.some.injEq] at hc
    rw [hc]; exact hm
  · intro k1 k2 hm
    obtain ⟨c, hc, hm'⟩ := C58_sound_partial (fun x => polygonTangentPoints mm v x .global .global) _ _ _ _ hx htp hseen k k1 k2
    simp only [admissibleKernel, htp, bind, Except.bind, Except.ok.injEq, Option.some.injEq] at hc
    rw [hc] at hm; exact hm' hm

/-- The box from 1 to 2. -/
def nearBox : List (Pt ℝ) := [(2, -1), (2, 1), (1, 1), (1, -1)]

theorem nearBox_right (q : Pt ℝ) (h : q ∈ convexHull ℝ {p | p ∈ nearBox}) : 1 ≤ q.1 := by
  have hsub : {p | p ∈ nearBox} ⊆ {q : Pt ℝ | 1 ≤ q.1} := by
    intro p hp
    simp only [Set.mem_ofPred_eq, nearBox, List.mem_cons, List.not_mem_nil, or_false] at hp ⊢
    rcases hp with rfl | rfl | rfl | rfl <;> norm_num
  have hconv : Convex ℝ {q : Pt ℝ | 1 ≤ q.1} := by
    intro a ha b hb r w hr hw hrw
    simp only [Set.mem_ofPred_eq, Prod.fst_add, Prod.smul_fst, smul_eq_mul] at *
    have : r = 1 - w := by linarith
    subst this
    nlinarith
  exact convexHull_min hsub hconv h

/-- The tangent points of that box from the origin. -/
theorem nearBox_tangents : polygonTangentPoints none nearBox 0 .global .global = .ok [(1, 1), (1, -1)] := by
  obtain ⟨t, s, h1, ht, hs, h2⟩ := polygon_seen none nearBox (by simp [nearBox]) 0 (fun h => by
    have := nearBox_right 0 h
    norm_num at this)
  have e : ∀ p : Pt ℝ, inFrame none .global p = p := fun p => rfl
  simp only [e] at h1 h2
  have m : ∀ p ∈ nearBox, p ∈ polyRegion none nearBox := fun p hp => ⟨p, subset_convexHull ℝ _ hp, rfl⟩
  have r1 := h2.left (1, 1) (m _ (by simp [nearBox]))
  have r2 := h2.right (1, -1) (m _ (by simp [nearBox]))
  have ht' : t = (1, 1) := by
    simp only [nearBox, List.mem_cons, List.not_mem_nil, or_false] at ht
    rcases ht with rfl | rfl | rfl | rfl <;> first | rfl | (exfalso; norm_num [cross] at r1)
  have hs' : s = (1, -1) := by
    simp only [nearBox, List.mem_cons, List.not_mem_nil, or_false] at hs
    rcases hs with rfl | rfl | rfl | rfl <;> first | rfl | (exfalso; norm_num [cross] at r2)
  rw [h1, ht', hs']

/-- C58 is false on the border: with the box from 1 to 2 seen from the origin, (-1, -1) is in the admissible kernel, but
the origin is on the segment from it to the corner (1, 1). -/
theorem C58_boundary_false :
    ∃ c, admissibleKernel (fun x => polygonTangentPoints none nearBox x .global .global) 0 = .ok (some c) ∧
      c.pointInCone (-1, -1) = true ∧ (1, 1) ∈ polyRegion none nearBox ∧ OnSegment ((-1, -1) : Pt ℝ) (1, 1) 0 := by
  refine ⟨⟨0, 0 - (1, 1), 0 - (1, -1)⟩, by simp only [admissibleKernel, nearBox_tangents, bind, Except.bind], ?_,
    ⟨(1, 1), subset_convexHull ℝ _ (by simp [nearBox]), rfl⟩, 1 / 2, by norm_num, by norm_num, ?_⟩
  · norm_num [Cone.pointInCone, Cone.isConvex, Cone.ray1, Cone.ray2, isCcw, isCw, orientationVal, collinearThreshold]
  · ext <;> norm_num

/-- The first tangent point of an ellipse is never reported clockwise of the second. -/
theorem ell_never_ccw (e : Ell) (h0 : 0 < e.a.1) (h1 : 0 < e.a.2) (p : Pt ℝ) (hp : 1 < ellForm e.a p) (hb : OffBand e.a p)
    {t s : Pt ℝ} (h : e.tangentPoints (inFrame e.mm .global p) .global .global = .ok [t, s]) :
    ¬ 1 / 10 ^ 10 < cross (t - inFrame e.mm .global p) (s - inFrame e.mm .global p) := by
  obtain ⟨t1, t2, w, ht, hpair⟩ := ellTangents_pair h0 h1 hp hb
  rw [tangentPoints_eq e h0 h1 .global .global (Or.inl rfl) (Or.inl rfl) p hp ht] at h
  intro hc
  split at h
  · rename_i hcc
    simp only [Except.ok.injEq, List.cons.injEq, and_true] at h
    obtain ⟨rfl, rfl⟩ := h
    rw [isCcw_cross] at hcc
    have e1 : cross (inFrame e.mm .global t2 - inFrame e.mm .global p) (inFrame e.mm .global t1 - inFrame e.mm .global p) =
      - cross (inFrame e.mm .global t1 - inFrame e.mm .global p) (inFrame e.mm .global t2 - inFrame e.mm .global p) :=
      cross_swap _ _
    have : (0 : ℝ) < 1 / 10 ^ 10 := by norm_num
    linarith
  · rename_i hcc
    simp only [Except.ok.injEq, List.cons.injEq, and_true] at h
    obtain ⟨rfl, rfl⟩ := h
    exact hcc ((isCcw_cross _ _ _).2 hc)

/-- C58 is false very close to an ellipse: there is a point `x` outside the unit circle from which the tangent points
come in the wrong order; then the point `2 x` straight behind `x` is in the admissible kernel although `x` is between
it and the centre of the circle. -/
theorem C58_order_false : ∃ x : Pt ℝ, x ∉ ellPoints unitEll ∧
    ∃ c, admissibleKernel (fun x => unitEll.tangentPoints x .global .global) x = .ok (some c) ∧
      c.pointInCone (x + x) = true ∧ (0 : Pt ℝ) ∈ ellPoints unitEll ∧ OnSegment (x + x) 0 x := by
  obtain ⟨p, hp, hb, t, s, htp, hts⟩ := C32_order_false
  have hid : ∀ q : Pt ℝ, inFrame unitEll.mm .global q = q := fun q => rfl
  have hnc := ell_never_ccw unitEll (by norm_num [unitEll]) (by norm_num [unitEll]) p hp hb (t := s) (s := t) (by rw [hid]; exact htp)
  rw [hid] at hnc
  have h00 : ellForm unitEll.a 0 ≤ 1 := by simp [ellForm]
  refine ⟨p, ?_, ⟨p, p - s, p - t⟩, ?_, ?_, ?_, ?_⟩
  · have := (mem_ellPoints (e := unitEll) (p := p)).not
    rw [hid] at this
    rw [this, not_le]; exact hp
  · simp only [admissibleKernel, htp, bind, Except.bind]
  · rw [show p + p = (⟨p, p - s, p - t⟩ : Cone ℝ).apex + p from rfl, pointInCone_eq]
    have c1 : ccwDir (p - s) (p - t) = false := by
      simp only [ccwDir, decide_eq_false_iff_not]
      have : cross (p - s) (p - t) = cross (s - p) (t - p) := by simp only [cross, Prod.fst_sub, Prod.snd_sub]; ring
      rw [this]; exact hnc
    have c2 : ccwDir (p - t) p = false := by
      simp only [ccwDir, decide_eq_false_iff_not, not_lt]
      have h3 := hts.left 0 h00
      have : cross (p - t) p = - cross (0 - p) (t - p) := by
        simp only [cross, Prod.fst_sub, Prod.snd_sub, Prod.fst_zero, Prod.snd_zero]; ring
      rw [this]
      have := thr_pos (K := ℝ)
      linarith
    simp [c1, c2]
  · exact ⟨0, h00, rfl⟩
  · refine ⟨1 / 2, by norm_num, by norm_num, ?_⟩
    ext <;> simp <;> ring

/-- For that box seen from the origin, (0, 5) is in the admissible kernel and (-5, 0) is not. -/
example : ∃ c, admissibleKernel (fun x => polygonTangentPoints none nearBox x .global .global) 0 = .ok (some c) ∧
    c.pointInCone (0, 5) = true ∧ c.pointInCone (-5, 0) = false := by
  refine ⟨⟨0, 0 - (1, 1), 0 - (1, -1)⟩, by simp only [admissibleKernel, nearBox_tangents, bind, Except.bind], ?_, ?_⟩ <;>
  norm_num [Cone.pointInCone, Cone.isConvex, Cone.ray1, Cone.ray2, isCcw, isCw, orientationVal, collinearThreshold]

end Starworlds
