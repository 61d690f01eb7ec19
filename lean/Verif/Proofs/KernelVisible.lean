import Verif.Spec.Kernel
import Mathlib.Analysis.Convex.Combination
import Mathlib.Tactic.Linarith
import Mathlib.Tactic.IntervalCases

/-! # Two polygons as sets, and the points from which they are visible -/

namespace Starworlds

open Spec
section
variable {a b c d : ℝ}

/-- The corners of the L-shape. -/
def cornerShape (a b c d : ℝ) : List (Pt ℝ) := [(0, 0), (a, 0), (a, d), (c, d), (c, b), (0, b)]

theorem rayCrosses_vertical {x y0 y1 : ℝ} {p : Pt ℝ} (h : y0 < y1) :
    RayCrosses (x, y0) (x, y1) p ↔ y0 ≤ p.2 ∧ p.2 < y1 ∧ p.1 < x := by
  constructor
  · rintro ⟨h1, q, ⟨t, rfl⟩, h2, h3⟩
    simp at h1 h2 h3
    rcases h1 with h1 | h1
    · exact ⟨h1.1, h1.2, h3⟩
    · linarith
  · rintro ⟨h1, h2, h3⟩
    refine ⟨Or.inl ⟨h1, h2⟩, (x, p.2), ⟨(p.2 - y0) / (y1 - y0), ?_⟩, rfl, h3⟩
    have : y1 - y0 ≠ 0 := by linarith
    ext
    · simp
    · simp; field_simp; ring

theorem rayCrosses_swap {a b p : Pt ℝ} : RayCrosses a b p ↔ RayCrosses b a p := by
  have key : ∀ {a b : Pt ℝ}, RayCrosses a b p → RayCrosses b a p := by
    rintro a b ⟨h1, q, ⟨t, rfl⟩, h2, h3⟩
    refine ⟨h1.symm, _, ⟨1 - t, ?_⟩, h2, h3⟩
    module
  exact ⟨key, key⟩

theorem rayCrosses_horizontal {x0 x1 y : ℝ} {p : Pt ℝ} : ¬ RayCrosses (x0, y) (x1, y) p := by
  rintro ⟨h1, -⟩
  rcases h1 with h1 | h1 <;> exact absurd h1.2 (not_lt.mpr h1.1)

theorem onSegment_vertical {x y0 y1 : ℝ} {p : Pt ℝ} (h : y0 ≤ y1) :
    OnSegment (x, y0) (x, y1) p ↔ p.1 = x ∧ y0 ≤ p.2 ∧ p.2 ≤ y1 := by
  constructor
  · rintro ⟨t, h0, h1, rfl⟩
    simp
    constructor <;> nlinarith
  · rintro ⟨h1, h2, h3⟩
    rcases h.eq_or_lt with e | h
    · exact ⟨0, le_refl _, zero_le_one, by ext <;> simp <;> linarith⟩
    · have : y1 - y0 ≠ 0 := by linarith
      refine ⟨(p.2 - y0) / (y1 - y0), by apply div_nonneg <;> linarith, by rw [div_le_one] <;> linarith, ?_⟩
      ext
      · simp [h1]
      · simp; field_simp; ring

theorem onSegment_swap {a b p : Pt ℝ} : OnSegment a b p ↔ OnSegment b a p := by
  have key : ∀ {a b : Pt ℝ}, OnSegment a b p → OnSegment b a p := by
    rintro a b ⟨t, h0, h1, rfl⟩
    exact ⟨1 - t, by linarith, by linarith, by module⟩
  exact ⟨key, key⟩

theorem onSegment_horizontal {y x0 x1 : ℝ} {p : Pt ℝ} (h : x0 ≤ x1) :
    OnSegment (x0, y) (x1, y) p ↔ p.2 = y ∧ x0 ≤ p.1 ∧ p.1 ≤ x1 := by
  constructor
  · rintro ⟨t, h0, h1, rfl⟩
    simp
    constructor <;> nlinarith
  · rintro ⟨h1, h2, h3⟩
    rcases h.eq_or_lt with e | h
    · exact ⟨0, le_refl _, zero_le_one, by ext <;> simp <;> linarith⟩
    · have : x1 - x0 ≠ 0 := by linarith
      refine ⟨(p.1 - x0) / (x1 - x0), by apply div_nonneg <;> linarith, by rw [div_le_one] <;> linarith, ?_⟩
      ext
      · simp; field_simp; ring
      · simp [h1]

theorem corner_ring (hc : 0 < c) (hd : 0 < d) (hca : c < a) (hdb : d < b) (p : Pt ℝ) :
    OnRing (cornerShape a b c d) p ↔
      (p.2 = 0 ∧ 0 ≤ p.1 ∧ p.1 ≤ a) ∨ (p.1 = a ∧ 0 ≤ p.2 ∧ p.2 ≤ d) ∨ (p.2 = d ∧ c ≤ p.1 ∧ p.1 ≤ a) ∨
      (p.1 = c ∧ d ≤ p.2 ∧ p.2 ≤ b) ∨ (p.2 = b ∧ 0 ≤ p.1 ∧ p.1 ≤ c) ∨ (p.1 = 0 ∧ 0 ≤ p.2 ∧ p.2 ≤ b) := by
  have e : OnRing (cornerShape a b c d) p ↔ OnSegment (0, 0) (a, 0) p ∨ OnSegment (a, 0) (a, d) p ∨
      OnSegment (a, d) (c, d) p ∨ OnSegment (c, d) (c, b) p ∨ OnSegment (c, b) (0, b) p ∨ OnSegment (0, b) (0, 0) p := by
    constructor
    · rintro ⟨i, hi, h⟩
      simp only [cornerShape, List.length_cons, List.length_nil] at hi
      interval_cases i <;> simp [cornerShape, corner] at h <;> tauto
    · rintro (h | h | h | h | h | h)
      · exact ⟨0, by simp [cornerShape], by simpa [cornerShape, corner] using h⟩
      · exact ⟨1, by simp [cornerShape], by simpa [cornerShape, corner] using h⟩
      · exact ⟨2, by simp [cornerShape], by simpa [cornerShape, corner] using h⟩
      · exact ⟨3, by simp [cornerShape], by simpa [cornerShape, corner] using h⟩
      · exact ⟨4, by simp [cornerShape], by simpa [cornerShape, corner] using h⟩
      · exact ⟨5, by simp [cornerShape], by simpa [cornerShape, corner] using h⟩
  rw [e, onSegment_horizontal (by linarith), onSegment_vertical hd.le, onSegment_swap, onSegment_horizontal hca.le,
    onSegment_vertical hdb.le, onSegment_swap (a := (c, b)), onSegment_horizontal hc.le, onSegment_swap (a := (0, b)),
    onSegment_vertical (by linarith)]

theorem corner_filled (hc : 0 < c) (hd : 0 < d) (hca : c < a) (hdb : d < b) :
    filled (cornerShape a b c d) = {p | 0 ≤ p.1 ∧ 0 ≤ p.2 ∧ ((p.1 ≤ a ∧ p.2 ≤ d) ∨ (p.1 ≤ c ∧ p.2 ≤ b))} := by
  ext p
  have key : ((List.range (cornerShape a b c d).length).filter fun i =>
      @decide (RayCrosses (corner (cornerShape a b c d) i) (corner (cornerShape a b c d) (i + 1)) p)
        (Classical.propDecidable _)).length =
      (if 0 ≤ p.2 ∧ p.2 < d ∧ p.1 < a then 1 else 0) + ((if d ≤ p.2 ∧ p.2 < b ∧ p.1 < c then 1 else 0) +
        (if 0 ≤ p.2 ∧ p.2 < b ∧ p.1 < 0 then 1 else 0)) := by
    have e0 : ¬ RayCrosses (corner (cornerShape a b c d) 0) (corner (cornerShape a b c d) 1) p := rayCrosses_horizontal
    have e1 : RayCrosses (corner (cornerShape a b c d) 1) (corner (cornerShape a b c d) 2) p ↔ _ := rayCrosses_vertical hd
    have e2 : ¬ RayCrosses (corner (cornerShape a b c d) 2) (corner (cornerShape a b c d) 3) p := rayCrosses_horizontal
    have e3 : RayCrosses (corner (cornerShape a b c d) 3) (corner (cornerShape a b c d) 4) p ↔ _ := rayCrosses_vertical hdb
    have e4 : ¬ RayCrosses (corner (cornerShape a b c d) 4) (corner (cornerShape a b c d) 5) p := rayCrosses_horizontal
    have e6 : corner (cornerShape a b c d) 6 = (0, 0) := by simp [corner, cornerShape]
    have e5 : RayCrosses (corner (cornerShape a b c d) 5) (corner (cornerShape a b c d) 6) p ↔
        0 ≤ p.2 ∧ p.2 < b ∧ p.1 < 0 := by
      rw [e6, rayCrosses_swap]
      exact rayCrosses_vertical (hd.trans hdb)
    have r : List.range (cornerShape a b c d).length = [0, 1, 2, 3, 4, 5] := rfl
    rw [r]
    simp only [List.filter_cons, List.filter_nil, zero_add, Nat.reduceAdd, e0, e1, e2, e3, e4, e5, decide_false,
      decide_eq_true_eq, Bool.false_eq_true, if_false]
    split_ifs <;> rfl
  constructor
  · rintro (⟨h1, h2⟩ | h)
    · rw [key] at h2
      simp only [Set.mem_ofPred_eq]
      split_ifs at h2 <;> simp at h2 <;> grind
    · rw [corner_ring hc hd hca hdb] at h
      simp only [Set.mem_ofPred_eq]
      grind
  · rintro h
    by_cases hr : OnRing (cornerShape a b c d) p
    · exact Or.inr hr
    · refine Or.inl ⟨hr, ?_⟩
      rw [key]
      rw [corner_ring hc hd hca hdb] at hr
      simp only [Set.mem_ofPred_eq] at h
      grind

theorem corner_visible (hc : 0 < c) (hd : 0 < d) (hca : c < a) (hdb : d < b) :
    visKernel (filled (cornerShape a b c d)) = {p | 0 ≤ p.1 ∧ p.1 ≤ c ∧ 0 ≤ p.2 ∧ p.2 ≤ d} := by
  ext p
  rw [corner_filled hc hd hca hdb]
  constructor
  · rintro ⟨⟨h1, h2, h3⟩, h⟩
    refine ⟨h1, ?_, h2, ?_⟩
    · by_contra hx
      push Not at hx
      have hy : p.2 ≤ d := by rcases h3 with h3 | h3 <;> linarith [h3.1, h3.2]
      have hpos : 0 < b - p.2 := by linarith
      have hr := h (c, b) ⟨hc.le, by simp; linarith, Or.inr ⟨le_refl _, le_refl _⟩⟩
        (p + (1 - (b - d) / (2 * (b - p.2))) • ((c, b) - p)) ⟨_, ?_, ?_, rfl⟩
      · obtain ⟨-, -, hr⟩ := hr
        have e1 : (p + (1 - (b - d) / (2 * (b - p.2))) • ((c, b) - p)).1 = c + (b - d) / (2 * (b - p.2)) * (p.1 - c) := by
          simp; ring
        have e2 : (p + (1 - (b - d) / (2 * (b - p.2))) • ((c, b) - p)).2 = b - (b - d) / 2 := by
          simp; field_simp; ring
        rw [e1, e2] at hr
        have : 0 < (b - d) / (2 * (b - p.2)) * (p.1 - c) := mul_pos (div_pos (by linarith) (by linarith)) (by linarith)
        rcases hr with hr | hr
        · linarith [hr.2]
        · linarith [hr.1]
      · rw [sub_nonneg, div_le_one (by linarith)]; linarith
      · have : 0 ≤ (b - d) / (2 * (b - p.2)) := div_nonneg (by linarith) (by linarith)
        linarith
    · by_contra hy
      push Not at hy
      have hx : p.1 ≤ c := by rcases h3 with h3 | h3 <;> linarith [h3.1, h3.2]
      have hpos : 0 < a - p.1 := by linarith
      have hr := h (a, d) ⟨by simp; linarith, hd.le, Or.inl ⟨le_refl _, le_refl _⟩⟩
        (p + (1 - (a - c) / (2 * (a - p.1))) • ((a, d) - p)) ⟨_, ?_, ?_, rfl⟩
      · obtain ⟨-, -, hr⟩ := hr
        have e1 : (p + (1 - (a - c) / (2 * (a - p.1))) • ((a, d) - p)).2 = d + (a - c) / (2 * (a - p.1)) * (p.2 - d) := by
          simp; ring
        have e2 : (p + (1 - (a - c) / (2 * (a - p.1))) • ((a, d) - p)).1 = a - (a - c) / 2 := by
          simp; field_simp; ring
        rw [e1, e2] at hr
        have : 0 < (a - c) / (2 * (a - p.1)) * (p.2 - d) := mul_pos (div_pos (by linarith) (by linarith)) (by linarith)
        rcases hr with hr | hr
        · linarith [hr.2]
        · linarith [hr.1]
      · rw [sub_nonneg, div_le_one (by linarith)]; linarith
      · have : 0 ≤ (a - c) / (2 * (a - p.1)) := div_nonneg (by linarith) (by linarith)
        linarith
  · rintro ⟨h1, h2, h3, h4⟩
    refine ⟨⟨h1, h3, Or.inl ⟨by linarith, h4⟩⟩, ?_⟩
    rintro q ⟨k1, k2, k3⟩ r ⟨t, t0, t1, rfl⟩
    simp only [Set.mem_ofPred_eq, Prod.fst_add, Prod.snd_add, Prod.smul_fst, Prod.smul_snd, Prod.fst_sub, Prod.snd_sub,
      smul_eq_mul]
    refine ⟨by nlinarith, by nlinarith, ?_⟩
    rcases k3 with ⟨k3, k4⟩ | ⟨k3, k4⟩
    · left; constructor <;> nlinarith
    · right; constructor <;> nlinarith

theorem rectangle_region (hc : 0 < c) (hd : 0 < d) :
    region [(c, d), (0, d), (0, 0), (c, 0)] = {p | 0 ≤ p.1 ∧ p.1 ≤ c ∧ 0 ≤ p.2 ∧ p.2 ≤ d} := by
  have e : {p : Pt ℝ | p ∈ [(c, d), (0, d), (0, 0), (c, 0)]} = ({0, c} : Set ℝ) ×ˢ ({0, d} : Set ℝ) := by
    ext ⟨x, y⟩
    simp only [List.mem_cons, Prod.mk.injEq, List.not_mem_nil, or_false, Set.mem_ofPred_eq, Set.mem_prod,
      Set.mem_insert_iff, Set.mem_singleton_iff]
    tauto
  rw [region, e, convexHull_prod, convexHull_pair, convexHull_pair, segment_eq_Icc hc.le, segment_eq_Icc hd.le]
  ext ⟨x, y⟩
  simp only [Set.mem_prod, Set.mem_Icc, Set.mem_ofPred_eq, and_assoc]


theorem rayCrosses_up {a b p : Pt ℝ} (h : a.2 < b.2) :
    RayCrosses a b p ↔ a.2 ≤ p.2 ∧ p.2 < b.2 ∧ 0 < (b.1 - a.1) * (p.2 - a.2) - (b.2 - a.2) * (p.1 - a.1) := by
  have hd : 0 < b.2 - a.2 := by linarith
  constructor
  · rintro ⟨h1, q, ⟨t, rfl⟩, h2, h3⟩
    simp only [Prod.fst_add, Prod.snd_add, Prod.smul_fst, Prod.smul_snd, Prod.fst_sub, Prod.snd_sub, smul_eq_mul] at h2 h3
    rcases h1 with h1 | h1
    · refine ⟨h1.1, h1.2, ?_⟩
      rw [← h2]; nlinarith
    · linarith
  · rintro ⟨h1, h2, h3⟩
    refine ⟨Or.inl ⟨h1, h2⟩, _, ⟨(p.2 - a.2) / (b.2 - a.2), rfl⟩, ?_, ?_⟩
    · simp only [Prod.snd_add, Prod.smul_snd, Prod.snd_sub, smul_eq_mul]; field_simp; ring
    · simp only [Prod.fst_add, Prod.smul_fst, Prod.fst_sub, smul_eq_mul]
      have : p.1 - a.1 < (p.2 - a.2) / (b.2 - a.2) * (b.1 - a.1) := by
        rw [div_mul_eq_mul_div, lt_div_iff₀ hd]; linarith
      linarith

theorem onSegment_up {a b p : Pt ℝ} (h : a.2 < b.2) :
    OnSegment a b p ↔ a.2 ≤ p.2 ∧ p.2 ≤ b.2 ∧ (b.1 - a.1) * (p.2 - a.2) - (b.2 - a.2) * (p.1 - a.1) = 0 := by
  have hd : 0 < b.2 - a.2 := by linarith
  constructor
  · rintro ⟨t, h0, h1, rfl⟩
    simp only [Prod.fst_add, Prod.snd_add, Prod.smul_fst, Prod.smul_snd, Prod.fst_sub, Prod.snd_sub, smul_eq_mul]
    exact ⟨by nlinarith, by nlinarith, by ring⟩
  · rintro ⟨h1, h2, h3⟩
    refine ⟨(p.2 - a.2) / (b.2 - a.2), div_nonneg (by linarith) hd.le, by rw [div_le_one hd]; linarith, ?_⟩
    ext
    · simp only [Prod.fst_add, Prod.smul_fst, Prod.fst_sub, smul_eq_mul]; field_simp; linarith
    · simp only [Prod.snd_add, Prod.smul_snd, Prod.snd_sub, smul_eq_mul]; field_simp; ring

/-- A star-shaped polygon with two reflex corners. -/
def hookShape : List (Pt ℝ) := [(0, 0), (3, -4), (7, -4), (3, -1), (3, 2), (-1, 2), (-1, 0)]

theorem hook_ring (p : Pt ℝ) : OnRing hookShape p ↔
    (-4 ≤ p.2 ∧ p.2 ≤ 0 ∧ 4 * p.1 + 3 * p.2 = 0) ∨ (p.2 = -4 ∧ 3 ≤ p.1 ∧ p.1 ≤ 7) ∨
    (-4 ≤ p.2 ∧ p.2 ≤ -1 ∧ 3 * p.1 + 4 * p.2 = 5) ∨ (p.1 = 3 ∧ -1 ≤ p.2 ∧ p.2 ≤ 2) ∨
    (p.2 = 2 ∧ -1 ≤ p.1 ∧ p.1 ≤ 3) ∨ (p.1 = -1 ∧ 0 ≤ p.2 ∧ p.2 ≤ 2) ∨ (p.2 = 0 ∧ -1 ≤ p.1 ∧ p.1 ≤ 0) := by
  have e : OnRing hookShape p ↔ OnSegment (0, 0) (3, -4) p ∨ OnSegment (3, -4) (7, -4) p ∨
      OnSegment (7, -4) (3, -1) p ∨ OnSegment (3, -1) (3, 2) p ∨ OnSegment (3, 2) (-1, 2) p ∨
      OnSegment (-1, 2) (-1, 0) p ∨ OnSegment (-1, 0) (0, 0) p := by
    constructor
    · rintro ⟨i, hi, h⟩
      simp only [hookShape, List.length_cons, List.length_nil] at hi
      interval_cases i <;> simp [hookShape, corner] at h <;> tauto
    · rintro (h | h | h | h | h | h | h)
      · exact ⟨0, by simp [hookShape], by simpa [hookShape, corner] using h⟩
      · exact ⟨1, by simp [hookShape], by simpa [hookShape, corner] using h⟩
      · exact ⟨2, by simp [hookShape], by simpa [hookShape, corner] using h⟩
      · exact ⟨3, by simp [hookShape], by simpa [hookShape, corner] using h⟩
      · exact ⟨4, by simp [hookShape], by simpa [hookShape, corner] using h⟩
      · exact ⟨5, by simp [hookShape], by simpa [hookShape, corner] using h⟩
      · exact ⟨6, by simp [hookShape], by simpa [hookShape, corner] using h⟩
  rw [e, onSegment_swap (a := (0, 0)), onSegment_up (by norm_num), onSegment_horizontal (by norm_num),
    onSegment_up (by norm_num), onSegment_vertical (by norm_num), onSegment_swap (a := (3, 2)),
    onSegment_horizontal (by norm_num), onSegment_swap (a := (-1, 2)), onSegment_vertical (by norm_num),
    onSegment_horizontal (by norm_num)]
  have h1 : ((0 : ℝ) - 3) * (p.2 - -4) - (0 - -4) * (p.1 - 3) = 0 ↔ 4 * p.1 + 3 * p.2 = 0 := by
    constructor <;> intro h <;> linarith
  have h2 : ((3 : ℝ) - 7) * (p.2 - -4) - (-1 - -4) * (p.1 - 7) = 0 ↔ 3 * p.1 + 4 * p.2 = 5 := by
    constructor <;> intro h <;> linarith
  rw [h1, h2]

theorem hook_filled : filled hookShape = {p | p.2 ≤ 2 ∧ -4 ≤ p.2 ∧ (
    (0 ≤ p.2 ∧ -1 ≤ p.1 ∧ p.1 ≤ 3) ∨ (-1 ≤ p.2 ∧ p.2 ≤ 0 ∧ 0 ≤ 4 * p.1 + 3 * p.2 ∧ p.1 ≤ 3) ∨
    (p.2 ≤ -1 ∧ 0 ≤ 4 * p.1 + 3 * p.2 ∧ 3 * p.1 + 4 * p.2 ≤ 5))} := by
  ext p
  have key : ((List.range hookShape.length).filter fun i =>
      @decide (RayCrosses (corner hookShape i) (corner hookShape (i + 1)) p) (Classical.propDecidable _)).length =
      (if -4 ≤ p.2 ∧ p.2 < 0 ∧ 4 * p.1 + 3 * p.2 < 0 then 1 else 0) +
      ((if -4 ≤ p.2 ∧ p.2 < -1 ∧ 3 * p.1 + 4 * p.2 < 5 then 1 else 0) +
      ((if -1 ≤ p.2 ∧ p.2 < 2 ∧ p.1 < 3 then 1 else 0) + (if 0 ≤ p.2 ∧ p.2 < 2 ∧ p.1 < -1 then 1 else 0))) := by
    have e0 : RayCrosses (corner hookShape 0) (corner hookShape 1) p ↔ -4 ≤ p.2 ∧ p.2 < 0 ∧ 4 * p.1 + 3 * p.2 < 0 := by
      rw [show corner hookShape 0 = (0, 0) from rfl, show corner hookShape 1 = (3, -4) from rfl, rayCrosses_swap,
        rayCrosses_up (by norm_num)]
      refine and_congr_right fun _ => and_congr_right fun _ => ⟨fun h => by simp at h; linarith, fun h => by simp; linarith⟩
    have e1 : ¬ RayCrosses (corner hookShape 1) (corner hookShape 2) p := rayCrosses_horizontal
    have e2 : RayCrosses (corner hookShape 2) (corner hookShape 3) p ↔ -4 ≤ p.2 ∧ p.2 < -1 ∧ 3 * p.1 + 4 * p.2 < 5 := by
      rw [show corner hookShape 2 = (7, -4) from rfl, show corner hookShape 3 = (3, -1) from rfl,
        rayCrosses_up (by norm_num)]
      refine and_congr_right fun _ => and_congr_right fun _ => ⟨fun h => by simp at h; linarith, fun h => by simp; linarith⟩
    have e3 : RayCrosses (corner hookShape 3) (corner hookShape 4) p ↔ _ :=
      rayCrosses_vertical (x := 3) (y0 := -1) (y1 := 2) (by norm_num)
    have e4 : ¬ RayCrosses (corner hookShape 4) (corner hookShape 5) p := rayCrosses_horizontal
    have e5 : RayCrosses (corner hookShape 5) (corner hookShape 6) p ↔ _ :=
      rayCrosses_swap.trans (rayCrosses_vertical (x := -1) (y0 := 0) (y1 := 2) (by norm_num))
    have e6 : ¬ RayCrosses (corner hookShape 6) (corner hookShape 7) p := by
      rw [show corner hookShape 7 = (0, 0) by simp [corner, hookShape]]
      exact rayCrosses_horizontal
    have r : List.range hookShape.length = [0, 1, 2, 3, 4, 5, 6] := rfl
    rw [r]
    simp only [List.filter_cons, List.filter_nil, zero_add, Nat.reduceAdd, e0, e1, e2, e3, e4, e5, e6, decide_false,
      decide_eq_true_eq, Bool.false_eq_true, if_false]
    split_ifs <;> rfl
  constructor
  · rintro (⟨h1, h2⟩ | h)
    · rw [key] at h2
      simp only [Set.mem_ofPred_eq]
      split_ifs at h2 <;> simp at h2 <;> grind
    · rw [hook_ring] at h
      simp only [Set.mem_ofPred_eq]
      clear key
      rcases h with h | h | h | h | h | h | h <;> grind
  · rintro h
    by_cases hr : OnRing hookShape p
    · exact Or.inr hr
    · refine Or.inl ⟨hr, ?_⟩
      rw [key]
      rw [hook_ring] at hr
      simp only [Set.mem_ofPred_eq] at h
      grind

theorem hook_star : ((0, 1 / 2) : Pt ℝ) ∈ visKernel (filled hookShape) := by
  rw [hook_filled]
  refine ⟨by norm_num, ?_⟩
  rintro q ⟨h1, h2, h3⟩ r ⟨t, t0, t1, rfl⟩
  simp only [Set.mem_ofPred_eq, Prod.fst_add, Prod.snd_add, Prod.smul_fst, Prod.smul_snd, Prod.fst_sub, Prod.snd_sub,
    smul_eq_mul, zero_add, sub_zero]
  obtain ⟨x, y⟩ := q
  simp only at h1 h2 h3 ⊢
  have u : t * x = t * x := rfl
  generalize hX : t * x = X at *
  generalize hY : 1 / 2 + t * (y - 1 / 2) = Y at *
  refine ⟨by nlinarith, by nlinarith, ?_⟩
  rcases h3 with ⟨h3, h4, h5⟩ | ⟨h3, h4, h5, h6⟩ | ⟨h3, h4, h5⟩
  · left; refine ⟨by nlinarith, by nlinarith, by nlinarith⟩
  · have k1 : 0 ≤ 4 * X + 3 * Y := by nlinarith
    have k2 : X ≤ 3 := by nlinarith
    have k3 : -1 ≤ Y := by nlinarith
    have k4 : -1 ≤ X := by nlinarith
    rcases le_total 0 Y with h | h
    · exact Or.inl ⟨h, k4, k2⟩
    · exact Or.inr (Or.inl ⟨k3, h, k1, k2⟩)
  · have k1 : 0 ≤ 4 * X + 3 * Y := by nlinarith
    have k2 : 3 * X + 4 * Y ≤ 5 := by nlinarith
    have k4 : -1 ≤ X := by nlinarith
    have k5 : Y ≤ 1 / 2 := by nlinarith
    have k6 : -1 ≤ Y → X ≤ 3 := by intro h; nlinarith
    rcases le_total 0 Y with h | h
    · exact Or.inl ⟨h, k4, k6 (by linarith)⟩
    · rcases le_total (-1) Y with h' | h'
      · exact Or.inr (Or.inl ⟨h', h, k1, k6 h'⟩)
      · exact Or.inr (Or.inr ⟨h', k1, k2⟩)

end
end Starworlds
