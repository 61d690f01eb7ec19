import Verif.Model.Polygon
import Verif.Spec.Polygon
import Mathlib.Tactic.Linarith
import Mathlib.Tactic.FieldSimp
import Mathlib.Tactic.LinearCombination

/-! # Helper lemmas on rings and bounding boxes of polygons -/

set_option linter.unusedSectionVars false

namespace Starworlds

open Spec

variable {K : Type*} [Field K] [LinearOrder K]

theorem edgesOf_eq : ∀ l : List (Pt K),
    edgesOf l = (List.range (l.length - 1)).map fun i => (l.getD i 0, l.getD (i + 1) 0)
  | [] => rfl
  | [a] => rfl
  | a :: b :: l => by
    rw [edgesOf, edgesOf_eq (b :: l)]
    simp only [List.length_cons, Nat.add_sub_cancel, List.range_succ_eq_map, List.map_cons, List.map_map]
    rfl

theorem ringOf_length (v : List (Pt K)) (hv : v ≠ []) : (ringOf v).length = v.length + 1 := by
  cases v with
  | nil => exact absurd rfl hv
  | cons a l => simp [ringOf]

theorem ringOf_getD (v : List (Pt K)) (hv : v ≠ []) {i : Nat} (hi : i ≤ v.length) :
    (ringOf v).getD i 0 = corner v i := by
  cases v with
  | nil => exact absurd rfl hv
  | cons a l =>
    rcases hi.eq_or_lt with rfl | hlt
    · simp [ringOf, corner]
    · rw [corner, Nat.mod_eq_of_lt hlt, ringOf, List.getD_append _ _ _ _ hlt]

theorem edges_ring (v : List (Pt K)) :
    edgesOf (ringOf v) = (List.range v.length).map fun i => (corner v i, corner v (i + 1)) := by
  by_cases hv : v = []
  · subst hv; rfl
  · rw [edgesOf_eq, ringOf_length v hv, Nat.add_sub_cancel]
    apply List.map_congr_left
    intro i hi
    rw [List.mem_range] at hi
    rw [ringOf_getD v hv hi.le, ringOf_getD v hv hi]

variable [IsStrictOrderedRing K]

theorem onSegB_iff (a b p : Pt K) : onSegB a b p = true ↔ OnSegment a b p := by
  simp only [onSegB, Bool.and_eq_true, decide_eq_true_eq]
  constructor
  · rintro ⟨hc, hd⟩
    by_cases hab : a = b
    · subst hab
      have h1 : a.1 = p.1 := by nlinarith [sq_nonneg (a.1 - p.1), sq_nonneg (a.2 - p.2)]
      have h2 : a.2 = p.2 := by nlinarith [sq_nonneg (a.1 - p.1), sq_nonneg (a.2 - p.2)]
      exact ⟨0, le_rfl, zero_le_one, by ext <;> simp [h1, h2]⟩
    · have hL : 0 < (b.1 - a.1) ^ 2 + (b.2 - a.2) ^ 2 := by
        by_contra hle
        push Not at hle
        apply hab
        have h1 : b.1 - a.1 = 0 := by nlinarith [sq_nonneg (b.1 - a.1), sq_nonneg (b.2 - a.2)]
        have h2 : b.2 - a.2 = 0 := by nlinarith [sq_nonneg (b.1 - a.1), sq_nonneg (b.2 - a.2)]
        ext
        · exact (sub_eq_zero.1 h1).symm
        · exact (sub_eq_zero.1 h2).symm
      set L := (b.1 - a.1) ^ 2 + (b.2 - a.2) ^ 2 with hLd
      set D := (p.1 - a.1) * (b.1 - a.1) + (p.2 - a.2) * (b.2 - a.2) with hD
      have hx : D * (b.1 - a.1) = L * (p.1 - a.1) := by
        rw [hD, hLd]; linear_combination (b.2 - a.2) * hc
      have hy : D * (b.2 - a.2) = L * (p.2 - a.2) := by
        rw [hD, hLd]; linear_combination -(b.1 - a.1) * hc
      refine ⟨D / L, ?_, ?_, ?_⟩
      · apply div_nonneg _ hL.le
        by_contra hlt
        push Not at hlt
        rw [hD] at hlt
        nlinarith [sq_nonneg (p.1 - a.1), sq_nonneg (p.2 - a.2)]
      · rw [div_le_one hL]
        rw [hD, hLd]
        nlinarith [sq_nonneg (p.1 - b.1), sq_nonneg (p.2 - b.2)]
      · ext
        · simp only [Prod.fst_add, Prod.smul_fst, Prod.fst_sub, smul_eq_mul]
          rw [div_mul_eq_mul_div, hx, mul_div_cancel_left₀ _ hL.ne']; ring
        · simp only [Prod.snd_add, Prod.smul_snd, Prod.snd_sub, smul_eq_mul]
          rw [div_mul_eq_mul_div, hy, mul_div_cancel_left₀ _ hL.ne']; ring
  · rintro ⟨t, h0, h1, rfl⟩
    simp only [Prod.fst_add, Prod.snd_add, Prod.smul_fst, Prod.smul_snd, Prod.fst_sub, Prod.snd_sub, smul_eq_mul]
    constructor
    · ring
    · have e : (a.1 - (a.1 + t * (b.1 - a.1))) * (b.1 - (a.1 + t * (b.1 - a.1))) +
          (a.2 - (a.2 + t * (b.2 - a.2))) * (b.2 - (a.2 + t * (b.2 - a.2))) =
          -(t * (1 - t) * ((b.1 - a.1) ^ 2 + (b.2 - a.2) ^ 2)) := by ring
      rw [e, neg_nonpos]
      have : 0 ≤ 1 - t := by linarith
      positivity

theorem ringContains_iff (v : List (Pt K)) (p : Pt K) : ringContains v p = true ↔ OnRing v p := by
  simp only [ringContains, edges_ring, List.any_map, List.any_eq_true, List.mem_range, Function.comp, onSegB_iff, OnRing]

theorem rayCrosses_iff (a b p : Pt K) : rayCrosses p (a, b) = true ↔ RayCrosses a b p := by
  simp only [rayCrosses, RayCrosses, Bool.and_eq_true, decide_eq_true_eq]
  have hs : ((decide (p.2 < a.2) != decide (p.2 < b.2)) = true) ↔
      ((a.2 ≤ p.2 ∧ p.2 < b.2) ∨ (b.2 ≤ p.2 ∧ p.2 < a.2)) := by
    by_cases h1 : p.2 < a.2 <;> by_cases h2 : p.2 < b.2 <;> simp [h1, h2] <;>
      (try push Not at h1) <;> (try push Not at h2) <;> assumption
  rw [hs]
  constructor
  · rintro ⟨h, hx⟩
    refine ⟨h, ?_⟩
    have hd : b.2 - a.2 ≠ 0 := by
      intro h0
      rcases h with h | h <;> linarith [h.1, h.2]
    refine ⟨(a.1 + (p.2 - a.2) * (b.1 - a.1) / (b.2 - a.2), p.2), ⟨(p.2 - a.2) / (b.2 - a.2), ?_⟩, rfl, hx⟩
    ext
    · simp only [Prod.fst_add, Prod.smul_fst, Prod.fst_sub, smul_eq_mul]; ring
    · simp only [Prod.snd_add, Prod.smul_snd, Prod.snd_sub, smul_eq_mul, div_mul_cancel₀ _ hd]; ring
  · rintro ⟨h, q, ⟨t, rfl⟩, hq2, hq1⟩
    refine ⟨h, ?_⟩
    have hd : b.2 - a.2 ≠ 0 := by
      intro h0
      rcases h with h | h <;> linarith [h.1, h.2]
    simp only [Prod.fst_add, Prod.smul_fst, Prod.fst_sub, smul_eq_mul, Prod.snd_add, Prod.smul_snd, Prod.snd_sub] at hq1 hq2
    have ht : (p.2 - a.2) * (b.1 - a.1) / (b.2 - a.2) = t * (b.1 - a.1) := by
      rw [← hq2]; field_simp; ring
    rw [ht]
    exact hq1

theorem polyContains_iff (v : List (Pt K)) (p : Pt K) : polyContains v p = true ↔ Inside v p := by
  classical
  simp only [polyContains, Inside, Bool.and_eq_true, Bool.not_eq_true', ← Bool.not_eq_true, ringContains_iff,
    decide_eq_true_eq]
  rw [edges_ring, List.countP_map, List.countP_eq_length_filter]
  have : (List.range v.length).filter ((rayCrosses p) ∘ fun i => (corner v i, corner v (i + 1))) =
      (List.range v.length).filter fun i => decide (RayCrosses (corner v i) (corner v (i + 1)) p) := by
    apply List.filter_congr
    intro i _
    have := rayCrosses_iff (corner v i) (corner v (i + 1)) p
    by_cases h : RayCrosses (corner v i) (corner v (i + 1)) p
    · simp [h, this.2 h]
    · simp [h, mt this.1 h]
  rw [this]

/-! ## Parity -/

/-- Along a path, the number of changes of a two-valued function is odd exactly when the ends differ. -/
theorem parity_path (c : Pt K → Bool) : ∀ (l : List (Pt K)) (a : Pt K),
    (edgesOf (a :: l)).countP (fun e => c e.1 != c e.2) % 2 = if c a != c ((a :: l).getLast (by simp)) then 1 else 0
  | [], a => by simp [edgesOf]
  | b :: l, a => by
    rw [edgesOf, List.countP_cons, List.getLast_cons (by simp)]
    have ih := parity_path c l b
    generalize (edgesOf (b :: l)).countP (fun e => c e.1 != c e.2) = n at *
    generalize c ((b :: l).getLast _) = z at *
    generalize c a = x at *
    generalize c b = y at *
    cases x <;> cases y <;> cases z <;> simp at * <;> omega

theorem parity_ring (c : Pt K → Bool) (v : List (Pt K)) :
    (edgesOf (ringOf v)).countP (fun e => c e.1 != c e.2) % 2 = 0 := by
  cases v with
  | nil => rfl
  | cons a l =>
    have := parity_path c (l ++ [a]) a
    have hl : (a :: (l ++ [a])).getLast (by simp) = a := by simp
    rw [hl] at this
    simpa [ringOf] using this

theorem even_of_changes (c : Pt K → Bool) (v : List (Pt K)) (p : Pt K)
    (h : ∀ e ∈ edgesOf (ringOf v), rayCrosses p e = (c e.1 != c e.2)) : polyContains v p = false := by
  have : (edgesOf (ringOf v)).countP (rayCrosses p) = (edgesOf (ringOf v)).countP (fun e => c e.1 != c e.2) :=
    List.countP_congr fun e he => by rw [h e he]
  simp [polyContains, this, parity_ring c v]

/-! ## Bounding box -/

theorem foldl_min_le (f : Pt K → K) : ∀ (l : List (Pt K)) (m : K),
    l.foldl (fun m p => min m (f p)) m ≤ m ∧ ∀ p ∈ l, l.foldl (fun m p => min m (f p)) m ≤ f p
  | [], m => ⟨le_rfl, by simp⟩
  | a :: l, m => by
    obtain ⟨h1, h2⟩ := foldl_min_le f l (min m (f a))
    refine ⟨h1.trans (min_le_left _ _), ?_⟩
    intro p hp
    rcases List.mem_cons.1 hp with rfl | hp
    · exact h1.trans (min_le_right _ _)
    · exact h2 p hp

theorem foldl_min_mem (f : Pt K → K) : ∀ (l : List (Pt K)) (a : Pt K),
    ∃ p ∈ a :: l, l.foldl (fun m p => min m (f p)) (f a) = f p
  | [], a => ⟨a, by simp, rfl⟩
  | b :: l, a => by
    simp only [List.foldl_cons]
    rcases le_total (f a) (f b) with h | h
    · rw [min_eq_left h]
      obtain ⟨p, hp, he⟩ := foldl_min_mem f l a
      refine ⟨p, ?_, he⟩
      rcases List.mem_cons.1 hp with rfl | hp
      · simp
      · simp [hp]
    · rw [min_eq_right h]
      obtain ⟨p, hp, he⟩ := foldl_min_mem f l b
      exact ⟨p, List.mem_cons_of_mem _ hp, he⟩

theorem le_foldl_max (f : Pt K → K) : ∀ (l : List (Pt K)) (m : K),
    m ≤ l.foldl (fun m p => max m (f p)) m ∧ ∀ p ∈ l, f p ≤ l.foldl (fun m p => max m (f p)) m
  | [], m => ⟨le_rfl, by simp⟩
  | a :: l, m => by
    obtain ⟨h1, h2⟩ := le_foldl_max f l (max m (f a))
    refine ⟨(le_max_left _ _).trans h1, ?_⟩
    intro p hp
    rcases List.mem_cons.1 hp with rfl | hp
    · exact (le_max_right _ _).trans h1
    · exact h2 p hp

theorem bounds_spec (a : Pt K) (l : List (Pt K)) : ∀ p ∈ a :: l,
    (boundsOf a l).1 ≤ p.1 ∧ p.1 ≤ (boundsOf a l).2.2.1 ∧ (boundsOf a l).2.1 ≤ p.2 ∧ p.2 ≤ (boundsOf a l).2.2.2 := by
  intro p hp
  have h1 := foldl_min_le (fun p : Pt K => p.1) l a.1
  have h2 := foldl_min_le (fun p : Pt K => p.2) l a.2
  have h3 := le_foldl_max (fun p : Pt K => p.1) l a.1
  have h4 := le_foldl_max (fun p : Pt K => p.2) l a.2
  rcases List.mem_cons.1 hp with rfl | hp
  · exact ⟨h1.1, h3.1, h2.1, h4.1⟩
  · exact ⟨h1.2 p hp, h3.2 p hp, h2.2 p hp, h4.2 p hp⟩

theorem corner_mem {v : List (Pt K)} (hv : v ≠ []) (i : Nat) : corner v i ∈ v := by
  have hl : 0 < v.length := List.length_pos_iff.2 hv
  rw [corner, List.getD_eq_getElem _ _ (Nat.mod_lt _ hl)]
  exact List.getElem_mem _

theorem mem_edges {v : List (Pt K)} {e : Pt K × Pt K} (he : e ∈ edgesOf (ringOf v)) :
    ∃ i < v.length, e = (corner v i, corner v (i + 1)) := by
  rw [edges_ring, List.mem_map] at he
  obtain ⟨i, hi, rfl⟩ := he
  exact ⟨i, List.mem_range.1 hi, rfl⟩

/-- Interior points are strictly inside the bounding box. -/
theorem contains_in_box {a : Pt K} {l : List (Pt K)} {p : Pt K} (h : polyContains (a :: l) p = true) :
    (boundsOf a l).1 < p.1 ∧ p.1 < (boundsOf a l).2.2.1 ∧ (boundsOf a l).2.1 < p.2 ∧ p.2 < (boundsOf a l).2.2.2 := by
  have hb := bounds_spec a l
  have hring : ¬ OnRing (a :: l) p := ((polyContains_iff _ _).1 h).1
  have hv : (a :: l) ≠ [] := by simp
  -- crossings are on the segment
  have hcr : ∀ u w : Pt K, RayCrosses u w p → ∃ q, OnSegment u w q ∧ q.2 = p.2 ∧ p.1 < q.1 := by
    rintro u w ⟨hs, q, ⟨t, rfl⟩, hq2, hq1⟩
    refine ⟨_, ⟨t, ?_, ?_, rfl⟩, hq2, hq1⟩
    · simp only [Prod.snd_add, Prod.smul_snd, Prod.snd_sub, smul_eq_mul] at hq2
      by_contra ht
      push Not at ht
      rcases hs with ⟨h1, h2⟩ | ⟨h1, h2⟩ <;> nlinarith
    · simp only [Prod.snd_add, Prod.smul_snd, Prod.snd_sub, smul_eq_mul] at hq2
      by_contra ht
      push Not at ht
      rcases hs with ⟨h1, h2⟩ | ⟨h1, h2⟩ <;> nlinarith
  refine ⟨?_, ?_, ?_, ?_⟩
  · -- left of the box: every straddling edge is crossed
    by_contra hle
    push Not at hle
    have : polyContains (a :: l) p = false := by
      refine even_of_changes (fun q => decide (p.2 < q.2)) _ _ fun e he => ?_
      obtain ⟨i, hi, rfl⟩ := mem_edges he
      simp only [rayCrosses]
      by_cases hs : (decide (p.2 < (corner (a :: l) i).2) != decide (p.2 < (corner (a :: l) (i + 1)).2)) = true
      · rw [hs, Bool.true_and, decide_eq_true_iff]
        by_contra hnot
        push Not at hnot
        -- then p itself is on the edge
        set u := corner (a :: l) i with hu
        set w := corner (a :: l) (i + 1) with hw
        have hu1 := hle.trans (hb u (corner_mem hv _)).1
        have hw1 := hle.trans (hb w (corner_mem hv _)).1
        have hd : w.2 - u.2 ≠ 0 := by
          intro h0
          rw [sub_eq_zero] at h0
          rw [h0] at hs
          simp at hs
        set t := (p.2 - u.2) / (w.2 - u.2) with ht
        have ht01 : 0 ≤ t ∧ t ≤ 1 := by
          by_cases h1 : p.2 < u.2
          · have h2 : ¬ p.2 < w.2 := by intro h2; simp [h1, h2] at hs
            push Not at h2
            constructor
            · rw [ht]; apply div_nonneg_of_nonpos <;> linarith
            · rw [ht, div_le_one_of_neg (by linarith)]; linarith
          · have h2 : p.2 < w.2 := by by_contra h2; simp [h1, h2] at hs
            push Not at h1
            constructor
            · rw [ht]; apply div_nonneg <;> linarith
            · rw [ht, div_le_one (by linarith)]; linarith
        have ex : u.1 + (p.2 - u.2) * (w.1 - u.1) / (w.2 - u.2) = u.1 + t * (w.1 - u.1) := by rw [ht]; ring
        rw [ex] at hnot
        have hx : u.1 + t * (w.1 - u.1) = p.1 := by
          apply le_antisymm hnot
          have e2 : u.1 + t * (w.1 - u.1) = (1 - t) * u.1 + t * w.1 := by ring
          rw [e2]
          have : 0 ≤ 1 - t := by linarith [ht01.2]
          nlinarith [ht01.1, mul_le_mul_of_nonneg_left hu1 this, mul_le_mul_of_nonneg_left hw1 ht01.1]
        apply hring
        refine ⟨i, hi, t, ht01.1, ht01.2, ?_⟩
        ext
        · simp only [Prod.fst_add, Prod.smul_fst, Prod.fst_sub, smul_eq_mul]; exact hx.symm
        · simp only [Prod.snd_add, Prod.smul_snd, Prod.snd_sub, smul_eq_mul, ht, ← hu, ← hw, div_mul_cancel₀ _ hd]; ring
      · rw [Bool.not_eq_true] at hs
        rw [hs, Bool.false_and]
    rw [this] at h
    exact Bool.false_ne_true h
  · -- right of the box: no crossing
    by_contra hle
    push Not at hle
    have : polyContains (a :: l) p = false := by
      refine even_of_changes (fun _ => false) _ _ fun e he => ?_
      obtain ⟨i, hi, rfl⟩ := mem_edges he
      simp only [bne_self_eq_false]
      rw [← Bool.not_eq_true, rayCrosses_iff]
      intro hc
      obtain ⟨q, ⟨t, ht0, ht1, rfl⟩, _, hq1⟩ := hcr _ _ hc
      have h1 := (hb _ (corner_mem hv i)).2.1
      have h2 := (hb _ (corner_mem hv (i + 1))).2.1
      simp only [Prod.fst_add, Prod.smul_fst, Prod.fst_sub, smul_eq_mul] at hq1
      nlinarith
    rw [this] at h
    exact Bool.false_ne_true h
  · -- at or below the bottom: the crossed edges start at bottom vertices to the right
    by_contra hle
    push Not at hle
    have : polyContains (a :: l) p = false := by
      refine even_of_changes (fun q => decide (q.2 ≤ p.2) && decide (p.1 < q.1)) _ _ fun e he => ?_
      obtain ⟨i, hi, rfl⟩ := mem_edges he
      set u := corner (a :: l) i with hu
      set w := corner (a :: l) (i + 1) with hw
      have hu2 := hle.trans (hb u (corner_mem hv _)).2.2.1
      have hw2 := hle.trans (hb w (corner_mem hv _)).2.2.1
      by_cases h1 : p.2 < u.2 <;> by_cases h2 : p.2 < w.2
      · simp [rayCrosses, h1, h2, not_le.2 h1, not_le.2 h2]
      · have hw' : w.2 = p.2 := le_antisymm (not_lt.1 h2) hw2
        have hd : w.2 - u.2 ≠ 0 := by intro h0; linarith
        have ex : u.1 + (p.2 - u.2) * (w.1 - u.1) / (w.2 - u.2) = w.1 := by
          rw [← hw', mul_comm, mul_div_assoc, div_self hd]; ring
        simp only [rayCrosses, ex]
        simp [h1, not_le.2 h1, hw']
      · have hu' : u.2 = p.2 := le_antisymm (not_lt.1 h1) hu2
        have ex : u.1 + (p.2 - u.2) * (w.1 - u.1) / (w.2 - u.2) = u.1 := by
          rw [hu']; simp
        simp only [rayCrosses, ex]
        simp [h2, not_le.2 h2, hu']
      · have hu' : u.2 = p.2 := le_antisymm (not_lt.1 h1) hu2
        have hw' : w.2 = p.2 := le_antisymm (not_lt.1 h2) hw2
        have hsame : (p.1 < u.1 ↔ p.1 < w.1) := by
          by_contra hne
          apply hring
          refine ⟨i, hi, ?_⟩
          rw [← onSegB_iff]
          simp only [onSegB, ← hu, ← hw, hu', hw', sub_self, mul_zero, zero_mul, add_zero, decide_true, Bool.true_and,
            decide_eq_true_eq]
          by_cases h3 : p.1 < u.1
          · have h4 : w.1 ≤ p.1 := by
              by_contra h4; push Not at h4; exact hne ⟨fun _ => h4, fun _ => h3⟩
            nlinarith
          · have h4 : p.1 < w.1 := by
              by_contra h4; exact hne ⟨fun h => absurd h h3, fun h => absurd h h4⟩
            push Not at h3
            nlinarith
        simp only [rayCrosses, hu', hw', le_refl, decide_true, Bool.true_and, lt_irrefl, decide_false, bne_self_eq_false,
          Bool.false_and]
        by_cases h3 : p.1 < u.1
        · simp [h3, hsame.1 h3]
        · simp [h3, mt hsame.2 h3]
    rw [this] at h
    exact Bool.false_ne_true h
  · by_contra hle
    push Not at hle
    have : polyContains (a :: l) p = false := by
      refine even_of_changes (fun _ => false) _ _ fun e he => ?_
      obtain ⟨i, hi, rfl⟩ := mem_edges he
      have h1 := ((hb _ (corner_mem hv i)).2.2.2).trans hle
      have h2 := ((hb _ (corner_mem hv (i + 1))).2.2.2).trans hle
      simp [rayCrosses, not_lt.2 h1, not_lt.2 h2]
    rw [this] at h
    exact Bool.false_ne_true h

end Starworlds
