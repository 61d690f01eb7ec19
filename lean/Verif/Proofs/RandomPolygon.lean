import Verif.Model.CgReal
import Verif.Spec.Plane
import Mathlib.Algebra.BigOperators.Intervals
import Mathlib.Algebra.Order.BigOperators.Group.Finset
import Mathlib.Analysis.SpecialFunctions.Complex.Arg
import Mathlib.Tactic.Linarith
import Mathlib.Tactic.LinearCombination
import Mathlib.Data.List.Nodup

/-! # Helper lemmas for C17-C19 -/

namespace Starworlds

open Real Spec Finset

/-! ## Chains -/

theorem chainVec_sum {K : Type*} [Field K] (mx : K) (l : List (K × Bool)) (t b : K) :
    (chainVec mx l t b).sum = b - t := by
  induction l generalizing t b with
  | nil => simp [chainVec]
  | cons h l ih =>
    obtain ⟨p, c⟩ := h
    cases c <;> simp [chainVec, ih]

theorem chainVec_length {K : Type*} [Field K] (mx : K) (l : List (K × Bool)) (t b : K) :
    (chainVec mx l t b).length = l.length + 2 := by
  induction l generalizing t b with
  | nil => simp [chainVec]
  | cons h l ih =>
    obtain ⟨p, c⟩ := h
    cases c <;> simp [chainVec, ih]

theorem poolVec_sum {K : Type*} [Field K] (pool : List K) (coins : List Bool) :
    (poolVec pool coins).sum = 0 := by
  simp [poolVec, chainVec_sum]

theorem poolVec_length {K : Type*} [Field K] (pool : List K) (coins : List Bool)
    (hn : 2 ≤ pool.length) (hc : coins.length = pool.length - 2) :
    (poolVec pool coins).length = pool.length := by
  simp only [poolVec, chainVec_length, List.length_zip, List.length_dropLast, List.length_drop, hc]
  omega

theorem sortedPool_length (w : ℝ) (us : List ℝ) : (sortedPool w us).length = us.length := by
  simp [sortedPool]

theorem sortedPool_pairwise (w : ℝ) (us : List ℝ) : (sortedPool w us).Pairwise (· ≤ ·) := by
  have := List.pairwise_mergeSort (le := fun a b : ℝ => decide (a ≤ b))
    (by intro a b c h1 h2; simp only [decide_eq_true_eq] at *; exact le_trans h1 h2)
    (by intro a b; simp only [Bool.or_eq_true, decide_eq_true_eq]; exact le_total a b)
    (us.map (w * ·))
  exact this.imp (by intro a b h; simpa using h)

theorem sortedPool_mem {w : ℝ} {us : List ℝ} {a : ℝ} (h : a ∈ sortedPool w us) : ∃ u ∈ us, a = w * u := by
  simp only [sortedPool, List.mem_mergeSort, List.mem_map] at h
  obtain ⟨u, hu, rfl⟩ := h
  exact ⟨u, hu, rfl⟩

/-- The positive parts of the chain vectors add up to the width. -/
theorem chainVec_pos (mx : ℝ) (l : List (ℝ × Bool)) (t b : ℝ)
    (hl : (l.map Prod.fst).Pairwise (· ≤ ·)) (ht : ∀ p ∈ l, t ≤ p.1) (hb : ∀ p ∈ l, b ≤ p.1)
    (hm : ∀ p ∈ l, p.1 ≤ mx) (htm : t ≤ mx) (hbm : b ≤ mx) :
    ((chainVec mx l t b).map (max · 0)).sum = mx - t := by
  induction l generalizing t b with
  | nil => simp [chainVec, htm, hbm]
  | cons h l ih =>
    obtain ⟨p, c⟩ := h
    have hp : ∀ q ∈ l, p ≤ q.1 := by
      intro q hq
      simp only [List.map_cons, List.pairwise_cons] at hl
      exact hl.1 _ (List.mem_map_of_mem hq)
    have hl' : (l.map Prod.fst).Pairwise (· ≤ ·) := by
      simp only [List.map_cons, List.pairwise_cons] at hl; exact hl.2
    have hpm : p ≤ mx := hm (p, c) (by simp)
    have htp : t ≤ p := ht (p, c) (by simp)
    have hbp : b ≤ p := hb (p, c) (by simp)
    cases c
    · simp only [chainVec, Bool.false_eq_true, if_false, List.map_cons, List.sum_cons]
      rw [ih t p hl' (fun q hq => ht q (by simp [hq])) hp (fun q hq => hm q (by simp [hq])) htm hpm,
        max_eq_right (by linarith)]
      ring
    · simp only [chainVec, if_true, List.map_cons, List.sum_cons]
      rw [ih p b hl' hp (fun q hq => hb q (by simp [hq])) (fun q hq => hm q (by simp [hq])) hpm hbm,
        max_eq_left (by linarith)]
      ring

theorem zip_fst_sublist {α β : Type*} (l : List α) (m : List β) : ((l.zip m).map Prod.fst).Sublist l := by
  induction l generalizing m with
  | nil => simp
  | cons a l ih =>
    cases m with
    | nil => simp
    | cons b m => simpa using ih m

/-- Width of a pool vector list. -/
theorem poolVec_pos (pool : List ℝ) (coins : List Bool) (hs : pool.Pairwise (· ≤ ·)) (hne : pool ≠ []) :
    ((poolVec pool coins).map (max · 0)).sum = pool.getLastD 0 - pool.headD 0 := by
  obtain ⟨a, l, rfl⟩ : ∃ a l, pool = a :: l := List.exists_cons_of_ne_nil hne
  simp only [poolVec, List.drop_succ_cons, List.drop_zero, List.headD_cons]
  rw [List.pairwise_cons] at hs
  have hlast : ∀ q ∈ l.dropLast, q ≤ (a :: l).getLastD 0 := by
    intro q hq
    cases hl : l using List.reverseRecOn with
    | nil => rw [hl] at hq; simp at hq
    | append_singleton l' z =>
      rw [hl] at hq hs
      rw [List.dropLast_concat] at hq
      have : ((a :: (l' ++ [z])).getLastD 0) = z := by
        rw [← List.cons_append, List.getLastD_concat]
      rw [this]
      have := hs.2
      rw [List.pairwise_append] at this
      exact this.2.2 q hq z (by simp)
  have hal : a ≤ (a :: l).getLastD 0 := by
    have : (a :: l).getLastD 0 ∈ a :: l := by
      rw [List.getLastD_eq_getLast?, List.getLast?_eq_getLast_of_ne_nil (by simp)]
      exact List.getLast_mem _
    rcases List.mem_cons.1 this with h | h
    · rw [h]
    · exact hs.1 _ h
  have hmem : ∀ p ∈ l.dropLast.zip coins, p.1 ∈ l.dropLast := fun p hp => (List.of_mem_zip (a := p.1) (b := p.2) hp).1
  apply chainVec_pos
  · refine List.Pairwise.sublist ?_ (hs.2.sublist (List.dropLast_sublist l))
    exact zip_fst_sublist _ _
  · intro p hp; exact hs.1 _ (List.dropLast_subset l (hmem p hp))
  · intro p hp; exact hs.1 _ (List.dropLast_subset l (hmem p hp))
  · intro p hp; exact hlast _ (hmem p hp)
  · exact hal
  · exact hal

/-! ## Sorting by angle -/

theorem sortedBy_perm {K : Type*} [LinearOrder K] (angle vec : List K) (h : angle.length = vec.length) :
    (sortedBy angle vec).Perm vec := by
  unfold sortedBy
  refine ((List.mergeSort_perm _ _).map _).trans ?_
  rw [List.map_snd_zip (by omega)]

theorem sortedBy_eq (ang : Pt ℝ → ℝ) (g : Pt ℝ → ℝ) (vs : List (Pt ℝ)) (hn : (vs.map ang).Nodup) :
    sortedBy (vs.map ang) (vs.map g) = (vs.mergeSort fun v w => decide (ang v ≤ ang w)).map g := by
  unfold sortedBy
  have hz : (vs.map ang).zip (vs.map g) = vs.map fun v => (ang v, g v) := by
    rw [List.zip_map']
  rw [hz, ← List.map_mergeSort (r := fun v w => decide (ang v ≤ ang w)), List.map_map]
  · rfl
  · intro a ha b hb
    by_cases hab : ang a = ang b
    · have : a = b := List.inj_on_of_nodup_map hn ha hb hab
      subst this
      simp [lexLe]
    · simp only [lexLe, hab, false_and, or_false]
      rw [decide_eq_decide]
      exact ⟨fun h => lt_of_le_of_ne h hab, le_of_lt⟩

/-! ## Laying vectors end to end -/

theorem layEnd_length {K : Type*} [Field K] (p : Pt K) (vs : List (Pt K)) :
    (layEnd p vs).length = vs.length := by
  induction vs generalizing p with
  | nil => rfl
  | cons v vs ih => simp [layEnd, ih]

theorem layEnd_get {K : Type*} [Field K] (p : Pt K) (vs : List (Pt K)) (i : Nat) (hi : i < vs.length) :
    (layEnd p vs)[i]'(by rw [layEnd_length]; exact hi) = p + ∑ j ∈ range i, vs.getD j 0 := by
  induction vs generalizing p i with
  | nil => simp at hi
  | cons v vs ih =>
    cases i with
    | zero => simp [layEnd]
    | succ i =>
      simp only [layEnd, List.getElem_cons_succ]
      rw [ih (p + v) i (by simpa using hi), sum_range_succ', add_assoc]
      congr 1
      simp [add_comm]

theorem sum_getD {M : Type*} [AddCommMonoid M] (l : List M) : ∑ j ∈ range l.length, l.getD j 0 = l.sum := by
  induction l with
  | nil => simp
  | cons a l ih =>
    simp only [List.length_cons, List.sum_cons]
    rw [sum_range_succ', add_comm, ← ih]
    simp

/-! ## The convexity argument -/

theorem cross_polar (u v : Pt ℝ) :
    cross u v = norm2 u * norm2 v * sin (arctan2 v.2 v.1 - arctan2 u.2 u.1) := by
  have hn : ∀ w : Pt ℝ, norm2 w = ‖(⟨w.1, w.2⟩ : ℂ)‖ := by
    intro w
    rw [norm2, Complex.norm_def, Complex.normSq_apply]
    congr 1; ring
  have hc : ∀ w : Pt ℝ, norm2 w * cos (arctan2 w.2 w.1) = w.1 := by
    intro w
    have := Complex.norm_mul_cos_arg (⟨w.1, w.2⟩ : ℂ)
    rw [hn]; exact this
  have hs : ∀ w : Pt ℝ, norm2 w * sin (arctan2 w.2 w.1) = w.2 := by
    intro w
    have := Complex.norm_mul_sin_arg (⟨w.1, w.2⟩ : ℂ)
    rw [hn]; exact this
  rw [sin_sub, cross]
  linear_combination (-v.2) * hc u - (norm2 u * cos (arctan2 u.2 u.1)) * hs v
    + v.1 * hs u + (norm2 u * sin (arctan2 u.2 u.1)) * hc v

theorem cross_nonneg_of {u v : Pt ℝ} (h0 : 0 ≤ arctan2 v.2 v.1 - arctan2 u.2 u.1)
    (h1 : arctan2 v.2 v.1 - arctan2 u.2 u.1 ≤ π) : 0 ≤ cross u v := by
  rw [cross_polar]
  exact mul_nonneg (mul_nonneg (sqrt_nonneg _) (sqrt_nonneg _)) (sin_nonneg_of_nonneg_of_le_pi h0 h1)

theorem cross_nonpos_of {u v : Pt ℝ} (h0 : arctan2 v.2 v.1 - arctan2 u.2 u.1 ≤ 0)
    (h1 : -π ≤ arctan2 v.2 v.1 - arctan2 u.2 u.1) : cross u v ≤ 0 := by
  have : 0 ≤ cross v u := cross_nonneg_of (by linarith) (by linarith)
  have e : cross u v = -cross v u := by simp [cross]; ring
  rw [e]; linarith

theorem cross_nonpos_of' {u v : Pt ℝ} (h0 : π ≤ arctan2 v.2 v.1 - arctan2 u.2 u.1)
    (h1 : arctan2 v.2 v.1 - arctan2 u.2 u.1 ≤ 2 * π) : cross u v ≤ 0 := by
  rw [cross_polar]
  have : 0 ≤ sin (arctan2 v.2 v.1 - arctan2 u.2 u.1 - π) :=
    sin_nonneg_of_nonneg_of_le_pi (by linarith) (by linarith)
  rw [sin_sub_pi] at this
  have hh := mul_nonneg (sqrt_nonneg (u.1 ^ 2 + u.2 ^ 2)) (sqrt_nonneg (v.1 ^ 2 + v.2 ^ 2))
  have := mul_nonneg hh this
  simp only [norm2]; linarith

theorem cross_nonneg_of' {u v : Pt ℝ} (h0 : arctan2 v.2 v.1 - arctan2 u.2 u.1 ≤ -π)
    (h1 : -(2 * π) ≤ arctan2 v.2 v.1 - arctan2 u.2 u.1) : 0 ≤ cross u v := by
  have : cross v u ≤ 0 := cross_nonpos_of' (by linarith) (by linarith)
  have e : cross u v = -cross v u := by simp [cross]; ring
  rw [e]; linarith

theorem arctan2_lt (y x : ℝ) : -π < arctan2 y x := Complex.neg_pi_lt_arg _

theorem arctan2_le (y x : ℝ) : arctan2 y x ≤ π := Complex.arg_le_pi _

theorem cross_sum {ι : Type*} (u : Pt ℝ) (s : Finset ι) (f : ι → Pt ℝ) :
    cross u (∑ j ∈ s, f j) = ∑ j ∈ s, cross u (f j) := by
  classical
  induction s using Finset.induction_on with
  | empty => simp [cross]
  | insert a s ha ih => 
    rw [sum_insert ha, sum_insert ha, ← ih]
    simp only [cross, Prod.fst_add, Prod.snd_add]; ring

/-- Vectors of increasing angle laid end to end make a convex polygon when they add up to zero. -/
theorem convex_of_sorted (n : Nat) (e : Nat → Pt ℝ)
    (hs : ∀ i j, i < j → j < n → arctan2 (e i).2 (e i).1 ≤ arctan2 (e j).2 (e j).1)
    (h0 : ∑ j ∈ range n, e j = 0) (k : Nat) (hk : k < n) (i : Nat) (hi : i < n) :
    0 ≤ cross (e k) (∑ j ∈ range i, e j - ∑ j ∈ range k, e j) := by
  have ang : ∀ j, -π < arctan2 (e j).2 (e j).1 ∧ arctan2 (e j).2 (e j).1 ≤ π :=
    fun j => ⟨arctan2_lt _ _, arctan2_le _ _⟩
  have hs' : ∀ i j, i ≤ j → j < n → arctan2 (e i).2 (e i).1 ≤ arctan2 (e j).2 (e j).1 := by
    intro i j hij hj
    rcases Nat.lt_or_eq_of_le hij with h | rfl
    · exact hs i j h hj
    · exact le_refl _
  have tot : ∑ j ∈ range n, cross (e k) (e j) = 0 := by
    rw [← cross_sum, h0]; simp [cross]
  rcases Nat.lt_or_ge k i with hki | hik
  · -- k < i
    have e1 : ∑ j ∈ range i, e j - ∑ j ∈ range k, e j = ∑ j ∈ Ico k i, e j := by
      rw [sum_Ico_eq_sub _ hki.le]
    rw [e1, cross_sum]
    by_cases hall : ∀ j ∈ Ico k i, arctan2 (e j).2 (e j).1 - arctan2 (e k).2 (e k).1 ≤ π
    · apply sum_nonneg
      intro j hj
      rw [mem_Ico] at hj
      exact cross_nonneg_of (by linarith [hs' k j hj.1 (by omega)]) (hall j (by rw [mem_Ico]; exact hj))
    · push Not at hall
      obtain ⟨j, hj, hjp⟩ := hall
      rw [mem_Ico] at hj
      have split : ∑ j ∈ range n, cross (e k) (e j) =
          ∑ j ∈ range k, cross (e k) (e j) + ∑ j ∈ Ico k i, cross (e k) (e j)
            + ∑ j ∈ Ico i n, cross (e k) (e j) := by
        rw [sum_range_add_sum_Ico _ hki.le, sum_range_add_sum_Ico _ hi.le]
      have a1 : ∑ j ∈ range k, cross (e k) (e j) ≤ 0 := by
        apply sum_nonpos
        intro l hl
        rw [mem_range] at hl
        exact cross_nonpos_of (by linarith [hs' l k hl.le hk]) (by linarith [ang l, ang j])
      have a2 : ∑ j ∈ Ico i n, cross (e k) (e j) ≤ 0 := by
        apply sum_nonpos
        intro l hl
        rw [mem_Ico] at hl
        exact cross_nonpos_of' (by linarith [hs' j l (by omega) hl.2]) (by linarith [ang l, ang k])
      linarith
  · have e1 : ∑ j ∈ range i, e j - ∑ j ∈ range k, e j = -∑ j ∈ Ico i k, e j := by
      rw [sum_Ico_eq_sub _ hik]; abel
    have e2 : cross (e k) (-∑ j ∈ Ico i k, e j) = -∑ j ∈ Ico i k, cross (e k) (e j) := by
      rw [← cross_sum]; simp only [cross, Prod.fst_neg, Prod.snd_neg]; ring
    rw [e1, e2, neg_nonneg]
    by_cases hall : ∀ j ∈ Ico i k, -π ≤ arctan2 (e j).2 (e j).1 - arctan2 (e k).2 (e k).1
    · apply sum_nonpos
      intro j hj
      rw [mem_Ico] at hj
      exact cross_nonpos_of (by linarith [hs' j k hj.2.le hk]) (hall j (by rw [mem_Ico]; exact hj))
    · push Not at hall
      obtain ⟨j, hj, hjp⟩ := hall
      rw [mem_Ico] at hj
      have split : ∑ j ∈ range n, cross (e k) (e j) =
          ∑ j ∈ range i, cross (e k) (e j) + ∑ j ∈ Ico i k, cross (e k) (e j)
            + ∑ j ∈ Ico k n, cross (e k) (e j) := by
        rw [sum_range_add_sum_Ico _ hik, sum_range_add_sum_Ico _ hk.le]
      have a1 : 0 ≤ ∑ j ∈ range i, cross (e k) (e j) := by
        apply sum_nonneg
        intro l hl
        rw [mem_range] at hl
        exact cross_nonneg_of' (by linarith [hs' l j (by omega) (by omega)]) (by linarith [ang l, ang k])
      have a2 : 0 ≤ ∑ j ∈ Ico k n, cross (e k) (e j) := by
        apply sum_nonneg
        intro l hl
        rw [mem_Ico] at hl
        exact cross_nonneg_of (by linarith [hs' k l hl.1 hl.2]) (by linarith [ang l, ang j])
      linarith

/-- Partial sums of a list with total zero differ by at most the sum of its positive parts. -/
theorem partial_sum_range (l : List ℝ) (h0 : l.sum = 0) (i k : Nat) (hi : i ≤ l.length) (hk : k ≤ l.length) :
    ∑ j ∈ range i, l.getD j 0 - ∑ j ∈ range k, l.getD j 0 ≤ (l.map (max · 0)).sum := by
  have hpos : (l.map (max · 0)).sum = ∑ j ∈ range l.length, max (l.getD j 0) 0 := by
    rw [← sum_getD (l.map (max · 0)), List.length_map]
    apply sum_congr rfl
    intro j hj
    rw [mem_range] at hj
    simp [List.getD, hj]
  have hneg : ∑ j ∈ range l.length, max (l.getD j 0) 0 = ∑ j ∈ range l.length, max (-(l.getD j 0)) 0 := by
    have : ∑ j ∈ range l.length, (max (l.getD j 0) 0 - max (-(l.getD j 0)) 0) = 0 := by
      refine Eq.trans ?_ ((sum_getD l).trans h0)
      apply sum_congr rfl
      intro j _
      rcases le_total (l.getD j 0) 0 with h | h
      · rw [max_eq_right h, max_eq_left (by linarith)]; ring
      · rw [max_eq_left h, max_eq_right (by linarith)]; ring
    rw [sum_sub_distrib] at this; linarith
  rw [hpos]
  rcases le_total k i with h | h
  · rw [← sum_Ico_eq_sub _ h]
    calc ∑ j ∈ Ico k i, l.getD j 0 ≤ ∑ j ∈ Ico k i, max (l.getD j 0) 0 := sum_le_sum fun j _ => le_max_left _ _
      _ ≤ ∑ j ∈ range l.length, max (l.getD j 0) 0 :=
        sum_le_sum_of_subset_of_nonneg (by intro x hx; simp at *; omega) (fun j _ _ => le_max_right _ _)
  · rw [hneg]
    have : ∑ j ∈ range i, l.getD j 0 - ∑ j ∈ range k, l.getD j 0 = ∑ j ∈ Ico i k, -(l.getD j 0) := by
      rw [sum_neg_distrib, sum_Ico_eq_sub _ h]; ring
    rw [this]
    calc ∑ j ∈ Ico i k, -(l.getD j 0) ≤ ∑ j ∈ Ico i k, max (-(l.getD j 0)) 0 := sum_le_sum fun j _ => le_max_left _ _
      _ ≤ ∑ j ∈ range l.length, max (-(l.getD j 0)) 0 :=
        sum_le_sum_of_subset_of_nonneg (by intro x hx; simp at *; omega) (fun j _ _ => le_max_right _ _)

end Starworlds
