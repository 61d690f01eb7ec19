import Verif.Model.Polygon
import Verif.Spec.Polygon
import Mathlib.Tactic.Linarith
import Mathlib.Tactic.FieldSimp
import Mathlib.Tactic.NormNum

/-! # C36: Polygon.is_convex -/

set_option linter.unusedSectionVars false

namespace Starworlds

open Spec

variable {K : Type*} [Field K] [LinearOrder K] [IsStrictOrderedRing K]

/-! ## C36 -/

theorem ptAt_eq_corner (v : List (Pt K)) (i : Nat) : ptAt v (i % v.length) = corner v i := rfl

theorem ptAt_eq_corner_of_lt {v : List (Pt K)} {i : Nat} (h : i < v.length) : ptAt v i = corner v i := by
  rw [← ptAt_eq_corner, Nat.mod_eq_of_lt h]

theorem turn_val (v : List (Pt K)) {i : Nat} (h : i < v.length) :
    orientationVal (ptAt v ((i + v.length - 1) % v.length)) (ptAt v i) (ptAt v ((i + 1) % v.length)) = -turn v i := by
  rw [ptAt_eq_corner, ptAt_eq_corner, ptAt_eq_corner_of_lt h]
  simp only [orientationVal, turn, cross, Prod.fst_sub, Prod.snd_sub]
  ring

theorem collinear_turn (v : List (Pt K)) {i : Nat} (h : i < v.length) :
    isCollinear (ptAt v ((i + v.length - 1) % v.length)) (ptAt v i) (ptAt v ((i + 1) % v.length)) = true ↔
      |turn v i| < 1 / 10 ^ 10 := by
  unfold isCollinear; rw [decide_eq_true_iff, turn_val v h, abs_neg]; rfl

theorem cw_turn (v : List (Pt K)) {i : Nat} (h : i < v.length) :
    isCw (ptAt v ((i + v.length - 1) % v.length)) (ptAt v i) (ptAt v ((i + 1) % v.length)) = true ↔
      turn v i < -(1 / 10 ^ 10) := by
  unfold isCw; rw [decide_eq_true_iff, turn_val v h, gt_iff_lt, lt_neg]; rfl

theorem ccw_turn (v : List (Pt K)) {i : Nat} (h : i < v.length) :
    isCcw (ptAt v ((i + v.length - 1) % v.length)) (ptAt v i) (ptAt v ((i + 1) % v.length)) = true ↔
      1 / 10 ^ 10 < turn v i := by
  unfold isCcw; rw [decide_eq_true_iff, turn_val v h, neg_lt_neg_iff]; rfl

theorem firstBend_skip (v : List (Pt K)) : ∀ (i fuel j : Nat), j ≤ i → i ≤ v.length → i - j ≤ fuel →
    (∀ k, j ≤ k → k < i → |turn v k| < 1 / 10 ^ 10) → firstBend v fuel j = firstBend v (fuel - (i - j)) i := by
  intro i fuel
  induction fuel with
  | zero =>
    intro j hj _ hf _
    have : j = i := by omega
    subst this; simp
  | succ fuel ih =>
    intro j hj hi hf h
    rcases hj.eq_or_lt with rfl | hlt
    · simp
    · have hjl : j < v.length := by omega
      have hc := (collinear_turn v hjl).2 (h j le_rfl hlt)
      conv_lhs => unfold firstBend
      rw [if_neg (by omega), if_pos hc, if_neg (by omega), ih (j + 1) hlt hi (by omega) fun k hk => h k (by omega)]
      congr 1
      omega

/-- C36 is false for near-collinear polygons: `_check_convexity` never raises RuntimeError there, but always
IndexError (the index reaches the number of vertices before the counter is checked). -/
theorem C36_collinear_false (v : List (Pt K)) (h : ∀ j < v.length, |turn v j| < 1 / 10 ^ 10) :
    checkConvexity v = .error .indexError := by
  have h1 := firstBend_skip v v.length (v.length + 1) 0 (Nat.zero_le _) le_rfl (by omega) fun k _ hk => h k hk
  have h2 : v.length + 1 - (v.length - 0) = 0 + 1 := by omega
  rw [h2] at h1
  have h3 : firstBend v (0 + 1) v.length = .error .indexError := by unfold firstBend; simp
  simp only [checkConvexity, h1, h3, bind, Except.bind]

theorem firstBend_first (v : List (Pt K)) {i : Nat} (hi : i < v.length) (hbefore : ∀ j < i, |turn v j| < 1 / 10 ^ 10)
    (hbend : ¬ |turn v i| < 1 / 10 ^ 10) : firstBend v (v.length + 1) 0 = .ok i := by
  have h1 := firstBend_skip v i (v.length + 1) 0 (Nat.zero_le _) hi.le (by omega) fun k _ hk => hbefore k hk
  have h2 : v.length + 1 - (i - 0) = (v.length - i) + 1 := by omega
  rw [h2] at h1
  rw [h1]
  unfold firstBend
  have hc := mt (collinear_turn v hi).1 hbend
  rw [if_neg (by omega), if_neg hc]

/-- C36 (partial): if the first vertex that is not near-collinear is not the last vertex, and its turn is not
exactly at the threshold or the polygon turns left somewhere (as every list oriented counter-clockwise does),
then the result is True exactly when the polygon does not turn both ways. Missing: a bend at the last vertex
only (`C36_last_false`) and near-collinear polygons (`C36_collinear_false`). -/
theorem C36_convex_partial (v : List (Pt K)) (i : Nat) (hi : i + 1 < v.length)
    (hbefore : ∀ j < i, |turn v j| < 1 / 10 ^ 10) (hbend : 1 / 10 ^ 10 ≤ |turn v i|)
    (hleft : 1 / 10 ^ 10 < |turn v i| ∨ ∃ j < v.length, 1 / 10 ^ 10 < turn v j) :
    ∃ b, checkConvexity v = .ok b ∧
      (b = true ↔ ¬ ((∃ j < v.length, 1 / 10 ^ 10 < turn v j) ∧ ∃ j < v.length, turn v j < -(1 / 10 ^ 10))) := by
  have hil : i < v.length := by omega
  have h1 := firstBend_first v hil hbefore (not_lt.2 hbend)
  have hmod : (i + 1) % v.length = i + 1 := Nat.mod_eq_of_lt hi
  have hcw := cw_turn v hil
  rw [hmod] at hcw
  have hany1 : ((List.range v.length).any fun j =>
      isCcw (ptAt v ((j + v.length - 1) % v.length)) (ptAt v j) (ptAt v ((j + 1) % v.length))) = true ↔
      ∃ j < v.length, 1 / 10 ^ 10 < turn v j := by
    rw [List.any_eq_true]
    constructor
    · rintro ⟨j, hj, h⟩
      exact ⟨j, List.mem_range.1 hj, (ccw_turn v (List.mem_range.1 hj)).1 h⟩
    · rintro ⟨j, hj, h⟩
      exact ⟨j, List.mem_range.2 hj, (ccw_turn v hj).2 h⟩
  have hany2 : ((List.range v.length).any fun j =>
      isCw (ptAt v ((j + v.length - 1) % v.length)) (ptAt v j) (ptAt v ((j + 1) % v.length))) = true ↔
      ∃ j < v.length, turn v j < -(1 / 10 ^ 10) := by
    rw [List.any_eq_true]
    constructor
    · rintro ⟨j, hj, h⟩
      exact ⟨j, List.mem_range.1 hj, (cw_turn v (List.mem_range.1 hj)).1 h⟩
    · rintro ⟨j, hj, h⟩
      exact ⟨j, List.mem_range.2 hj, (cw_turn v hj).2 h⟩
  simp only [checkConvexity, h1, bind, Except.bind, if_neg (not_le.2 hi)]
  by_cases hc : turn v i < -(1 / 10 ^ 10)
  · rw [if_pos (hcw.2 hc)]
    refine ⟨_, rfl, ?_⟩
    rw [Bool.not_eq_true', ← Bool.not_eq_true, hany1]
    constructor
    · exact fun h h' => h h'.1
    · exact fun h h' => h ⟨h', i, hil, hc⟩
  · rw [if_neg (mt hcw.1 hc)]
    refine ⟨_, rfl, ?_⟩
    rw [Bool.not_eq_true', ← Bool.not_eq_true, hany2]
    have hpos : ∃ j < v.length, 1 / 10 ^ 10 < turn v j := by
      rcases hleft with hl | hl
      · rcases lt_abs.1 hl with h | h
        · exact ⟨i, hil, h⟩
        · exact absurd (lt_neg.1 h) hc
      · exact hl
    constructor
    · exact fun h h' => h h'.2
    · exact fun h h' => h ⟨hpos, h'⟩

/-- C36 is false when only the last vertex bends: the code then raises IndexError (`v[i+1]` without modulus). -/
theorem C36_last_false : ∃ v : List (Pt ℚ), v.length = 5 ∧ (1 : ℚ) / 10 ^ 10 < turn v 4 ∧
    checkConvexity v = .error .indexError :=
  ⟨[(0, 0), (0, 0), (1, 0), (1, 0), (0, 1)], rfl, by norm_num [turn, corner, cross], by decide +kernel⟩

/-- A square is convex, an L-shape is not. -/
example : checkConvexity [((0, 0) : Pt ℚ), (1, 0), (1, 1), (0, 1)] = .ok true ∧
    checkConvexity [((0, 0) : Pt ℚ), (2, 0), (2, 1), (1, 1), (1, 2), (0, 2)] = .ok false := by decide +kernel

/-- Without the hypothesis on the threshold: a clockwise list whose first bend is exactly `10⁻¹⁰` is reported
not convex (`orient` in the constructor makes lists counter-clockwise, so this list does not occur). -/
example : (∀ j < 4, turn [((0, 1) : Pt ℚ), (1 / 10 ^ 10, 1), (1, -1), (0, 0)] j ≤ -(1 / 10 ^ 10)) ∧
    checkConvexity [((0, 1) : Pt ℚ), (1 / 10 ^ 10, 1), (1, -1), (0, 0)] = .ok false := by decide +kernel

/-- All vertices on a line: IndexError. -/
example : checkConvexity [((0, 0) : Pt ℚ), (1, 0), (2, 0)] = .error .indexError := by decide +kernel

end Starworlds
