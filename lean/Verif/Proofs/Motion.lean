import Verif.Model.Motion
import Verif.Spec.Plane
import Verif.Spec.Schedule
import Mathlib.Tactic.Linarith
import Mathlib.Tactic.FieldSimp
import Mathlib.Tactic.Module
import Mathlib.Data.List.GetD
import Mathlib.Algebra.Order.BigOperators.Group.List

/-! # Helper lemmas for the motion models -/

namespace Starworlds

open Real Spec

theorem runMoves_append (k : MotionKind) (s : MotionState) (as bs : List ℝ) :
    runMoves k s (as ++ bs) = match runMoves k s as with
      | .error e => .error e
      | .ok s' => runMoves k s' bs := by
  induction as generalizing s with
  | nil => simp [runMoves]
  | cons a as ih =>
    simp only [List.cons_append, runMoves]
    cases motionMove k s a with
    | error e => rfl
    | ok s' => exact ih s'

theorem norm2_sq (v : Pt ℝ) : norm2 v ^ 2 = v.1 ^ 2 + v.2 ^ 2 := sq_sqrt (by positivity)

theorem norm2_nonneg (v : Pt ℝ) : 0 ≤ norm2 v := sqrt_nonneg _

theorem norm2_smul (c : ℝ) (v : Pt ℝ) : norm2 (c • v) = |c| * norm2 v := by
  rw [norm2, norm2, ← sqrt_sq_eq_abs, ← sqrt_mul (sq_nonneg c)]
  congr 1
  simp only [Prod.smul_fst, Prod.smul_snd, smul_eq_mul]; ring

theorem norm2_eq_zero {v : Pt ℝ} : norm2 v = 0 ↔ v = 0 := by
  rw [norm2, sqrt_eq_zero (by positivity)]
  constructor
  · intro h
    have h1 : v.1 = 0 := by nlinarith [sq_nonneg v.1, sq_nonneg v.2]
    have h2 : v.2 = 0 := by nlinarith [sq_nonneg v.1, sq_nonneg v.2]
    exact Prod.ext h1 h2
  · rintro rfl; simp

theorem norm2_unit {v : Pt ℝ} (h : norm2 v ≠ 0) : norm2 (v.1 / norm2 v, v.2 / norm2 v) = 1 := by
  have : ((v.1 / norm2 v, v.2 / norm2 v) : Pt ℝ) = (norm2 v)⁻¹ • v := by
    ext <;> simp [div_eq_inv_mul]
  rw [this, norm2_smul, abs_of_nonneg (inv_nonneg.2 (norm2_nonneg v)), inv_mul_cancel₀ h]

theorem pyIdx_nat {α : Type*} (l : List α) (i : Nat) (h : i < l.length) : pyIdx l (i : Int) = .ok l[i] := by
  have : ¬ ((i : Int) < 0) := by omega
  simp [pyIdx, this, h]

theorem pyIdx_last {α : Type*} (l : List α) (i : Nat) (h : i + 1 = l.length) :
    pyIdx l (-1) = .ok (l[i]'(by omega)) := by
  have h1 : ((-1 : Int) + l.length).toNat = i := by omega
  have h2 : ¬ ((-1 : Int) + l.length < 0) := by omega
  have h3 : i < l.length := by omega
  simp only [pyIdx, show (-1 : Int) < 0 by decide, if_true, h1, h2, if_false]
  rw [List.getElem?_eq_getElem h3]

theorem pyIdx_last2 {α : Type*} (l : List α) (i : Nat) (h : i + 2 = l.length) :
    pyIdx l (-2) = .ok (l[i]'(by omega)) := by
  have h1 : ((-2 : Int) + l.length).toNat = i := by omega
  have h2 : ¬ ((-2 : Int) + l.length < 0) := by omega
  have h3 : i < l.length := by omega
  simp only [pyIdx, show (-2 : Int) < 0 by decide, if_true, h1, h2, if_false]
  rw [List.getElem?_eq_getElem h3]

theorem cumsum_length (acc : ℝ) (ds : List ℝ) : (cumsum acc ds).length = ds.length + 1 := by
  induction ds generalizing acc with
  | nil => rfl
  | cons d ds ih => simp [cumsum, ih]

theorem cumsum_get (acc : ℝ) (ds : List ℝ) (i : Nat) (h : i < (cumsum acc ds).length) :
    (cumsum acc ds)[i] = acc + (ds.take i).sum := by
  induction ds generalizing acc i with
  | nil =>
    have : i = 0 := by simp [cumsum] at h; omega
    subst this; simp [cumsum]
  | cons d ds ih =>
    cases i with
    | zero => simp [cumsum]
    | succ i =>
      simp only [cumsum, List.getElem_cons_succ, List.take_succ_cons, List.sum_cons]
      rw [ih]; ring

theorem take_sum_lt {ds : List ℝ} (hpos : ∀ d ∈ ds, 0 < d) {i j : Nat} (hij : i < j) (hj : j ≤ ds.length) :
    (ds.take i).sum < (ds.take j).sum := by
  have e : ds.take j = ds.take i ++ (ds.drop i).take (j - i) := by
    rw [← List.take_add]; congr 1; omega
  rw [e, List.sum_append]
  have : 0 < ((ds.drop i).take (j - i)).sum := by
    apply List.sum_pos
    · intro x hx; exact hpos x (List.mem_of_mem_drop (List.mem_of_mem_take hx))
    · intro h
      have := congrArg List.length h
      simp at this; omega
  linarith

theorem take_sum_le {ds : List ℝ} (hpos : ∀ d ∈ ds, 0 < d) {i j : Nat} (hij : i ≤ j) (hj : j ≤ ds.length) :
    (ds.take i).sum ≤ (ds.take j).sum := by
  rcases Nat.lt_or_eq_of_le hij with h | rfl
  · exact (take_sum_lt hpos h hj).le
  · exact le_refl _

theorem intervalTime_get (tp : List (ℝ × Pt ℝ)) (i : Nat) (h : i < (intervalTime tp).length) :
    (intervalTime tp)[i] = schedTime tp i := by
  simp only [intervalTime] at h ⊢
  rw [cumsum_get, schedTime, zero_add]

theorem intervalTime_length (tp : List (ℝ × Pt ℝ)) : (intervalTime tp).length = tp.length + 1 := by
  simp [intervalTime, cumsum_length]

theorem intervalPos_length (p0 : Pt ℝ) (tp : List (ℝ × Pt ℝ)) : (intervalPos p0 tp).length = tp.length + 1 := by
  simp [intervalPos]

theorem intervalPos_get (p0 : Pt ℝ) (tp : List (ℝ × Pt ℝ)) (i : Nat) (h : i < (intervalPos p0 tp).length) :
    (intervalPos p0 tp)[i] = schedPos p0 tp i := by
  simp only [schedPos]
  rw [List.getD_eq_getElem _ _ (by simpa [intervalPos] using h)]
  rfl

theorem schedTime_lt {tp : List (ℝ × Pt ℝ)} (hpos : ∀ e ∈ tp, 0 < e.1) {i j : Nat} (hij : i < j)
    (hj : j ≤ tp.length) : schedTime tp i < schedTime tp j :=
  take_sum_lt (by intro d hd; rw [List.mem_map] at hd; obtain ⟨e, he, rfl⟩ := hd; exact hpos e he) hij
    (by simpa using hj)

theorem schedTime_le {tp : List (ℝ × Pt ℝ)} (hpos : ∀ e ∈ tp, 0 < e.1) {i j : Nat} (hij : i ≤ j)
    (hj : j ≤ tp.length) : schedTime tp i ≤ schedTime tp j := by
  rcases Nat.lt_or_eq_of_le hij with h | rfl
  · exact (schedTime_lt hpos h hj).le
  · exact le_refl _

/-- `argmax` finds the first later time point. -/
theorem argmax_sched {tp : List (ℝ × Pt ℝ)} (hpos : ∀ e ∈ tp, 0 < e.1) {k : Nat} (hk : k < tp.length) {t : ℝ}
    (h1 : schedTime tp k ≤ t) (h2 : t < schedTime tp (k + 1)) :
    argmaxTrue ((intervalTime tp).map fun x => decide (t < x)) = k + 1 := by
  have : ((intervalTime tp).map fun x => decide (t < x)).findIdx? id = some (k + 1) := by
    rw [List.findIdx?_eq_some_iff_getElem]
    have hl := intervalTime_length tp
    refine ⟨by simp [hl, hk], ?_, ?_⟩
    · simp only [List.getElem_map, intervalTime_get, id_eq, decide_eq_true_eq]
      exact h2
    · intro j hj
      simp only [List.getElem_map, intervalTime_get, id_eq, decide_eq_true_eq, not_lt]
      exact (schedTime_le hpos (by omega) (by omega)).trans h1
  rw [argmaxTrue, this]

/-- Velocity in the `k`-th leg. -/
theorem intervalLinVel_leg {p0 : Pt ℝ} {tp : List (ℝ × Pt ℝ)} (hpos : ∀ e ∈ tp, 0 < e.1) {k : Nat}
    (hk : k < tp.length) {t : ℝ} (h1 : schedTime tp k ≤ t) (h2 : t < schedTime tp (k + 1)) (pos : Pt ℝ) :
    intervalLinVel p0 tp t pos =
      .ok ((schedTime tp (k + 1) - schedTime tp k)⁻¹ • (schedPos p0 tp (k + 1) - schedPos p0 tp k)) := by
  have hl := intervalTime_length tp
  have hp := intervalPos_length p0 tp
  have hend : t ≤ schedTime tp tp.length := h2.le.trans (schedTime_le hpos (by omega) (by omega))
  have hlt := schedTime_lt hpos (Nat.lt_succ_self k) (by omega)
  unfold intervalLinVel
  rw [pyIdx_last _ tp.length (by omega)]
  simp only [intervalTime_get, bind, Except.bind]
  rw [if_neg (not_lt.2 hend), argmax_sched hpos hk h1 h2]
  rw [show (((k + 1 : Nat) : Int) - 1) = ((k : Nat) : Int) by omega]
  rw [pyIdx_nat _ (k + 1) (by omega), pyIdx_nat _ k (by omega), pyIdx_nat _ (k + 1) (by omega),
    pyIdx_nat _ k (by omega)]
  simp only [intervalTime_get, intervalPos_get]
  rw [divPt, if_neg (by linarith : ¬ schedTime tp (k + 1) - schedTime tp k = 0)]
  congr 1
  ext <;> simp [div_eq_inv_mul]

end Starworlds
