import Verif.Proofs.CgLemmas

/-! # C02, C03: orientation predicates -/

namespace Starworlds

open Spec

set_option linter.unusedSectionVars false

variable {K : Type*} [Field K] [LinearOrder K] [IsStrictOrderedRing K]

/-- C02: no two of the three verdicts hold together. -/
theorem C02_exclusive (a b c : Pt K) :
    ¬ (isCw a b c = true ∧ isCcw a b c = true) ∧
    ¬ (isCw a b c = true ∧ isCollinear a b c = true) ∧
    ¬ (isCcw a b c = true ∧ isCollinear a b c = true) := by
  have h := thr_pos (K := K)
  rw [isCw_iff, isCcw_iff, isCollinear_iff, abs_lt]
  refine ⟨?_, ?_, ?_⟩ <;> rintro ⟨h1, h2⟩
  · linarith
  · linarith [h2.1]
  · linarith [h2.2]

/-- C02: the verdicts agree with the exact side of the line beyond the threshold: a
counter-clockwise verdict implies that `c` is strictly left of `a → b`, a clockwise one that it is
strictly right. -/
theorem C02_sound (a b c : Pt K) :
    (isCcw a b c = true → LeftOf a b c) ∧ (isCw a b c = true → LeftOf b a c) := by
  have h := thr_pos (K := K)
  rw [isCw_iff, isCcw_iff]
  unfold LeftOf
  refine ⟨fun h1 => by linarith, fun h1 => ?_⟩
  have : cross (a - b) (c - b) = - cross (b - a) (c - a) := by
    simp only [cross, Prod.fst_sub, Prod.snd_sub]; ring
  linarith

/-- C02: a cyclic shift of the three points keeps every verdict. -/
theorem C02_cyclic (a b c : Pt K) :
    isCw b c a = isCw a b c ∧ isCcw b c a = isCcw a b c ∧ isCollinear b c a = isCollinear a b c := by
  have h : orientationVal b c a = orientationVal a b c := by
    simp only [orientationVal]; ring
  simp only [isCw, isCcw, isCollinear, h, and_self]

/-- C02: swapping two points exchanges clockwise and counter-clockwise and keeps collinearity. -/
theorem C02_swap (a b c : Pt K) :
    isCw a c b = isCcw a b c ∧ isCcw a c b = isCw a b c ∧ isCollinear a c b = isCollinear a b c := by
  have h : orientationVal a c b = - orientationVal a b c := by
    simp only [orientationVal]; ring
  simp only [isCw, isCcw, isCollinear, h, abs_neg, and_true]
  constructor
  · apply decide_eq_decide.mpr; constructor <;> intro h <;> linarith
  · apply decide_eq_decide.mpr; constructor <;> intro h <;> linarith

/-- C02: translating all three points changes no verdict. -/
theorem C02_translate (a b c t : Pt K) :
    isCw (a + t) (b + t) (c + t) = isCw a b c ∧ isCcw (a + t) (b + t) (c + t) = isCcw a b c ∧
    isCollinear (a + t) (b + t) (c + t) = isCollinear a b c := by
  have h : orientationVal (a + t) (b + t) (c + t) = orientationVal a b c := by
    simp only [orientationVal, Prod.fst_add, Prod.snd_add]; ring
  simp only [isCw, isCcw, isCollinear, h, and_self]

/-- C03 is false of the code: there are three points for which none of the three verdicts holds
(the orientation value is exactly the threshold). -/
theorem C03_exactly_one_false :
    ∃ a b c : Pt K, isCw a b c = false ∧ isCcw a b c = false ∧ isCollinear a b c = false := by
  refine ⟨(0, 0), (0, 1), (1 / 10 ^ 10, 0), ?_⟩
  have h : orientationVal ((0, 0) : Pt K) (0, 1) (1 / 10 ^ 10, 0) = collinearThreshold := by
    simp [orientationVal, collinearThreshold]
  have h0 := thr_pos (K := K)
  simp only [isCw, isCcw, isCollinear, h, decide_eq_false_iff_not, abs_of_pos h0]
  refine ⟨lt_irrefl _, ?_, lt_irrefl _⟩
  intro h1; linarith

/-- C03, the true part: exactly one verdict holds whenever the orientation value is not exactly
plus or minus the threshold `1e-10` (and none holds when it is). -/
theorem C03_exactly_one_partial (a b c : Pt K) :
    ((isCw a b c = true ∧ isCcw a b c = false ∧ isCollinear a b c = false) ∨
     (isCw a b c = false ∧ isCcw a b c = true ∧ isCollinear a b c = false) ∨
     (isCw a b c = false ∧ isCcw a b c = false ∧ isCollinear a b c = true)) ↔
    |(b.2 - a.2) * (c.1 - b.1) - (b.1 - a.1) * (c.2 - b.2)| ≠ 1 / 10 ^ 10 := by
  change _ ↔ |orientationVal a b c| ≠ collinearThreshold
  simp only [isCw, isCcw, isCollinear, decide_eq_true_eq, decide_eq_false_iff_not, not_lt, gt_iff_lt]
  generalize orientationVal a b c = v
  have h0 := thr_pos (K := K)
  rcases abs_cases v with ⟨h1, h2⟩ | ⟨h1, h2⟩ <;> rw [h1]
  · rcases lt_trichotomy v collinearThreshold with h | h | h
    · exact ⟨fun _ => h.ne, fun _ => Or.inr (Or.inr ⟨h.le, by linarith, h⟩)⟩
    · refine ⟨?_, fun h' => absurd h h'⟩
      rintro (h' | h' | h')
      · exact absurd h'.1 (by rw [h]; exact lt_irrefl _)
      · linarith [h'.2.1]
      · exact absurd h'.2.2 (by rw [h]; exact lt_irrefl _)
    · exact ⟨fun _ => h.ne', fun _ => Or.inl ⟨h, by linarith, h.le⟩⟩
  · rcases lt_trichotomy (-v) collinearThreshold with h | h | h
    · exact ⟨fun _ => h.ne, fun _ => Or.inr (Or.inr ⟨by linarith, by linarith, h⟩)⟩
    · refine ⟨?_, fun h' => absurd h h'⟩
      rintro (h' | h' | h')
      · linarith [h'.1]
      · linarith [h'.2.1]
      · exact absurd h'.2.2 (by rw [h]; exact lt_irrefl _)
    · exact ⟨fun _ => h.ne', fun _ => Or.inr (Or.inl ⟨by linarith, by linarith, h.le⟩)⟩

/-- Each of the three verdicts is reachable. -/
example : isCw ((0, 0) : Pt ℚ) (0, 1) (1, 0) = true ∧ isCcw ((0, 0) : Pt ℚ) (1, 0) (0, 1) = true ∧
    isCollinear ((0, 0) : Pt ℚ) (1, 1) (2, 2) = true := by decide +kernel

end Starworlds
