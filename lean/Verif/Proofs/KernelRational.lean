import Verif.Proofs.KernelMaps
import Verif.Props.Transform
import Mathlib.Tactic.NormNum
import Mathlib.Tactic.Positivity
import Mathlib.Tactic.FieldSimp
import Mathlib.Data.Rat.Cast.Order

/-!
# Running `_compute_kernel` on rational polygons

`ratOps` are executable primitives over `ℚ` that agree with those of the code over `ℝ`. A norm that is not rational
is reported as `keyError`.
-/

namespace Starworlds

open Spec

/-- `√P ≤ M + N √C` for nonnegative `P`, `N`, `C`. -/
def leRoots (P M N C : ℚ) : Bool :=
  if 0 ≤ M then decide (P - M ^ 2 - N ^ 2 * C ≤ 0) || decide ((P - M ^ 2 - N ^ 2 * C) ^ 2 ≤ 4 * M ^ 2 * N ^ 2 * C)
  else decide (0 ≤ N ^ 2 * C - P - M ^ 2) && decide (4 * M ^ 2 * P ≤ (N ^ 2 * C - P - M ^ 2) ^ 2)

theorem leRoots_iff {P M N C : ℚ} (hP : 0 ≤ P) (hN : 0 ≤ N) (hC : 0 ≤ C) :
    leRoots P M N C = true ↔ √(P : ℝ) ≤ M + N * √(C : ℝ) := by
  have hP' : (0 : ℝ) ≤ P := by exact_mod_cast hP
  have hN' : (0 : ℝ) ≤ N := by exact_mod_cast hN
  have hC' : (0 : ℝ) ≤ C := by exact_mod_cast hC
  obtain ⟨p, hp⟩ : ∃ p, p = √(P : ℝ) := ⟨_, rfl⟩
  obtain ⟨c, hc⟩ : ∃ c, c = √(C : ℝ) := ⟨_, rfl⟩
  have p0 : 0 ≤ p := hp ▸ Real.sqrt_nonneg _
  have c0 : 0 ≤ c := hc ▸ Real.sqrt_nonneg _
  have pp : p ^ 2 = P := by rw [hp]; exact Real.sq_sqrt hP'
  have cc : c ^ 2 = C := by rw [hc]; exact Real.sq_sqrt hC'
  rw [← hp, ← hc]
  unfold leRoots
  split
  · rename_i hM
    have hM' : (0 : ℝ) ≤ M := by exact_mod_cast hM
    have e1 : p ≤ M + N * c ↔ p ^ 2 - M ^ 2 - N ^ 2 * c ^ 2 ≤ 2 * M * N * c := by
      rw [← abs_of_nonneg p0, ← abs_of_nonneg (a := M + N * c) (by positivity), ← sq_le_sq, abs_of_nonneg p0]
      constructor <;> intro h <;> nlinarith
    have e2 : (p ^ 2 - M ^ 2 - N ^ 2 * c ^ 2 ≤ 2 * M * N * c) ↔
        (p ^ 2 - M ^ 2 - N ^ 2 * c ^ 2 ≤ 0 ∨ (p ^ 2 - M ^ 2 - N ^ 2 * c ^ 2) ^ 2 ≤ 4 * M ^ 2 * N ^ 2 * c ^ 2) := by
      have r0 : 0 ≤ 2 * M * N * c := by positivity
      constructor
      · intro h
        rcases le_total (p ^ 2 - M ^ 2 - N ^ 2 * c ^ 2) 0 with h0 | h0
        · exact Or.inl h0
        · right
          have := mul_self_le_mul_self h0 h
          nlinarith
      · rintro (h | h)
        · linarith
        · refine le_of_sq_le_sq ?_ r0
          nlinarith
    rw [e1, e2, pp, cc, Bool.or_eq_true, decide_eq_true_eq, decide_eq_true_eq]
    constructor
    · rintro (h | h)
      · left; exact_mod_cast h
      · right; exact_mod_cast h
    · rintro (h | h)
      · left; exact_mod_cast h
      · right; exact_mod_cast h
  · rename_i hM
    have hM' : (M : ℝ) < 0 := by exact_mod_cast not_le.mp hM
    have e1 : p ≤ M + N * c ↔ 2 * -M * p ≤ N ^ 2 * c ^ 2 - p ^ 2 - M ^ 2 := by
      have : p ≤ M + N * c ↔ (p + -M) ≤ N * c := by constructor <;> intro h <;> linarith
      rw [this]
      have s0 : 0 ≤ p + -M := by linarith
      have t0 : 0 ≤ N * c := by positivity
      rw [← abs_of_nonneg s0, ← abs_of_nonneg t0, ← sq_le_sq]
      constructor <;> intro h <;> nlinarith
    have e2 : 2 * -M * p ≤ N ^ 2 * c ^ 2 - p ^ 2 - M ^ 2 ↔
        (0 ≤ N ^ 2 * c ^ 2 - p ^ 2 - M ^ 2 ∧ 4 * M ^ 2 * p ^ 2 ≤ (N ^ 2 * c ^ 2 - p ^ 2 - M ^ 2) ^ 2) := by
      have r0 : 0 ≤ 2 * -M * p := by
        have : (0 : ℝ) ≤ -M := by linarith
        positivity
      constructor
      · intro h
        have h0 := r0.trans h
        refine ⟨h0, ?_⟩
        have := mul_self_le_mul_self r0 h
        nlinarith
      · rintro ⟨h0, h⟩
        refine le_of_sq_le_sq ?_ h0
        nlinarith
    rw [e1, e2, pp, cc, Bool.and_eq_true, decide_eq_true_eq, decide_eq_true_eq]
    constructor
    · rintro ⟨h, h'⟩
      exact ⟨by exact_mod_cast h, by exact_mod_cast h'⟩
    · rintro ⟨h, h'⟩
      exact ⟨by exact_mod_cast h, by exact_mod_cast h'⟩

/-- `|a - b|²`. -/
def sqDist (a b : Pt ℚ) : ℚ := (a.1 - b.1) ^ 2 + (a.2 - b.2) ^ 2

/-- `is_between` decided without square roots. -/
def ratBetween (a b c : Pt ℚ) : Bool :=
  let A := sqDist a b
  let B := sqDist c b
  let C := sqDist a c
  let s : ℚ := 1 / 10 ^ 8
  let r : ℚ := 1 + 1 / 10 ^ 7
  leRoots (4 * A * B) (s ^ 2 + r ^ 2 * C - A - B) (2 * r * s) C

/-- A rational point as a real point. -/
noncomputable def toReal (p : Pt ℚ) : Pt ℝ := ((p.1 : ℝ), (p.2 : ℝ))

theorem ratBetween_eq (a b c : Pt ℚ) : isBetween (toReal a) (toReal b) (toReal c) = ratBetween a b c := by
  rw [Bool.eq_iff_iff, isBetween_iff]
  unfold ratBetween
  have hA : 0 ≤ sqDist a b := by unfold sqDist; positivity
  have hB : 0 ≤ sqDist c b := by unfold sqDist; positivity
  have hC : 0 ≤ sqDist a c := by unfold sqDist; positivity
  rw [leRoots_iff (by positivity) (by norm_num) hC]
  have n : ∀ x y : Pt ℚ, normSq (toReal x - toReal y) = ((sqDist x y : ℚ) : ℝ) := by
    intro x y; simp only [normSq, toReal, sqDist, Prod.fst_sub, Prod.snd_sub]; push_cast; ring
  unfold Spec.NearlyBetween
  rw [n, n, n]
  have hA' : (0 : ℝ) ≤ (sqDist a b : ℚ) := by exact_mod_cast hA
  have hB' : (0 : ℝ) ≤ (sqDist c b : ℚ) := by exact_mod_cast hB
  have hC' : (0 : ℝ) ≤ (sqDist a c : ℚ) := by exact_mod_cast hC
  have e : √((4 * sqDist a b * sqDist c b : ℚ) : ℝ) = 2 * (√((sqDist a b : ℚ) : ℝ) * √((sqDist c b : ℚ) : ℝ)) := by
    rw [← Real.sqrt_mul hA']
    push_cast
    rw [show (4 : ℝ) * (sqDist a b : ℝ) * (sqDist c b : ℝ) = 2 ^ 2 * ((sqDist a b : ℝ) * (sqDist c b : ℝ)) by ring,
      Real.sqrt_mul (by norm_num), Real.sqrt_sq (by norm_num)]
  rw [e]
  obtain ⟨x, hx⟩ : ∃ x, x = √((sqDist a b : ℚ) : ℝ) := ⟨_, rfl⟩
  obtain ⟨y, hy⟩ : ∃ y, y = √((sqDist c b : ℚ) : ℝ) := ⟨_, rfl⟩
  obtain ⟨z, hz⟩ : ∃ z, z = √((sqDist a c : ℚ) : ℝ) := ⟨_, rfl⟩
  have x0 : 0 ≤ x := hx ▸ Real.sqrt_nonneg _
  have y0 : 0 ≤ y := hy ▸ Real.sqrt_nonneg _
  have z0 : 0 ≤ z := hz ▸ Real.sqrt_nonneg _
  have xx : x ^ 2 = (sqDist a b : ℚ) := by rw [hx]; exact Real.sq_sqrt hA'
  have yy : y ^ 2 = (sqDist c b : ℚ) := by rw [hy]; exact Real.sq_sqrt hB'
  have zz : z ^ 2 = (sqDist a c : ℚ) := by rw [hz]; exact Real.sq_sqrt hC'
  rw [← hx, ← hy, ← hz]
  push_cast
  rw [← xx, ← yy, ← zz]
  have t0 : 0 ≤ z + (1 / 10 ^ 8 + 1 / 10 ^ 7 * z) := by positivity
  have : x + y ≤ z + (1 / 10 ^ 8 + 1 / 10 ^ 7 * z) ↔ (x + y) ^ 2 ≤ (z + (1 / 10 ^ 8 + 1 / 10 ^ 7 * z)) ^ 2 := by
    rw [sq_le_sq, abs_of_nonneg (by positivity), abs_of_nonneg t0]
  rw [this]
  constructor <;> intro h <;> nlinarith

/-- The norm of a vector if it is rational. -/
def ratNorm (v : Pt ℚ) : Option ℚ :=
  let q := v.1 ^ 2 + v.2 ^ 2
  let r : ℚ := (Nat.sqrt q.num.natAbs : ℚ) / (Nat.sqrt q.den : ℚ)
  if r * r = q then some r else none

theorem ratNorm_eq {v : Pt ℚ} {r : ℚ} (h : ratNorm v = some r) : norm2 (toReal v) = (r : ℝ) := by
  unfold ratNorm at h
  simp only at h
  split at h
  · rename_i hq
    have hr := Option.some.inj h
    rw [hr] at hq
    have r0 : 0 ≤ r := by rw [← hr]; positivity
    unfold norm2
    rw [show (toReal v).1 ^ 2 + (toReal v).2 ^ 2 = (r : ℝ) ^ 2 by
      simp only [toReal]; rw [sq (r : ℝ)]; exact_mod_cast hq.symm]
    exact Real.sqrt_sq (by exact_mod_cast r0)
  · cases h

/-- The executable primitives. -/
def ratOps : KernelOps (Pt ℚ) :=
  { kernelOps (fun _ => (0 : ℚ)) ratBetween with
    before := fun a b => match ratNorm (b - a) with
      | none => .error .keyError
      | some r => if r = 0 then .error .nonFinite else .ok (a - (300 / r) • (b - a))
    beyond := fun a b => match ratNorm (b - a) with
      | none => .error .keyError
      | some r => if r = 0 then .error .nonFinite else .ok (a + (300 / r) • (b - a)) }

theorem toReal_injective : Function.Injective toReal := by
  intro a b h
  simp only [toReal, Prod.mk.injEq, Rat.cast_inj] at h
  exact Prod.ext h.1 h.2

theorem toReal_sub (a b : Pt ℚ) : toReal (a - b) = toReal a - toReal b := by
  simp [toReal]

theorem orient_toReal (a b c : Pt ℚ) : orientationVal (toReal a) (toReal b) (toReal c) = (orientationVal a b c : ℚ) := by
  simp only [orientationVal, toReal]; push_cast; ring

theorem threshold_cast : ((collinearThreshold : ℚ) : ℝ) = collinearThreshold := by
  simp [collinearThreshold]

theorem toReal_turns : KeepsTurns toReal := by
  constructor <;> intro a b c <;>
    simp only [isCollinear, isCw, isCcw, orient_toReal, ← threshold_cast, decide_eq_decide]
  · rw [← Rat.cast_abs]; exact Rat.cast_lt
  · exact Rat.cast_lt
  · rw [← Rat.cast_neg]; exact Rat.cast_lt

theorem toReal_hom : KernelOps.Hom True ratOps realOps toReal where
  meet a b c d := by
    right
    have hi : intersect (toReal a) (toReal b) (toReal c) (toReal d) = intersect a b c d := by
      simp only [intersect, toReal_turns.ccw]
    simp only [ratOps, realOps, kernelOps, hi, ratBetween_eq]
    by_cases h : intersect a b c d = true
    · simp only [h, Bool.not_true, Bool.false_eq_true, if_false]
      have hd : -(toReal b - toReal a).2 * (toReal d - toReal c).1 + (toReal b - toReal a).1 * (toReal d - toReal c).2 =
          ((-(b - a).2 * (d - c).1 + (b - a).1 * (d - c).2 : ℚ) : ℝ) := by
        simp only [toReal, Prod.fst_sub, Prod.snd_sub]; push_cast; ring
      have hn : -(toReal b - toReal a).2 * (toReal a - toReal c).1 + (toReal b - toReal a).1 * (toReal a - toReal c).2 =
          ((-(b - a).2 * (a - c).1 + (b - a).1 * (a - c).2 : ℚ) : ℝ) := by
        simp only [toReal, Prod.fst_sub, Prod.snd_sub]; push_cast; ring
      rw [hd, hn]
      by_cases hz : -(b - a).2 * (d - c).1 + (b - a).1 * (d - c).2 = 0
      · rw [if_pos hz, if_pos (by rw [hz]; norm_num)]; rfl
      · rw [if_neg hz, if_neg (by exact_mod_cast hz)]
        simp only [Except.map, Option.map_some, Except.ok.injEq, Option.some.injEq]
        ext <;> simp only [toReal, Prod.fst_add, Prod.snd_add, Prod.smul_fst, Prod.smul_snd, Prod.fst_sub, Prod.snd_sub,
          smul_eq_mul] <;> push_cast <;> ring
    · simp only [Bool.not_eq_true] at h
      simp only [h, Bool.not_false, if_true]
      repeat' split
      all_goals rfl
  collinear := toReal_turns.collinear
  cw := toReal_turns.cw
  ccw := toReal_turns.ccw
  between := ratBetween_eq
  agree a b c d e f := by
    simp only [ratOps, realOps, kernelOps, orient_toReal, decide_eq_decide]
    rw [← Rat.cast_mul]; exact Rat.cast_pos
  before a b := by
    simp only [ratOps, realOps, kernelOps, ← toReal_sub]
    cases h : ratNorm (b - a) with
    | none => exact Or.inl ⟨trivial, rfl⟩
    | some r =>
      rw [ratNorm_eq h]
      by_cases hr : r = 0
      · simp only [hr, if_true, Rat.cast_zero]; exact Tracks.err _ _
      · have : (r : ℝ) ≠ 0 := by exact_mod_cast hr
        simp only [hr, this, if_false]
        right
        simp only [Except.map, Except.ok.injEq]
        ext <;> simp [toReal]
  beyond a b := by
    simp only [ratOps, realOps, kernelOps, ← toReal_sub]
    cases h : ratNorm (b - a) with
    | none => exact Or.inl ⟨trivial, rfl⟩
    | some r =>
      rw [ratNorm_eq h]
      by_cases hr : r = 0
      · simp only [hr, if_true, Rat.cast_zero]; exact Tracks.err _ _
      · have : (r : ℝ) ≠ 0 := by exact_mod_cast hr
        simp only [hr, this, if_false]
        right
        simp only [Except.map, Except.ok.injEq]
        ext <;> simp [toReal]
  stretch a b := by
    simp only [ratOps, realOps, kernelOps]
    ext <;> simp [toReal]

theorem signedArea2_toReal (v : List (Pt ℚ)) : signedArea2 (v.map toReal) = ((signedArea2 v : ℚ) : ℝ) := by
  unfold signedArea2
  rw [ringOf_map, edgesOf_map, List.map_map]
  induction edgesOf (ringOf v) with
  | nil => simp
  | cons e l ih =>
    rw [List.map_cons, List.sum_cons, ih, List.map_cons, List.sum_cons]
    simp only [Function.comp, Prod.map, toReal]
    push_cast; ring

/-- A run over `ℚ` is a run of the code over `ℝ`. -/
theorem constructKernel_rat {v : List (Pt ℚ)} {r : Except PyErr (List (Pt ℚ))} (h : constructKernel ratOps v = r)
    (hr : r ≠ .error .keyError) : constructKernel realOps (v.map toReal) = r.map (List.map toReal) := by
  have := constructKernel_tracks toReal_hom toReal_injective toReal_turns (v := v)
    (by rw [signedArea2_toReal]; exact_mod_cast Iff.rfl)
  rcases this with ⟨_, h'⟩ | h'
  · exact absurd (h ▸ h') hr
  · rw [h', h]

end Starworlds
