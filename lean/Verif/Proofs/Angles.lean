import Verif.Model.Polygon
import Verif.Spec.Polygon
import Mathlib.Analysis.SpecialFunctions.Complex.Arg
import Mathlib.Tactic.Linarith
import Mathlib.Tactic.LinearCombination

/-! # Helper lemmas on angles -/

namespace Starworlds

open Real Spec

theorem seenAt_arctan2 (x p : Pt ℝ) : SeenAt x p (arctan2 (p.2 - x.2) (p.1 - x.1)) := by
  set z : ℂ := ⟨p.1 - x.1, p.2 - x.2⟩ with hz
  refine ⟨‖z‖, norm_nonneg _, ?_⟩
  have h1 : ‖z‖ * cos z.arg = p.1 - x.1 := Complex.norm_mul_cos_arg z
  have h2 : ‖z‖ * sin z.arg = p.2 - x.2 := Complex.norm_mul_sin_arg z
  ext
  · simp only [Prod.fst_add, Prod.smul_fst, smul_eq_mul, arctan2]; linarith
  · simp only [Prod.snd_add, Prod.smul_snd, smul_eq_mul, arctan2]; linarith

theorem seenAt_add_two_pi {x p : Pt ℝ} {t : ℝ} (h : SeenAt x p t) (k : ℤ) : SeenAt x p (t + k * (2 * π)) := by
  obtain ⟨r, hr, hp⟩ := h
  exact ⟨r, hr, by rw [cos_add_int_mul_two_pi, sin_add_int_mul_two_pi]; exact hp⟩

theorem seenAt_rawAngle (x p : Pt ℝ) : SeenAt x p (rawAngle x p) := by
  unfold rawAngle
  simp only
  split
  · have := seenAt_add_two_pi (seenAt_arctan2 x p) 1
    simpa using this
  · exact seenAt_arctan2 x p

theorem rawAngle_nonneg (x p : Pt ℝ) : 0 ≤ rawAngle x p := by
  unfold rawAngle arctan2
  simp only
  have h1 := Complex.neg_pi_lt_arg ⟨p.1 - x.1, p.2 - x.2⟩
  split <;> linarith [pi_pos]

theorem rawAngle_lt (x p : Pt ℝ) : rawAngle x p < 2 * π := by
  unfold rawAngle arctan2
  simp only
  have h1 := Complex.arg_le_pi ⟨p.1 - x.1, p.2 - x.2⟩
  split <;> linarith [pi_pos]

/-- A non-negative combination of the directions `α` and `β = α + δ`, `0 < δ < π`, has an angle in between. -/
theorem seenAt_between {x : Pt ℝ} {α δ A B : ℝ} (hδ0 : 0 < δ) (hδ : δ < π) (hA : 0 ≤ A) (hB : 0 ≤ B) :
    ∃ θ, α ≤ θ ∧ θ ≤ α + δ ∧
      SeenAt x (x + (A • ((cos α, sin α) : Pt ℝ) + B • ((cos (α + δ), sin (α + δ)) : Pt ℝ))) θ := by
  set z : ℂ := ⟨A + B * cos δ, B * sin δ⟩ with hz
  have hs : 0 < sin δ := sin_pos_of_pos_of_lt_pi hδ0 hδ
  have hre : ‖z‖ * cos z.arg = A + B * cos δ := Complex.norm_mul_cos_arg z
  have him : ‖z‖ * sin z.arg = B * sin δ := Complex.norm_mul_sin_arg z
  have h0 : 0 ≤ z.arg := by
    rw [Complex.arg_nonneg_iff]; exact mul_nonneg hB hs.le
  have h1 : z.arg ≤ δ := by
    by_contra hlt
    push Not at hlt
    have hz0 : z ≠ 0 := by
      intro h; rw [h, Complex.arg_zero] at hlt; linarith
    have hpos : 0 < ‖z‖ := norm_pos_iff.2 hz0
    have hsin : 0 < sin (z.arg - δ) := sin_pos_of_pos_of_lt_pi (by linarith) (by linarith [Complex.arg_le_pi z])
    have e : ‖z‖ * sin (z.arg - δ) = -(A * sin δ) := by
      rw [sin_sub]; linear_combination cos δ * him - sin δ * hre
    have := mul_pos hpos hsin
    have := mul_nonneg hA hs.le
    linarith
  refine ⟨α + z.arg, by linarith, by linarith, ‖z‖, norm_nonneg _, ?_⟩
  ext
  · simp only [Prod.fst_add, Prod.smul_fst, smul_eq_mul, cos_add]
    linear_combination -cos α * hre + sin α * him
  · simp only [Prod.snd_add, Prod.smul_snd, smul_eq_mul, cos_add, sin_add]
    linear_combination -sin α * hre - cos α * him

/-- If the ends of a segment are seen under angles at most `π` apart, so is every point of it, in between. -/
theorem seenAt_segment {x a b q : Pt ℝ} {α β : ℝ} (ha : SeenAt x a α) (hb : SeenAt x b β) (h : |β - α| ≤ π)
    (hq : OnSegment a b q) : ∃ θ, min α β ≤ θ ∧ θ ≤ max α β ∧ SeenAt x q θ := by
  obtain ⟨t, ht0, ht1, rfl⟩ := hq
  obtain ⟨ra, hra, rfl⟩ := ha
  obtain ⟨rb, hrb, rfl⟩ := hb
  have hA : 0 ≤ (1 - t) * ra := mul_nonneg (by linarith) hra
  have hB : 0 ≤ t * rb := mul_nonneg ht0 hrb
  have e : x + ra • ((cos α, sin α) : Pt ℝ) + t • (x + rb • ((cos β, sin β) : Pt ℝ) - (x + ra • ((cos α, sin α) : Pt ℝ))) =
      x + (((1 - t) * ra) • ((cos α, sin α) : Pt ℝ) + (t * rb) • ((cos β, sin β) : Pt ℝ)) := by
    ext <;> simp only [Prod.fst_add, Prod.snd_add, Prod.smul_fst, Prod.smul_snd, Prod.fst_sub, Prod.snd_sub,
      smul_eq_mul] <;> ring
  rw [e]
  generalize (1 - t) * ra = A at *
  generalize t * rb = B at *
  -- opposite directions
  have hopp : ∀ γ : ℝ, (cos γ = -cos α ∧ sin γ = -sin α) →
      SeenAt x (x + (A • ((cos α, sin α) : Pt ℝ) + B • ((cos γ, sin γ) : Pt ℝ))) α ∨
      SeenAt x (x + (A • ((cos α, sin α) : Pt ℝ) + B • ((cos γ, sin γ) : Pt ℝ))) γ := by
    rintro γ ⟨hc, hs⟩
    rcases le_total B A with hle | hle
    · left
      refine ⟨A - B, by linarith, ?_⟩
      ext <;> simp only [Prod.fst_add, Prod.snd_add, Prod.smul_fst, Prod.smul_snd, smul_eq_mul, hc, hs] <;> ring
    · right
      refine ⟨B - A, by linarith, ?_⟩
      ext <;> simp only [Prod.fst_add, Prod.snd_add, Prod.smul_fst, Prod.smul_snd, smul_eq_mul, hc, hs] <;> ring
  rcases lt_trichotomy α β with hlt | heq | hgt
  · rw [min_eq_left hlt.le, max_eq_right hlt.le]
    rw [abs_of_pos (by linarith)] at h
    rcases h.eq_or_lt with hpi | hpi
    · have hβ : β = α + π := by linarith
      rcases hopp β ⟨by rw [hβ, cos_add_pi], by rw [hβ, sin_add_pi]⟩ with h | h
      · exact ⟨α, le_rfl, hlt.le, h⟩
      · exact ⟨β, hlt.le, le_rfl, h⟩
    · obtain ⟨θ, h1, h2, h3⟩ := seenAt_between (x := x) (α := α) (δ := β - α) (by linarith) hpi hA hB
      have e2 : α + (β - α) = β := by ring
      rw [e2] at h2 h3
      exact ⟨θ, h1, h2, h3⟩
  · subst heq
    refine ⟨α, by simp, by simp, A + B, by linarith, ?_⟩
    ext <;> simp only [Prod.fst_add, Prod.snd_add, Prod.smul_fst, Prod.smul_snd, smul_eq_mul] <;> ring
  · rw [min_eq_right hgt.le, max_eq_left hgt.le]
    rw [abs_of_neg (by linarith), neg_sub] at h
    rcases h.eq_or_lt with hpi | hpi
    · have hβ : β = α - π := by linarith
      rcases hopp β ⟨by rw [hβ, cos_sub_pi], by rw [hβ, sin_sub_pi]⟩ with h | h
      · exact ⟨α, hgt.le, le_rfl, h⟩
      · exact ⟨β, le_rfl, hgt.le, h⟩
    · obtain ⟨θ, h1, h2, h3⟩ := seenAt_between (x := x) (α := β) (δ := α - β) (by linarith) hpi hB hA
      have e2 : β + (α - β) = α := by ring
      rw [e2] at h2 h3
      rw [add_comm (B • _)] at h3
      exact ⟨θ, h1, h2, h3⟩

/-! ## Unwrapped angles along a path -/

/-- Angles for the points of a path, with steps of at most `π`. -/
def AngleChain (x : Pt ℝ) : List (Pt ℝ) → List ℝ → Prop
  | [], [] => True
  | [p], [t] => SeenAt x p t
  | p :: q :: ps, t :: s :: ts => SeenAt x p t ∧ |s - t| ≤ π ∧ AngleChain x (q :: ps) (s :: ts)
  | _, _ => False

theorem unwrapFrom_chain (x : Pt ℝ) : ∀ (l : List (Pt ℝ)) (p : Pt ℝ) (k : ℤ),
    AngleChain x (p :: l) ((rawAngle x p + k * (2 * π)) :: unwrapFrom (k * (2 * π)) (rawAngle x p) (l.map (rawAngle x)))
  | [], p, k => seenAt_add_two_pi (seenAt_rawAngle x p) k
  | q :: l, p, k => by
    simp only [List.map_cons, unwrapFrom]
    have h1 := rawAngle_nonneg x p
    have h2 := rawAngle_lt x p
    have h3 := rawAngle_nonneg x q
    have h4 := rawAngle_lt x q
    have hstep : ∀ k' : ℤ, |rawAngle x q + k' * (2 * π) - (rawAngle x p + k * (2 * π))| ≤ π →
        AngleChain x (p :: q :: l) ((rawAngle x p + k * (2 * π)) :: (rawAngle x q + k' * (2 * π)) ::
          unwrapFrom (k' * (2 * π)) (rawAngle x q) (l.map (rawAngle x))) := fun k' h =>
      ⟨seenAt_add_two_pi (seenAt_rawAngle x p) k, h, unwrapFrom_chain x l q k'⟩
    split_ifs with c1 c2
    · have e : (k : ℝ) * (2 * π) - 2 * π = ((k - 1 : ℤ) : ℝ) * (2 * π) := by push_cast; ring
      rw [e]
      apply hstep
      push_cast
      rw [abs_le]
      constructor <;> linarith
    · have e : (k : ℝ) * (2 * π) + 2 * π = ((k + 1 : ℤ) : ℝ) * (2 * π) := by push_cast; ring
      rw [e]
      apply hstep
      push_cast
      rw [abs_le]
      constructor <;> linarith
    · apply hstep
      rw [abs_le]
      constructor <;> linarith

theorem unwrap_chain (x : Pt ℝ) (l : List (Pt ℝ)) : AngleChain x l (unwrapAngles (l.map (rawAngle x))) := by
  cases l with
  | nil => trivial
  | cons p l =>
    have := unwrapFrom_chain x l p 0
    simpa [unwrapAngles] using this

theorem AngleChain.length_eq {x : Pt ℝ} : ∀ {l : List (Pt ℝ)} {ts : List ℝ}, AngleChain x l ts → l.length = ts.length
  | [], [], _ => rfl
  | [_], [_], _ => rfl
  | _ :: q :: ps, _ :: s :: ts, h => by
    have := AngleChain.length_eq h.2.2
    simp only [List.length_cons] at *
    omega
  | [], _ :: _, h => h.elim
  | [_], [], h => h.elim
  | [_], _ :: _ :: _, h => h.elim
  | _ :: _ :: _, [], h => h.elim
  | _ :: _ :: _, [_], h => h.elim

theorem AngleChain.seen {x : Pt ℝ} : ∀ {l : List (Pt ℝ)} {ts : List ℝ}, AngleChain x l ts → ∀ i < l.length,
    SeenAt x (l.getD i 0) (ts.getD i 0)
  | [p], [t], h, i, hi => by
    have : i = 0 := by simpa using hi
    subst this
    exact h
  | p :: q :: ps, t :: s :: ts, h, i, hi => by
    cases i with
    | zero => exact h.1
    | succ i => exact AngleChain.seen h.2.2 i (by simpa using hi)
  | [], _, _, i, hi => by simp at hi
  | [_], [], h, _, _ => h.elim
  | [_], _ :: _ :: _, h, _, _ => h.elim
  | _ :: _ :: _, [], h, _, _ => h.elim
  | _ :: _ :: _, [_], h, _, _ => h.elim

theorem AngleChain.step {x : Pt ℝ} : ∀ {l : List (Pt ℝ)} {ts : List ℝ}, AngleChain x l ts → ∀ i, i + 1 < l.length →
    |ts.getD (i + 1) 0 - ts.getD i 0| ≤ π
  | p :: q :: ps, t :: s :: ts, h, i, hi => by
    cases i with
    | zero => exact h.2.1
    | succ i => exact AngleChain.step h.2.2 i (by simpa using hi)
  | [], _, _, i, hi => by simp at hi
  | [_], _, _, i, hi => by simp at hi
  | _ :: _ :: _, [], h, _, _ => h.elim
  | _ :: _ :: _, [_], h, _, _ => h.elim

/-! ## argmin and argmax -/

theorem argminIdx_spec (l : List ℝ) (hl : l ≠ []) :
    argminIdx l < l.length ∧ ∀ i < l.length, l.getD (argminIdx l) 0 ≤ l.getD i 0 := by
  have hpos : 0 < l.length := List.length_pos_iff.2 hl
  have key : ∀ n ≤ l.length, (List.range n).foldl (fun m i => if l.getD i 0 < l.getD m 0 then i else m) 0 < l.length ∧
      ∀ i < n, l.getD ((List.range n).foldl (fun m i => if l.getD i 0 < l.getD m 0 then i else m) 0) 0 ≤ l.getD i 0 := by
    intro n
    induction n with
    | zero => intro _; exact ⟨by simpa using hpos, by simp⟩
    | succ n ih =>
      intro hn
      obtain ⟨h1, h2⟩ := ih (by omega)
      rw [List.range_succ, List.foldl_append]
      simp only [List.foldl_cons, List.foldl_nil]
      split
      · rename_i hlt
        refine ⟨by omega, ?_⟩
        intro i hi
        rcases Nat.lt_succ_iff_lt_or_eq.1 hi with h | rfl
        · exact hlt.le.trans (h2 i h)
        · exact le_rfl
      · rename_i hge
        refine ⟨h1, ?_⟩
        intro i hi
        rcases Nat.lt_succ_iff_lt_or_eq.1 hi with h | rfl
        · exact h2 i h
        · exact not_lt.1 hge
  exact key l.length le_rfl

theorem argmaxIdx_spec (l : List ℝ) (hl : l ≠ []) :
    argmaxIdx l < l.length ∧ ∀ i < l.length, l.getD i 0 ≤ l.getD (argmaxIdx l) 0 := by
  have hpos : 0 < l.length := List.length_pos_iff.2 hl
  have key : ∀ n ≤ l.length, (List.range n).foldl (fun m i => if l.getD m 0 < l.getD i 0 then i else m) 0 < l.length ∧
      ∀ i < n, l.getD i 0 ≤ l.getD ((List.range n).foldl (fun m i => if l.getD m 0 < l.getD i 0 then i else m) 0) 0 := by
    intro n
    induction n with
    | zero => intro _; exact ⟨by simpa using hpos, by simp⟩
    | succ n ih =>
      intro hn
      obtain ⟨h1, h2⟩ := ih (by omega)
      rw [List.range_succ, List.foldl_append]
      simp only [List.foldl_cons, List.foldl_nil]
      split
      · rename_i hlt
        refine ⟨by omega, ?_⟩
        intro i hi
        rcases Nat.lt_succ_iff_lt_or_eq.1 hi with h | rfl
        · exact (h2 i h).trans hlt.le
        · exact le_rfl
      · rename_i hge
        refine ⟨h1, ?_⟩
        intro i hi
        rcases Nat.lt_succ_iff_lt_or_eq.1 hi with h | rfl
        · exact h2 i h
        · exact not_lt.1 hge
  exact key l.length le_rfl

end Starworlds
