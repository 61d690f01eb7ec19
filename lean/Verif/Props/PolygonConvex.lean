import Verif.Props.Polygon
import Verif.Proofs.Turning
import Verif.Proofs.KernelVisible
import Verif.Proofs.KernelRational

/-! # C36: Polygon.is_convex and the region of the polygon -/

namespace Starworlds

open Real Spec

theorem onceAround_bends {v : List (Pt ℝ)} (h : OnceAround v) : ∃ i, i + 1 < v.length ∧ turn v i ≠ 0 := by
  have hn := onceAround_pos h
  obtain ⟨ψ, L, hE, hd, hper⟩ := onceAround_cyclic h
  have hpi := pi_pos
  by_contra hno
  push Not at hno
  set n := v.length with hnn
  have hstep : ∀ j, (j + 1) % n + 1 < n → ψ (j + 1) = ψ j := by
    intro j hj
    have h0 := hno _ hj
    rw [turn_cyclic hn, show j + 2 = (j + 1) + 1 from rfl, edges_cross hE] at h0
    have hs : sin (ψ (j + 1) - ψ j) = 0 := by
      rcases mul_eq_zero.1 h0 with h1 | h1
      · exact absurd h1 (mul_pos (hE _).1 (hE _).1).ne'
      · exact h1
    have := (sin_eq_zero_iff_of_lt_of_lt (abs_lt.1 (hd j)).1 (abs_lt.1 (hd j)).2).1 hs
    linarith
  -- the directions of the edges `n - 1, n, .., 2 n - 2` are the same
  have hall : ∀ k, k + 1 ≤ n → ψ (n - 1 + k) = ψ (n - 1) := by
    intro k
    induction k with
    | zero => intro _; rfl
    | succ k ih =>
      intro hk
      rw [← ih (by omega), show n - 1 + (k + 1) = n - 1 + k + 1 by omega]
      refine hstep _ ?_
      rw [show n - 1 + k + 1 = n + k by omega, Nat.add_mod_left, Nat.mod_eq_of_lt (by omega)]
      omega
  have h1 := hall (n - 1) (by omega)
  have h2 := hd (n - 1 + (n - 1))
  have h3 := hper (n - 1)
  rw [show n - 1 + (n - 1) + 1 = n - 1 + n by omega, h3, h1, abs_lt] at h2
  linarith [h2.2]

theorem onceAround_left {v : List (Pt ℝ)} (h : OnceAround v) : ∃ j < v.length, 0 < turn v j := by
  have hn := onceAround_pos h
  obtain ⟨ψ, L, hE, hd, hper⟩ := onceAround_cyclic h
  by_contra hno
  push Not at hno
  have hanti : Antitone ψ := by
    refine antitone_nat_of_succ_le fun j => ?_
    have h0 := hno _ (Nat.mod_lt (j + 1) hn)
    rw [turn_cyclic hn, show j + 2 = (j + 1) + 1 from rfl, edges_cross hE] at h0
    by_contra hlt
    push Not at hlt
    have := sin_pos_of_pos_of_lt_pi (x := ψ (j + 1) - ψ j) (by linarith) (abs_lt.1 (hd j)).2
    nlinarith [mul_pos (hE j).1 (hE (j + 1)).1]
  have h1 := hanti (Nat.zero_le (0 + v.length))
  rw [hper] at h1
  linarith [pi_pos]

/-- C36 (partial): if the polygon goes once around and every corner is straight or bends by more than the threshold, then
`_check_convexity` raises nothing, its answer is True exactly if no corner bends to the right, True means that the region of
the polygon is convex (it is the convex hull of the corners), and for a star-shaped polygon True is the answer exactly if the
region is convex. Missing: corners that bend by less than the threshold (`C36_band_false`). -/
theorem C36_region_partial (v : List (Pt ℝ)) (h : OnceAround v)
    (hband : ∀ j < v.length, turn v j = 0 ∨ 1 / 10 ^ 10 < |turn v j|) :
    ∃ b, checkConvexity v = .ok b ∧ (b = true ↔ ∀ j < v.length, 0 ≤ turn v j) ∧
      (b = true → Convex ℝ (filled v) ∧ filled v = convexHull ℝ {p | p ∈ v}) ∧
      ∀ c, StarAbout c v → (b = true ↔ Convex ℝ (filled v)) := by
  classical
  have hex := onceAround_bends h
  obtain ⟨i, ⟨hi, hti⟩, hmin⟩ : ∃ i, (i + 1 < v.length ∧ turn v i ≠ 0) ∧ ∀ j < i, ¬ (j + 1 < v.length ∧ turn v j ≠ 0) :=
    ⟨Nat.find hex, Nat.find_spec hex, fun j hj => Nat.find_min hex hj⟩
  have hz : ∀ j < i, turn v j = 0 := by
    intro j hj
    by_contra h0
    exact hmin j hj ⟨by omega, h0⟩
  have hbi := (hband i (by omega)).resolve_left hti
  have hpos : (0 : ℝ) < 1 / 10 ^ 10 := by norm_num
  obtain ⟨b, hb, hiff⟩ := C36_convex_partial v i hi (fun j hj => by rw [hz j hj, abs_zero]; exact hpos) hbi.le (Or.inl hbi)
  have hiff' : b = true ↔ ∀ j < v.length, 0 ≤ turn v j := by
    rw [hiff]
    constructor
    · intro hno j hj
      by_contra hlt
      push Not at hlt
      obtain ⟨k, hk, hk0⟩ := onceAround_left h
      refine hno ⟨⟨k, hk, ?_⟩, j, hj, ?_⟩
      · have := (hband k hk).resolve_left hk0.ne'
        rwa [abs_of_pos hk0] at this
      · have := (hband j hj).resolve_left hlt.ne
        rw [abs_of_neg hlt] at this
        linarith
    · rintro hall ⟨-, j, hj, hlt⟩
      linarith [hall j hj]
  refine ⟨b, hb, hiff', fun hbt => ?_, fun c hc => ⟨fun hbt => ?_, fun hconv => ?_⟩⟩
  · obtain ⟨-, e, -⟩ := onceAround_convex h (hiff'.1 hbt)
    exact ⟨by rw [e]; exact convex_convexHull ℝ _, e⟩
  · obtain ⟨-, e, -⟩ := onceAround_convex h (hiff'.1 hbt)
    rw [e]; exact convex_convexHull ℝ _
  · exact hiff'.2 (convex_turns hc hconv)

/-- A notch of width and depth 1/400000 in the lower side of a square of side 2. -/
def nickShape : List (Pt ℚ) :=
  [(-1, -1), (-1 / 400000, -1), (0, -1 + 1 / 400000), (1 / 400000, -1), (1, -1), (1, 1), (-1, 1)]

/-- C36 is false for corners that bend by little: a square with a small notch in one side is reported convex, but the
midpoint of the mouth of the notch is not in the region. -/
theorem C36_band_false : checkConvexity (nickShape.map toReal) = .ok true ∧ StarAbout (0, 0) (nickShape.map toReal) ∧
    turn (nickShape.map toReal) 2 < 0 ∧ ¬ Convex ℝ (filled (nickShape.map toReal)) := by
  have hs : StarAbout (0, 0) (nickShape.map toReal) := by
    have := starAbout_rat (c := 0) (v := nickShape) (by decide +kernel)
    simpa [toReal] using this
  have ht : turn (nickShape.map toReal) 2 < 0 := by
    have e : turn (nickShape.map toReal) 2 = ((turn nickShape 2 : ℚ) : ℝ) := by
      unfold turn
      rw [List.length_map, corner_toReal, corner_toReal, corner_toReal, ← toReal_sub, ← toReal_sub, cross_toReal]
    rw [e, Rat.cast_lt_zero]
    decide +kernel
  refine ⟨?_, hs, ht, fun hc => ?_⟩
  · rw [checkConvexity_map toReal_turns]; decide +kernel
  · exact absurd (convex_turns hs hc 2 (by simp [nickShape])) (not_le.2 ht)

/-- The unit square goes once around, with quarter turns. -/
theorem square_once : OnceAround [((0, 0) : Pt ℝ), (1, 0), (1, 1), (0, 1)] := by
  refine ⟨fun i => i * (π / 2), ?_, ?_, ?_⟩
  · intro i hi
    simp only [List.length_cons, List.length_nil] at hi
    refine ⟨1, one_pos, ?_⟩
    interval_cases i
    · simp [corner]
    · simp [corner]
    · simp [corner, show (2 : ℝ) * (π / 2) = π by ring]
    · simp [corner, show (3 : ℝ) * (π / 2) = π / 2 + π by ring]
  · intro i _
    have : ((i + 1 : ℕ) : ℝ) * (π / 2) - i * (π / 2) = π / 2 := by push_cast; ring
    rw [this, abs_of_pos (by linarith [pi_pos])]
    linarith [pi_pos]
  · simp; ring

/-- The unit square: True, and its region is the convex hull of the four corners. -/
example : checkConvexity [((0, 0) : Pt ℝ), (1, 0), (1, 1), (0, 1)] = .ok true ∧
    filled [((0, 0) : Pt ℝ), (1, 0), (1, 1), (0, 1)] = convexHull ℝ {p | p ∈ [((0, 0) : Pt ℝ), (1, 0), (1, 1), (0, 1)]} := by
  have ht : ∀ j < 4, turn [((0, 0) : Pt ℝ), (1, 0), (1, 1), (0, 1)] j = 1 := by
    intro j hj
    interval_cases j <;> simp [turn, corner, cross]
  obtain ⟨b, h1, h2, h3, -⟩ := C36_region_partial _ square_once fun j hj => Or.inr (by rw [ht j hj]; norm_num)
  have hb : b = true := h2.2 fun j hj => by rw [ht j hj]; norm_num
  subst hb
  exact ⟨h1, (h3 rfl).2⟩

end Starworlds
