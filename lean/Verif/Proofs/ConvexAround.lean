import Verif.Proofs.Turning
import Verif.Proofs.RandomPolygon

/-! # Polygons with edges sorted by their directions -/

namespace Starworlds

open Real Spec Finset

/-- Three or more edges in increasing directions, within a full turn, turn once around, to the left at each corner. -/
theorem onceAround_sorted {v : List (Pt ℝ)} (hn : 3 ≤ v.length) (α : ℕ → ℝ)
    (hr : ∀ i < v.length, ∃ r : ℝ, 0 < r ∧ corner v (i + 1) - corner v i = r • ((cos (α i), sin (α i)) : Pt ℝ))
    (hs : ∀ i j, i < j → j < v.length → α i < α j) (hw : α (v.length - 1) < α 0 + 2 * π) :
    OnceAround v ∧ ∀ j < v.length, 0 < turn v j := by
  set n := v.length with hnv
  have hpi := pi_pos
  have hle : ∀ i j, i ≤ j → j < n → α i ≤ α j := fun i j hij hj =>
    hij.eq_or_lt.elim (fun h => (congrArg α h).le) fun h => (hs i j h hj).le
  set ψ : ℕ → ℝ := fun i => if i < n then α i else α 0 + 2 * π with hψ
  have ψlt : ∀ i < n, ψ i = α i := fun i hi => if_pos hi
  have ψn : ψ n = α 0 + 2 * π := if_neg (lt_irrefl n)
  have hmono : ∀ i < n, ψ i < ψ (i + 1) := by
    intro i hi
    rw [ψlt i hi]
    rcases Nat.lt_or_ge (i + 1) n with h | h
    · rw [ψlt _ h]; exact hs i (i + 1) (by omega) h
    · rw [show i + 1 = n by omega, ψn]
      have := hle i (n - 1) (by omega) (by omega)
      linarith
  have hgap : ∀ i < n, ψ (i + 1) - ψ i < π := by
    intro i hi
    by_contra hge
    push Not at hge
    set t := ψ (i + 1) with ht
    rw [ψlt i hi] at hge
    -- all edges point to one side of the direction `t`
    have hside : ∀ j < n, 0 ≤ sin (α j - t) := by
      intro j hj
      rcases Nat.lt_or_ge i j with h | h
      · have h1 : t = α (i + 1) := by rw [ht, ψlt]; omega
        have h2 := hle (i + 1) j (by omega) hj
        have h3 := hle j (n - 1) (by omega) (by omega)
        have h4 := hle 0 i (by omega) (by omega)
        exact sin_nonneg_of_nonneg_of_le_pi (by linarith) (by linarith)
      · have h1 : t ≤ α 0 + 2 * π := by
          rcases Nat.lt_or_ge (i + 1) n with h' | h'
          · rw [ht, ψlt _ h']; linarith [hle (i + 1) (n - 1) (by omega) (by omega)]
          · rw [ht, show i + 1 = n by omega, ψn]
        have h2 := hle 0 j (by omega) hj
        have h3 := hle j i h hi
        rw [← sin_add_two_pi]
        exact sin_nonneg_of_nonneg_of_le_pi (by linarith) (by linarith)
    have hone : ∃ j < n, 0 < sin (α j - t) := by
      rcases Nat.lt_or_ge (i + 2) n with h | h
      · refine ⟨i + 2, h, ?_⟩
        have h1 : t = α (i + 1) := by rw [ht, ψlt]; omega
        have h2 := hs (i + 1) (i + 2) (by omega) h
        have h3 := hle (i + 2) (n - 1) (by omega) (by omega)
        have h4 := hle 0 i (by omega) (by omega)
        exact sin_pos_of_pos_of_lt_pi (by linarith) (by linarith)
      · rcases Nat.lt_or_ge (i + 1) n with h' | h'
        · refine ⟨0, by omega, ?_⟩
          have h1 : t = α (n - 1) := by rw [ht, ψlt _ h']; congr 1; omega
          have h2 := hs 0 i (by omega) hi
          rw [← sin_add_two_pi]
          exact sin_pos_of_pos_of_lt_pi (by linarith) (by linarith)
        · refine ⟨1, by omega, ?_⟩
          have h1 : t = α 0 + 2 * π := by rw [ht, show i + 1 = n by omega, ψn]
          have h2 := hs 0 1 (by omega) (by omega)
          have h3 := hs 1 i (by omega) hi
          rw [← sin_add_two_pi]
          exact sin_pos_of_pos_of_lt_pi (by linarith) (by linarith)
    have hsum : ∑ j ∈ range n, cross (cos t, sin t) (corner v (j + 1) - corner v j) = 0 := by
      have := cross_sum ((cos t, sin t) : Pt ℝ) (range n) fun j => corner v (j + 1) - corner v j
      rw [← this, sum_range_sub]
      simp [corner, hnv, cross]
    have hterm : ∀ j < n, ∃ r : ℝ, 0 < r ∧ cross (cos t, sin t) (corner v (j + 1) - corner v j) = r * sin (α j - t) := by
      intro j hj
      obtain ⟨r, h0, e⟩ := hr j hj
      refine ⟨r, h0, ?_⟩
      rw [e, sin_sub]; simp [cross]; ring
    obtain ⟨j, hj, hpos⟩ := hone
    have := sum_eq_zero_iff_of_nonneg (fun j hj => by
      obtain ⟨r, h0, e⟩ := hterm j (mem_range.1 hj)
      rw [e]; exact mul_nonneg h0.le (hside j (mem_range.1 hj))) |>.1 hsum j (mem_range.2 hj)
    obtain ⟨r, h0, e⟩ := hterm j hj
    rw [e] at this
    exact absurd this (mul_pos h0 hpos).ne'
  constructor
  · refine ⟨ψ, fun i hi => by rw [ψlt i hi]; exact hr i hi, fun i hi => ?_, by rw [ψn, ψlt 0 (by omega)]⟩
    rw [abs_lt]
    exact ⟨by linarith [hmono i hi], hgap i hi⟩
  · intro j hj
    -- the corner between the edges `i` and `i + 1`
    set i := (j + n - 1) % n with hi
    have hin : i < n := Nat.mod_lt _ (by omega)
    have hji : (i + 1) % n = j := by
      rw [hi, Nat.mod_add_mod, show j + n - 1 + 1 = j + n by omega, Nat.add_mod_right, Nat.mod_eq_of_lt hj]
    obtain ⟨r, r0, er⟩ := hr i hin
    obtain ⟨s, s0, es⟩ := hr j hj
    have e1 : corner v (j + n - 1) = corner v i := by simp [corner, hi, hnv]
    have e2 : corner v (i + 1) = corner v j := by
      simp only [corner, ← hnv, hji, Nat.mod_eq_of_lt hj]
    rw [turn, ← hnv, e1, es, ← e2, er]
    have h1 : 0 < sin (α j - α i) := by
      have g1 := hmono i hin
      have g2 := hgap i hin
      rw [ψlt i hin] at g1 g2
      rcases Nat.lt_or_ge (i + 1) n with h | h
      · rw [Nat.mod_eq_of_lt h] at hji
        rw [hji, ψlt j hj] at g1 g2
        exact sin_pos_of_pos_of_lt_pi (by linarith) (by linarith)
      · have h' : i + 1 = n := by omega
        rw [h', Nat.mod_self] at hji
        rw [h', ψn] at g1 g2
        rw [← hji, ← sin_add_two_pi]
        exact sin_pos_of_pos_of_lt_pi (by linarith) (by linarith)
    have : cross (r • ((cos (α i), sin (α i)) : Pt ℝ)) (s • ((cos (α j), sin (α j)) : Pt ℝ)) = r * s * sin (α j - α i) := by
      rw [sin_sub]; simp [cross]; ring
    rw [this]
    positivity

/-- A polygon that turns once around, and to the left at all corners, is star-shaped about the mean of its corners. -/
theorem star_mean {v : List (Pt ℝ)} (h : OnceAround v) (ht : ∀ j < v.length, 0 ≤ turn v j) (hm : v.sum = 0) : StarAbout 0 v := by
  have hn := onceAround_pos h
  obtain ⟨ψ, L, hE, hd, hper⟩ := onceAround_cyclic h
  have hmono := directions_mono hn hE hd ht
  have hs : ∑ j ∈ range v.length, corner v j = 0 := by
    rw [← hm, ← sum_getD]
    refine sum_congr rfl fun j hj => ?_
    rw [corner, Nat.mod_eq_of_lt (mem_range.1 hj)]
  have hcyc : ∀ i, ∑ k ∈ range v.length, corner v (i + k) = 0 := by
    intro i
    induction i with
    | zero => simpa using hs
    | succ i ih =>
      have h1 := sum_range_succ (fun k => corner v (i + k)) v.length
      have h2 := sum_range_succ' (fun k => corner v (i + k)) v.length
      have h3 : corner v (i + v.length) = corner v i := by simp [corner]
      rw [ih, h3, zero_add] at h1
      rw [h1, add_zero] at h2
      have h4 : ∑ k ∈ range v.length, corner v (i + (k + 1)) = 0 := by
        have := h2.symm; simpa using this
      simpa [add_assoc, add_comm 1] using h4
  refine mono_star hE hmono hper hd fun i => ?_
  obtain ⟨k, hk, hpos⟩ := mono_strict hE hmono hper hd i
  have hk' : k ≠ v.length := by
    rintro rfl
    have : corner v (i + v.length) = corner v i := by simp [corner]
    rw [this] at hpos
    simp [cross] at hpos
  have htot : 0 < ∑ k ∈ range v.length, cross (corner v (i + 1) - corner v i) (corner v (i + k) - corner v i) :=
    sum_pos' (fun k hk => mono_left hE hmono hper i k (mem_range.1 hk).le) ⟨k, mem_range.2 (by omega), hpos⟩
  rw [← cross_sum, sum_sub_distrib, hcyc, sum_const, card_range] at htot
  have e : cross (corner v (i + 1) - corner v i) (0 - v.length • corner v i) =
      v.length * cross (corner v (i + 1) - corner v i) (0 - corner v i) := by
    simp [cross]; ring
  rw [e] at htot
  have hp : (0 : ℝ) < v.length := by exact_mod_cast hn
  exact (mul_pos_iff_of_pos_left hp).1 htot

end Starworlds
