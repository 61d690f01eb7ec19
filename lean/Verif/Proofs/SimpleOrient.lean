import Verif.Proofs.SimpleStar
import Verif.Proofs.Area
import Verif.Proofs.HullStar
import Verif.Proofs.StarKernel
import Verif.Proofs.StarTangent
import Verif.Proofs.FilledRing

/-! # Rings without crossings that are star-shaped, after they have been made counter-clockwise -/

namespace Starworlds

open Spec MeasureTheory

/-- Orienting a ring rotates it or its reverse. -/
theorem orient_cases (v : List (Pt ℝ)) : (0 ≤ signedArea2 v ∧ orientRing v = v) ∨
    (signedArea2 v < 0 ∧ ∃ k, orientRing v = v.reverse.rotate k) := by
  unfold orientRing
  split
  · rename_i h; exact .inl ⟨h, rfl⟩
  · rename_i h
    refine .inr ⟨not_le.1 h, ?_⟩
    cases v with
    | nil => exact ⟨0, by simp⟩
    | cons a l =>
      refine ⟨l.length, ?_⟩
      rw [List.reverse_cons, show l.length = l.reverse.length by simp, List.rotate_append_length_eq]
      simp

theorem onRing_reverse_imp {v : List (Pt ℝ)} {q : Pt ℝ} (h : OnRing v.reverse q) : OnRing v q := by
  obtain ⟨i, hi, hq⟩ := h
  rw [List.length_reverse] at hi
  obtain ⟨m, hm, -, a1, a2⟩ := edge_reverse v hi
  rw [a1, a2] at hq
  exact ⟨m, hm, onSegment_swap.1 hq⟩

theorem onRing_reverse_iff (v : List (Pt ℝ)) (q : Pt ℝ) : OnRing v.reverse q ↔ OnRing v q :=
  ⟨onRing_reverse_imp, fun h => onRing_reverse_imp (by rwa [List.reverse_reverse])⟩

theorem onRing_orient (v : List (Pt ℝ)) (q : Pt ℝ) : OnRing (orientRing v) q ↔ OnRing v q := by
  rcases orient_cases v with ⟨-, e⟩ | ⟨-, k, e⟩
  · rw [e]
  · rw [e, onRing_rotate, onRing_reverse_iff]

theorem filled_orient (v : List (Pt ℝ)) : filled (orientRing v) = filled v := by
  rcases orient_cases v with ⟨-, e⟩ | ⟨-, k, e⟩
  · rw [e]
  · rw [e, filled_rotated, filled_reverse]

theorem inside_filled (v : List (Pt ℝ)) (q : Pt ℝ) : Inside v q ↔ q ∈ filled v ∧ ¬ OnRing v q := by
  constructor
  · intro h; exact ⟨.inl h, h.1⟩
  · rintro ⟨h | h, h'⟩
    · exact h
    · exact absurd h h'

theorem inside_orient (v : List (Pt ℝ)) (q : Pt ℝ) : Inside (orientRing v) q ↔ Inside v q := by
  rw [inside_filled, inside_filled, filled_orient, onRing_orient]

/-- A star-shaped ring with inner points has positive area. -/
theorem star_area_pos {c : Pt ℝ} {v : List (Pt ℝ)} (h : StarAbout c v) (hi : (interior (filled v)).Nonempty) :
    0 < signedArea2 v := by
  obtain ⟨h1, h2⟩ := volume_star h
  have hpos : 0 < volume (filled v) := lt_of_lt_of_le (isOpen_interior.measure_pos volume hi) (measure_mono interior_subset)
  rw [h1, ENNReal.ofReal_pos] at hpos
  linarith

/-- A ring without crossings, made counter-clockwise, is star-shaped about the inner points of the kernel. -/
theorem star_orient {v : List (Pt ℝ)} (h : SimpleRing v) {c : Pt ℝ} (hc : c ∈ interior (visKernel (filled v))) :
    StarAbout c (orientRing v) := by
  have hi : (interior (filled v)).Nonempty := ⟨c, interior_mono (fun p hp => hp.1) hc⟩
  rcases simple_star h hc with hs | hs
  · have := star_area_pos hs hi
    rw [orientRing, if_pos this.le]
    exact hs
  · have := star_area_pos hs (by rwa [filled_reverse])
    rw [signedArea2_reverse] at this
    rcases orient_cases v with ⟨h0, -⟩ | ⟨-, k, e⟩
    · linarith
    · rw [e]; exact starAbout_rotate hs k

/-- The kernel of a ring without crossings, if it has inner points: the points that are not to the right of an edge of the
counter-clockwise ring. -/
theorem simple_kernel {v : List (Pt ℝ)} (h : SimpleRing v) (hc : (interior (visKernel (filled v))).Nonempty) :
    visKernel (filled v) = leftKernel (orientRing v) := by
  obtain ⟨c, hc⟩ := hc
  rw [← star_kernel (star_orient h hc), filled_orient]

/-- The edges of the oriented ring are those of the ring, perhaps backwards. -/
theorem edge_orient (v : List (Pt ℝ)) {j : ℕ} (hj : j < (orientRing v).length) : ∃ m < v.length,
    (corner (orientRing v) j = corner v m ∧ corner (orientRing v) (j + 1) = corner v (m + 1)) ∨
      (corner (orientRing v) j = corner v (m + 1) ∧ corner (orientRing v) (j + 1) = corner v m) := by
  rcases orient_cases v with ⟨-, e⟩ | ⟨-, k, e⟩
  · rw [e] at hj ⊢
    exact ⟨j, hj, .inl ⟨rfl, rfl⟩⟩
  · rw [e] at hj ⊢
    rw [List.length_rotate] at hj
    have hpos : 0 < v.reverse.length := by omega
    have hi := Nat.mod_lt (j + k) hpos
    have e1 : corner (v.reverse.rotate k) j = corner v.reverse ((j + k) % v.reverse.length) := by
      rw [corner_rotate]; simp [corner]
    have e2 : corner (v.reverse.rotate k) (j + 1) = corner v.reverse ((j + k) % v.reverse.length + 1) := by
      rw [corner_rotate, show j + 1 + k = j + k + 1 by omega]; simp [corner]
    have hi' : (j + k) % v.reverse.length < v.length := by simpa using hi
    obtain ⟨m, hm, -, a1, a2⟩ := edge_reverse v hi'
    exact ⟨m, hm, .inr ⟨by rw [e1, a1], by rw [e2, a2]⟩⟩

/-- The centre of a star-shaped ring is an inner point of the kernel. -/
theorem star_kernel_interior {c : Pt ℝ} {v : List (Pt ℝ)} (h : StarAbout c v) : c ∈ interior (visKernel (filled v)) := by
  rw [star_kernel h, mem_interior_iff_mem_nhds]
  have hev : ∀ i ∈ Finset.range v.length, ∀ᶠ p in nhds c, 0 < cross (corner v (i + 1) - corner v i) (p - corner v i) := by
    intro i hi
    have hcont : Continuous fun p : Pt ℝ => cross (corner v (i + 1) - corner v i) (p - corner v i) := by
      unfold cross; fun_prop
    refine hcont.continuousAt.eventually (lt_mem_nhds ?_)
    have := (star_sectors h).pos i (Finset.mem_range.1 hi)
    have e : cross (corner v i - c) (corner v (i + 1) - c) = cross (corner v (i + 1) - corner v i) (c - corner v i) := by
      simp only [cross, Prod.fst_sub, Prod.snd_sub]; ring
    rw [e] at this
    exact this
  filter_upwards [(Filter.eventually_all_finset (Finset.range v.length)).2 hev] with p hp i hi
  exact (hp i (Finset.mem_range.2 hi)).le

end Starworlds
