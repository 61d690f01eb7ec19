import Verif.Proofs.Hull

/-! # C11, C12: gift wrapping -/

namespace Starworlds

open Spec

set_option linter.unusedSectionVars false

variable {K : Type*} [Field K] [LinearOrder K] [IsStrictOrderedRing K]

/-- The point list on which `convex_hull` cycles `3 → 4 → 0 → 3 → …` without coming back to its
start. -/
def badPoints : List (Pt ℚ) := [(2, 0), (3, 0), (0, 0), (2, -4), (4, 0)]

/-- C11 is false of the code: on five (finite, distinct, not all collinear) points `convex_hull`
does not terminate: however many rounds the `while True` loop is given, it does not finish. -/
theorem C11_terminates_false :
    ∃ pts : List (Pt ℚ), pts ≠ [] ∧ pts.Nodup ∧ ∀ fuel, convexHullIdx pts fuel = none := by
  refine ⟨badPoints, by decide, by decide +kernel, fun fuel => ?_⟩
  have hl : leftmost badPoints = 2 := by decide +kernel
  have h2 : wrapNext badPoints 2 = 3 := by decide +kernel
  have hS : ∀ p, p = 3 ∨ p = 4 ∨ p = 0 →
      (wrapNext badPoints p = 3 ∨ wrapNext badPoints p = 4 ∨ wrapNext badPoints p = 0) := by
    rintro p (rfl | rfl | rfl) <;> decide +kernel
  have hloop : ∀ fuel p, (p = 3 ∨ p = 4 ∨ p = 0) → wrapLoop badPoints 2 fuel p = none := by
    intro fuel
    induction fuel with
    | zero => intro p _; rfl
    | succ fuel ih =>
      intro p hp
      have hq := hS p hp
      have hne : wrapNext badPoints p ≠ 2 := by omega
      rw [wrapLoop]
      simp only [hne, if_false, ih _ hq, Option.map_none]
  unfold convexHullIdx
  rw [hl]
  cases fuel with
  | zero => rfl
  | succ fuel =>
    rw [wrapLoop]
    simp [h2, hloop fuel 3 (by simp)]

/-- C11, the true part: for every non-empty list in general position (no three distinct indices
within the collinearity threshold) `convex_hull` terminates, after at most `n` rounds. -/
theorem C11_terminates_partial (pts : List (Pt K)) (hn : pts ≠ [])
    (hg : ∀ i j k, i < pts.length → j < pts.length → k < pts.length → i ≠ j → j ≠ k → i ≠ k →
      1 / 10 ^ 10 < |cross (ptAt pts j - ptAt pts i) (ptAt pts k - ptAt pts i)|)
    (fuel : Nat) (hf : pts.length ≤ fuel) :
    ∃ hull, convexHullIdx pts fuel = some hull := by
  have hn' : 0 < pts.length := List.length_pos_of_ne_nil hn
  obtain ⟨m, hm, hmn, hl, _, hinj⟩ := hull_walk (pts := pts) hg hn'
  exact ⟨_, hull_result hm (hmn.trans hf) hl hinj⟩

/-- C12: in general position `convex_hull` returns (within `n` rounds) a duplicate-free list of
indices, starting with the leftmost (topmost) point, such that every input point is on or left of
every directed edge of the closed polygon (strictly left when it is not an end of the edge), and
every input point is in the convex hull of the returned vertices. -/
theorem C12_hull (pts : List (Pt K)) (hn : pts ≠ [])
    (hg : ∀ i j k, i < pts.length → j < pts.length → k < pts.length → i ≠ j → j ≠ k → i ≠ k →
      1 / 10 ^ 10 < |cross (ptAt pts j - ptAt pts i) (ptAt pts k - ptAt pts i)|)
    (fuel : Nat) (hf : pts.length ≤ fuel) :
    ∃ hull : List Nat, convexHullIdx pts fuel = some hull ∧ hull.Nodup ∧
      (∀ i ∈ hull, i < pts.length) ∧
      (∃ l, hull.head? = some l ∧ ∀ i, i < pts.length → (ptAt pts l).1 < (ptAt pts i).1 ∨
        ((ptAt pts l).1 = (ptAt pts i).1 ∧ (ptAt pts i).2 ≤ (ptAt pts l).2)) ∧
      (∀ k (hk : k < hull.length) (i : Nat), i < pts.length →
        let a := hull[k]
        let b := hull[(k + 1) % hull.length]'(Nat.mod_lt _ (by omega))
        0 ≤ cross (ptAt pts b - ptAt pts a) (ptAt pts i - ptAt pts a) ∧
          (i ≠ a → i ≠ b → LeftOf (ptAt pts a) (ptAt pts b) (ptAt pts i))) ∧
      (∀ i, i < pts.length → ptAt pts i ∈ convexHull K {p | ∃ j ∈ hull, p = ptAt pts j}) := by
  have hn' : 0 < pts.length := List.length_pos_of_ne_nil hn
  have hgp : GenPos pts := hg
  obtain ⟨m, hm, hmn, hl, hext, hinj⟩ := hull_walk hgp hn'
  set v : Nat → Nat := fun k => (wrapNext pts)^[k] (leftmost pts) with hv
  have hvs : ∀ k, wrapNext pts (v k) = v (k + 1) := by
    intro k; simp only [hv, Function.iterate_succ_apply']
  have hres : convexHullIdx pts fuel = some ((List.range m).map v) :=
    hull_result hm (hmn.trans hf) hl hinj
  have hvm : ∀ k, k < m → v ((k + 1) % m) = v (k + 1) := by
    intro k hk
    rcases Nat.lt_or_ge (k + 1) m with h | h
    · rw [Nat.mod_eq_of_lt h]
    · have : k + 1 = m := by omega
      rw [this, Nat.mod_self]; exact hl.symm
  have hedge : ∀ k i, i < pts.length →
      0 ≤ crossIdx pts (v k) (v (k + 1)) i ∧
        (i ≠ v k → i ≠ v (k + 1) → 0 < crossIdx pts (v k) (v (k + 1)) i) := by
    intro k i hi
    rcases Nat.lt_or_ge pts.length 2 with h2 | h2
    · have h0 : ∀ j, v j = 0 := fun j => by have := (hext j).1; simp only [hv]; omega
      have hi0 : i = 0 := by omega
      rw [h0, h0, hi0]
      simp [crossIdx, cross]
    · obtain ⟨_, _, h3⟩ := wrapNext_spec hgp h2 (hext k).1 (hext k).2
      change ∀ i, i < pts.length → i ≠ v k → i ≠ wrapNext pts (v k) →
        0 < crossIdx pts (v k) (wrapNext pts (v k)) i at h3
      rw [hvs] at h3
      refine ⟨?_, h3 i hi⟩
      by_cases h4 : i = v k
      · rw [h4]; simp [crossIdx, cross]
      · by_cases h5 : i = v (k + 1)
        · rw [h5]; simp only [crossIdx, cross]; linarith
        · exact (h3 i hi h4 h5).le
  refine ⟨(List.range m).map v, hres, ?_, ?_, ?_, ?_, ?_⟩
  · rw [List.nodup_map_iff_inj_on List.nodup_range]
    intro j hj k hk e
    exact hinj j k (List.mem_range.mp hj) (List.mem_range.mp hk) e
  · intro i hi
    obtain ⟨k, _, rfl⟩ := List.mem_map.mp hi
    exact (hext k).1
  · refine ⟨leftmost pts, ?_, (leftmost_spec pts hn').2⟩
    obtain ⟨m, rfl⟩ : ∃ m', m = m' + 1 := ⟨m - 1, by omega⟩
    rw [List.range_succ_eq_map]; rfl
  · intro k hk i hi
    have hk' : k < m := by simpa using hk
    simp only [List.getElem_map, List.getElem_range, List.length_map, List.length_range]
    rw [hvm k hk']
    exact hedge k i hi
  · intro i hi
    set V : Set (Pt K) := {p | ∃ j ∈ (List.range m).map v, p = ptAt pts j} with hV
    have hmem : ∀ k, k < m → ptAt pts (v k) ∈ convexHull K V := by
      intro k hk
      exact subset_convexHull K V ⟨v k, List.mem_map.mpr ⟨k, List.mem_range.mpr hk, rfl⟩, rfl⟩
    by_cases hon : ∃ k, k < m ∧ i = v k
    · obtain ⟨k, hk, rfl⟩ := hon; exact hmem k hk
    push Not at hon
    have hlast : v m = v 0 := hl
    have hm3 : 3 ≤ m := by
      by_contra hc
      have : m = 1 ∨ m = 2 := by omega
      rcases this with rfl | rfl
      · have h := (hedge 0 i hi).2 (hon 0 (by omega)) (by rw [Nat.zero_add, hlast]; exact hon 0 (by omega))
        rw [Nat.zero_add, hlast] at h
        simp [crossIdx, cross] at h
      · have h := (hedge 0 i hi).2 (hon 0 (by omega)) (hon 1 (by omega))
        have h' := (hedge 1 i hi).2 (hon 1 (by omega)) (by rw [hlast]; exact hon 0 (by omega))
        rw [hlast] at h'
        simp only [Nat.zero_add] at h
        have e : crossIdx pts (v 1) (v 0) i = - crossIdx pts (v 0) (v 1) i := by
          simp only [crossIdx, cross, Prod.fst_sub, Prod.snd_sub]; ring
        linarith
    obtain ⟨k, hk1, hkM, hg1, hg2⟩ := sign_change (fun k => crossIdx pts (v 0) (v k) i) (m - 1) (by omega)
      (by have := (hedge 0 i hi).1; simpa using this)
      (by
        have h := (hedge (m - 1) i hi).1
        rw [Nat.sub_add_cancel (by omega), hlast] at h
        have e : crossIdx pts (v (m - 1)) (v 0) i = - crossIdx pts (v 0) (v (m - 1)) i := by
          simp only [crossIdx, cross, Prod.fst_sub, Prod.snd_sub]; ring
        linarith)
    have hD : 0 < crossIdx pts (v 0) (v k) (v (k + 1)) := by
      have h := (hedge k (v 0) (hext 0).1).2
        (fun e => by have := hinj 0 k (by omega) (by omega) e; omega)
        (fun e => by have := hinj 0 (k + 1) (by omega) (by omega) e; omega)
      rwa [crossIdx_cyc] at h
    obtain ⟨s, t, u, hs, ht, hu, hsum, e⟩ := inTriangle_of_left (a := ptAt pts (v 0))
      (b := ptAt pts (v k)) (c := ptAt pts (v (k + 1))) (x := ptAt pts i) hD hg1 (hedge k i hi).1 hg2
    rw [e]
    have hconv := convex_convexHull K V
    exact convex_three hconv hs ht hu hsum (hmem 0 (by omega)) (hmem k (by omega)) (hmem (k + 1) (by omega))

/-- Five points in general position, one of them (index 0) interior. -/
def goodPoints : List (Pt ℚ) := [(2, -1), (3, 1), (0, 0), (2, -4), (4, 0)]

/-- A concrete run of the hull. -/
example : convexHullIdx goodPoints 5 = some [2, 3, 4, 1] := by decide +kernel

/-- The general-position hypothesis of `C12_hull` holds on that list. -/
example : ∀ i j k : Fin 5, i ≠ j → j ≠ k → i ≠ k →
      1 / 10 ^ 10 < |cross (ptAt goodPoints j - ptAt goodPoints i)
        (ptAt goodPoints k - ptAt goodPoints i)| := by
  decide +kernel

end Starworlds
