import Verif.Proofs.HullRunGeometry
import Verif.Proofs.StarFrontier
import Verif.Proofs.FilledRational

/-! # Checking by computation that a polygon is the star-shaped hull of another one -/

namespace Starworlds

open Spec

/-- Extending the covered part of the segment. -/
def reachQ (l : List (ℚ × ℚ)) (m : ℚ) : ℚ := l.foldl (fun m I => if I.1 ≤ m then max m I.2 else m) m

/-- All of the segment is in the triangles. -/
def segInQ (Ts : List TriQ) (a b : Pt ℚ) : Bool :=
  let l := piecesQ Ts a b
  (l.any fun I => decide (I.1 ≤ 0 ∧ 0 ≤ I.2)) && decide (1 ≤ (List.range l.length).foldl (fun m _ => reachQ l m) 0)

theorem segInQ_sound {Ts : List TriQ} {S : Set (Pt ℝ)} (hS : UnionOf Ts S) {a b : Pt ℚ} (h : segInQ Ts a b = true) {x : Pt ℝ}
    (hx : OnSegment (toReal a) (toReal b) x) : x ∈ S := by
  obtain ⟨l, hl⟩ : ∃ l, piecesQ Ts a b = l := ⟨_, rfl⟩
  obtain ⟨P, hP⟩ : ∃ P : ℚ → Prop, P = fun m : ℚ => ∀ t : ℝ, 0 ≤ t → t ≤ (m : ℝ) → ∃ I ∈ l, InI I t := ⟨_, rfl⟩
  have step : ∀ (l' : List (ℚ × ℚ)) (m : ℚ), (∀ I ∈ l', I ∈ l) → P m → P (reachQ l' m) := by
    intro l'
    unfold reachQ
    induction l' with
    | nil => intro m _ hm; exact hm
    | cons I l' ih =>
      intro m hsub hm
      rw [List.foldl_cons]
      refine ih _ (fun J hJ => hsub J (List.mem_cons_of_mem _ hJ)) ?_
      split
      · rename_i hle
        rw [hP] at hm ⊢
        intro t h0 h1
        rcases le_or_gt t m with h | h
        · exact hm t h0 h
        · refine ⟨I, hsub I List.mem_cons_self, ?_, ?_⟩
          · have : (I.1 : ℝ) ≤ m := by exact_mod_cast hle
            linarith
          · push_cast at h1
            rcases le_max_iff.1 h1 with h' | h'
            · linarith
            · exact h'
      · exact hm
  have many : ∀ (n : List ℕ) (m : ℚ), P m → P (n.foldl (fun m _ => reachQ l m) m) := by
    intro n
    induction n with
    | nil => intro m hm; exact hm
    | cons _ n ih => intro m hm; exact ih _ (step l m (fun _ h => h) hm)
  unfold segInQ at h
  simp only [hl, Bool.and_eq_true, decide_eq_true_eq] at h
  have h0 : P 0 := by
    obtain ⟨I, hI, hI'⟩ := List.any_eq_true.1 h.1
    rw [decide_eq_true_eq] at hI'
    rw [hP]
    intro t h0 h1
    have : t = 0 := le_antisymm (by simpa using h1) h0
    subst this
    exact ⟨I, hI, by exact_mod_cast hI'.1, by exact_mod_cast hI'.2⟩
  have h1 := many (List.range l.length) 0 h0
  rw [hP] at h1
  obtain ⟨t, ⟨ht0, ht1⟩, rfl⟩ := onSegment_atR.1 hx
  have hle : (1 : ℝ) ≤ ((List.range l.length).foldl (fun m _ => reachQ l m) 0 : ℚ) := by exact_mod_cast h.2
  obtain ⟨I, hI, hI'⟩ := h1 t ht0 (ht1.trans hle)
  rw [← hl] at hI
  exact ((meet_iff hS a b _).2 ⟨t, ⟨I, hI, hI'⟩, rfl⟩).2

/-- `R` is the star-shaped hull of `P` for the kernel points `ks`: both are star-shaped about `c`, the edges of `P` are in `R`, no edge of
`R` has a kernel point to its right, and every edge of `R` is in `P` or part of the way from a kernel point to a point of `P` or another
kernel point. -/
def starHullQ (c : Pt ℚ) (P R ks : List (Pt ℚ)) : Bool :=
  let ok := fun p => ks.contains p || filledB P p
  goesAround c P && goesAround c R &&
    ((List.range P.length).all fun i => segInQ (fanQ c R) (corner P i) (corner P (i + 1))) &&
    (ks.all fun k => (List.range R.length).all fun i => decide (0 ≤ cross (corner R (i + 1) - corner R i) (k - corner R i))) &&
    (List.range R.length).all fun i => segInQ (fanQ c P) (corner R i) (corner R (i + 1)) ||
      ks.any fun k => (ok (corner R i) && onSegB k (corner R i) (corner R (i + 1))) ||
        (ok (corner R (i + 1)) && onSegB k (corner R (i + 1)) (corner R i))

theorem starConvex_seg {T : Set (Pt ℝ)} {k y x : Pt ℝ} (h : StarConvex ℝ k T) (hy : y ∈ T) (hx : OnSegment k y x) : x ∈ T := by
  obtain ⟨t, h0, h1, rfl⟩ := hx
  have := h hy (sub_nonneg.2 h1) h0 (by ring)
  convert this using 1
  module

/-- The way from a point of a segment to its end is part of the segment. -/
theorem seg_part {k a b x : Pt ℝ} (h : OnSegment k a b) (hx : OnSegment b a x) : OnSegment k a x := by
  obtain ⟨t, h0, h1, rfl⟩ := h
  obtain ⟨s, g0, g1, rfl⟩ := hx
  refine ⟨t + s * (1 - t), by nlinarith, by nlinarith, by module⟩

theorem starHullQ_sound {c : Pt ℚ} {P R ks : List (Pt ℚ)} (h : starHullQ c P R ks = true) (hks : ks ≠ []) :
    IsStarHull (filled (P.map toReal)) (ks.map toReal) (filled (R.map toReal)) := by
  unfold starHullQ at h
  simp only [Bool.and_eq_true] at h
  obtain ⟨⟨⟨⟨hP, hR⟩, hPR⟩, hk⟩, hRP⟩ := h
  have sP := starAbout_rat hP
  have sR := starAbout_rat hR
  have uP := fan_union hP
  have uR := fan_union hR
  have hleft : ∀ k ∈ ks.map toReal, k ∈ visKernel (filled (R.map toReal)) := by
    intro k hkm
    obtain ⟨q, hq, rfl⟩ := List.mem_map.1 hkm
    rw [star_kernel sR]
    intro i hi
    rw [List.length_map] at hi
    have := List.all_eq_true.1 (List.all_eq_true.1 hk q hq) i (List.mem_range.2 hi)
    rw [decide_eq_true_eq] at this
    rw [corner_toReal, corner_toReal, ← toReal_sub, ← toReal_sub, cross_toReal]
    exact_mod_cast this
  refine ⟨?_, hleft, ?_⟩
  · intro x hx
    obtain ⟨q, ⟨i, hi, hq⟩, t, h0, h1, rfl⟩ := (star_filled sP x).1 hx
    rw [List.length_map] at hi
    rw [corner_toReal, corner_toReal] at hq
    exact star_visible sR (segInQ_sound uR (List.all_eq_true.1 hPR i (List.mem_range.2 hi)) hq) h0 h1
  · intro T hT hTk x hx
    have okT : ∀ p : Pt ℚ, (ks.contains p || filledB P p) = true → toReal p ∈ T := by
      intro p hp
      rw [Bool.or_eq_true] at hp
      rcases hp with hp | hp
      · exact (hTk _ (List.mem_map.2 ⟨p, by simpa using hp, rfl⟩)).1
      · exact hT ((filledB_iff P p).1 hp)
    obtain ⟨k, hk0⟩ := List.exists_mem_of_ne_nil _ hks
    have hkT := hTk (toReal k) (List.mem_map.2 ⟨k, hk0, rfl⟩)
    rcases star_exit sR (toReal k) hx with rfl | ⟨y, ⟨i, hi, hy⟩, hxy⟩
    · exact hkT.1
    · refine starConvex_seg hkT.2 ?_ hxy
      rw [List.length_map] at hi
      rw [corner_toReal, corner_toReal] at hy
      have := List.all_eq_true.1 hRP i (List.mem_range.2 hi)
      rw [Bool.or_eq_true, List.any_eq_true] at this
      rcases this with h | ⟨k', hk', h⟩
      · exact hT (segInQ_sound uP h hy)
      · have hk'T := hTk (toReal k') (List.mem_map.2 ⟨k', hk', rfl⟩)
        rw [Bool.or_eq_true, Bool.and_eq_true, Bool.and_eq_true] at h
        rcases h with ⟨h1, h2⟩ | ⟨h1, h2⟩
        · exact starConvex_seg hk'T.2 (okT _ h1) (seg_part ((onSegB_real _ _ _).1 h2) (onSegment_swap.1 hy))
        · exact starConvex_seg hk'T.2 (okT _ h1) (seg_part ((onSegB_real _ _ _).1 h2) hy)

end Starworlds
