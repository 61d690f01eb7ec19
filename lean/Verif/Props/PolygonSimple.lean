import Verif.Props.Flags
import Verif.Props.KernelPolygon
import Verif.Proofs.SimpleConvex
import Verif.Proofs.SimpleOrient
import Verif.Proofs.SimpleRational

/-! # C36, C75, C89 for all polygons that do not cross themselves -/

namespace Starworlds

open Spec

theorem turn_nx {v : List (Pt ℝ)} {i j : ℕ} (hi : i < v.length) (h : Nx v.length i j) :
    turn v j = cross (corner v j - corner v i) (corner v (j + 1) - corner v j) := by
  have e : corner v (j + v.length - 1) = corner v i := by
    rcases h with rfl | ⟨rfl, h⟩
    · rw [show i + 1 + v.length - 1 = i + v.length by omega]; simp [corner]
    · congr 1; omega
  rw [turn, e]

theorem turns_left {v : List (Pt ℝ)} (ht : ∀ j < v.length, 0 ≤ turn v j) : ∀ i < v.length, ∀ j < v.length, Nx v.length i j →
    0 ≤ cross (corner v j - corner v i) (corner v (j + 1) - corner v j) := fun i hi j hj hn => by
  rw [← turn_nx hi hn]; exact ht j hj

theorem turns_right {v : List (Pt ℝ)} (h3 : 3 ≤ v.length) (ht : ∀ j < v.length, turn v j ≤ 0) : ∀ i < v.reverse.length,
    ∀ j < v.reverse.length, Nx v.reverse.length i j →
      0 ≤ cross (corner v.reverse j - corner v.reverse i) (corner v.reverse (j + 1) - corner v.reverse j) := by
  intro i hi j hj hn
  have hcn := corner_nx hn
  rw [List.length_reverse] at hi hj hn
  obtain ⟨m, hm, em, a1, a2⟩ := edge_reverse v hi
  obtain ⟨l, hl, el, b1, b2⟩ := edge_reverse v hj
  have hlm : Nx v.length l m := by unfold Nx at *; omega
  have := ht m hm
  rw [turn_nx hl hlm] at this
  rw [← hcn, a2, b2, a1]
  simp only [cross, Prod.fst_sub, Prod.snd_sub] at this ⊢
  linarith

theorem corners_differ {v : List (Pt ℝ)} (h : SimpleRing v) (h01 : corner v 0 ≠ corner v 1) :
    ¬ ∀ i < v.length, ∀ j < v.length, corner v i = corner v j := fun hall =>
  h01 (hall 0 (by have := h.1; omega) 1 (by have := h.1; omega))

/-- A simple polygon has a convex region exactly if it does not turn both ways. -/
theorem simple_convex_iff {v : List (Pt ℝ)} (h : SimpleRing v) (h01 : corner v 0 ≠ corner v 1) :
    Convex ℝ (filled v) ↔ (∀ j < v.length, 0 ≤ turn v j) ∨ ∀ j < v.length, turn v j ≤ 0 := by
  have hne := corners_differ h h01
  have h3 := h.1
  have hv : 0 < v.length := by omega
  constructor
  · intro hc
    have hker : ∀ k, corner v k ∈ visKernel (filled v) := by
      intro k
      have hm : ∀ k, corner v k ∈ filled v := fun k => Or.inr ⟨k % v.length, Nat.mod_lt _ hv, by
        rw [corner_mod]; exact seg_start _ _⟩
      refine ⟨hm k, ?_⟩
      rintro q hq _ ⟨t, t0, t1, rfl⟩
      have := hc (hm k) hq (a := 1 - t) (b := t) (by linarith) t0 (by ring)
      convert this using 1
      module
    have hkey : ∀ j < v.length, ∃ i < v.length, turn v j = cross (corner v (i + 1) - corner v i) (corner v (j + 1) - corner v i) := by
      intro j hj
      obtain ⟨i, hi, hn⟩ := nx_exists hj
      refine ⟨i, hi, ?_⟩
      rw [turn_nx hi hn, corner_nx hn, cross_end]
    rcases kernel_sides h hne with hk | hk
    · left
      intro j hj
      obtain ⟨i, hi, e⟩ := hkey j hj
      rw [e]; exact hk _ (hker _) i hi
    · right
      intro j hj
      obtain ⟨i, hi, e⟩ := hkey j hj
      rw [e]; exact hk _ (hker _) i hi
  · rintro (ht | ht)
    · exact left_convex h hne (turns_left ht)
    · rw [← filled_reverse]
      refine left_convex (simple_reverse h) ?_ (turns_right h3 ht)
      intro hall
      refine hne fun i hi j hj => ?_
      have hrev : ∀ i < v.length, ∃ k < v.length, corner v i = corner v.reverse k := by
        intro i hi
        refine ⟨v.length - 1 - i, by omega, ?_⟩
        rw [corner_reverse v (by omega) hv, show 2 * v.length - 1 - (v.length - 1 - i) = i + v.length by omega]
        simp [corner]
      obtain ⟨k, hk, e⟩ := hrev i hi
      obtain ⟨l, hl, e'⟩ := hrev j hj
      rw [e, e']
      exact hall k (by simpa using hk) l (by simpa using hl)

/-- A convex simple polygon is the convex hull of its corners. -/
theorem simple_hull {v : List (Pt ℝ)} (h : SimpleRing v) (h01 : corner v 0 ≠ corner v 1) (hc : Convex ℝ (filled v)) :
    filled v = convexHull ℝ {p | p ∈ v} := by
  have hv : 0 < v.length := by have := h.1; omega
  have hker : visKernel (filled v) = filled v := by
    refine Set.Subset.antisymm (fun p hp => hp.1) fun p hp => ⟨hp, ?_⟩
    rintro q hq _ ⟨t, t0, t1, rfl⟩
    have := hc hp hq (a := 1 - t) (b := t) (by linarith) t0 (by ring)
    convert this using 1
    module
  obtain ⟨c, hin⟩ := simple_inside h (corners_differ h h01)
  have hci : c ∈ interior (visKernel (filled v)) := by
    rw [hker]; exact mem_interior.2 ⟨_, fun _ hp => Or.inl hp, inside_open v, hin⟩
  refine Set.Subset.antisymm ?_ (convexHull_min (fun p hp => ?_) hc)
  · rcases simple_star h hci with hs | hs
    · exact filled_subset_region hs
    · rw [← filled_reverse]
      refine (filled_subset_region hs).trans ?_
      unfold region
      simp
  · obtain ⟨i, hi, rfl⟩ := List.getElem_of_mem hp
    refine Or.inr ⟨i, hi, ?_⟩
    have : corner v i = v[i] := by simp [corner, Nat.mod_eq_of_lt hi, List.getElem?_eq_getElem hi]
    rw [← this]; exact seg_start _ _

/-- A simple polygon bends at a corner other than the last one. -/
theorem simple_bends {v : List (Pt ℝ)} (h : SimpleRing v) (h01 : corner v 0 ≠ corner v 1) : ∃ i, i + 1 < v.length ∧ turn v i ≠ 0 := by
  by_contra hno
  push Not at hno
  have h3 := h.1
  have hne := corners_differ h h01
  set d := corner v 0 - corner v (v.length - 1) with hd
  have hlast : corner v (v.length - 1 + 1) = corner v 0 := corner_nx (Or.inr ⟨rfl, by omega⟩)
  have hd0 : d ≠ 0 := sub_ne_zero.2 (by
    have := corner_ne h hne (i := v.length - 1) (by omega)
    rw [hlast] at this
    exact this.symm)
  have hedge : ∀ k, k + 1 < v.length → ∃ l : ℝ, 0 < l ∧ corner v (k + 1) - corner v k = l • d := by
    intro k
    induction k with
    | zero =>
      intro hk
      have hn : Nx v.length (v.length - 1) 0 := Or.inr ⟨rfl, by omega⟩
      have := hno 0 (by omega)
      rw [turn_nx (by omega) hn] at this
      exact straight_on h hne (by omega) (by omega) hn this
    | succ k ih =>
      intro hk
      obtain ⟨l, l0, e⟩ := ih (by omega)
      have hn : Nx v.length k (k + 1) := Or.inl rfl
      have := hno (k + 1) hk
      rw [turn_nx (by omega) hn] at this
      obtain ⟨m, m0, e'⟩ := straight_on h hne (by omega) (by omega) hn this
      exact ⟨m * l, mul_pos m0 l0, by rw [e', e, smul_smul]⟩
  have hsum : ∀ k < v.length, ∃ L : ℝ, 0 ≤ L ∧ corner v k = corner v 0 + L • d := by
    intro k
    induction k with
    | zero => intro _; exact ⟨0, le_rfl, by simp⟩
    | succ k ih =>
      intro hk
      obtain ⟨L, L0, e⟩ := ih (by omega)
      obtain ⟨l, l0, e'⟩ := hedge k hk
      refine ⟨L + l, by positivity, ?_⟩
      rw [add_smul, ← add_assoc, ← e, ← e']; abel
  obtain ⟨L, L0, e⟩ := hsum (v.length - 1) (by omega)
  have : (1 + L) • d = 0 := by
    have e2 : d = -(L • d) := by
      have : d = corner v 0 - (corner v 0 + L • d) := by rw [← e]
      rw [sub_add_cancel_left] at this
      exact this
    rw [add_smul, one_smul]
    nth_rw 1 [e2]
    simp
  rcases smul_eq_zero.1 this with h' | h'
  · linarith
  · exact hd0 h'

/-- C36 (partial): for every polygon that does not cross itself, in either direction, if every corner is straight or bends by
more than the threshold then `_check_convexity` raises nothing and answers True exactly if the region of the polygon is convex;
the region is then the convex hull of the corners. Missing: corners that bend by less than the threshold (`C36_band_false`). -/
theorem C36_simple_partial (v : List (Pt ℝ)) (h : SimpleRing v) (h01 : corner v 0 ≠ corner v 1)
    (hband : ∀ j < v.length, turn v j = 0 ∨ 1 / 10 ^ 10 < |turn v j|) :
    ∃ b, checkConvexity v = .ok b ∧ (b = true ↔ Convex ℝ (filled v)) ∧ (b = true → filled v = convexHull ℝ {p | p ∈ v}) := by
  classical
  have hex := simple_bends h h01
  obtain ⟨i, ⟨hi, hti⟩, hmin⟩ : ∃ i, (i + 1 < v.length ∧ turn v i ≠ 0) ∧ ∀ j < i, ¬ (j + 1 < v.length ∧ turn v j ≠ 0) :=
    ⟨Nat.find hex, Nat.find_spec hex, fun j hj => Nat.find_min hex hj⟩
  have hz : ∀ j < i, turn v j = 0 := by
    intro j hj
    by_contra h0
    exact hmin j hj ⟨by omega, h0⟩
  have hbi := (hband i (by omega)).resolve_left hti
  have hpos : (0 : ℝ) < 1 / 10 ^ 10 := by norm_num
  obtain ⟨b, hb, hiff⟩ := C36_convex_partial v i hi (fun j hj => by rw [hz j hj, abs_zero]; exact hpos) hbi.le (Or.inl hbi)
  have hiff' : b = true ↔ Convex ℝ (filled v) := by
    rw [hiff, simple_convex_iff h h01]
    constructor
    · intro hno
      by_contra hboth
      push Not at hboth
      obtain ⟨⟨j, hj, hj0⟩, k, hk, hk0⟩ := hboth
      refine hno ⟨⟨k, hk, ?_⟩, j, hj, ?_⟩
      · have := (hband k hk).resolve_left hk0.ne'
        rwa [abs_of_pos hk0] at this
      · have := (hband j hj).resolve_left hj0.ne
        rw [abs_of_neg hj0] at this
        linarith
    · rintro (hall | hall) ⟨⟨k, hk, hk0⟩, j, hj, hj0⟩
      · linarith [hall j hj]
      · linarith [hall k hk]
  exact ⟨b, hb, hiff', fun hbt => simple_hull h h01 (hiff'.1 hbt)⟩

/-- C89 (partial): for every polygon that does not cross itself, with corners as in `C36_simple_partial`, a Polygon answers
`is_starshaped()` with True exactly if all of its region is visible from all of its points. Missing: that False means that no
point sees all of it (`C89_corner_false`). -/
theorem C89_simple_partial (v : List (Pt ℝ)) (h : SimpleRing v) (h01 : corner v 0 ≠ corner v 1)
    (hband : ∀ j < v.length, turn v j = 0 ∨ 1 / 10 ^ 10 < |turn v j|) (s : Flags ℝ)
    (hs : Flags.make .polygon v none none = .ok s) :
    s.isStarshapedCall.1 = .ok true ↔ visKernel (filled v) = filled v := by
  rw [C89_polygon v s hs]
  obtain ⟨b, h1, h2, -⟩ := C36_simple_partial v h h01 hband
  rw [h1]
  have hc : visKernel (filled v) = filled v ↔ Convex ℝ (filled v) := by
    constructor
    · intro hk x hx y hy a b ha hb hab
      rw [← hk] at hx
      refine hx.2 y hy _ ⟨b, hb, by linarith, ?_⟩
      obtain rfl : a = 1 - b := by linarith
      module
    · intro hc
      refine Set.Subset.antisymm (fun p hp => hp.1) fun p hp => ⟨hp, ?_⟩
      rintro q hq _ ⟨t, t0, t1, rfl⟩
      have := hc hp hq (a := 1 - t) (b := t) (by linarith) t0 (by ring)
      convert this using 1
      module
  rw [hc, ← h2]
  constructor
  · intro e; injection e
  · intro e; rw [e]

/-- C75 (partial): for every polygon that does not cross itself, with corners as in `C36_simple_partial` and a convex region, the
kernel found by the constructor is the set of points from which all of the polygon is visible. Missing: polygons that are not
convex, where it is false (`C75_hook_false`). -/
theorem C75_simple_partial (v : List (Pt ℝ)) (h : SimpleRing v) (h01 : corner v 0 ≠ corner v 1)
    (hband : ∀ j < v.length, turn v j = 0 ∨ 1 / 10 ^ 10 < |turn v j|) (hc : Convex ℝ (filled v)) :
    constructKernel realOps v = .ok v ∧ region v = visKernel (filled v) := by
  obtain ⟨b, h1, h2, h3⟩ := C36_simple_partial v h h01 hband
  obtain rfl : b = true := h2.2 hc
  refine ⟨by simp only [constructKernel, polygonKernel, h1, ok_then, if_true], ?_⟩
  have hk : visKernel (filled v) = filled v := by
    refine Set.Subset.antisymm (fun p hp => hp.1) fun p hp => ⟨hp, ?_⟩
    rintro q hq _ ⟨t, t0, t1, rfl⟩
    have := hc hp hq (a := 1 - t) (b := t) (by linarith) t0 (by ring)
    convert this using 1
    module
  rw [hk, h3 rfl]
  rfl

/-- A U, a polygon that no point sees all of. -/
def openShape : List (Pt ℚ) := [(0, 0), (3, 0), (3, 3), (2, 3), (2, 1), (1, 1), (1, 3), (0, 3)]

/-- A pentagon with clockwise corners and a straight one. -/
def clockwiseShape : List (Pt ℚ) := [(0, 0), (0, 2), (1, 3), (2, 2), (2, 0), (1, 0)]

theorem turn_toReal (v : List (Pt ℚ)) (j : ℕ) : turn (v.map toReal) j = ((turn v j : ℚ) : ℝ) := by
  unfold turn
  rw [List.length_map, corner_toReal, corner_toReal, corner_toReal, ← toReal_sub, ← toReal_sub, cross_toReal]

theorem band_rat {v : List (Pt ℚ)} (h : ∀ j < v.length, turn v j = 0 ∨ 1 / 10 ^ 10 < |turn v j|) :
    ∀ j < (v.map toReal).length, turn (v.map toReal) j = 0 ∨ 1 / 10 ^ 10 < |turn (v.map toReal) j| := by
  intro j hj
  rw [List.length_map] at hj
  rw [turn_toReal]
  rcases h j hj with h' | h'
  · left; rw [h']; simp
  · right
    have : ((1 / 10 ^ 10 : ℚ) : ℝ) < ((|turn v j| : ℚ) : ℝ) := Rat.cast_lt.2 h'
    rw [Rat.cast_abs] at this
    refine lt_of_eq_of_lt ?_ this
    norm_num

/-- The answer for the U is False and its region is not convex; the answer for the pentagon is True, its region is the
convex hull of its corners and it is its kernel. -/
example : checkConvexity (openShape.map toReal) = .ok false ∧ ¬ Convex ℝ (filled (openShape.map toReal)) ∧
    checkConvexity (clockwiseShape.map toReal) = .ok true ∧
    filled (clockwiseShape.map toReal) = convexHull ℝ {p | p ∈ clockwiseShape.map toReal} ∧
    constructKernel realOps (clockwiseShape.map toReal) = .ok (clockwiseShape.map toReal) := by
  have e1 : checkConvexity (openShape.map toReal) = .ok false := by rw [checkConvexity_map toReal_turns]; decide +kernel
  have e2 : checkConvexity (clockwiseShape.map toReal) = .ok true := by rw [checkConvexity_map toReal_turns]; decide +kernel
  obtain ⟨b, h1, h2, -⟩ := C36_simple_partial (openShape.map toReal) (simple_rat (by decide +kernel)) (by simp [openShape, corner, toReal])
    (band_rat (by decide +kernel))
  obtain ⟨c, k1, k2, k3⟩ := C36_simple_partial (clockwiseShape.map toReal) (simple_rat (by decide +kernel))
    (by simp [clockwiseShape, corner, toReal]) (band_rat (by decide +kernel))
  rw [e1] at h1
  rw [e2] at k1
  injection h1 with h1
  injection k1 with k1
  refine ⟨e1, fun hc => ?_, e2, k3 k1.symm, (C75_simple_partial _ (simple_rat (by decide +kernel))
    (by simp [clockwiseShape, corner, toReal]) (band_rat (by decide +kernel)) (k2.1 k1.symm)).1⟩
  have := h2.2 hc
  rw [← h1] at this
  exact absurd this (by simp)

end Starworlds
