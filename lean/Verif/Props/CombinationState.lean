import Verif.Props.CombinationNormal
import Verif.Props.StarPolygonMore
import Verif.Props.PolygonLocation

/-! # C80, C81, C82: the polygon of a combination, the vertex arrays and the normals taken from them -/

namespace Starworlds

open Real Spec

/-- The arrays, once they exist, belong to the polygon and the current reference point. -/
def ArraysFit (argsort : List ℝ → List Nat) (s : CombState) : Prop :=
  ∀ a, s.arrays = some a → ∃ ring, s.polygon = some (some ring) ∧
    a = ((sortedAbout argsort ring s.comb.xr).vertices, (sortedAbout argsort ring s.comb.xr).vertexAngles)

theorem update_fit (argsort : List ℝ → List Nat) (s : CombState)
    (h : (∀ ring, s.polygon ≠ some (some ring)) → s.arrays = none) : ArraysFit argsort (s.update argsort).2 := by
  unfold CombState.update
  split
  · rename_i ring hp
    intro a ha
    exact ⟨ring, hp, (Option.some.inj ha).symm⟩
  · rename_i hne
    intro a ha
    rw [h hne] at ha
    cases ha

theorem fit_none {argsort : List ℝ → List Nat} {s : CombState} (h : ArraysFit argsort s)
    (hp : ∀ ring, s.polygon ≠ some (some ring)) : s.arrays = none := by
  cases ha : s.arrays with
  | none => rfl
  | some a =>
    obtain ⟨ring, h1, _⟩ := h a ha
    exact absurd h1 (hp ring)

theorem step_fit {argsort : List ℝ → List Nat} {s : CombState} (h : ArraysFit argsort s) (op : CombOp) :
    ArraysFit argsort (s.step argsort op) := by
  have hpoly : ∀ u, ArraysFit argsort (s.computePolygon u) := by
    intro u a ha
    obtain ⟨ring, h1, h2⟩ := h a ha
    exact ⟨ring, by simp [CombState.computePolygon, h1], h2⟩
  cases op with
  | moved ms => exact h
  | polygon u => exact hpoly u
  | setXr x safe u =>
    simp only [CombState.step, CombState.setXr]
    split
    · exact hpoly u
    · exact update_fit argsort _ fun hp => show s.arrays = none from fit_none h hp
  | normal x t =>
    simp only [CombState.step, CombState.approxNormal]
    cases ha : s.arrays with
    | some a => exact h
    | none =>
      simp only
      have := update_fit argsort s fun _ => ha
      split <;> exact this

theorem run_fit {argsort : List ℝ → List Nat} (ops : List CombOp) : ∀ {s : CombState}, ArraysFit argsort s →
    ArraysFit argsort (s.run argsort ops) := by
  induction ops with
  | nil => intro s h; exact h
  | cons op ops ih => intro s h; exact ih (step_fit h op)

theorem make_fit (argsort : List ℝ → List Nat) (c : Combination) (hull : Option (List (Pt ℝ))) :
    ArraysFit argsort (CombState.make c hull) := by
  intro a ha
  cases ha

theorem approxNormal_eq {argsort : List ℝ → List Nat} {s : CombState} (h : ArraysFit argsort s) {ring : List (Pt ℝ)}
    (hp : s.polygon = some (some ring)) (x : Pt ℝ) (t : ApproxType) :
    (s.approxNormal argsort x t).1 = approxFrom (sortedAbout argsort ring s.comb.xr).vertices
      (sortedAbout argsort ring s.comb.xr).vertexAngles s.comb.xr x t := by
  unfold CombState.approxNormal
  cases ha : s.arrays with
  | some a =>
    obtain ⟨ring', h1, h2⟩ := h a ha
    rw [hp] at h1
    have e := Option.some.inj (Option.some.inj h1)
    subst e
    simp only [h2]
  | none => simp [CombState.update, hp]

theorem starAbout_ne {c : Pt ℝ} {v : List (Pt ℝ)} (h : StarAbout c v) : v ≠ [] := by
  obtain ⟨_, _, _, _, _, hpos⟩ := starAbout_polar h
  exact List.length_pos_iff.1 hpos

/-! ## C80 -/

/-- C80: in every state that can be reached, if `polygon()` has been called and the union is a polygon that is
star-shaped about the current reference point (its vertices listed in any order), `normal(x, type='polygon_approx')`
is the outward unit normal of the edge of the polygon that the ray from the reference point through `x` meets. -/
theorem C80_hit (argsort : List ℝ → List Nat) (ha : IsArgsort argsort) (c : Combination) (hull : Option (List (Pt ℝ)))
    (ops : List CombOp) (s : CombState) (hs : s = (CombState.make c hull).run argsort ops) (ring v : List (Pt ℝ))
    (hp : s.polygon = some (some ring)) (hperm : ring.Perm v) (hstar : StarAbout s.comb.xr v) (x : Pt ℝ)
    (hx : x ≠ s.comb.xr) :
    ∃ j < v.length, ∃ q n, OnRay s.comb.xr x q ∧ OnSegment (corner v j) (corner v (j + 1)) q ∧
      (∀ q', OnRay s.comb.xr x q' → OnRing v q' → q' = q) ∧
      (s.approxNormal argsort x .polygonApprox).1 = .ok n ∧ normSq n = 1 ∧
      dot n (corner v (j + 1) - corner v j) = 0 ∧ dot n (q - s.comb.xr) > 0 := by
  have hfit : ArraysFit argsort s := by rw [hs]; exact run_fit ops (make_fit _ _ _)
  obtain ⟨j, hj, q, n, h1, h2, h3, h4, h5, h6, h7⟩ := hit_of_sorted (starAbout_ne hstar)
    (sortedAbout_sorted ha s.comb.xr hperm) .global .global (Or.inl rfl) (Or.inl rfl) x hstar hx
  refine ⟨j, hj, q, n, h1, h2, h3, ?_, h5, h6, h7⟩
  rw [approxNormal_eq hfit hp, show n = n - 0 by rw [sub_zero], ← show _ = Except.ok (n - 0) from h4]
  simp only [approxFrom, StarPoly.normal, vertexIndex, bind, Except.bind]
  rfl

/-- C80 (partial): in every state that can be reached, if `polygon()` has been called and the union is a polygon, the
default normal is the mean of the three edges around the direction of `x`, each turned to the right, with positive
weights that add up to one and are inversely proportional to the distance of `x` from the edge plus 10⁻¹⁰, divided by
the length of that mean. Missing: the mean can be zero, see `C80_zero_false`, and without a call of `polygon()` there
is no result, see `C80_fresh_false`. -/
theorem C80_weights_partial (argsort : List ℝ → List Nat) (ha : IsArgsort argsort) (c : Combination)
    (hull : Option (List (Pt ℝ))) (ops : List CombOp) (s : CombState)
    (hs : s = (CombState.make c hull).run argsort ops) (ring : List (Pt ℝ)) (hp : s.polygon = some (some ring))
    (hr : ring ≠ []) (x : Pt ℝ) :
    ∃ (V : List (Pt ℝ)) (A : List ℝ) (i : ℕ), V.Perm ring ∧
      (∀ j < ring.length, SeenAt s.comb.xr (corner V j) (A.getD j 0)) ∧ A.Pairwise (· ≤ ·) ∧ i < ring.length ∧
      (∃ t, SeenAt s.comb.xr x t ∧ A.getD i 0 ≤ t ∧ t < A.getD (i + 1) 0) ∧
      ∃ w0 w1 w2 d0 d1 d2 : ℝ, 0 < w0 ∧ 0 < w1 ∧ 0 < w2 ∧ w0 + w1 + w2 = 1 ∧
        SegmentDist (corner V (i + ring.length - 1)) (corner V i) x d0 ∧
        SegmentDist (corner V i) (corner V (i + 1)) x d1 ∧ SegmentDist (corner V (i + 1)) (corner V (i + 2)) x d2 ∧
        w0 * (d0 + 1 / 10 ^ 10) = w1 * (d1 + 1 / 10 ^ 10) ∧ w1 * (d1 + 1 / 10 ^ 10) = w2 * (d2 + 1 / 10 ^ 10) ∧
        let m := w0 • rightOf (corner V (i + ring.length - 1)) (corner V i) + w1 • rightOf (corner V i) (corner V (i + 1)) +
          w2 • rightOf (corner V (i + 1)) (corner V (i + 2))
        (m = 0 ∧ (s.approxNormal argsort x .weighted).1 = .error .nonFinite) ∨
          (0 < len m ∧ (s.approxNormal argsort x .weighted).1 = .ok ((1 / len m) • m) ∧ normSq ((1 / len m) • m) = 1) := by
  have hfit : ArraysFit argsort s := by rw [hs]; exact run_fit ops (make_fit _ _ _)
  have hS := sortedAbout_sorted ha s.comb.xr (List.Perm.refl ring)
  obtain ⟨f1, f2, f3, f4, _, _⟩ := sorted_facts hr hS
  have hl : (sortedAbout argsort ring s.comb.xr).vertices.length = ring.length := f1.length_eq
  obtain ⟨i, hi, ht, w0, w1, w2, d0, d1, d2, h0, h1, h2, hsum, hd0, hd1, hd2, h01, h12, e⟩ := weights_of_sorted hr hS x
    (show (0 : ℝ) < 1 / 10 ^ 10 by norm_num)
  refine ⟨(sortedAbout argsort ring s.comb.xr).vertices, (sortedAbout argsort ring s.comb.xr).vertexAngles, i, f1, ?_, f3,
    hi, ht, w0, w1, w2, d0, d1, d2, h0, h1, h2, hsum, hd0, hd1, hd2, h01, h12, ?_⟩
  · intro j hj
    rw [corner, hl, Nat.mod_eq_of_lt hj]
    exact (f4 j hj).1
  intro m
  have hval : (s.approxNormal argsort x .weighted).1 =
      if norm2 m = 0 then .error .nonFinite else .ok (m.1 / norm2 m, m.2 / norm2 m) := by
    rw [approxNormal_eq hfit hp]
    change _ = m at e
    rw [← e]
    simp only [approxFrom, vertexIndex]
    rfl
  have hn : norm2 m = len m := rfl
  rw [hn] at hval
  have hsq : len m ^ 2 = normSq m := sq_sqrt (by simp only [normSq]; positivity)
  by_cases hz : len m = 0
  · left
    rw [if_pos hz] at hval
    refine ⟨?_, hval⟩
    rw [hz] at hsq
    simp only [normSq] at hsq
    have e1 : m.1 = 0 := by nlinarith [sq_nonneg m.1, sq_nonneg m.2]
    have e2 : m.2 = 0 := by nlinarith [sq_nonneg m.1, sq_nonneg m.2]
    exact Prod.ext e1 e2
  · right
    rw [if_neg hz] at hval
    have hpos : 0 < len m := lt_of_le_of_ne (sqrt_nonneg _) (Ne.symm hz)
    refine ⟨hpos, ?_, ?_⟩
    · rw [hval]
      congr 1
      ext <;> simp [div_eq_inv_mul]
    · simp only [normSq, Prod.smul_fst, Prod.smul_snd, smul_eq_mul] at hsq ⊢
      field_simp
      linarith

/-- C80 is false: a new combination has no polygon yet, and `normal` with the default type or `'polygon_approx'` does
not compute it: AttributeError, whatever the members are. -/
theorem C80_fresh_false (argsort : List ℝ → List Nat) (c : Combination) (hull : Option (List (Pt ℝ))) (x : Pt ℝ)
    (t : ApproxType) : ((CombState.make c hull).approxNormal argsort x t).1 = .error .attributeError := rfl

/-- C80 is false: at the incentre of a triangle the weighted mean is zero and its length is divided by, wherever the
reference point is. -/
theorem C80_zero_false (argsort : List ℝ → List Nat) (ha : IsArgsort argsort) (c : Combination) :
    (((CombState.make c none).computePolygon (some [(0, 0), (4, 0), (0, 3)])).approxNormal argsort (1, 1) .weighted).1 =
      .error .nonFinite := by
  obtain ⟨V, A, i, hperm, _, _, hi, _, w0, w1, w2, d0, d1, d2, _, _, _, hsum, hd0, hd1, hd2, h01, h12, h⟩ :=
    C80_weights_partial argsort ha c none [.polygon (some [(0, 0), (4, 0), (0, 3)])] _ rfl [(0, 0), (4, 0), (0, 3)] rfl
      (by simp) (1, 1)
  have hlen : V.length = 3 := hperm.length_eq
  have hnd : V.Nodup := hperm.nodup_iff.2 (by norm_num)
  have hmem : ∀ j, corner V j ∈ [((0, 0) : Pt ℝ), (4, 0), (0, 3)] := fun j =>
    hperm.mem_iff.1 (corner_mem (by rw [← List.length_pos_iff]; omega) j)
  have hne : ∀ j k, j % 3 ≠ k % 3 → corner V j ≠ corner V k := by
    intro j k hjk h
    simp only [corner, hlen] at h
    rw [List.getD_eq_getElem _ _ (by omega), List.getD_eq_getElem _ _ (by omega)] at h
    exact hjk ((List.Nodup.getElem_inj_iff hnd).1 h)
  change SegmentDist (corner V (i + 3 - 1)) (corner V i) (1, 1) d0 at hd0
  have e0 := incentre_dist (hmem _) (hmem _) (hne _ _ (by omega)) hd0
  have e1 := incentre_dist (hmem _) (hmem _) (hne _ _ (by omega)) hd1
  have e2 := incentre_dist (hmem _) (hmem _) (hne _ _ (by omega)) hd2
  rw [e0, e1] at h01
  rw [e1, e2] at h12
  have hw0 : w0 = 1 / 3 := by linarith
  have hw1 : w1 = 1 / 3 := by linarith
  have hw2 : w2 = 1 / 3 := by linarith
  have hc : corner V (i + 2) = corner V (i + 3 - 1) := by congr 1
  rcases h with ⟨_, h⟩ | ⟨h, _⟩
  · exact h
  · exfalso
    change 0 < len (w0 • rightOf (corner V (i + 3 - 1)) (corner V i) + w1 • rightOf (corner V i) (corner V (i + 1)) +
      w2 • rightOf (corner V (i + 1)) (corner V (i + 2))) at h
    rw [hc, hw0, hw1, hw2] at h
    have hz : (1 / 3 : ℝ) • rightOf (corner V (i + 3 - 1)) (corner V i) + (1 / 3 : ℝ) • rightOf (corner V i) (corner V (i + 1)) +
        (1 / 3 : ℝ) • rightOf (corner V (i + 1)) (corner V (i + 3 - 1)) = 0 := by
      ext <;> simp [rightOf] <;> ring
    rw [hz] at h
    simp [len, normSq] at h

/-- The square as the polygon of a combination, its vertices listed clockwise: towards (2, 1) the normal is (1, 0),
also after moving the reference point to (1/2, 1/2) and back. -/
example : (((CombState.make ⟨[], none, 0⟩ none).run sortIdcs [.setXr (1 / 2, 1 / 2) false none,
    .polygon (some bigSquare.reverse), .setXr 0 false none, .polygon none]).approxNormal sortIdcs (2, 1)
      .polygonApprox).1 = .ok (1, 0) := by
  obtain ⟨j, hj, q, n, ⟨w, hw, hqe⟩, ⟨u, u0, u1, hu⟩, _, hn, g1, g2, g3⟩ := C80_hit sortIdcs sortIdcs_spec ⟨[], none, 0⟩ none
    [.setXr (1 / 2, 1 / 2) false none, .polygon (some bigSquare.reverse), .setXr 0 false none, .polygon none] _ rfl
    bigSquare.reverse bigSquare rfl (List.reverse_perm _) bigSquare_star (2, 1) (by
      change ((2, 1) : Pt ℝ) ≠ 0
      simp)
  rw [hn]
  change q = 0 + w • ((2, 1) - 0) at hqe
  change dot n (q - 0) > 0 at g3
  rw [sub_zero] at g3
  have hj' : j < 4 := by simpa [bigSquare] using hj
  have v1 := congrArg Prod.fst hu
  have v2 := congrArg Prod.snd hu
  have e1 := congrArg Prod.fst hqe
  have e2 := congrArg Prod.snd hqe
  simp at e1 e2
  rw [e1] at v1
  rw [e2] at v2
  simp only [normSq] at g1
  interval_cases j
  · simp [corner, bigSquare, dot] at v1 v2 g2 g3
    have h0 : n.2 = 0 := by linarith
    rw [h0, e1, v1] at g3
    rw [h0] at g1
    congr 1
    ext
    · simp only; nlinarith
    · exact h0
  · simp [corner, bigSquare] at v1 v2
    linarith
  · simp [corner, bigSquare] at v1 v2
    linarith
  · simp [corner, bigSquare] at v1 v2
    linarith

/-! ## C81 -/

/-- C81: after every history of calls the vertex arrays, if they have been filled, are those of the polygon: the
vertices in an order in which their angles about the current reference point do not decrease, those angles, and at the
end the first angle plus a full turn. -/
theorem C81_arrays (argsort : List ℝ → List Nat) (ha : IsArgsort argsort) (c : Combination)
    (hull : Option (List (Pt ℝ))) (ops : List CombOp) (s : CombState)
    (hs : s = (CombState.make c hull).run argsort ops) (V : List (Pt ℝ)) (A : List ℝ) (h : s.arrays = some (V, A)) :
    ∃ ring, s.polygon = some (some ring) ∧ V.Perm ring ∧ (ring ≠ [] → A.length = ring.length + 1 ∧ A.Pairwise (· ≤ ·) ∧
      (∀ i < ring.length, SeenAt s.comb.xr (V.getD i 0) (A.getD i 0) ∧ -π < A.getD i 0 ∧ A.getD i 0 ≤ π) ∧
      A.getD ring.length 0 = A.getD 0 0 + 2 * π) := by
  have hfit : ArraysFit argsort s := by rw [hs]; exact run_fit ops (make_fit _ _ _)
  obtain ⟨ring, h1, h2⟩ := hfit _ h
  injection h2 with hV hA
  have hS := sortedAbout_sorted ha s.comb.xr (List.Perm.refl ring)
  refine ⟨ring, h1, by rw [hV]; exact hS.perm, fun hr => ?_⟩
  obtain ⟨f1, f2, f3, f4, f5, _⟩ := sorted_facts hr hS
  rw [hV, hA]
  exact ⟨f2, f3, f4, f5⟩

/-- C81 (partial): once `polygon()` has been called and the union is a polygon, `set_xr` succeeds and the arrays are
filled. Missing: before that it raises, see `C81_fresh_false`. -/
theorem C81_set_partial (argsort : List ℝ → List Nat) (s : CombState) (ring : List (Pt ℝ))
    (hp : s.polygon = some (some ring)) (x : Pt ℝ) (u : Option (List (Pt ℝ))) :
    (s.setXr argsort x false u).1 = .ok () ∧ (s.setXr argsort x false u).2.comb.xr = x ∧
      (s.setXr argsort x false u).2.polygon = some (some ring) ∧ (s.setXr argsort x false u).2.arrays.isSome ∧
      (s.setXr argsort x false u).2.comb.members = s.comb.members ∧ (s.setXr argsort x false u).2.comb.hull = s.comb.hull := by
  simp [CombState.setXr, CombState.update, hp]

/-- C81 is false for a new combination: `set_xr` raises AttributeError, but the reference point has been changed. -/
theorem C81_fresh_false (argsort : List ℝ → List Nat) (c : Combination) (hull : Option (List (Pt ℝ))) (x : Pt ℝ)
    (u : Option (List (Pt ℝ))) :
    ((CombState.make c hull).setXr argsort x false u).1 = .error .attributeError ∧
      ((CombState.make c hull).setXr argsort x false u).2.comb.xr = x := ⟨rfl, rfl⟩

/-- C81 is false with `safe_set`: it raises AttributeError in every state, and the reference point stays (a shapely
polygon has no `exterior_point`); the polygon is computed if it was not. -/
theorem C81_safe_false (argsort : List ℝ → List Nat) (s : CombState) (x : Pt ℝ) (u : Option (List (Pt ℝ))) :
    (s.setXr argsort x true u).1 = .error .attributeError ∧ (s.setXr argsort x true u).2.comb = s.comb ∧
      (s.setXr argsort x true u).2.arrays = s.arrays ∧ (s.polygon = none → (s.setXr argsort x true u).2.polygon = some u) := by
  refine ⟨rfl, rfl, rfl, fun h => ?_⟩
  simp [CombState.setXr, CombState.computePolygon, h]

example : ((CombState.make ⟨[], none, 0⟩ none).setXr sortIdcs (1, 0) true (some bigSquare)).1 = .error .attributeError :=
  (C81_safe_false sortIdcs _ _ _).1

/-- Arrays of the square after two changes of the reference point. -/
example : ∃ V A, ((CombState.make ⟨[], none, 0⟩ none).run sortIdcs [.polygon (some bigSquare), .setXr (1 / 2, 0) false none,
    .normal (3, 3) .weighted, .setXr (0, 1 / 2) false none]).arrays = some (V, A) ∧ A.length = 5 ∧ V.Perm bigSquare := by
  refine ⟨_, _, rfl, ?_, ?_⟩
  · obtain ⟨ring, h1, _, h2⟩ := C81_arrays sortIdcs sortIdcs_spec ⟨[], none, 0⟩ none [.polygon (some bigSquare),
      .setXr (1 / 2, 0) false none, .normal (3, 3) .weighted, .setXr (0, 1 / 2) false none] _ rfl _ _ rfl
    have : bigSquare = ring := Option.some.inj (Option.some.inj h1)
    subst this
    exact (h2 (by simp [bigSquare])).1
  · exact (sortedAbout_sorted sortIdcs_spec (0, 1 / 2) (List.Perm.refl bigSquare)).perm

/-! ## C82 -/

/-- The union that is known in a state after further calls. -/
theorem run_polygon {argsort : List ℝ → List Nat} (ops : List CombOp) : ∀ {s : CombState} {u : Option (List (Pt ℝ))},
    s.polygon = some u → (s.run argsort ops).polygon = some u := by
  induction ops with
  | nil => intro s u h; exact h
  | cons op ops ih =>
    intro s u h
    refine ih (s := s.step argsort op) ?_
    cases op with
    | moved ms => exact h
    | polygon u' => simp [CombState.step, CombState.computePolygon, h]
    | setXr x safe u' =>
      simp only [CombState.step, CombState.setXr]
      split
      · simp [CombState.computePolygon, h]
      · unfold CombState.update
        split <;> exact h
    | normal x t =>
      have hu : (s.update argsort).2.polygon = some u := by
        unfold CombState.update
        split <;> exact h
      simp only [CombState.step, CombState.approxNormal]
      split
      · exact h
      · split <;> exact hu

/-- C82 (partial): `polygon()` is the union of the polygons of the parts at the time of the first call. Missing: it stays so
when the members move, see `C82_stale_false`. -/
theorem C82_first_partial (argsort : List ℝ → List Nat) (c : Combination) (hull : Option (List (Pt ℝ)))
    (first later : Option (List (Pt ℝ))) (ops : List CombOp) :
    ((CombState.make c hull).computePolygon first).polygon = some first ∧
      ((((CombState.make c hull).computePolygon first).run argsort ops).computePolygon later).polygon = some first := by
  refine ⟨rfl, ?_⟩
  have := run_polygon (argsort := argsort) ops (show ((CombState.make c hull).computePolygon first).polygon = some first from rfl)
  simp [CombState.computePolygon] at this ⊢
  rw [this]; rfl

/-- The second union, larger than the first, is not used. -/
example : (((CombState.make ⟨[], none, 0⟩ none).computePolygon (some bigSquare)).run sortIdcs
    [.normal (2, 1) .weighted, .setXr (1 / 2, 0) false none, .polygon (some [(9, -9), (9, 9), (-9, 9), (-9, -9)])]).polygon =
      some (some bigSquare) := run_polygon _ rfl

/-- The square of side 2 about (10, 0). -/
def farSquare : List (Pt ℝ) := [(11, -1), (11, 1), (9, 1), (9, -1)]

/-- C82 is false: a combination of one square that is moved by (10, 0) after the first call of `polygon()`. Point
(10, 0) is then interior and the centre of the old square exterior, but `polygon()` is still the old square. -/
theorem C82_stale_false (argsort : List ℝ → List Nat) :
    ∃ s : CombState, s = (CombState.make ⟨[starMember bigSquare], none, 0⟩ none).run argsort
      [.polygon (some bigSquare), .moved [starMember farSquare], .polygon (some farSquare)] ∧
      s.comb.pointLocation (10, 0) = .ok (-1) ∧ s.comb.pointLocation 0 = .ok 1 ∧ s.polygon = some (some bigSquare) ∧
      Inside bigSquare 0 ∧ ¬ Inside bigSquare (10, 0) := by
  have h1 : polyLocation farSquare (10, 0) = -1 := by
    norm_num [farSquare, polyLocation, boundsOf, polyContains, ringContains, onSegB, rayCrosses, edgesOf, ringOf, List.countP, List.countP.go]
  have h2 : polyLocation farSquare 0 = 1 := by
    norm_num [farSquare, polyLocation, boundsOf, polyContains, ringContains, onSegB, rayCrosses, edgesOf, ringOf, List.countP, List.countP.go]
  have h3 : polyLocation bigSquare 0 = -1 := by
    norm_num [bigSquare, polyLocation, boundsOf, polyContains, ringContains, onSegB, rayCrosses, edgesOf, ringOf, List.countP, List.countP.go]
  have h4 : polyLocation bigSquare (10, 0) = 1 := by
    norm_num [bigSquare, polyLocation, boundsOf, polyContains, ringContains, onSegB, rayCrosses, edgesOf, ringOf, List.countP, List.countP.go]
  refine ⟨_, rfl, ?_, ?_, rfl, (C37_interior _ _).1 h3, ?_⟩
  · change Combination.pointLocation ⟨[starMember farSquare], none, 0⟩ (10, 0) = _
    simp [Combination.pointLocation, Combination.hullLocation, starMember, h1, pure, Except.pure, bind, Except.bind]
  · change Combination.pointLocation ⟨[starMember farSquare], none, 0⟩ 0 = _
    simp [Combination.pointLocation, Combination.hullLocation, starMember, h2, pure, Except.pure, bind, Except.bind]
  · rw [← C37_interior, h4]
    norm_num

end Starworlds
