import Verif.Proofs.ConvexAround
import Verif.Props.RandomPolygon
import Verif.Proofs.FilledRational

/-! # C131: polygons of `generate_convex_polygon` as obstacles around the origin -/

namespace Starworlds

open Real Spec Finset

section
variable {n : Nat} {box : Pt ℝ} {ux uy : List ℝ} {xCoins yCoins : List Bool} {shuffle : List ℝ → List ℝ}

/-- The edges of the polygon are the drawn edges, in increasing directions. -/
theorem generate_edges (h : DrawsOk n ux uy xCoins yCoins shuffle)
    (hd : ((drawnEdges box ux uy xCoins yCoins shuffle).map fun v => arctan2 v.2 v.1).Nodup) :
    ∃ es : List (Pt ℝ), es.Perm (drawnEdges box ux uy xCoins yCoins shuffle) ∧ es.length = n ∧
      (∀ i j, i < j → j < n → arctan2 (es.getD i 0).2 (es.getD i 0).1 < arctan2 (es.getD j 0).2 (es.getD j 0).1) ∧
      ∀ i < n, corner (generateConvexPolygon box ux uy xCoins yCoins shuffle) (i + 1) -
        corner (generateConvexPolygon box ux uy xCoins yCoins shuffle) i = es.getD i 0 := by
  obtain ⟨xs, ys, c, ex, ey, px, py, lx, ly, hl, hget⟩ := generate_form (box := box) h
  have hx := xVec_length (box := box) h
  have hy := yVec_length (box := box) h
  set vs := drawnEdges box ux uy xCoins yCoins shuffle with hvs
  have e1 : poolVec (sortedPool box.1 ux) xCoins = vs.map Prod.fst := by
    rw [hvs, drawnEdges, List.map_fst_zip (by omega)]
  have e2 : shuffle (poolVec (sortedPool box.1 uy) yCoins) = vs.map Prod.snd := by
    rw [hvs, drawnEdges, List.map_snd_zip (by omega)]
  rw [e1, sortedBy_eq (fun v => arctan2 v.2 v.1) Prod.fst vs hd] at ex
  rw [e2, sortedBy_eq (fun v => arctan2 v.2 v.1) Prod.snd vs hd] at ey
  set es := vs.mergeSort fun v w => decide (arctan2 v.2 v.1 ≤ arctan2 w.2 w.1) with hes
  have les : es.length = n := by rw [← lx, ex, List.length_map]
  have hperm : es.Perm vs := List.mergeSort_perm _ _
  have ges : ∀ j, (xs.getD j 0, ys.getD j 0) = es.getD j 0 := by
    intro j
    rw [ex, ey]
    rcases Nat.lt_or_ge j es.length with hj | hj
    · rw [List.getD_eq_getElem _ _ (by simpa using hj), List.getD_eq_getElem _ _ (by simpa using hj),
        List.getD_eq_getElem _ _ hj, List.getElem_map, List.getElem_map]
    · rw [List.getD_eq_default _ _ (by simpa using hj), List.getD_eq_default _ _ (by simpa using hj),
        List.getD_eq_default _ _ hj]
      rfl
  refine ⟨es, hperm, les, ?_, ?_⟩
  · intro i j hij hj
    have hp := List.pairwise_mergeSort (le := fun v w : Pt ℝ => decide (arctan2 v.2 v.1 ≤ arctan2 w.2 w.1))
      (by intro a b c h1 h2; simp only [decide_eq_true_eq] at *; exact le_trans h1 h2)
      (by intro a b; simp only [Bool.or_eq_true, decide_eq_true_eq]; exact le_total _ _) vs
    rw [← hes, List.pairwise_iff_getElem] at hp
    have h1 := hp i j (by omega) (by omega) hij
    have hd' : (es.map fun v => arctan2 v.2 v.1).Nodup := (hperm.map _).nodup_iff.2 hd
    have h2 := List.pairwise_iff_getElem.1 hd' i j (by simp; omega) (by simp; omega) hij
    rw [List.getD_eq_getElem _ _ (by omega), List.getD_eq_getElem _ _ (by omega)]
    simp only [List.getElem_map] at h2
    exact lt_of_le_of_ne (by simpa using h1) h2
  · intro i hi
    have hp : ∀ i, i < n → (generateConvexPolygon box ux uy xCoins yCoins shuffle).getD i 0 =
        c + ∑ j ∈ range i, es.getD j 0 := by
      intro i hi
      rw [List.getD_eq_getElem _ _ (by omega), hget]
      have : ∀ j ∈ range i, es.getD j 0 = (xs.getD j 0, ys.getD j 0) := fun j _ => (ges j).symm
      rw [sum_congr rfl this]
      ext
      · simp [Prod.fst_sum]
      · simp [Prod.snd_sum]
    have h0 : ∑ j ∈ range n, es.getD j 0 = 0 := by
      have : ∀ j ∈ range n, es.getD j 0 = (xs.getD j 0, ys.getD j 0) := fun j _ => (ges j).symm
      rw [sum_congr rfl this]
      ext
      · rw [Prod.fst_sum]; simp only []; rw [← lx, sum_getD, px.sum_eq, poolVec_sum]; rfl
      · rw [Prod.snd_sum]; simp only []; rw [← ly, sum_getD, py.sum_eq, poolVec_sum]; rfl
    rw [corner, corner, hl, Nat.mod_eq_of_lt hi, hp _ (Nat.mod_lt _ (by omega)), hp i hi]
    rcases Nat.lt_or_ge (i + 1) n with h1 | h1
    · rw [Nat.mod_eq_of_lt h1, sum_range_succ]; abel
    · have hk1 : i + 1 = n := by omega
      rw [hk1, Nat.mod_self]
      rw [← hk1, sum_range_succ] at h0
      rw [range_zero, sum_empty]
      have : es.getD i 0 = -∑ j ∈ range i, es.getD j 0 := by
        rw [eq_neg_iff_add_eq_zero, add_comm]; exact h0
      rw [this]; abel

/-- C131, for at least three edges, none of them zero and no two with the same direction: the polygon turns to the left at each
corner, it is the convex hull of its corners, and it is star-shaped about the origin. -/
theorem C131_partial (h : DrawsOk n ux uy xCoins yCoins shuffle) (h3 : 3 ≤ n)
    (hd : ((drawnEdges box ux uy xCoins yCoins shuffle).map fun v => arctan2 v.2 v.1).Nodup)
    (hz : ∀ e ∈ drawnEdges box ux uy xCoins yCoins shuffle, e ≠ 0) :
    StarAbout 0 (generateConvexPolygon box ux uy xCoins yCoins shuffle) ∧
      filled (generateConvexPolygon box ux uy xCoins yCoins shuffle) =
        convexHull ℝ {p | p ∈ generateConvexPolygon box ux uy xCoins yCoins shuffle} ∧
      ∀ j < n, 0 < turn (generateConvexPolygon box ux uy xCoins yCoins shuffle) j := by
  have hl := C17_length (box := box) h
  obtain ⟨m1, m2⟩ := C17_mean (box := box) h
  obtain ⟨es, hperm, les, hs, he⟩ := generate_edges (box := box) h hd
  set P := generateConvexPolygon box ux uy xCoins yCoins shuffle with hP
  obtain ⟨ho, ht⟩ := onceAround_sorted (v := P) (by omega) (fun i => arctan2 (es.getD i 0).2 (es.getD i 0).1)
    (by
      intro i hi
      rw [hl] at hi
      rw [he i hi]
      have hne : es.getD i 0 ≠ 0 := by
        rw [List.getD_eq_getElem _ _ (by omega)]
        exact hz _ (hperm.mem_iff.1 (List.getElem_mem _))
      obtain ⟨r, r0, e⟩ := seenAt_arctan2 0 (es.getD i 0)
      simp only [Prod.fst_zero, Prod.snd_zero, sub_zero, zero_add] at e
      refine ⟨r, lt_of_le_of_ne r0 ?_, e⟩
      rintro rfl
      rw [zero_smul] at e
      exact hne e)
    (by rw [hl]; exact hs)
    (by linarith [arctan2_lt (es.getD 0 0).2 (es.getD 0 0).1, arctan2_le (es.getD (P.length - 1) 0).2 (es.getD (P.length - 1) 0).1])
  have hsum : P.sum = 0 := by
    have g1 : ∀ l : List (Pt ℝ), l.sum.1 = (l.map Prod.fst).sum := fun l => by induction l <;> simp_all
    have g2 : ∀ l : List (Pt ℝ), l.sum.2 = (l.map Prod.snd).sum := fun l => by induction l <;> simp_all
    exact Prod.ext ((g1 P).trans m1) ((g2 P).trans m2)
  rw [hl] at ht
  refine ⟨star_mean ho (fun j hj => (ht j (by omega)).le) hsum, ?_, ht⟩
  exact (onceAround_convex ho fun j hj => (ht j (by omega)).le).2.1

end

/-! ## Where it fails -/

theorem sortedBy_unique {angle vec : List ℝ} (l : List (ℝ × ℝ)) (hp : l.Perm (angle.zip vec))
    (hs : l.Pairwise fun p q => lexLe p q = true) : sortedBy angle vec = l.map Prod.snd := by
  have htrans : ∀ a b c : ℝ × ℝ, lexLe a b = true → lexLe b c = true → lexLe a c = true := by
    intro a b c h1 h2
    simp only [lexLe, decide_eq_true_eq] at *
    rcases h1 with h1 | ⟨h1, h1'⟩ <;> rcases h2 with h2 | ⟨h2, h2'⟩
    · exact Or.inl (h1.trans h2)
    · exact Or.inl (h2 ▸ h1)
    · exact Or.inl (h1 ▸ h2)
    · exact Or.inr ⟨h1.trans h2, h1'.trans h2'⟩
  have htot : ∀ a b : ℝ × ℝ, (lexLe a b || lexLe b a) = true := by
    intro a b
    simp only [lexLe, Bool.or_eq_true, decide_eq_true_eq]
    rcases lt_trichotomy a.1 b.1 with h | h | h
    · exact Or.inl (Or.inl h)
    · rcases le_total a.2 b.2 with h' | h'
      · exact Or.inl (Or.inr ⟨h, h'⟩)
      · exact Or.inr (Or.inr ⟨h.symm, h'⟩)
    · exact Or.inr (Or.inl h)
  have h1 := List.pairwise_mergeSort (le := lexLe) htrans htot (angle.zip vec)
  have h2 : ((angle.zip vec).mergeSort lexLe).Perm l := (List.mergeSort_perm _ _).trans hp.symm
  rw [sortedBy, h2.eq_of_pairwise (fun a b _ _ h h' => ?_) h1 hs]
  simp only [lexLe, decide_eq_true_eq] at h h'
  rcases h with h | ⟨h, g⟩ <;> rcases h' with h' | ⟨h', g'⟩
  · exact absurd h' h.not_gt
  · exact absurd h' h.ne'
  · exact absurd h h'.ne'
  · exact Prod.ext h (le_antisymm g g')

/-- The draws 0, 1/3, 2/3 and 1. -/
noncomputable def quarterDraws : List ℝ := [0, 1 / 3, 2 / 3, 1]

/-- A shuffle: the last of four entries becomes the second. -/
def lastSecond : List ℝ → List ℝ
  | [a, b, c, d] => [a, d, b, c]
  | l => l

theorem lastSecond_perm (l : List ℝ) : (lastSecond l).Perm l := by
  unfold lastSecond
  split
  · exact List.Perm.cons _ (List.perm_append_comm (l₁ := [_]) (l₂ := [_, _]))
  · exact List.Perm.refl _

theorem perm_four {T : Type*} (a b c d : T) : [c, b, d, a].Perm [a, b, c, d] :=
  (List.reverse_perm [a, d, b, c]).trans (List.Perm.cons _ (List.perm_append_comm (l₁ := [_]) (l₂ := [_, _])))

theorem quarter_draws : DrawsOk 4 quarterDraws quarterDraws [false, true] [true, false] lastSecond :=
  ⟨by omega, rfl, rfl, rfl, rfl, lastSecond_perm⟩

/-- The edges drawn are (-1, 1), (2, -1), (1, -2) and (-2, 2). The first and the last have the same direction, the components are
sorted separately, and the polygon goes from (-5/4, 7/4) over (-1/4, -1/4) to (7/4, -5/4) and back the same way. -/
theorem broken_line : generateConvexPolygon (3, 3) quarterDraws quarterDraws [false, true] [true, false] lastSecond =
    [(-5 / 4, 7 / 4), (-1 / 4, -1 / 4), (7 / 4, -5 / 4), (-1 / 4, -1 / 4)] := by
  have hpool : sortedPool 3 quarterDraws = [0, 1, 2, 3] := by
    rw [quarterDraws, sortedPool_of_sorted (by simp; norm_num)]
    norm_num
  set A := arctan2 1 (-1) with hA
  set B := arctan2 (-1) 2 with hB
  set C := arctan2 (-2) 1 with hC
  have hA' : arctan2 2 (-2) = A := by
    have := Complex.arg_real_mul (⟨-1, 1⟩ : ℂ) (r := 2) two_pos
    rw [hA, arctan2, arctan2, ← this]
    congr 1
    apply Complex.ext <;> simp
  have hAnn : 0 ≤ A := Complex.arg_nonneg_iff.2 (by simp)
  have hBneg : B < 0 := Complex.arg_neg_iff.2 (by simp)
  have hCneg : C < 0 := Complex.arg_neg_iff.2 (by simp)
  have hCB : C < B := by
    by_contra hle
    push Not at hle
    have := cross_nonneg_of (u := (2, -1)) (v := (1, -2)) (by simp only [← hB, ← hC]; linarith)
      (by simp only [← hB, ← hC]; linarith [arctan2_lt (-1) 2])
    norm_num [cross] at this
  have hx : sortedBy [A, B, C, A] [-1, 2, 1, -2] = [1, 2, -2, -1] := by
    rw [sortedBy_unique [(C, 1), (B, 2), (A, -2), (A, -1)]]
    · rfl
    · exact perm_four _ _ _ _
    · simp [lexLe, hCB, hBneg.trans_le hAnn, hCneg.trans_le hAnn]
  have hy : sortedBy [A, B, C, A] [1, -1, -2, 2] = [-2, -1, 1, 2] := by
    rw [sortedBy_unique [(C, -2), (B, -1), (A, 1), (A, 2)]]
    · rfl
    · exact (List.reverse_perm [(A, 1), (B, -1), (C, -2)]).append_right [(A, 2)]
    · simp [lexLe, hCB, hBneg.trans_le hAnn, hCneg.trans_le hAnn]
  have hxv : poolVec (sortedPool 3 quarterDraws) [false, true] = [-1, 2, 1, -2] := by
    rw [hpool]; simp [poolVec, chainVec]; norm_num
  have hyv : lastSecond (poolVec (sortedPool 3 quarterDraws) [true, false]) = [1, -1, -2, 2] := by
    rw [hpool]; simp [poolVec, chainVec]; norm_num [lastSecond]
  have hang : (List.zip [-1, 2, 1, -2] [1, -1, -2, 2]).map (fun v : Pt ℝ => arctan2 v.2 v.1) = [A, B, C, A] := by
    simp [hA']
    simp [hA, hB, hC]
  simp only [generateConvexPolygon, hxv, hyv, hang, hx, hy]
  simp only [layEnd, meanPt, List.map_cons, List.map_nil, List.zip_cons_cons, List.zip_nil_left, List.sum_cons, List.sum_nil,
    List.length_cons, List.length_nil, Prod.mk_add_mk, List.cons.injEq, Prod.mk.injEq, and_true]
  push_cast
  and_intros <;> ring

/-- C131 is false if two edges have the same direction: the polygon is a broken line, and the origin is not in it. -/
theorem C131_false : ∃ (ux uy : List ℝ) (xCoins yCoins : List Bool) (shuffle : List ℝ → List ℝ),
    DrawsOk 4 ux uy xCoins yCoins shuffle ∧ (∀ u ∈ ux ++ uy, 0 ≤ u ∧ u ≤ 1) ∧
    (∀ e ∈ drawnEdges (3, 3) ux uy xCoins yCoins shuffle, e ≠ 0) ∧
    (0, 0) ∉ filled (generateConvexPolygon (3, 3) ux uy xCoins yCoins shuffle) := by
  refine ⟨quarterDraws, quarterDraws, [false, true], [true, false], lastSecond, quarter_draws, ?_, ?_, ?_⟩
  · intro u hu
    simp [quarterDraws] at hu
    rcases hu with rfl | rfl | rfl | rfl | rfl | rfl | rfl | rfl <;> norm_num
  · intro e he
    have hpool : sortedPool 3 quarterDraws = [0, 1, 2, 3] := by
      rw [quarterDraws, sortedPool_of_sorted (by simp; norm_num)]
      norm_num
    have hv : drawnEdges (3, 3) quarterDraws quarterDraws [false, true] [true, false] lastSecond =
        [(-1, 1), (2, -1), (1, -2), (-2, 2)] := by
      simp only [drawnEdges, hpool]
      simp [poolVec, chainVec]
      norm_num [lastSecond]
    rw [hv] at he
    simp at he
    rcases he with rfl | rfl | rfl | rfl <;> simp
  · rw [broken_line]
    have h := (filledB_iff [(-5 / 4, 7 / 4), (-1 / 4, -1 / 4), (7 / 4, -5 / 4), (-1 / 4, -1 / 4)] (0, 0)).not.1 (by decide +kernel)
    convert h using 2
    · simp [toReal]
    · norm_num [toReal]

/-- A triangle with the draws of the example beside `C17_convex`. -/
example : StarAbout 0 (generateConvexPolygon (1, 1) [0, 1 / 2, 1] [0, 1 / 4, 1] [true] [true] List.reverse) := by
  have e : drawnEdges (1, 1) [0, 1 / 2, 1] [0, 1 / 4, 1] [true] [true] List.reverse =
      [(1 / 2, -1), (1 / 2, 3 / 4), (-1, 1 / 4)] := by
    unfold drawnEdges
    rw [sortedPool_of_sorted (by simp; norm_num), sortedPool_of_sorted (by simp; norm_num)]
    simp [poolVec, chainVec]
    norm_num
  have ne : ∀ u v : Pt ℝ, cross u v ≠ 0 → ¬ arctan2 u.2 u.1 = arctan2 v.2 v.1 :=
    fun u v h h' => h (cross_of_arctan2_eq h')
  refine (C131_partial (n := 3) ⟨by omega, rfl, rfl, rfl, rfl, fun l => List.reverse_perm l⟩ le_rfl ?_ ?_).1
  · rw [e]
    simp only [List.map_cons, List.map_nil, List.nodup_cons, List.mem_cons, List.not_mem_nil, or_false,
      not_or, not_false_eq_true, List.nodup_nil, and_true]
    refine ⟨⟨ne (1 / 2, -1) (1 / 2, 3 / 4) ?_, ne (1 / 2, -1) (-1, 1 / 4) ?_⟩, ne (1 / 2, 3 / 4) (-1, 1 / 4) ?_⟩ <;>
      simp [cross] <;> norm_num
  · rw [e]
    intro x hx
    simp at hx
    rcases hx with rfl | rfl | rfl <;> simp

end Starworlds
