import Verif.Proofs.RandomPolygon
import Mathlib.Data.List.GetD
import Mathlib.Analysis.Real.Pi.Bounds
import Mathlib.Algebra.Ring.Prod
import Mathlib.Tactic.FieldSimp

/-! # C17-C19: random polygons -/

namespace Starworlds

open Real Spec Finset

/-- The edge vectors drawn by `generate_convex_polygon` (before sorting): the pairs of components
whose angles are compared. -/
noncomputable def drawnEdges (box : Pt ℝ) (ux uy : List ℝ) (xCoins yCoins : List Bool)
    (shuffle : List ℝ → List ℝ) : List (Pt ℝ) :=
  (poolVec (sortedPool box.1 ux) xCoins).zip (shuffle (poolVec (sortedPool box.1 uy) yCoins))

/-- The drawing inputs are as in the code: `n` draws per pool, `n - 2` coins per pool, and the
shuffle only permutes. -/
structure DrawsOk (n : Nat) (ux uy : List ℝ) (xCoins yCoins : List Bool)
    (shuffle : List ℝ → List ℝ) : Prop where
  two : 2 ≤ n
  ux : ux.length = n
  uy : uy.length = n
  xc : xCoins.length = n - 2
  yc : yCoins.length = n - 2
  sh : ∀ l, (shuffle l).Perm l

section
variable {n : Nat} {box : Pt ℝ} {ux uy : List ℝ} {xCoins yCoins : List Bool} {shuffle : List ℝ → List ℝ}

theorem xVec_length (h : DrawsOk n ux uy xCoins yCoins shuffle) :
    (poolVec (sortedPool box.1 ux) xCoins).length = n := by
  rw [poolVec_length _ _ (by rw [sortedPool_length, h.ux]; exact h.two)
    (by rw [sortedPool_length, h.ux, h.xc]), sortedPool_length, h.ux]

theorem yVec_length (h : DrawsOk n ux uy xCoins yCoins shuffle) :
    (shuffle (poolVec (sortedPool box.1 uy) yCoins)).length = n := by
  rw [(h.sh _).length_eq, poolVec_length _ _ (by rw [sortedPool_length, h.uy]; exact h.two)
    (by rw [sortedPool_length, h.uy, h.yc]), sortedPool_length, h.uy]

/-- The result as partial sums of the sorted components plus a constant. -/
theorem generate_form (h : DrawsOk n ux uy xCoins yCoins shuffle) :
    ∃ (xs ys : List ℝ) (c : Pt ℝ),
      xs = sortedBy ((drawnEdges box ux uy xCoins yCoins shuffle).map fun v => arctan2 v.2 v.1)
        (poolVec (sortedPool box.1 ux) xCoins) ∧
      ys = sortedBy ((drawnEdges box ux uy xCoins yCoins shuffle).map fun v => arctan2 v.2 v.1)
        (shuffle (poolVec (sortedPool box.1 uy) yCoins)) ∧
      xs.Perm (poolVec (sortedPool box.1 ux) xCoins) ∧
      ys.Perm (poolVec (sortedPool box.1 uy) yCoins) ∧
      xs.length = n ∧ ys.length = n ∧
      (generateConvexPolygon box ux uy xCoins yCoins shuffle).length = n ∧
      ∀ (i : Nat) (hi : i < (generateConvexPolygon box ux uy xCoins yCoins shuffle).length),
        (generateConvexPolygon box ux uy xCoins yCoins shuffle)[i] =
          (c.1 + ∑ j ∈ range i, xs.getD j 0, c.2 + ∑ j ∈ range i, ys.getD j 0) := by
  have hx := xVec_length (box := box) h
  have hy := yVec_length (box := box) h
  have hl : (drawnEdges box ux uy xCoins yCoins shuffle).length = n := by
    simp [drawnEdges, hx, hy]
  set ang := (drawnEdges box ux uy xCoins yCoins shuffle).map fun v => arctan2 v.2 v.1 with hang
  set xV := poolVec (sortedPool box.1 ux) xCoins with hxV
  set yV := shuffle (poolVec (sortedPool box.1 uy) yCoins) with hyV
  have px : (sortedBy ang xV).Perm xV := sortedBy_perm _ _ (by simp [hang, hl, hx])
  have py : (sortedBy ang yV).Perm yV := sortedBy_perm _ _ (by simp [hang, hl, hy])
  have lx : (sortedBy ang xV).length = n := by rw [px.length_eq, hx]
  have ly : (sortedBy ang yV).length = n := by rw [py.length_eq, hy]
  have hlen : (generateConvexPolygon box ux uy xCoins yCoins shuffle).length = n := by
    simp only [generateConvexPolygon, List.length_map, layEnd_length, List.length_zip]
    change min (sortedBy ang xV).length (sortedBy ang yV).length = n
    rw [lx, ly, min_self]
  let pts2 := (layEnd (0, 0) ((sortedBy ang xV).zip (sortedBy ang yV))).map fun p =>
    ((p.1 + ((sortedPool box.1 ux).headD 0 - runMin 0 0 (sortedBy ang xV) - box.1 / 2),
      p.2 + ((sortedPool box.1 uy).headD 0 - runMin 0 0 (sortedBy ang yV) - box.2 / 2)) : Pt ℝ)
  refine ⟨sortedBy ang xV, sortedBy ang yV,
    ((sortedPool box.1 ux).headD 0 - runMin 0 0 (sortedBy ang xV) - box.1 / 2 - (meanPt pts2).1,
     (sortedPool box.1 uy).headD 0 - runMin 0 0 (sortedBy ang yV) - box.2 / 2 - (meanPt pts2).2),
    rfl, rfl, px, py.trans (h.sh _), lx, ly, hlen, ?_⟩
  intro i hi
  have hi' : i < n := by omega
  have hzl : i < ((sortedBy ang xV).zip (sortedBy ang yV)).length := by
    simp [lx, ly, hi']
  have hget : (layEnd (0, 0) ((sortedBy ang xV).zip (sortedBy ang yV)))[i]'(by
      rw [layEnd_length]; exact hzl) =
      (∑ j ∈ range i, (sortedBy ang xV).getD j 0, ∑ j ∈ range i, (sortedBy ang yV).getD j 0) := by
    rw [layEnd_get _ _ _ hzl]
    have : ∀ j ∈ range i, ((sortedBy ang xV).zip (sortedBy ang yV)).getD j 0 =
        ((sortedBy ang xV).getD j 0, (sortedBy ang yV).getD j 0) := by
      intro j hj
      rw [mem_range] at hj
      have j1 : j < (sortedBy ang xV).length := by omega
      have j2 : j < (sortedBy ang yV).length := by omega
      rw [List.getD_eq_getElem _ _ (by simp [lx, ly]; omega), List.getD_eq_getElem _ _ j1,
        List.getD_eq_getElem _ _ j2, List.getElem_zip]
    rw [sum_congr rfl this]
    ext
    · simp [Prod.fst_sum]
    · simp [Prod.snd_sum]
  have : (generateConvexPolygon box ux uy xCoins yCoins shuffle)[i] =
      ((pts2[i]'(by simp [pts2, layEnd_length, lx, ly, hi'])).1 - (meanPt pts2).1,
       (pts2[i]'(by simp [pts2, layEnd_length, lx, ly, hi'])).2 - (meanPt pts2).2) := by
    simp only [generateConvexPolygon, List.getElem_map, pts2]
    rfl
  rw [this]
  simp only [pts2, List.getElem_map, hget]
  ext
  · simp only []; ring
  · simp only []; ring

/-- C17: the number of points. -/
theorem C17_length (h : DrawsOk n ux uy xCoins yCoins shuffle) :
    (generateConvexPolygon box ux uy xCoins yCoins shuffle).length = n := by
  obtain ⟨_, _, _, _, _, _, _, _, _, hl, _⟩ := generate_form (box := box) h
  exact hl

/-- C17: the coordinates add up to zero (the mean of the vertices is the origin). -/
theorem C17_mean (h : DrawsOk n ux uy xCoins yCoins shuffle) :
    ((generateConvexPolygon box ux uy xCoins yCoins shuffle).map Prod.fst).sum = 0 ∧
    ((generateConvexPolygon box ux uy xCoins yCoins shuffle).map Prod.snd).sum = 0 := by
  have hl := C17_length (box := box) h
  have hn : (n : ℝ) ≠ 0 := by have := h.two; positivity
  have key : ∀ l : List (Pt ℝ), l.length = n →
      ((l.map fun p => ((p.1 - (meanPt l).1, p.2 - (meanPt l).2) : Pt ℝ)).map Prod.fst).sum = 0 ∧
      ((l.map fun p => ((p.1 - (meanPt l).1, p.2 - (meanPt l).2) : Pt ℝ)).map Prod.snd).sum = 0 := by
    intro l hl
    have gen : ∀ (l : List (Pt ℝ)) (f : Pt ℝ → ℝ) (c : ℝ),
        (l.map fun p => f p - c).sum = (l.map f).sum - l.length * c := by
      intro l f c
      induction l with
      | nil => simp
      | cons a l ih => simp only [List.map_cons, List.sum_cons, ih, List.length_cons]; push_cast; ring
    rw [List.map_map, List.map_map]
    constructor
    · have := gen l Prod.fst (meanPt l).1
      refine Eq.trans this ?_
      simp only [meanPt, hl]; field_simp; ring
    · have := gen l Prod.snd (meanPt l).2
      refine Eq.trans this ?_
      simp only [meanPt, hl]; field_simp; ring
  unfold generateConvexPolygon at hl ⊢
  exact key _ (by simpa using hl)

/-- C17: the polygon closes up with a drawn vector: the cyclic edge vectors `p(i+1) - p(i)` have as
`x` components exactly the drawn `x` components (in another order), and the same for `y`. -/
theorem C17_edges (h : DrawsOk n ux uy xCoins yCoins shuffle) :
    ∃ xs ys : List ℝ, xs.Perm (poolVec (sortedPool box.1 ux) xCoins) ∧
      ys.Perm (poolVec (sortedPool box.1 uy) yCoins) ∧ xs.length = n ∧ ys.length = n ∧
      ∀ i, i < n →
        (generateConvexPolygon box ux uy xCoins yCoins shuffle).getD ((i + 1) % n) 0 -
          (generateConvexPolygon box ux uy xCoins yCoins shuffle).getD i 0 = (xs.getD i 0, ys.getD i 0) := by
  obtain ⟨xs, ys, c, _, _, px, py, lx, ly, hl, hget⟩ := generate_form (box := box) h
  refine ⟨xs, ys, px, py, lx, ly, ?_⟩
  intro i hi
  have sx : ∑ j ∈ range n, xs.getD j 0 = 0 := by
    rw [← lx, sum_getD, px.sum_eq, poolVec_sum]
  have sy : ∑ j ∈ range n, ys.getD j 0 = 0 := by
    rw [← ly, sum_getD, py.sum_eq, poolVec_sum]
  have hi1 : (i + 1) % n < n := Nat.mod_lt _ (by omega)
  rw [List.getD_eq_getElem _ _ (by omega), List.getD_eq_getElem _ _ (by omega), hget, hget]
  rcases Nat.lt_or_ge (i + 1) n with h1 | h1
  · rw [Nat.mod_eq_of_lt h1]
    ext <;> simp [sum_range_succ]
  · have : i + 1 = n := by omega
    rw [this, Nat.mod_self]
    rw [← this, sum_range_succ] at sx sy
    ext
    · simp only [range_zero, sum_empty, Prod.fst_sub]; linarith
    · simp only [range_zero, sum_empty, Prod.snd_sub]; linarith

/-- C17: when no two drawn edge vectors have the same angle, every vertex of the returned polygon is
on or to the left of every directed edge (including the closing one): the polygon is convex and
counter-clockwise. -/
theorem C17_convex (h : DrawsOk n ux uy xCoins yCoins shuffle)
    (hd : ((drawnEdges box ux uy xCoins yCoins shuffle).map fun v => arctan2 v.2 v.1).Nodup) :
    ∀ k i, k < n → i < n →
      0 ≤ cross ((generateConvexPolygon box ux uy xCoins yCoins shuffle).getD ((k + 1) % n) 0 -
          (generateConvexPolygon box ux uy xCoins yCoins shuffle).getD k 0)
        ((generateConvexPolygon box ux uy xCoins yCoins shuffle).getD i 0 -
          (generateConvexPolygon box ux uy xCoins yCoins shuffle).getD k 0) := by
  obtain ⟨xs, ys, c, ex, ey, px, py, lx, ly, hl, hget⟩ := generate_form (box := box) h
  have hx := xVec_length (box := box) h
  have hy := yVec_length (box := box) h
  set vs := drawnEdges box ux uy xCoins yCoins shuffle with hvs
  have e1 : poolVec (sortedPool box.1 ux) xCoins = vs.map Prod.fst := by
    rw [hvs, drawnEdges, List.map_fst_zip (by omega)]
  have e2 : shuffle (poolVec (sortedPool box.1 uy) yCoins) = vs.map Prod.snd := by
    rw [hvs, drawnEdges, List.map_snd_zip (by omega)]
  rw [e1, sortedBy_eq (fun v => arctan2 v.2 v.1) Prod.fst vs hd] at ex
  rw [e2, sortedBy_eq (fun v => arctan2 v.2 v.1) Prod.snd vs hd] at ey
  set es := vs.mergeSort fun v w => decide (arctan2 v.2 v.1 ≤ arctan2 w.2 w.1) with hes
  have les : es.length = n := by rw [← lx, ex, List.length_map]
  have ges : ∀ j, (xs.getD j 0, ys.getD j 0) = es.getD j 0 := by
    intro j
    rw [ex, ey]
    rcases Nat.lt_or_ge j es.length with hj | hj
    · rw [List.getD_eq_getElem _ _ (by simpa using hj), List.getD_eq_getElem _ _ (by simpa using hj),
        List.getD_eq_getElem _ _ hj, List.getElem_map, List.getElem_map]
    · rw [List.getD_eq_default _ _ (by simpa using hj), List.getD_eq_default _ _ (by simpa using hj),
        List.getD_eq_default _ _ hj]
      rfl
  have hsort : ∀ i j, i < j → j < n →
      arctan2 (es.getD i 0).2 (es.getD i 0).1 ≤ arctan2 (es.getD j 0).2 (es.getD j 0).1 := by
    intro i j hij hj
    have hp := List.pairwise_mergeSort (le := fun v w : Pt ℝ => decide (arctan2 v.2 v.1 ≤ arctan2 w.2 w.1))
      (by intro a b c h1 h2; simp only [decide_eq_true_eq] at *; exact le_trans h1 h2)
      (by intro a b; simp only [Bool.or_eq_true, decide_eq_true_eq]; exact le_total _ _) vs
    rw [← hes, List.pairwise_iff_getElem] at hp
    have := hp i j (by omega) (by omega) hij
    rw [List.getD_eq_getElem _ _ (by omega), List.getD_eq_getElem _ _ (by omega)]
    simpa using this
  have h0 : ∑ j ∈ range n, es.getD j 0 = 0 := by
    have : ∀ j ∈ range n, es.getD j 0 = (xs.getD j 0, ys.getD j 0) := fun j _ => (ges j).symm
    rw [sum_congr rfl this]
    ext
    · rw [Prod.fst_sum]; simp only []; rw [← lx, sum_getD, px.sum_eq, poolVec_sum]; rfl
    · rw [Prod.snd_sum]; simp only []; rw [← ly, sum_getD, py.sum_eq, poolVec_sum]; rfl
  have hp : ∀ i, i < n → (generateConvexPolygon box ux uy xCoins yCoins shuffle).getD i 0 =
      c + ∑ j ∈ range i, es.getD j 0 := by
    intro i hi
    rw [List.getD_eq_getElem _ _ (by omega), hget]
    have : ∀ j ∈ range i, es.getD j 0 = (xs.getD j 0, ys.getD j 0) := fun j _ => (ges j).symm
    rw [sum_congr rfl this]
    ext
    · simp [Prod.fst_sum]
    · simp [Prod.snd_sum]
  intro k i hk hi
  have key := convex_of_sorted n (fun j => es.getD j 0) hsort h0 k hk i hi
  have hedge : (generateConvexPolygon box ux uy xCoins yCoins shuffle).getD ((k + 1) % n) 0 -
          (generateConvexPolygon box ux uy xCoins yCoins shuffle).getD k 0 = es.getD k 0 := by
    rw [hp _ (Nat.mod_lt _ (by omega)), hp k hk]
    rcases Nat.lt_or_ge (k + 1) n with h1 | h1
    · rw [Nat.mod_eq_of_lt h1, sum_range_succ]; abel
    · have hk1 : k + 1 = n := by omega
      rw [hk1, Nat.mod_self]
      rw [← hk1, sum_range_succ] at h0
      rw [range_zero, sum_empty]
      have : es.getD k 0 = -∑ j ∈ range k, es.getD j 0 := by
        rw [eq_neg_iff_add_eq_zero, add_comm]; exact h0
      rw [this]; abel
  have hdiff : (generateConvexPolygon box ux uy xCoins yCoins shuffle).getD i 0 -
          (generateConvexPolygon box ux uy xCoins yCoins shuffle).getD k 0 =
        ∑ j ∈ range i, es.getD j 0 - ∑ j ∈ range k, es.getD j 0 := by
    rw [hp i hi, hp k hk]; abel
  rw [hedge, hdiff]
  exact key

/-- C18, true part: width and height are both at most `box[0]` (the code scales both pools with
`box[0]`), for every outcome of the draws.  What is missing: the height bound `box[1]`, which is
false, see `C18_box_false`. -/
theorem C18_box_partial (h : DrawsOk n ux uy xCoins yCoins shuffle) (hb : 0 ≤ box.1)
    (hux : ∀ u ∈ ux, 0 ≤ u ∧ u ≤ 1) (huy : ∀ u ∈ uy, 0 ≤ u ∧ u ≤ 1) :
    ∀ p ∈ generateConvexPolygon box ux uy xCoins yCoins shuffle,
    ∀ q ∈ generateConvexPolygon box ux uy xCoins yCoins shuffle,
      p.1 - q.1 ≤ box.1 ∧ p.2 - q.2 ≤ box.1 := by
  obtain ⟨xs, ys, c, _, _, px, py, lx, ly, hl, hget⟩ := generate_form (box := box) h
  have pool : ∀ (us : List ℝ) (coins : List Bool), us.length = n → (∀ u ∈ us, 0 ≤ u ∧ u ≤ 1) →
      ((poolVec (sortedPool box.1 us) coins).map (max · 0)).sum ≤ box.1 := by
    intro us coins hus hu
    have hne : sortedPool box.1 us ≠ [] := by
      intro h0
      have := congrArg List.length h0
      rw [sortedPool_length] at this
      have h2 := h.two
      rw [hus] at this
      simp only [List.length_nil] at this
      omega
    rw [poolVec_pos _ _ (sortedPool_pairwise _ _) hne]
    obtain ⟨a, l, hal⟩ := List.exists_cons_of_ne_nil hne
    have h1 : (sortedPool box.1 us).getLastD 0 ∈ sortedPool box.1 us := by
      rw [List.getLastD_eq_getLast?, List.getLast?_eq_getLast_of_ne_nil hne]
      exact List.getLast_mem _
    have h2 : (sortedPool box.1 us).headD 0 ∈ sortedPool box.1 us := by
      rw [hal]; simp
    obtain ⟨u, hu1, e1⟩ := sortedPool_mem h1
    obtain ⟨v, hv1, e2⟩ := sortedPool_mem h2
    rw [e1, e2]
    have := hu u hu1
    have := hu v hv1
    nlinarith
  intro p hp q hq
  obtain ⟨i, hi, rfl⟩ := List.getElem_of_mem hp
  obtain ⟨k, hk, rfl⟩ := List.getElem_of_mem hq
  rw [hget i hi, hget k hk]
  have sx : xs.sum = 0 := by rw [px.sum_eq, poolVec_sum]
  have sy : ys.sum = 0 := by rw [py.sum_eq, poolVec_sum]
  have a1 := partial_sum_range xs sx i k (by omega) (by omega)
  have a2 := partial_sum_range ys sy i k (by omega) (by omega)
  rw [(px.map _).sum_eq] at a1
  rw [(py.map _).sum_eq] at a2
  have b1 := pool ux xCoins h.ux hux
  have b2 := pool uy yCoins h.uy huy
  constructor
  · simp only []; linarith
  · simp only []; linarith

end

theorem sortedPool_of_sorted {w : ℝ} {us : List ℝ} (h : (us.map (w * ·)).Pairwise (· ≤ ·)) :
    sortedPool w us = us.map (w * ·) := by
  unfold sortedPool
  apply List.mergeSort_of_pairwise
  exact h.imp (by intro a b hab; simpa using hab)

/-- C18 is false of the code: with `box = [10, 1]` there are draws in `[0,1]` that give a polygon of
height `10` (the second pool is scaled with `box[0]`, utils/cg.py:427). -/
theorem C18_box_false : ∃ (box : Pt ℝ) (ux uy : List ℝ) (xCoins yCoins : List Bool)
    (shuffle : List ℝ → List ℝ), DrawsOk 3 ux uy xCoins yCoins shuffle ∧ 0 ≤ box.1 ∧ 0 ≤ box.2 ∧
    (∀ u ∈ ux, 0 ≤ u ∧ u ≤ 1) ∧ (∀ u ∈ uy, 0 ≤ u ∧ u ≤ 1) ∧
    ∃ p ∈ generateConvexPolygon box ux uy xCoins yCoins shuffle,
    ∃ q ∈ generateConvexPolygon box ux uy xCoins yCoins shuffle, box.2 < p.2 - q.2 := by
  have hok : DrawsOk 3 [0, 1 / 2, 1] [0, 1 / 2, 1] [true] [true] id :=
    ⟨by omega, rfl, rfl, rfl, rfl, fun l => List.Perm.refl _⟩
  refine ⟨(10, 1), [0, 1 / 2, 1], [0, 1 / 2, 1], [true], [true], id, hok, by norm_num, by norm_num,
    ?_, ?_, ?_⟩
  · intro u hu; simp at hu; rcases hu with rfl | rfl | rfl <;> norm_num
  · intro u hu; simp at hu; rcases hu with rfl | rfl | rfl <;> norm_num
  obtain ⟨xs, ys, px, py, lx, ly, hedge⟩ := C17_edges (box := ((10, 1) : Pt ℝ)) hok
  have hl := C17_length (box := ((10, 1) : Pt ℝ)) hok
  have hpool : poolVec (sortedPool 10 [0, 1 / 2, 1]) [true] = [5, 5, -10] := by
    rw [sortedPool_of_sorted (by simp; norm_num)]
    simp [poolVec, chainVec]
    norm_num
  have hmem : (-10 : ℝ) ∈ ys := by
    rw [py.mem_iff]
    change (-10 : ℝ) ∈ poolVec (sortedPool 10 [0, 1 / 2, 1]) [true]
    rw [hpool]; simp
  obtain ⟨i, hi, hii⟩ := List.getElem_of_mem hmem
  have hi3 : i < 3 := by omega
  have := hedge i hi3
  rw [List.getD_eq_getElem _ _ (by rw [hl]; exact Nat.mod_lt _ (by omega)), List.getD_eq_getElem _ _ (by omega)] at this
  refine ⟨_, List.getElem_mem (n := i) (by omega), _,
    List.getElem_mem (n := (i + 1) % 3) (by rw [hl]; exact Nat.mod_lt _ (by omega)), ?_⟩
  have h2 := congrArg Prod.snd this
  rw [List.getD_eq_getElem ys _ hi, hii] at h2
  simp only [Prod.snd_sub] at h2
  linarith

/-- Draws meeting the hypotheses of the C17 theorems. -/
example : DrawsOk 4 [0.1, 0.7, 0.3, 0.9] [0.2, 0.4, 0.8, 0.5] [true, false] [false, true] List.reverse :=
  ⟨by omega, rfl, rfl, rfl, rfl, fun l => List.reverse_perm l⟩

theorem cross_of_arctan2_eq {u v : Pt ℝ} (h : arctan2 u.2 u.1 = arctan2 v.2 v.1) : cross u v = 0 := by
  rw [cross_polar, h]; simp

/-- Draws meeting all hypotheses of `C17_convex`. -/
example : DrawsOk 3 [0, 1 / 2, 1] [0, 1 / 4, 1] [true] [true] List.reverse ∧
    ((drawnEdges (1, 1) [0, 1 / 2, 1] [0, 1 / 4, 1] [true] [true] List.reverse).map
      fun v => arctan2 v.2 v.1).Nodup := by
  refine ⟨⟨by omega, rfl, rfl, rfl, rfl, fun l => List.reverse_perm l⟩, ?_⟩
  have e : drawnEdges (1, 1) [0, 1 / 2, 1] [0, 1 / 4, 1] [true] [true] List.reverse =
      [(1 / 2, -1), (1 / 2, 3 / 4), (-1, 1 / 4)] := by
    unfold drawnEdges
    rw [sortedPool_of_sorted (by simp; norm_num), sortedPool_of_sorted (by simp; norm_num)]
    simp [poolVec, chainVec]
    norm_num
  rw [e]
  simp only [List.map_cons, List.map_nil, List.nodup_cons, List.mem_cons, List.not_mem_nil, or_false,
    not_or, not_false_eq_true, List.nodup_nil, and_true]
  have ne : ∀ u v : Pt ℝ, cross u v ≠ 0 → ¬ arctan2 u.2 u.1 = arctan2 v.2 v.1 :=
    fun u v h h' => h (cross_of_arctan2_eq h')
  refine ⟨⟨ne (1 / 2, -1) (1 / 2, 3 / 4) ?_, ne (1 / 2, -1) (-1, 1 / 4) ?_⟩, ne (1 / 2, 3 / 4) (-1, 1 / 4) ?_⟩ <;>
    simp [cross] <;> norm_num

/-! ## C19 -/

/-- C19, true part: as soon as the drawn angles do not add up to zero, `random_angle_steps` returns
`n` angles with sum `2π`.  What is missing: the case of zero sum, which raises ZeroDivisionError, see
`C19_steps_false`. -/
theorem C19_steps_partial (us : List ℝ) (irr : ℝ) (hn : us ≠ [])
    (hs : (us.map fun u => 2 * π / us.length - irr + 2 * irr * u).sum ≠ 0) :
    ∃ as, randomAngleSteps us irr = .ok as ∧ as.length = us.length ∧ as.sum = 2 * π := by
  have hl : us.length ≠ 0 := by simpa using hn
  have e : (us.map fun u => 2 * π / us.length - irr + (2 * π / us.length + irr - (2 * π / us.length - irr)) * u)
      = us.map fun u => 2 * π / us.length - irr + 2 * irr * u := by
    apply List.map_congr_left; intro u _; ring
  unfold randomAngleSteps
  rw [if_neg hl]
  simp only [e]
  have hpi : (2 * π) ≠ 0 := by positivity
  rw [if_neg (div_ne_zero hs hpi)]
  refine ⟨_, rfl, by simp, ?_⟩
  have hdiv : ∀ (l : List ℝ) (c : ℝ), (l.map (· / c)).sum = l.sum / c := by
    intro l c
    induction l with
    | nil => simp
    | cons a l ih => simp only [List.map_cons, List.sum_cons, ih, add_div]
  rw [hdiv, div_div_eq_mul_div, mul_comm, mul_div_assoc, div_self hs, mul_one]

theorem steps_sum_lower (c d : ℝ) (hc : 0 ≤ c - d) (hd : 0 ≤ d) (us : List ℝ) (hu : ∀ u ∈ us, 0 ≤ u) :
    0 ≤ (us.map fun u => c - d + 2 * d * u).sum := by
  apply List.sum_nonneg
  intro x hx
  rw [List.mem_map] at hx
  obtain ⟨u, hu', rfl⟩ := hx
  have := hu u hu'
  positivity

/-- C19: for `0 <= irr < 2π/n` every outcome of the draws gives `n` positive angles with sum `2π`. -/
theorem C19_positive (us : List ℝ) (irr : ℝ) (hn : us ≠ []) (h0 : 0 ≤ irr) (h1 : irr < 2 * π / us.length)
    (hu : ∀ u ∈ us, 0 ≤ u ∧ u ≤ 1) :
    ∃ as, randomAngleSteps us irr = .ok as ∧ as.length = us.length ∧ as.sum = 2 * π ∧ ∀ a ∈ as, 0 < a := by
  have hl : us.length ≠ 0 := by simpa using hn
  set f := fun u : ℝ => 2 * π / us.length - irr + 2 * irr * u with hf
  have fpos : ∀ u ∈ us, 0 < f u := by
    intro u hu'
    have := (hu u hu').1
    have : 0 ≤ 2 * irr * u := by positivity
    simp only [hf]; linarith
  have hsum : 0 < (us.map f).sum := by
    apply List.sum_pos
    · intro x hx
      rw [List.mem_map] at hx
      obtain ⟨u, hu', rfl⟩ := hx
      exact fpos u hu'
    · simpa using hn
  obtain ⟨as, e, l, s⟩ := C19_steps_partial us irr hn hsum.ne'
  refine ⟨as, e, l, s, ?_⟩
  unfold randomAngleSteps at e
  rw [if_neg hl] at e
  have e' : (us.map fun u => 2 * π / us.length - irr + (2 * π / us.length + irr - (2 * π / us.length - irr)) * u)
      = us.map f := by
    apply List.map_congr_left; intro u _; simp only [hf]; ring
  simp only [e'] at e
  have hpi : (0 : ℝ) < 2 * π := by positivity
  rw [if_neg (div_pos hsum hpi).ne'] at e
  injection e with e
  intro a ha
  rw [← e, List.map_map, List.mem_map] at ha
  obtain ⟨u, hu', rfl⟩ := ha
  exact div_pos (fpos u hu') (div_pos hsum hpi)

/-- C19: for `0 <= irr <= 2π/n` whatever is returned is non-negative. -/
theorem C19_nonneg (us as : List ℝ) (irr : ℝ) (h0 : 0 ≤ irr) (h1 : irr ≤ 2 * π / us.length)
    (hu : ∀ u ∈ us, 0 ≤ u ∧ u ≤ 1) (h : randomAngleSteps us irr = .ok as) : ∀ a ∈ as, 0 ≤ a := by
  unfold randomAngleSteps at h
  by_cases hl : us.length = 0
  · rw [if_pos hl] at h; cases h
  rw [if_neg hl] at h
  set f := fun u : ℝ => 2 * π / us.length - irr + 2 * irr * u with hf
  have e' : (us.map fun u => 2 * π / us.length - irr + (2 * π / us.length + irr - (2 * π / us.length - irr)) * u)
      = us.map f := by
    apply List.map_congr_left; intro u _; simp only [hf]; ring
  simp only [e'] at h
  split at h
  · cases h
  injection h with h
  intro a ha
  rw [← h, List.map_map, List.mem_map] at ha
  obtain ⟨u, hu', rfl⟩ := ha
  have hs := steps_sum_lower (2 * π / us.length) irr (by linarith) h0 us (fun u hu' => (hu u hu').1)
  have fu : 0 ≤ f u := by
    have := (hu u hu').1
    have : 0 ≤ 2 * irr * u := by positivity
    simp only [hf]; linarith
  exact div_nonneg fu (div_nonneg hs (by positivity))

/-- C19 is false at the extreme `irr = 2π/n`: if every draw hits the lower end, the drawn angles are
all zero and the normalisation divides by zero. -/
theorem C19_steps_false : ∃ (us : List ℝ) (irr : ℝ), us ≠ [] ∧ (∀ u ∈ us, 0 ≤ u ∧ u ≤ 1) ∧ 0 ≤ irr ∧
    irr ≤ 2 * π / us.length ∧ randomAngleSteps us irr = .error .zeroDivisionError := by
  refine ⟨[0, 0, 0], 2 * π / 3, by simp, by simp, by positivity, by norm_num, ?_⟩
  unfold randomAngleSteps
  norm_num

/-- C19: out-of-range parameters are rejected with ValueError. -/
theorem C19_rejects (center : Pt ℝ) (avg irr spik : ℝ) (us normals : List ℝ) (a0 : ℝ)
    (h : irr < 0 ∨ 1 < irr ∨ spik < 0 ∨ 1 < spik) :
    generateStarPolygon center avg irr spik us normals a0 = .error .valueError := by
  unfold generateStarPolygon
  by_cases h1 : irr < 0 ∨ irr > 1
  · rw [if_pos h1]
  · rw [if_neg h1, if_pos]
    push Not at h1
    rcases h with h | h | h | h
    · linarith
    · linarith
    · exact Or.inl h
    · exact Or.inr h

/-- The vertices of `starPoints`: the `i`-th one is at the accumulated angle, at the clipped radius. -/
theorem starPoints_get (center : Pt ℝ) (avg : ℝ) (l : List (ℝ × ℝ)) (a : ℝ) :
    (starPoints center avg a l).length = l.length ∧
    ∀ i (hi : i < l.length) (hi' : i < (starPoints center avg a l).length),
      (starPoints center avg a l)[i] =
        (center.1 + clip (l[i]).1 0 (2 * avg) * cos (a + ∑ j ∈ range i, (l.getD j 0).2),
         center.2 + clip (l[i]).1 0 (2 * avg) * sin (a + ∑ j ∈ range i, (l.getD j 0).2)) := by
  induction l generalizing a with
  | nil => simp [starPoints]
  | cons h l ih =>
    obtain ⟨nrm, st⟩ := h
    refine ⟨by simp [starPoints, (ih _).1], ?_⟩
    intro i hi hi'
    cases i with
    | zero => simp [starPoints]
    | succ i =>
      simp only [starPoints, List.getElem_cons_succ]
      rw [(ih (a + st)).2 i (by simpa using hi) (by simpa [starPoints] using hi'), sum_range_succ']
      simp [add_comm (∑ x ∈ range i, _), add_assoc]

/-- C19: `generate_star_polygon` with valid parameters (and draws that do not all hit zero) returns
`n` vertices; vertex `i` is at the angle `a0 + steps[0] + ... + steps[i-1]` and at a distance between
`0` and `2 * avg_radius` from the centre. -/
theorem C19_star (center : Pt ℝ) (avg irr spik : ℝ) (us normals : List ℝ) (a0 : ℝ) (havg : 0 ≤ avg)
    (hi : 0 ≤ irr ∧ irr ≤ 1) (hsp : 0 ≤ spik ∧ spik ≤ 1) (hn : us ≠ []) (hlen : normals.length = us.length)
    (steps : List ℝ) (hst : randomAngleSteps us (irr * (2 * π / us.length)) = .ok steps) :
    ∃ ps, generateStarPolygon center avg irr spik us normals a0 = .ok ps ∧ ps.length = us.length ∧
      ∀ i, i < us.length → ∃ r, 0 ≤ r ∧ r ≤ 2 * avg ∧
        ps.getD i 0 = (center.1 + r * cos (a0 + ∑ j ∈ range i, steps.getD j 0),
                       center.2 + r * sin (a0 + ∑ j ∈ range i, steps.getD j 0)) := by
  have hl : us.length ≠ 0 := by simpa using hn
  have hsl : steps.length = us.length := by
    unfold randomAngleSteps at hst
    rw [if_neg hl] at hst
    simp only [] at hst
    split at hst
    · cases hst
    · injection hst with hst
      rw [← hst]; simp
  obtain ⟨gl, gg⟩ := starPoints_get center avg (normals.zip steps) a0
  have zl : (normals.zip steps).length = us.length := by simp [hlen, hsl]
  refine ⟨starPoints center avg a0 (normals.zip steps), ?_, by rw [gl, zl], ?_⟩
  · unfold generateStarPolygon
    rw [if_neg (by push Not; exact hi), if_neg (by push Not; exact hsp), if_neg hl, hst]
  · intro i hi'
    refine ⟨clip ((normals.zip steps)[i]'(by omega)).1 0 (2 * avg), ?_, min_le_right _ _, ?_⟩
    · exact le_min (le_max_right _ _) (by linarith)
    · rw [List.getD_eq_getElem _ _ (by omega), gg i (by omega) (by omega)]
      have : ∀ j ∈ range i, ((normals.zip steps).getD j 0).2 = steps.getD j 0 := by
        intro j hj
        rw [mem_range] at hj
        rw [List.getD_eq_getElem _ _ (by omega), List.getD_eq_getElem _ _ (by omega), List.getElem_zip]
      rw [sum_congr rfl this]

/-- Draws meeting the hypotheses of `C19_positive`. -/
example : ([0.2, 0.5, 1, 0] : List ℝ) ≠ [] ∧ (0 : ℝ) ≤ 0.3 ∧
    (0.3 : ℝ) < 2 * π / ([0.2, 0.5, 1, 0] : List ℝ).length := by
  refine ⟨by simp, by norm_num, ?_⟩
  have := Real.pi_gt_three
  simp only [List.length_cons, List.length_nil]
  norm_num
  linarith

end Starworlds
