import Verif.Props.ConvexGenerator
import Verif.Props.StarGenerator
import Verif.Props.PolygonSimple
import Verif.Props.KernelReference

/-! # C135: the generated polygons as obstacles -/

namespace Starworlds

open Real Spec

variable {n : ℕ} {box : Pt ℝ} {ux uy : List ℝ} {xCoins yCoins : List Bool} {shuffle : List ℝ → List ℝ}

/-- C135 (partial), the convexity test: if no corner of a polygon from `generate_convex_polygon` bends by less than the threshold,
and its edges have different directions, then a Polygon made from it answers `is_convex()` and `is_starshaped()` with True, all of it
is visible from all of its points, and a StarshapedPolygon made from it without reference point finds that its kernel is all of it.
Missing: smaller bends (`C135_small_false`), and edges with equal directions (`C131_false`). -/
theorem C135_convex_partial (h : DrawsOk n ux uy xCoins yCoins shuffle) (h3 : 3 ≤ n)
    (hd : ((drawnEdges box ux uy xCoins yCoins shuffle).map fun v => arctan2 v.2 v.1).Nodup)
    (hz : ∀ e ∈ drawnEdges box ux uy xCoins yCoins shuffle, e ≠ 0)
    (hband : ∀ j < n, 1 / 10 ^ 10 < |turn (generateConvexPolygon box ux uy xCoins yCoins shuffle) j|) (s : Flags ℝ)
    (hs : Flags.make .polygon (generateConvexPolygon box ux uy xCoins yCoins shuffle) none none = .ok s) :
    s.isConvexCall.1 = .ok true ∧ s.isStarshapedCall.1 = .ok true ∧
      visKernel (filled (generateConvexPolygon box ux uy xCoins yCoins shuffle)) =
        filled (generateConvexPolygon box ux uy xCoins yCoins shuffle) ∧
      constructKernel realOps (generateConvexPolygon box ux uy xCoins yCoins shuffle) =
        .ok (generateConvexPolygon box ux uy xCoins yCoins shuffle) := by
  obtain ⟨hstar, hhull, ht⟩ := C131_partial h h3 hd hz
  have hl := C17_length (box := box) h
  have h01 : corner (generateConvexPolygon box ux uy xCoins yCoins shuffle) 0 ≠
      corner (generateConvexPolygon box ux uy xCoins yCoins shuffle) 1 := by
    intro e
    have := ht 0 (by omega)
    rw [turn, e] at this
    simp [cross] at this
  generalize generateConvexPolygon box ux uy xCoins yCoins shuffle = P at *
  have hsimple := star_simple hstar
  have hb : ∀ j < P.length, turn P j = 0 ∨ 1 / 10 ^ 10 < |turn P j| := fun j hj => Or.inr (hband j (by omega))
  have hc : Convex ℝ (filled P) := by rw [hhull]; exact convex_convexHull ℝ _
  obtain ⟨b, h1, h2, -⟩ := C36_simple_partial P hsimple h01 hb
  obtain rfl : b = true := h2.2 hc
  have hk := C75_simple_partial P hsimple h01 hb hc
  have hvis : visKernel (filled P) = filled P := by rw [← hk.2, hhull]; rfl
  refine ⟨?_, (C89_simple_partial P hsimple h01 hb s hs).2 hvis, hvis, hk.1⟩
  have := C88_polygon_partial P s hs [] [] (by simp) (by simp)
  rw [show s.run ([] ++ []) = s from rfl, show lastShape P ([] ++ []) = P from rfl] at this
  rw [this, h1]

/-- C135 (partial), the star-shaped obstacle: a StarshapedPolygon made from `generate_convex_polygon` with the reference point
`[0, 0]`, as in the tests, at any pose: the distance function is smaller than 1 exactly inside and 1 exactly on the boundary. There is
no condition on the size. Missing: edges with equal directions (`C131_false`). -/
theorem C135_distance_partial (h : DrawsOk n ux uy xCoins yCoins shuffle) (h3 : 3 ≤ n)
    (hd : ((drawnEdges box ux uy xCoins yCoins shuffle).map fun v => arctan2 v.2 v.1).Nodup)
    (hz : ∀ e ∈ drawnEdges box ux uy xCoins yCoins shuffle, e ≠ 0) (P : List (Pt ℝ))
    (hP : P = generateConvexPolygon box ux uy xCoins yCoins shuffle) (argsort : List ℝ → List Nat) (ha : IsArgsort argsort)
    (mm : Option Pose) (s : StarPoly) (hs : s = StarPoly.make argsort mm (orientRing P) 0) (ix : Pt ℝ → Pt ℝ → Geom)
    (hix : ∀ b, GeomIs (ix 0 b) (hits s.ring 0 b)) (f : Frame) (hf : f.Valid) (x : Pt ℝ) (hx : x ≠ 0) :
    ∃ d, s.distanceFunction ix (inFrame s.mm f x) f = .ok d ∧ (d < 1 ↔ Inside P x) ∧ (d = 1 ↔ OnRing P x) := by
  obtain ⟨hstar, -, -⟩ := C131_partial h h3 hd hz
  rw [← hP] at hstar
  have hxr : s.xr = 0 := by rw [hs]; rfl
  refine (C133_partial argsort ha mm (star_simple hstar) 0 [] s hs ?_ ix ?_ f f hf hf x (by rwa [hxr])).1
  · rw [hxr]; exact star_kernel_interior hstar
  · rw [hxr]; exact hix

/-- C135 (partial), `generate_star_polygon`: a StarshapedPolygon made from it with the centre as the reference point, at any pose: the
distance function is smaller than 1 exactly inside and 1 exactly on the boundary. Missing: draws with an angle of a half turn or more
(`C107_false`), radii that are cut off at zero (`C107_radius_false`). -/
theorem C135_star_partial (center : Pt ℝ) (avg irr spik : ℝ) (us normals : List ℝ) (a0 : ℝ) (havg : 0 < avg) (hi : 0 ≤ irr ∧ irr < 1)
    (hsp : 0 ≤ spik ∧ spik ≤ 1) (hn : 1 + irr < (us.length - 1) * (1 - irr)) (hu : ∀ u ∈ us, 0 ≤ u ∧ u ≤ 1)
    (hlen : normals.length = us.length) (hnorm : ∀ r ∈ normals, 0 < r) :
    ∃ P, generateStarPolygon center avg irr spik us normals a0 = .ok P ∧
      ∀ (argsort : List ℝ → List Nat), IsArgsort argsort → ∀ (mm : Option Pose) (s : StarPoly),
        s = StarPoly.make argsort mm (orientRing P) center → ∀ ix : Pt ℝ → Pt ℝ → Geom,
        (∀ b, GeomIs (ix center b) (hits s.ring center b)) → ∀ f : Frame, f.Valid → ∀ x, x ≠ center →
        ∃ d, s.distanceFunction ix (inFrame s.mm f x) f = .ok d ∧ (d < 1 ↔ Inside P x) ∧ (d = 1 ↔ OnRing P x) := by
  obtain ⟨P, h1, -, hstar, -⟩ := C107_partial center avg irr spik us normals a0 havg hi hsp hn hu hlen hnorm
  refine ⟨P, h1, fun argsort ha mm s hs ix hix f hf x hx => ?_⟩
  have hxr : s.xr = center := by rw [hs]; rfl
  refine (C133_partial argsort ha mm (star_simple hstar) center [] s hs ?_ ix ?_ f f hf hf x (by rwa [hxr])).1
  · rw [hxr]; exact star_kernel_interior hstar
  · rw [hxr]; exact hix

/-- C135 is false for small polygons: if the box is at most 7/1000000 wide then for all draws `is_convex()` raises IndexError, and so
does the constructor of StarshapedPolygon without reference point. -/
theorem C135_small_false (h : DrawsOk n ux uy xCoins yCoins shuffle) (hux : ∀ u ∈ ux, 0 ≤ u ∧ u ≤ 1)
    (huy : ∀ u ∈ uy, 0 ≤ u ∧ u ≤ 1) (hb : 0 ≤ box.1) (hb' : box.1 ≤ 7 / 1000000) (s : Flags ℝ)
    (hs : Flags.make .polygon (generateConvexPolygon box ux uy xCoins yCoins shuffle) none none = .ok s) :
    s.isConvexCall.1 = .error .indexError ∧
      constructKernel realOps (generateConvexPolygon box ux uy xCoins yCoins shuffle) = .error .indexError := by
  have hbox := C18_box_partial h hb hux huy
  have hl := C17_length (box := box) h
  have h2 := h.two
  generalize generateConvexPolygon box ux uy xCoins yCoins shuffle = P at *
  have hmem : ∀ i, corner P i ∈ P := by
    intro i
    have hi : i % P.length < P.length := Nat.mod_lt _ (by omega)
    have : corner P i = P[i % P.length] := by simp [corner, List.getElem?_eq_getElem hi]
    rw [this]; exact List.getElem_mem hi
  have hturn : ∀ j < P.length, |turn P j| < 1 / 10 ^ 10 := by
    intro j _
    have habs : ∀ i k, |(corner P i).1 - (corner P k).1| ≤ 7 / 1000000 ∧ |(corner P i).2 - (corner P k).2| ≤ 7 / 1000000 := by
      intro i k
      have h1 := hbox _ (hmem i) _ (hmem k)
      have h2 := hbox _ (hmem k) _ (hmem i)
      constructor <;> rw [abs_le] <;> constructor <;> linarith [h1.1, h1.2, h2.1, h2.2]
    have a := habs j (j + P.length - 1)
    have b := habs (j + 1) j
    have m1 := mul_le_mul a.1 b.2 (abs_nonneg _) (by norm_num)
    have m2 := mul_le_mul a.2 b.1 (abs_nonneg _) (by norm_num)
    rw [← abs_mul] at m1 m2
    simp only [turn, cross, Prod.fst_sub, Prod.snd_sub]
    refine lt_of_le_of_lt (abs_sub _ _) ?_
    refine lt_of_le_of_lt (add_le_add m1 m2) ?_
    norm_num
  have hc := C36_collinear_false P hturn
  constructor
  · have := C88_polygon_partial P s hs [] [] (by simp) (by simp)
    rw [show s.run ([] ++ []) = s from rfl, show lastShape P ([] ++ []) = P from rfl] at this
    rw [this, hc]
  · simp only [constructKernel, polygonKernel, hc, Bind.bind, Except.bind]

/-- The triangle with the draws of the example beside `C17_convex`, in a box of size 1, is convex; the same draws in a box of size
1/1000000 give an IndexError. -/
example : ∃ s t, Flags.make .polygon (generateConvexPolygon (1, 1) [0, 1 / 2, 1] [0, 1 / 4, 1] [true] [true] List.reverse) none none = .ok s ∧
    s.isConvexCall.1 = .ok true ∧
    Flags.make .polygon (generateConvexPolygon (1 / 1000000, 1) [0, 1 / 2, 1] [0, 1 / 4, 1] [true] [true] List.reverse) none none = .ok t ∧
    t.isConvexCall.1 = .error .indexError := by
  have hok : DrawsOk 3 [0, 1 / 2, 1] [0, 1 / 4, 1] [true] [true] List.reverse := ⟨by omega, rfl, rfl, rfl, rfl, fun l => List.reverse_perm l⟩
  have e : drawnEdges (1, 1) [0, 1 / 2, 1] [0, 1 / 4, 1] [true] [true] List.reverse =
      [(1 / 2, -1), (1 / 2, 3 / 4), (-1, 1 / 4)] := by
    unfold drawnEdges
    rw [sortedPool_of_sorted (by simp; norm_num), sortedPool_of_sorted (by simp; norm_num)]
    simp [poolVec, chainVec]
    norm_num
  have ne : ∀ u v : Pt ℝ, cross u v ≠ 0 → ¬ arctan2 u.2 u.1 = arctan2 v.2 v.1 :=
    fun u v h h' => h (cross_of_arctan2_eq h')
  have hd : ((drawnEdges (1, 1) [0, 1 / 2, 1] [0, 1 / 4, 1] [true] [true] List.reverse).map fun v => arctan2 v.2 v.1).Nodup := by
    rw [e]
    simp only [List.map_cons, List.map_nil, List.nodup_cons, List.mem_cons, List.not_mem_nil, or_false,
      not_or, not_false_eq_true, List.nodup_nil, and_true]
    refine ⟨⟨ne (1 / 2, -1) (1 / 2, 3 / 4) ?_, ne (1 / 2, -1) (-1, 1 / 4) ?_⟩, ne (1 / 2, 3 / 4) (-1, 1 / 4) ?_⟩ <;>
      simp [cross] <;> norm_num
  have hz : ∀ e ∈ drawnEdges (1, 1) [0, 1 / 2, 1] [0, 1 / 4, 1] [true] [true] List.reverse, e ≠ 0 := by
    rw [e]
    intro x hx
    simp at hx
    rcases hx with rfl | rfl | rfl <;> simp
  refine ⟨_, _, rfl, (C135_convex_partial hok le_rfl hd hz ?_ _ rfl).1, rfl,
    (C135_small_false hok ?_ ?_ (by norm_num) (by norm_num) _ rfl).1⟩
  · intro j hj
    obtain ⟨es, hperm, les, hlt, hedge⟩ := generate_edges (box := (1, 1)) hok hd
    have hl := C17_length (box := (1, 1)) hok
    generalize generateConvexPolygon (1, 1) [0, 1 / 2, 1] [0, 1 / 4, 1] [true] [true] List.reverse = P at *
    have hmem : ∀ i < 3, es.getD i 0 ∈ [((1 / 2, -1) : Pt ℝ), (1 / 2, 3 / 4), (-1, 1 / 4)] := by
      intro i hi
      rw [← e, ← hperm.mem_iff, List.getD_eq_getElem?_getD, List.getElem?_eq_getElem (by omega)]
      exact List.getElem_mem _
    have hval : ∀ i < 3, ∀ k < 3, i ≠ k → 1 / 10 ^ 10 < |cross (es.getD i 0) (es.getD k 0)| := by
      intro i hi k hk hik
      have hne : es.getD i 0 ≠ es.getD k 0 := by
        intro he
        rcases lt_or_gt_of_ne hik with h' | h'
        · have := hlt i k h' hk; rw [he] at this; exact lt_irrefl _ this
        · have := hlt k i h' hi; rw [he] at this; exact lt_irrefl _ this
      have a := hmem i hi
      have b := hmem k hk
      generalize es.getD i 0 = u at *
      generalize es.getD k 0 = w at *
      simp only [List.mem_cons, List.not_mem_nil, or_false] at a b
      rcases a with rfl | rfl | rfl <;> rcases b with rfl | rfl | rfl <;>
        first | exact absurd rfl hne | (norm_num [cross, abs_of_pos, abs_of_neg])
    obtain ⟨i, hi, hn⟩ := nx_exists (n := P.length) (i := j) (by omega)
    rw [turn_nx hi hn, ← corner_nx hn, hedge i (by omega), corner_nx hn, hedge j hj]
    exact hval i (by omega) j hj (by unfold Nx at hn; omega)
  · intro u hu; simp at hu; rcases hu with rfl | rfl | rfl <;> norm_num
  · intro u hu; simp at hu; rcases hu with rfl | rfl | rfl <;> norm_num

end Starworlds
