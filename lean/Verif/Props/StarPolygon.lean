import Verif.Spec.StarPolygon
import Verif.Proofs.Angles
import Verif.Proofs.Polygon
import Verif.Props.Ellipse

/-! # C39, C40: vertex bookkeeping and edge normals of StarshapedPolygon -/

namespace Starworlds

open Real Spec

/-! ## C40 -/

/-- The state of the vertex arrays. -/
structure Sorted (ring : List (Pt ℝ)) (s : StarPoly) : Prop where
  hring : s.ring = ring
  perm : s.vertices.Perm ring
  angles : s.vertexAngles = s.vertices.map (angleAbout s.xr) ++ [(s.vertices.map (angleAbout s.xr)).getD 0 0 + 2 * π]
  sorted : (s.vertices.map (angleAbout s.xr)).Pairwise (· ≤ ·)

theorem map_ptAt_range (v : List (Pt ℝ)) : (List.range v.length).map (ptAt v) = v := by
  apply List.ext_getElem
  · simp
  · intro i h1 h2
    simp [ptAt, List.getElem?_eq_getElem h2]

theorem update_sorted {argsort : List ℝ → List Nat} (ha : IsArgsort argsort) (s : StarPoly) {ring : List (Pt ℝ)}
    (hr : s.ring = ring) (hp : s.vertices.Perm ring) : Sorted ring (s.update argsort) := by
  have hperm := ha.perm (s.vertices.map (angleAbout s.xr))
  rw [List.length_map] at hperm
  have hmap : ((argsort (s.vertices.map (angleAbout s.xr))).map fun i => (s.vertices.map (angleAbout s.xr)).getD i 0) =
      ((argsort (s.vertices.map (angleAbout s.xr))).map (ptAt s.vertices)).map (angleAbout s.xr) := by
    rw [List.map_map]
    apply List.map_congr_left
    intro i hi
    have hi' : i < s.vertices.length := by simpa using hperm.mem_iff.1 hi
    simp [ptAt, List.getElem?_eq_getElem hi']
  refine ⟨hr, ?_, ?_, ?_⟩
  · simp only [StarPoly.update]
    refine ((hperm.map (ptAt s.vertices)).trans ?_).trans hp
    rw [map_ptAt_range]
  · simp only [StarPoly.update, hmap]
  · simp only [StarPoly.update]
    rw [← hmap]
    exact ha.sorted _

theorem step_sorted {argsort : List ℝ → List Nat} (ha : IsArgsort argsort) {s : StarPoly} {ring : List (Pt ℝ)}
    (h : Sorted ring s) (op : StarOp) : Sorted ring (s.step argsort op) := by
  cases op with
  | setXr x f safe =>
    simp only [StarPoly.step, StarPoly.setXr]
    split
    · exact h
    · split
      · exact h
      · exact update_sorted ha _ h.hring h.perm
  | setPose p => exact ⟨h.hring, h.perm, h.angles, h.sorted⟩
  | setMotionModel mm => exact ⟨h.hring, h.perm, h.angles, h.sorted⟩

theorem run_sorted {argsort : List ℝ → List Nat} (ha : IsArgsort argsort) {ring : List (Pt ℝ)} (ops : List StarOp) :
    ∀ {s : StarPoly}, Sorted ring s → Sorted ring (s.run argsort ops) := by
  induction ops with
  | nil => intro s h; exact h
  | cons op ops ih => intro s h; exact ih (step_sorted ha h op)

theorem angleAbout_bounds (c p : Pt ℝ) : -π < angleAbout c p ∧ angleAbout c p ≤ π :=
  ⟨Complex.neg_pi_lt_arg _, Complex.arg_le_pi _⟩

theorem sorted_facts {ring : List (Pt ℝ)} (hr : ring ≠ []) {s : StarPoly} (h : Sorted ring s) :
    s.vertices.Perm ring ∧ s.vertexAngles.length = ring.length + 1 ∧ s.vertexAngles.Pairwise (· ≤ ·) ∧
      (∀ i < ring.length, SeenAt s.xr (s.vertices.getD i 0) (s.vertexAngles.getD i 0) ∧
        -π < s.vertexAngles.getD i 0 ∧ s.vertexAngles.getD i 0 ≤ π) ∧
      s.vertexAngles.getD ring.length 0 = s.vertexAngles.getD 0 0 + 2 * π ∧
      ∀ t ≤ π, t < s.vertexAngles.getD ring.length 0 := by
  have hl : s.vertices.length = ring.length := h.perm.length_eq
  have hpos : 0 < ring.length := List.length_pos_iff.2 hr
  have hget : ∀ i < ring.length, s.vertexAngles.getD i 0 = angleAbout s.xr (s.vertices.getD i 0) := by
    intro i hi
    rw [h.angles, List.getD_append _ _ _ _ (by simpa [hl] using hi), List.getD_eq_getElem _ _ (by simpa [hl] using hi),
      List.getElem_map, List.getD_eq_getElem]
  have hlast : s.vertexAngles.getD ring.length 0 = s.vertexAngles.getD 0 0 + 2 * π := by
    rw [h.angles, List.getD_append_right _ _ _ _ (by simp [hl]),
      List.getD_append _ _ _ _ (by simpa [hl] using hpos)]
    simp [hl]
  have hlarge : ∀ t ≤ π, t < s.vertexAngles.getD ring.length 0 := by
    intro t ht
    rw [hlast, hget 0 hpos]
    linarith [(angleAbout_bounds s.xr (s.vertices.getD 0 0)).1]
  refine ⟨h.perm, by rw [h.angles]; simp [hl], ?_, ?_, hlast, hlarge⟩
  · rw [h.angles, List.pairwise_append]
    refine ⟨h.sorted, List.pairwise_singleton _ _, ?_⟩
    intro a ha b hb
    rw [List.mem_singleton] at hb
    obtain ⟨p, _, rfl⟩ := List.mem_map.1 ha
    have h1 := hlarge (angleAbout s.xr p) (angleAbout_bounds _ _).2
    rw [hlast, h.angles, List.getD_append _ _ _ _ (by simpa [hl] using hpos)] at h1
    rw [hb]
    exact h1.le
  · intro i hi
    rw [hget i hi]
    exact ⟨seenAt_arctan2 _ _, angleAbout_bounds _ _⟩

/-- C40: after every history of `set_xr` calls and movements, the vertex array is a permutation of the original
vertices; the angle array is non-decreasing, has one more entry, gives the angle of each vertex about the current
reference point in (-π, π], and ends with the first angle plus 2π, which is above every angle in (-π, π]. -/
theorem C40_history (argsort : List ℝ → List Nat) (ha : IsArgsort argsort) (mm : Option Pose) (ring : List (Pt ℝ))
    (hr : ring ≠ []) (xr : Pt ℝ) (ops : List StarOp) :
    let s := (StarPoly.make argsort mm ring xr).run argsort ops
    s.vertices.Perm ring ∧ s.vertexAngles.length = ring.length + 1 ∧ s.vertexAngles.Pairwise (· ≤ ·) ∧
      (∀ i < ring.length, SeenAt s.xr (s.vertices.getD i 0) (s.vertexAngles.getD i 0) ∧
        -π < s.vertexAngles.getD i 0 ∧ s.vertexAngles.getD i 0 ≤ π) ∧
      s.vertexAngles.getD ring.length 0 = s.vertexAngles.getD 0 0 + 2 * π ∧
      ∀ t ≤ π, t < s.vertexAngles.getD ring.length 0 :=
  sorted_facts hr (run_sorted ha ops (update_sorted ha _ rfl (List.Perm.refl _)))

/-- C40: the same for a dilated polygon, with the vertices of the dilated boundary. -/
theorem C40_dilated (argsort : List ℝ → List Nat) (ha : IsArgsort argsort) (s0 : StarPoly) (buffered : List (Pt ℝ))
    (hr : buffered ≠ []) (ops : List StarOp) :
    let s := (s0.dilated argsort buffered).run argsort ops
    s.vertices.Perm buffered ∧ s.vertexAngles.length = buffered.length + 1 ∧ s.vertexAngles.Pairwise (· ≤ ·) ∧
      (∀ i < buffered.length, SeenAt s.xr (s.vertices.getD i 0) (s.vertexAngles.getD i 0) ∧
        -π < s.vertexAngles.getD i 0 ∧ s.vertexAngles.getD i 0 ≤ π) ∧
      s.vertexAngles.getD buffered.length 0 = s.vertexAngles.getD 0 0 + 2 * π ∧
      ∀ t ≤ π, t < s.vertexAngles.getD buffered.length 0 :=
  sorted_facts hr (run_sorted ha ops (update_sorted ha _ rfl (List.Perm.refl _)))

/-- C40: the current reference point is the one set last, in the obstacle frame at the time of the call. -/
theorem C40_xr (argsort : List ℝ → List Nat) (s : StarPoly) (f : Frame) (hf : f.Valid) (x : Pt ℝ) :
    (s.setXr argsort (inFrame s.mm f x) f false).1 = .ok () ∧ (s.setXr argsort (inFrame s.mm f x) f false).2.xr = x := by
  simp only [StarPoly.setXr, transform_to_obstacle _ _ hf, Bool.false_eq_true, if_false, true_and, StarPoly.update]

/-- A stable sort of the indices is an `argsort`. -/
noncomputable def sortIdcs (l : List ℝ) : List Nat :=
  open scoped Classical in (List.range l.length).mergeSort fun i j => decide (l.getD i 0 ≤ l.getD j 0)

theorem sortIdcs_spec : IsArgsort sortIdcs := by
  classical
  refine ⟨fun l => List.mergeSort_perm _ _, fun l => ?_⟩
  rw [List.pairwise_map]
  have h := List.pairwise_mergeSort (le := fun i j : Nat => decide (l.getD i 0 ≤ l.getD j 0))
    (fun a b c hab hbc => by simp only [decide_eq_true_eq] at *; exact hab.trans hbc)
    (fun a b => by simpa using le_total (l.getD a 0) (l.getD b 0)) (List.range l.length)
  refine h.imp fun {a b} hab => ?_
  simpa using hab

/-- For a triangle given clockwise, moved and with a new reference point: three vertices, four sorted angles. -/
example : ((StarPoly.make sortIdcs (some ⟨(3, 4), 1⟩) [(0, 0), (0, 1), (1, 0)] (1 / 4, 1 / 4)).run sortIdcs
    [.setXr (1 / 3, 1 / 3) .obstacle false, .setPose ⟨(7, 7), 2⟩, .setXr (0, 0) .global true]).vertexAngles.length = 4 ∧
    ((StarPoly.make sortIdcs (some ⟨(3, 4), 1⟩) [(0, 0), (0, 1), (1, 0)] (1 / 4, 1 / 4)).run sortIdcs
    [.setXr (1 / 3, 1 / 3) .obstacle false, .setPose ⟨(7, 7), 2⟩, .setXr (0, 0) .global true]).xr = (1 / 3, 1 / 3) := by
  refine ⟨(C40_history sortIdcs sortIdcs_spec _ [(0, 0), (0, 1), (1, 0)] (by simp) _ _).2.1, ?_⟩
  simp [StarPoly.run, StarPoly.step, StarPoly.setXr, StarPoly.make, StarPoly.update, transform]

/-! ## C39 -/

theorem firstAbove_spec (l : List ℝ) (t : ℝ) (h : ∃ a ∈ l, t < a) :
    firstAbove l t < l.length ∧ t < l.getD (firstAbove l t) 0 ∧ ∀ i < firstAbove l t, l.getD i 0 ≤ t := by
  classical
  obtain ⟨a, ha, hta⟩ := h
  have hlt : l.findIdx (fun a => decide (a > t)) < l.length :=
    List.findIdx_lt_length_of_exists ⟨a, ha, by simpa using hta⟩
  have e : firstAbove l t = l.findIdx (fun a => decide (a > t)) := by
    unfold firstAbove
    convert if_pos hlt
  rw [e]
  refine ⟨hlt, ?_, ?_⟩
  · have := List.findIdx_getElem (w := hlt)
    rw [List.getD_eq_getElem _ _ hlt]
    simpa using this
  · intro i hi
    have := List.not_of_lt_findIdx hi
    rw [List.getD_eq_getElem _ _ (hi.trans hlt)]
    simpa using this

/-- The index chosen by `normal`: the angle of `x`, or that angle plus 2π, is in a gap of the angle array, and the
chosen vertex is the one that closes the gap. -/
theorem vertexIndex_spec {ring : List (Pt ℝ)} (hr : ring ≠ []) {s : StarPoly} (h : Sorted ring s) (x : Pt ℝ) :
    ∃ i < ring.length, vertexIndex s x = (i + 1) % ring.length ∧
      ∃ t, (t = angleAbout s.xr x ∨ t = angleAbout s.xr x + 2 * π) ∧
        s.vertexAngles.getD i 0 ≤ t ∧ t < s.vertexAngles.getD (i + 1) 0 := by
  obtain ⟨hp, hlen, hsort, hseen, hlast, hlarge⟩ := sorted_facts hr h
  have hl : s.vertices.length = ring.length := h.perm.length_eq
  have hpos : 0 < ring.length := List.length_pos_iff.2 hr
  have hmem : s.vertexAngles.getD ring.length 0 ∈ s.vertexAngles := by
    rw [List.getD_eq_getElem _ _ (by omega)]; exact List.getElem_mem _
  obtain ⟨h1, h2, h3⟩ := firstAbove_spec s.vertexAngles (angleAbout s.xr x)
    ⟨_, hmem, hlarge _ (angleAbout_bounds _ _).2⟩
  simp only [vertexIndex, hl]
  generalize firstAbove s.vertexAngles (angleAbout s.xr x) = k at *
  rcases Nat.eq_zero_or_pos k with rfl | hk
  · refine ⟨ring.length - 1, by omega, ?_, angleAbout s.xr x + 2 * π, Or.inr rfl, ?_, ?_⟩
    · rw [Nat.sub_add_cancel hpos, Nat.mod_self, if_neg (by omega)]
    · have := (hseen (ring.length - 1) (by omega)).2.2
      linarith [(angleAbout_bounds s.xr x).1]
    · rw [Nat.sub_add_cancel hpos, hlast]; linarith
  · refine ⟨k - 1, by omega, ?_, angleAbout s.xr x, Or.inl rfl, h3 _ (by omega), ?_⟩
    · rw [Nat.sub_add_cancel hk]
      split
      · rename_i hkn; rw [hkn, Nat.mod_self]
      · rw [Nat.mod_eq_of_lt (by omega)]
    · rw [Nat.sub_add_cancel hk]; exact h2

/-- `normal` for arrays that are sorted, see `C39_edge`. -/
theorem edge_of_sorted {ring : List (Pt ℝ)} (hr : ring ≠ []) {s : StarPoly} (hS : Sorted ring s) (f g : Frame)
    (hf : f.Valid) (hg : g.Valid) (x : Pt ℝ) :
    ∃ i < ring.length, ∃ t, SeenAt s.xr x t ∧ s.vertexAngles.getD i 0 ≤ t ∧ t < s.vertexAngles.getD (i + 1) 0 ∧
      ((corner s.vertices i = corner s.vertices (i + 1) ∧ s.normal (inFrame s.mm f x) f g .edge = .error .nonFinite) ∨
      ∃ n, s.normal (inFrame s.mm f x) f g .edge = .ok (inFrame s.mm g n - inFrame s.mm g 0) ∧ normSq n = 1 ∧
        dot n (corner s.vertices (i + 1) - corner s.vertices i) = 0 ∧
        cross (corner s.vertices (i + 1) - corner s.vertices i) n < 0) := by
  obtain ⟨i, hi, hidx, t, ht, ht1, ht2⟩ := vertexIndex_spec hr hS x
  have hl : s.vertices.length = ring.length := hS.perm.length_eq
  have hpos : 0 < ring.length := List.length_pos_iff.2 hr
  refine ⟨i, hi, t, ?_, ht1, ht2, ?_⟩
  · rcases ht with rfl | rfl
    · exact seenAt_arctan2 _ _
    · have := seenAt_add_two_pi (seenAt_arctan2 s.xr x) 1
      simpa [angleAbout] using this
  · have e1 : ptAt s.vertices (vertexIndex s x) = corner s.vertices (i + 1) := by
      rw [hidx, corner, hl]; rfl
    have e2 : ptAt s.vertices ((vertexIndex s x + s.vertices.length - 1) % s.vertices.length) = corner s.vertices i := by
      rw [hidx, corner, hl]
      have : ((i + 1) % ring.length + ring.length - 1) % ring.length = i % ring.length := by
        rcases Nat.lt_or_ge (i + 1) ring.length with h | h
        · rw [Nat.mod_eq_of_lt h, show i + 1 + ring.length - 1 = i + ring.length by omega, Nat.add_mod_right]
        · have : i + 1 = ring.length := by omega
          rw [this, Nat.mod_self, Nat.mod_eq_of_lt (by omega : 0 + ring.length - 1 < ring.length), Nat.mod_eq_of_lt hi]
          omega
      rw [this]; rfl
    simp only [StarPoly.normal, transform_to_obstacle _ _ hf, bind, Except.bind, e1, e2]
    generalize corner s.vertices i = a
    generalize corner s.vertices (i + 1) = b
    have hn : norm2 (edgeNormal a b) ^ 2 = (b.2 - a.2) ^ 2 + (a.1 - b.1) ^ 2 := by
      rw [norm2, sq_sqrt (by positivity)]; rfl
    by_cases h0 : norm2 (edgeNormal a b) = 0
    · left
      rw [if_pos h0]
      refine ⟨?_, rfl⟩
      rw [h0] at hn
      have h1 := sq_nonneg (b.2 - a.2)
      have h2 := sq_nonneg (a.1 - b.1)
      have h3 : b.2 - a.2 = 0 := pow_eq_zero_iff two_ne_zero |>.1 (by linarith)
      have h4 : a.1 - b.1 = 0 := pow_eq_zero_iff two_ne_zero |>.1 (by linarith)
      ext <;> linarith
    · right
      rw [if_neg h0, rotate_from_obstacle _ _ hg]
      have hpos' : 0 < norm2 (edgeNormal a b) := lt_of_le_of_ne (sqrt_nonneg _) (Ne.symm h0)
      refine ⟨_, rfl, ?_, ?_, ?_⟩
      · simp only [normSq, div_pow, ← add_div, hn]
        exact div_self (ne_of_gt (by rw [show (edgeNormal a b).1 ^ 2 + (edgeNormal a b).2 ^ 2 = norm2 (edgeNormal a b) ^ 2 from hn.symm]; positivity))
      · simp only [dot, edgeNormal, Prod.fst_sub, Prod.snd_sub]
        field_simp
        ring
      · simp only [cross, Prod.fst_sub, Prod.snd_sub]
        have : (b.1 - a.1) * ((edgeNormal a b).2 / norm2 (edgeNormal a b)) -
            (b.2 - a.2) * ((edgeNormal a b).1 / norm2 (edgeNormal a b)) = -norm2 (edgeNormal a b) := by
          generalize norm2 (edgeNormal a b) = k at *
          simp only [edgeNormal]
          field_simp
          linear_combination hn
        rw [this]
        linarith

/-- C39: in every reachable state, for every `x`, `normal` picks two vertices that are consecutive in angular order
about `xr` and whose angles enclose that of `x`, and returns the unit vector perpendicular to their edge, on its
right, turned into the output frame. It raises only if the two vertices coincide. -/
theorem C39_edge (argsort : List ℝ → List Nat) (ha : IsArgsort argsort) (mm : Option Pose) (ring : List (Pt ℝ))
    (hr : ring ≠ []) (xr : Pt ℝ) (ops : List StarOp) (f g : Frame) (hf : f.Valid) (hg : g.Valid) (x : Pt ℝ) :
    let s := (StarPoly.make argsort mm ring xr).run argsort ops
    ∃ i < ring.length, ∃ t, SeenAt s.xr x t ∧ s.vertexAngles.getD i 0 ≤ t ∧ t < s.vertexAngles.getD (i + 1) 0 ∧
      ((corner s.vertices i = corner s.vertices (i + 1) ∧ s.normal (inFrame s.mm f x) f g .edge = .error .nonFinite) ∨
      ∃ n, s.normal (inFrame s.mm f x) f g .edge = .ok (inFrame s.mm g n - inFrame s.mm g 0) ∧ normSq n = 1 ∧
        dot n (corner s.vertices (i + 1) - corner s.vertices i) = 0 ∧
        cross (corner s.vertices (i + 1) - corner s.vertices i) n < 0) :=
  edge_of_sorted hr (run_sorted ha ops (update_sorted ha _ rfl (List.Perm.refl _))) f g hf hg x

end Starworlds
