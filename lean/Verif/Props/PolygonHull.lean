import Verif.Spec.PolygonHull
import Mathlib.Analysis.Convex.Hull
import Mathlib.Analysis.Convex.Star
import Mathlib.Tactic.Module
import Mathlib.Tactic.Positivity
import Mathlib.Data.List.GetD
import Mathlib.Tactic.Linarith
import Mathlib.Tactic.Ring
import Mathlib.Tactic.NormNum

/-! # C66, C67: polygon_kernel_starshaped_hull -/

namespace Starworlds

open Spec

section
variable {H : Set (Pt ℝ)} {ops : HullOps} {ks : List (Pt ℝ)}

theorem openLine_mem {a b p : Pt ℝ} (ha : StarConvex ℝ a H) (hb : b ∈ H)
    (h : OnSegment (openLine a b).1 (openLine a b).2 p) : p ∈ H := by
  obtain ⟨t, h0, h1, rfl⟩ := h
  have := ha.add_smul_sub_mem hb (t := 1 / 10 ^ 4 + t * (9998 / 10 ^ 4)) (by positivity) (by linarith)
  convert this using 1
  simp only [openLine]
  module

theorem xy_nodes {m : Meet} {p : Pt ℝ} (h : m.xy = .ok p) : p ∈ nodesOf m := by
  cases m <;> simp_all [Meet.xy, nodesOf]

theorem candidates_nodes {m : Meet} {p : Pt ℝ} (h : p ∈ m.candidates) : p ∈ nodesOf m := by
  cases m <;> simp_all [Meet.candidates, nodesOf]

theorem pyGet_mem {l : List (Pt ℝ)} {i : Int} {p : Pt ℝ} (h : pyGet l i = .ok p) : p ∈ l := by
  unfold pyGet at h
  simp only at h
  generalize (if i < 0 then i + (l.length : Int) else i) = j at h
  split at h
  · rename_i hj
    injection h with h
    rw [← h, List.getD_eq_getElem _ _ (by omega)]
    exact List.getElem_mem _
  · cases h

theorem mem_set {l : List (Pt ℝ)} {i : Nat} {p q : Pt ℝ} (h : q ∈ l.set i p) : q ∈ l ∨ q = p :=
  List.mem_or_eq_of_mem_set h

/-- All points of the state are in `H`. -/
def StateIn (H : Set (Pt ℝ)) (st : HullState) : Prop := (∀ p ∈ st.star, p ∈ H) ∧ st.vBar ∈ H

theorem foldlM_inv {α β : Type} {P : α → Prop} {f : α → β → Except PyErr α} {l : List β}
    (hf : ∀ a b a', b ∈ l → P a → f a b = .ok a' → P a') {a a' : α} (ha : P a) (h : l.foldlM f a = .ok a') : P a' := by
  induction l generalizing a with
  | nil => cases h; exact ha
  | cons b l ih =>
    rw [List.foldlM_cons] at h
    cases e : f a b with
    | error x => rw [e] at h; cases h
    | ok c =>
      rw [e] at h
      exact ih (fun a b a' hb => hf a b a' (List.mem_cons_of_mem _ hb)) (hf _ _ _ (by simp) ha e) h

theorem adjustOne_in (ho : HullOpsOk ops) {v e1p e2p k : Pt ℝ} {e1 : Int} (hv : v ∈ H) (hk : StarConvex ℝ k H)
    {st st' : List (Pt ℝ) × Bool} (h0 : ∀ p ∈ st.1, p ∈ H) (h : adjustOne ops v e1p e2p e1 st k = .ok st') :
    ∀ p ∈ st'.1, p ∈ H := by
  unfold adjustOne at h
  simp only at h
  split at h
  · cases h; exact h0
  · cases e : (ops.meetLine (openLine k v) (openLine e1p e2p)).xy with
    | error x => rw [e] at h; cases h
    | ok p =>
      rw [e] at h
      simp only [bind, Except.bind] at h
      cases e' : pyGet st.1 e1 with
      | error x => rw [e'] at h; cases h
      | ok cur =>
        rw [e'] at h
        simp only at h
        split at h
        · cases h
          intro q hq
          rcases mem_set hq with hq | rfl
          · exact h0 q hq
          · exact openLine_mem hk hv (ho.line _ _ _ (xy_nodes e)).1
        · cases h; exact h0

theorem appendPoint_in {st st' : HullState} {u v w : Pt ℝ} (hu : u ∈ H) (h0 : StateIn H st)
    (h : appendPoint st u v w = .ok st') : StateIn H st' := by
  unfold appendPoint at h
  simp only at h
  have ha : ∀ p ∈ st.star ++ [u], p ∈ H := by
    intro p hp
    rcases List.mem_append.mp hp with hp | hp
    · exact h0.1 p hp
    · rw [List.mem_singleton.mp hp]; exact hu
  split at h
  · split at h
    · cases h
    · rename_i hl
      cases h
      refine ⟨?_, h0.2⟩
      intro p hp
      rcases mem_set hp with hp | rfl
      · rcases mem_set hp with hp | rfl
        · exact ha p hp
        · exact hu
      · apply ha
        unfold ptAt
        rw [List.getD_eq_getElem _ _ (by omega)]
        exact List.getElem_mem _
  · cases h
    exact ⟨ha, h0.2⟩

theorem moveU_in (ho : HullOpsOk ops) {vBar u u' : Pt ℝ} {uv : Pt ℝ × Pt ℝ} {l : List (Pt ℝ)}
    (hl : ∀ k ∈ l, StarConvex ℝ k H) (hb : vBar ∈ H) (hu : u ∈ H) (h : moveU ops vBar uv u l = .ok u') : u' ∈ H := by
  induction l generalizing u with
  | nil => cases h; exact hu
  | cons kp l ih =>
    unfold moveU at h
    simp only at h
    split at h
    · exact ih (fun k hk => hl k (List.mem_cons_of_mem _ hk)) hu h
    · cases e : (ops.meetLine (openLine kp vBar) uv).xy with
      | error x => rw [e] at h; cases h
      | ok p =>
        rw [e] at h
        exact ih (fun k hk => hl k (List.mem_cons_of_mem _ hk))
          (openLine_mem (hl kp (by simp)) hb (ho.line _ _ _ (xy_nodes e)).1) h

theorem augmentOne_in (hH : ∀ k ∈ ks, StarConvex ℝ k H) (ho : HullOpsOk ops) (hks : ∀ k ∈ ks, k ∈ H) {v w : Pt ℝ} (hv : v ∈ H)
    {st st' : HullState} {i : Nat} (hi : i < ks.length) (h0 : StateIn H st)
    (h : augmentOne ops ks v w st i = .ok st') : StateIn H st' := by
  have hmem : ptAt ks i ∈ ks := by
    unfold ptAt
    rw [List.getD_eq_getElem _ _ hi]
    exact List.getElem_mem _
  have hk : ptAt ks i ∈ H := hks _ hmem
  unfold augmentOne at h
  simp only at h
  split at h
  · split at h
    · cases h; exact h0
    · rename_i u hu
      have hu' : u ∈ H := openLine_mem (hH _ hmem) hv (ho.polygon _ _ _ (candidates_nodes (List.mem_of_find?_eq_some hu)))
      split at h
      · cases h; exact h0
      · cases e : moveU ops st.vBar (openLine u v) u (ks.filter fun kp => decide (kp ≠ ptAt ks i)) with
        | error x => rw [e] at h; cases h
        | ok q =>
          rw [e] at h
          refine appendPoint_in ?_ h0 h
          exact moveU_in ho (fun k hk => hH k (List.mem_of_mem_filter hk)) h0.2 hu' e
  · split at h
    · exact appendPoint_in (st := { st with included := st.included.set i true }) hk ⟨h0.1, h0.2⟩ h
    · cases h; exact h0

theorem adjustEdge_in (hH : ∀ k ∈ ks, StarConvex ℝ k H) (ho : HullOpsOk ops) {v : Pt ℝ} (hv : v ∈ H)
    {star : List (Pt ℝ)} {e1 e2 : Int} {r : List (Pt ℝ) × Bool} (h0 : ∀ p ∈ star, p ∈ H)
    (h : adjustEdge ops ks star e1 e2 v = .ok r) : ∀ p ∈ r.1, p ∈ H := by
  unfold adjustEdge at h
  split at h
  · cases h; exact h0
  · cases h1 : pyGet star e1 with
    | error x => rw [h1] at h; cases h
    | ok a =>
      cases h2 : pyGet star e2 with
      | error x => rw [h1, h2] at h; cases h
      | ok b =>
        rw [h1, h2] at h
        exact foldlM_inv (P := fun s : List (Pt ℝ) × Bool => ∀ p ∈ s.1, p ∈ H)
          (fun s k s' hk hs hh => adjustOne_in ho hv (hH k hk) hs hh) h0 h

theorem addVertex_in {star : List (Pt ℝ)} {v : Pt ℝ} (hv : v ∈ H) (h0 : ∀ p ∈ star, p ∈ H) :
    ∀ p ∈ addVertex ops ks star v, p ∈ H := by
  intro p hp
  unfold addVertex at hp
  split at hp
  · rcases List.mem_append.mp hp with hp | hp
    · exact h0 p hp
    · rw [List.mem_singleton.mp hp]; exact hv
  · exact h0 p hp

/-- The steps of a successful visit. -/
theorem visit_steps {st st' : HullState} {v w : Pt ℝ} (h : visitVertex ops ks st v w = .ok st') : st' = st ∨
    ∃ r st2 last, adjustEdge ops ks (addVertex ops ks st.star v) st.e1 st.e2 v = .ok r ∧
      augment ops ks v w r.2 { st with star := r.1 } = .ok st2 ∧ pyGet st2.star (-1) = .ok last ∧
      st' = { st2 with vBar := last } := by
  unfold visitVertex at h
  split at h
  · right
    cases e : adjustEdge ops ks (addVertex ops ks st.star v) st.e1 st.e2 v with
    | error x => rw [e] at h; cases h
    | ok r =>
      rw [e] at h
      simp only [bind, Except.bind] at h
      cases e2 : augment ops ks v w r.2 { st with star := r.1 } with
      | error x => rw [e2] at h; cases h
      | ok st2 =>
        rw [e2] at h
        simp only at h
        cases e3 : pyGet st2.star (-1) with
        | error x => rw [e3] at h; cases h
        | ok last =>
          rw [e3] at h
          cases h
          exact ⟨r, st2, last, rfl, e2, e3, rfl⟩
  · cases h; exact Or.inl rfl

theorem visitVertex_in (hH : ∀ k ∈ ks, StarConvex ℝ k H) (ho : HullOpsOk ops) (hks : ∀ k ∈ ks, k ∈ H) {v w : Pt ℝ} (hv : v ∈ H)
    {st st' : HullState} (h0 : StateIn H st) (h : visitVertex ops ks st v w = .ok st') : StateIn H st' := by
  rcases visit_steps h with rfl | ⟨r, st2, last, h1, h2, h3, rfl⟩
  · exact h0
  · have hr := adjustEdge_in hH ho hv (addVertex_in hv h0.1) h1
    have hs : StateIn H st2 := by
      unfold augment at h2
      split at h2
      · cases h2; exact ⟨hr, h0.2⟩
      · have hi0 : StateIn H { st with star := r.1 } := ⟨hr, h0.2⟩
        exact foldlM_inv (P := StateIn H)
          (fun s i s' hi hs hh => augmentOne_in hH ho hks hv (List.mem_range.mp hi) hs hh) hi0 h2
    exact ⟨hs.1, hs.1 _ (pyGet_mem h3)⟩

theorem insertKernel_in (hks : ∀ k ∈ ks, k ∈ H) {v vp : Pt ℝ} {j i : Nat} (hi : i < ks.length)
    {s : List (Pt ℝ) × List Bool} (hs : ∀ p ∈ s.1, p ∈ H) : ∀ p ∈ (insertKernel ks v vp j s i).1, p ∈ H := by
  intro p hp
  unfold insertKernel at hp
  split at hp
  · rcases List.mem_append.mp hp with hp | hp
    · rcases List.mem_append.mp hp with hp | hp
      · exact hs p (List.mem_of_mem_take hp)
      · rw [List.mem_singleton.mp hp]
        apply hks
        unfold ptAt
        rw [List.getD_eq_getElem _ _ hi]
        exact List.getElem_mem _
    · exact hs p (List.mem_of_mem_drop hp)
  · exact hs p hp

theorem insertKernels_in (hks : ∀ k ∈ ks, k ∈ H) {star : List (Pt ℝ)} {inc : List Bool} (h0 : ∀ p ∈ star, p ∈ H) :
    ∀ p ∈ insertKernels ks star inc, p ∈ H := by
  have fold : ∀ {α β : Type} (P : α → Prop) (f : α → β → α) (l : List β), (∀ a b, b ∈ l → P a → P (f a b)) →
      ∀ a, P a → P (l.foldl f a) := by
    intro α β P f l
    induction l with
    | nil => intro _ a ha; exact ha
    | cons b l ih =>
      intro hf a ha
      exact ih (fun a b hb => hf a b (List.mem_cons_of_mem _ hb)) _ (hf a b (by simp) ha)
  unfold insertKernels
  refine fold (fun s : List (Pt ℝ) × List Bool => ∀ p ∈ s.1, p ∈ H) _ _ ?_ _ h0
  intro s j _ hs
  refine fold (fun s : List (Pt ℝ) × List Bool => ∀ p ∈ s.1, p ∈ H) _ _ ?_ _ hs
  intro s i hi hs
  exact insertKernel_in hks (List.mem_range.mp hi) hs

theorem orderVertices_perm (vs : List (Pt ℝ)) : (orderVertices vs).Perm vs := by
  unfold orderVertices
  simp only
  split
  · exact (List.rotate_perm _ _).trans ((List.reverse_perm _).trans (List.rotate_perm _ _))
  · exact List.rotate_perm _ _

/-- Every vertex of the star-shaped hull is in every set that contains the polygon and is star-shaped about the kernel points. -/
theorem hull_in (ho : HullOpsOk ops) (hH : ∀ k ∈ ks, StarConvex ℝ k H) (hks : ∀ k ∈ ks, k ∈ H) (vertices star : List (Pt ℝ))
    (hvs : ∀ p ∈ vertices, p ∈ H) (h : polygonKernelHull ops vertices ks = .ok star) : ∀ p ∈ star, p ∈ H := by
  unfold polygonKernelHull at h
  cases hk : ks with
  | nil => rw [hk] at h; cases h
  | cons k0 l =>
    rw [hk] at h
    simp only at h
    rw [← hk] at h
    cases e : (List.range (orderVertices vertices).length).foldlM (fun st i =>
        visitVertex ops ks st (ptAt (orderVertices vertices) i)
          (if i = 0 then (orderVertices vertices).getLastD (0, 0) else ptAt (orderVertices vertices) (i - 1)))
        { star := [], vBar := k0, e1 := 0, e2 := 0, included := ks.map fun _ => false } with
    | error x => rw [e] at h; cases h
    | ok st =>
      rw [e] at h
      simp only [bind, Except.bind] at h
      have hst : StateIn H st := by
        refine foldlM_inv (P := StateIn H) ?_ ⟨by simp, hks k0 (by simp [hk])⟩ e
        intro s i s' hi hs hh
        refine visitVertex_in hH ho hks ?_ hs hh
        apply hvs
        rw [← (orderVertices_perm vertices).mem_iff]
        unfold ptAt
        rw [List.getD_eq_getElem _ _ (List.mem_range.mp hi)]
        exact List.getElem_mem _
      split at h
      · cases h
      · cases h
        exact insertKernels_in hks hst.1

/-- C66: the vertices of the star-shaped hull of a polygon are convex combinations of vertices of the polygon and
kernel points, so the hull does not reach beyond the convex hull of the two. -/
theorem C66_inside (ho : HullOpsOk ops) (vertices star : List (Pt ℝ))
    (h : polygonKernelHull ops vertices ks = .ok star) :
    convexHull ℝ {p | p ∈ star} ⊆ convexHull ℝ ({p | p ∈ vertices} ∪ {p | p ∈ ks}) := by
  have hH : Convex ℝ (convexHull ℝ ({p | p ∈ vertices} ∪ {p | p ∈ ks})) := convex_convexHull ℝ _
  have hks : ∀ p ∈ ks, p ∈ convexHull ℝ ({p | p ∈ vertices} ∪ {p | p ∈ ks}) := fun p hp => subset_convexHull ℝ _ (Or.inr hp)
  exact convexHull_min (hull_in ho (fun k hk => hH (hks k hk)) hks vertices star
    (fun p hp => subset_convexHull ℝ _ (Or.inl hp)) h) hH

/-- C66: where the polygon meets the segment from the only kernel point to `v` in separate points and lines, the first of the points
that sees `v` becomes a vertex of the hull, and no end of the lines does. -/
theorem C66_collection (k u v vPrev : Pt ℝ) (pre post : List (Pt ℝ)) (ls : List (List (Pt ℝ))) (st : HullState)
    (hm : ops.meetPolygon (openLine k v).1 (openLine k v).2 = .collection (pre ++ u :: post) ls)
    (hpre : ∀ w ∈ pre, ops.disjoint (openLine w v).1 (openLine w v).2 = false)
    (hu : ops.disjoint (openLine u v).1 (openLine u v).2 = true) (hs : ¬ isCcw u v vPrev) :
    ∃ st', augmentOne ops [k] v vPrev st 0 = .ok st' ∧ st'.star = st.star ++ [u] := by
  have hf : (pre ++ u :: post).find? (fun u => ops.disjoint (openLine u v).1 (openLine u v).2) = some u := by
    rw [List.find?_append, List.find?_eq_none.2 fun w hw => by simp [hpre w hw]]
    simp [hu]
  simp [augmentOne, ptAt, hm, Meet.isEmpty, Meet.candidates, hf, moveU, appendPoint, hs, Bind.bind, Except.bind]

/-- The segment from (0, 0) to (4, 0) touches a corner at (1, 0), which is hidden, and one at (3, 0), which is not. -/
example (ops : HullOps) (st : HullState)
    (hm : ops.meetPolygon (openLine (0, 0) (4, 0)).1 (openLine (0, 0) (4, 0)).2 = .collection [(1, 0), (3, 0)] [[(3 / 2, 0), (2, 0)]])
    (h1 : ops.disjoint (openLine (1, 0) (4, 0)).1 (openLine (1, 0) (4, 0)).2 = false)
    (h3 : ops.disjoint (openLine (3, 0) (4, 0)).1 (openLine (3, 0) (4, 0)).2 = true) :
    ∃ st', augmentOne ops [(0, 0)] (4, 0) (5, -1) st 0 = .ok st' ∧ st'.star = st.star ++ [(3, 0)] :=
  C66_collection (0, 0) (3, 0) (4, 0) (5, -1) [(1, 0)] [] _ st hm (by simpa using h1) h3
    (by simp [isCcw, orientationVal, collinearThreshold]; norm_num)

/-- The indices of the last augmented edge are valid once there is a vertex. -/
def IdxOk (st : HullState) : Prop :=
  0 ≤ st.e1 ∧ st.e1 < max (st.star.length : Int) 1 ∧ 0 ≤ st.e2 ∧ st.e2 < max (st.star.length : Int) 1

/-- Segments meet in at most one point. -/
def Spec.PointsOnly (ops : HullOps) : Prop :=
  ∀ s t, ops.meetLine s t = .empty ∨ ∃ p, ops.meetLine s t = .point p

theorem pyGet_ok {l : List (Pt ℝ)} {i : Int} (h0 : 0 ≤ i) (h1 : i < l.length) : ∃ p, pyGet l i = .ok p := by
  have hj : (if i < 0 then i + (l.length : Int) else i) = i := if_neg (by omega)
  unfold pyGet
  simp only [hj]
  rw [if_pos ⟨h0, h1⟩]
  exact ⟨_, rfl⟩

theorem pyGet_last {l : List (Pt ℝ)} (h : l ≠ []) : ∃ p, pyGet l (-1) = .ok p := by
  have : 0 < l.length := List.length_pos_iff.mpr h
  have hj : (if (-1 : Int) < 0 then -1 + (l.length : Int) else -1) = -1 + l.length := if_pos (by omega)
  unfold pyGet
  simp only [hj]
  rw [if_pos (by omega)]
  exact ⟨_, rfl⟩

theorem foldlM_total {α β : Type} {P : α → Prop} {f : α → β → Except PyErr α} {l : List β}
    (hf : ∀ a b, b ∈ l → P a → ∃ a', f a b = .ok a' ∧ P a') {a : α} (ha : P a) :
    ∃ a', l.foldlM f a = .ok a' ∧ P a' := by
  induction l generalizing a with
  | nil => exact ⟨a, rfl, ha⟩
  | cons b l ih =>
    obtain ⟨c, hc, hP⟩ := hf a b (by simp) ha
    obtain ⟨d, hd, hQ⟩ := ih (fun a b hb => hf a b (List.mem_cons_of_mem _ hb)) hP
    exact ⟨d, by rw [List.foldlM_cons, hc]; exact hd, hQ⟩

theorem adjustOne_total (hp : Spec.PointsOnly ops) {v e1p e2p k : Pt ℝ} {e1 : Int} {n : Nat}
    {st : List (Pt ℝ) × Bool} (hn : st.1.length = n) (h0 : 0 ≤ e1) (h1 : e1 < n) :
    ∃ st', adjustOne ops v e1p e2p e1 st k = .ok st' ∧ st'.1.length = n := by
  unfold adjustOne
  simp only
  rcases hp (openLine k v) (openLine e1p e2p) with h | ⟨p, h⟩
  · rw [h, if_pos (show Meet.empty.isEmpty = true from rfl)]; exact ⟨_, rfl, hn⟩
  · rw [h, if_neg (by simp [Meet.isEmpty])]
    obtain ⟨c, hc⟩ := pyGet_ok (l := st.1) h0 (by rw [hn]; exact h1)
    simp only [Meet.xy, bind, Except.bind, hc]
    split
    · exact ⟨_, rfl, by simp [pySet, hn]⟩
    · exact ⟨_, rfl, hn⟩

theorem moveU_total (hp : Spec.PointsOnly ops) {vBar : Pt ℝ} {uv : Pt ℝ × Pt ℝ} (l : List (Pt ℝ)) (u : Pt ℝ) :
    ∃ u', moveU ops vBar uv u l = .ok u' := by
  induction l generalizing u with
  | nil => exact ⟨u, rfl⟩
  | cons kp l ih =>
    unfold moveU
    simp only
    rcases hp (openLine kp vBar) uv with h | ⟨p, h⟩
    · rw [h, if_pos (show Meet.empty.isEmpty = true from rfl)]; exact ih u
    · rw [h, if_neg (by simp [Meet.isEmpty])]
      simp only [Meet.xy, bind, Except.bind]
      exact ih p

theorem appendPoint_total {st : HullState} {u v w : Pt ℝ} (hs : st.star ≠ []) :
    ∃ st', appendPoint st u v w = .ok st' ∧ st'.star ≠ [] ∧ IdxOk st' := by
  have : 0 < st.star.length := List.length_pos_iff.mpr hs
  unfold appendPoint
  simp only
  split
  · rw [if_neg (by simp; omega)]
    refine ⟨_, rfl, ?_, ?_⟩
    · rw [← List.length_pos_iff]; simp
    · simp only [IdxOk, List.length_set, List.length_append, List.length_singleton]; push_cast; omega
  · refine ⟨_, rfl, by simp, ?_⟩
    simp only [IdxOk, List.length_append, List.length_singleton]; push_cast; omega

theorem augmentOne_total (hp : Spec.PointsOnly ops) {v w : Pt ℝ} {st : HullState} {i : Nat} (hs : st.star ≠ [])
    (h0 : IdxOk st) : ∃ st', augmentOne ops ks v w st i = .ok st' ∧ st'.star ≠ [] ∧ IdxOk st' := by
  unfold augmentOne
  simp only
  split
  · split
    · exact ⟨_, rfl, hs, h0⟩
    · split
      · exact ⟨_, rfl, hs, h0⟩
      · rename_i u _ _
        obtain ⟨q, hq⟩ := moveU_total hp (vBar := st.vBar) (uv := openLine u v)
          (ks.filter fun kp => decide (kp ≠ ptAt ks i)) u
        rw [hq]
        exact appendPoint_total hs
  · split
    · exact appendPoint_total (st := { st with included := st.included.set i true }) hs
    · exact ⟨_, rfl, hs, h0⟩

theorem visitVertex_total (hp : Spec.PointsOnly ops) {v w : Pt ℝ} (hv : ks.length < 3 ∨ ops.kernelContains v = false)
    {st : HullState} (h0 : IdxOk st) : ∃ st', visitVertex ops ks st v w = .ok st' ∧ IdxOk st' := by
  unfold visitVertex
  split
  swap
  · exact ⟨_, rfl, h0⟩
  have ha : addVertex ops ks st.star v = st.star ++ [v] := by
    unfold addVertex
    rw [if_pos (by rcases hv with h | h <;> simp [h])]
  obtain ⟨i1, i2, i3, i4⟩ := h0
  have hl : ((st.star ++ [v]).length : Int) = st.star.length + 1 := by simp
  obtain ⟨a, h1⟩ := pyGet_ok (l := st.star ++ [v]) i1 (by omega)
  obtain ⟨b, h2⟩ := pyGet_ok (l := st.star ++ [v]) i3 (by omega)
  obtain ⟨r, hr, hrl⟩ := foldlM_total (l := ks) (f := adjustOne ops v a b st.e1)
    (P := fun s : List (Pt ℝ) × Bool => s.1.length = (st.star ++ [v]).length)
    (fun s k _ hs => adjustOne_total hp hs i1 (by omega)) (a := (st.star ++ [v], false)) rfl
  have he : adjustEdge ops ks (st.star ++ [v]) st.e1 st.e2 v = .ok r := by
    unfold adjustEdge
    rw [if_neg (by simp), h1, h2]
    exact hr
  have hr0 : r.1 ≠ [] := by
    rw [← List.length_pos_iff, hrl]; simp
  have hi0 : IdxOk { st with star := r.1 } := by
    simp only [IdxOk, hrl, hl]; omega
  obtain ⟨st2, h3, h4, h5⟩ : ∃ st2, augment ops ks v w r.2 { st with star := r.1 } = .ok st2 ∧
      st2.star ≠ [] ∧ IdxOk st2 := by
    unfold augment
    split
    · exact ⟨_, rfl, hr0, hi0⟩
    · exact foldlM_total (P := fun s : HullState => s.star ≠ [] ∧ IdxOk s)
        (fun s i _ hs => augmentOne_total hp hs.1 hs.2) ⟨hr0, hi0⟩
  obtain ⟨last, hlast⟩ := pyGet_last h4
  rw [ha, he]
  simp only [bind, Except.bind, h3, hlast]
  exact ⟨_, rfl, h5⟩

/-- C67, the true part: if there is a kernel point, no vertex of the polygon lies inside of the kernel points and
segments meet in at most one point, the only exception is the ValueError of shapely for a ring of one or two points.
(What is missing with respect to C67: vertices inside of the kernel points, see `C67_index_false`, and segments that
overlap, where reading `.x` of the LineString raises AttributeError.) -/
theorem C67_returns_partial (hp : Spec.PointsOnly ops) (hk : ks ≠ []) (vertices : List (Pt ℝ))
    (hv : ks.length < 3 ∨ ∀ v ∈ vertices, ops.kernelContains v = false) :
    (∃ star, polygonKernelHull ops vertices ks = .ok star ∧ star.length ≠ 1 ∧ star.length ≠ 2) ∨
      polygonKernelHull ops vertices ks = .error .valueError := by
  unfold polygonKernelHull
  cases hk' : ks with
  | nil => exact absurd hk' hk
  | cons k0 l =>
    simp only
    rw [← hk']
    obtain ⟨st, h, _⟩ := foldlM_total (P := IdxOk) (l := List.range (orderVertices vertices).length)
      (f := fun st i => visitVertex ops ks st (ptAt (orderVertices vertices) i)
          (if i = 0 then (orderVertices vertices).getLastD (0, 0) else ptAt (orderVertices vertices) (i - 1)))
      (fun s i hi hs => by
        refine visitVertex_total hp ?_ hs
        rcases hv with hv | hv
        · exact Or.inl hv
        · right
          apply hv
          rw [← (orderVertices_perm vertices).mem_iff]
          unfold ptAt
          rw [List.getD_eq_getElem _ _ (List.mem_range.mp hi)]
          exact List.getElem_mem _)
      (a := { star := [], vBar := k0, e1 := 0, e2 := 0, included := ks.map fun _ => false })
      (by simp [IdxOk])
    rw [h]
    simp only [bind, Except.bind]
    split
    · exact Or.inr rfl
    · rename_i hn
      push Not at hn
      exact Or.inl ⟨_, rfl, hn.1, hn.2⟩

end

/-- The shapely operations as they come out in the computation of the star-shaped hull of the triangle (2, 0), (0, 1),
(0, -1) for the kernel point (-3, 0). -/
noncomputable def kiteOps : HullOps where
  disjoint p q := decide (¬ (p.2 = 0 ∧ q.2 = 0 ∧ p.1 ≤ 2))
  meetPolygon p q := if p.2 = 0 ∧ q.2 = 0 ∧ p.1 ≤ 0 ∧ 0 ≤ q.1 then .lineString [(0, 0), q] else .empty
  meetLine _ _ := .empty
  kernelContains _ := false

theorem kiteOps_ok : HullOpsOk kiteOps := by
  constructor
  · intro a b p hp
    simp only [kiteOps] at hp
    split at hp
    · rename_i h
      obtain ⟨h1, h2, h3, h4⟩ := h
      simp only [nodesOf, List.mem_cons, List.not_mem_nil, or_false] at hp
      rcases hp with rfl | rfl
      · rcases eq_or_lt_of_le (h3.trans h4) with h | h
        · refine ⟨0, by norm_num, by norm_num, ?_⟩
          ext
          · simp; linarith
          · simp [h1]
        · refine ⟨-a.1 / (b.1 - a.1), div_nonneg (by linarith) (by linarith),
            (div_le_one (by linarith)).mpr (by linarith), ?_⟩
          ext
          · simp only [Prod.fst_add, Prod.smul_fst, Prod.fst_sub, smul_eq_mul]
            rw [div_mul_cancel₀ _ (by linarith)]; ring
          · simp [h1, h2]
      · exact ⟨1, by norm_num, le_refl _, by rw [one_smul]; abel⟩
    · simp [nodesOf] at hp
  · intro s t p hp
    simp [kiteOps, nodesOf] at hp

theorem kiteOps_points : Spec.PointsOnly kiteOps := fun _ _ => Or.inl rfl

/-- The call succeeds for the triangle and the kernel point in front of it: the hull is the kite. -/
example : polygonKernelHull kiteOps [(2, 0), (0, 1), (0, -1)] [(-3, 0)] = .ok [(2, 0), (0, 1), (-3, 0), (0, -1)] := by
  have ho : orderVertices [((2, 0) : Pt ℝ), (0, 1), (0, -1)] = [(2, 0), (0, 1), (0, -1)] := by
    have ha : argmaxIdx ([((2, 0) : Pt ℝ), (0, 1), (0, -1)].map Prod.fst) = 0 := by
      simp only [List.map_cons, List.map_nil, argmaxIdx, List.length_cons, List.length_nil]
      simp only [List.range_succ_eq_map, List.range_zero, List.map_cons, List.map_nil, List.foldl_cons, List.foldl_nil]
      norm_num
    unfold orderVertices
    simp only [ha, List.rotate_zero]
    rw [if_neg]
    simp only [ptAt, isCw, orientationVal, collinearThreshold]
    norm_num
  have v1 : visitVertex kiteOps [(-3, 0)] ⟨[], (-3, 0), 0, 0, [false]⟩ (2, 0) (0, -1) =
      .ok ⟨[(2, 0)], (2, 0), 0, 0, [false]⟩ := by
    simp [visitVertex, openRay, openLine, kiteOps, adjustEdge, addVertex, augment, adjustOne, augmentOne, pyGet,
      Meet.isEmpty, Meet.candidates, ptAt, bind, Except.bind, pure, Except.pure, List.range_succ]
    norm_num
  have v2 : visitVertex kiteOps [(-3, 0)] ⟨[(2, 0)], (2, 0), 0, 0, [false]⟩ (0, 1) (2, 0) =
      .ok ⟨[(2, 0), (0, 1), (-3, 0)], (-3, 0), 2, 1, [true]⟩ := by
    simp [visitVertex, openRay, openLine, kiteOps, adjustEdge, addVertex, augment, adjustOne, augmentOne, pyGet,
      Meet.isEmpty, Meet.candidates, ptAt, bind, Except.bind, pure, Except.pure, List.range_succ, appendPoint, isCcw,
      orientationVal, collinearThreshold]
    norm_num
    rfl
  have v3 : visitVertex kiteOps [(-3, 0)] ⟨[(2, 0), (0, 1), (-3, 0)], (-3, 0), 2, 1, [true]⟩ (0, -1) (0, 1) =
      .ok ⟨[(2, 0), (0, 1), (-3, 0), (0, -1)], (0, -1), 2, 1, [true]⟩ := by
    simp [visitVertex, openRay, openLine, kiteOps, adjustEdge, addVertex, augment, adjustOne, augmentOne, pyGet,
      Meet.isEmpty, Meet.candidates, ptAt, bind, Except.bind, pure, Except.pure, List.range_succ]
    norm_num
  unfold polygonKernelHull
  simp only [ho]
  rw [show List.range [((2, 0) : Pt ℝ), (0, 1), (0, -1)].length = [0, 1, 2] from rfl]
  simp only [List.foldlM_cons, List.foldlM_nil]
  simp [ptAt, v1, v2, v3, bind, Except.bind, pure, Except.pure, insertKernels, insertKernel, List.range_succ]

/-- The shapely operations mean what they should for the region `S` and three kernel points in counter-clockwise
order. -/
structure Spec.HullGeom (ops : HullOps) (S : Set (Pt ℝ)) (a b c : Pt ℝ) : Prop where
  disjoint : ∀ p q, ops.disjoint p q = true ↔ ∀ x, OnSegment p q x → x ∉ S
  empty : ∀ p q, ops.meetPolygon p q = .empty ↔ ∀ x, OnSegment p q x → x ∉ S
  kernel : ∀ p, ops.kernelContains p = true ↔ LeftOf a b p ∧ LeftOf b c p ∧ LeftOf c a p

open scoped Classical in
/-- Such operations exist for every region and all kernel points. -/
theorem hullGeom_exists (S : Set (Pt ℝ)) (a b c : Pt ℝ) : ∃ ops, HullOpsOk ops ∧ Spec.HullGeom ops S a b c := by
  refine ⟨⟨fun p q => decide (∀ x, OnSegment p q x → x ∉ S),
    fun p q => if h : ∃ x, OnSegment p q x ∧ x ∈ S then .point h.choose else .empty, fun _ _ => .empty,
    fun p => decide (LeftOf a b p ∧ LeftOf b c p ∧ LeftOf c a p)⟩, ⟨?_, ?_⟩, ⟨?_, ?_, ?_⟩⟩
  · intro p q x hx
    simp only at hx
    split at hx
    · rename_i h
      rw [nodesOf, List.mem_singleton] at hx
      rw [hx]; exact h.choose_spec.1
    · simp [nodesOf] at hx
  · intro s t x hx
    simp [nodesOf] at hx
  · intro p q; simp only [decide_eq_true_eq]
  · intro p q
    simp only
    split
    · rename_i h
      simp only [reduceCtorEq, false_iff, not_forall, not_not]
      exact ⟨h.choose, h.choose_spec.1, h.choose_spec.2⟩
    · rename_i h
      simp only [true_iff]
      exact fun x hx hS => h ⟨x, hx, hS⟩
  · intro p; simp only [decide_eq_true_eq]

/-- A segment beyond the line `f = m` does not meet a set on the other side. -/
theorem segment_beyond {S : Set (Pt ℝ)} (f g m : ℝ) (hS : ∀ x ∈ S, f * x.1 + g * x.2 ≤ m) {p q : Pt ℝ}
    (hp : m < f * p.1 + g * p.2) (hq : m < f * q.1 + g * q.2) : ∀ x, OnSegment p q x → x ∉ S := by
  rintro x ⟨t, h0, h1, rfl⟩ hx
  have := hS _ hx
  simp only [Prod.fst_add, Prod.snd_add, Prod.smul_fst, Prod.smul_snd, Prod.fst_sub, Prod.snd_sub, smul_eq_mul] at this
  nlinarith [mul_nonneg h0 (sub_nonneg.mpr hq.le), mul_nonneg (sub_nonneg.mpr h1) (sub_nonneg.mpr hp.le)]

/-- C67 is false when a vertex lies inside of the kernel points: an arrow head in the middle of the kernel triangle.
The first vertex is not added, the first kernel point becomes the only vertex, and swapping the last two vertices raises
IndexError. -/
theorem C67_index_false : ∃ (vertices : List (Pt ℝ)) (a b c : Pt ℝ), LeftOf a b c ∧
    ∀ (ops : HullOps) (S : Set (Pt ℝ)), (∀ v ∈ vertices, v ∈ S) → S ⊆ convexHull ℝ {p | p ∈ vertices} →
      Spec.HullGeom ops S a b c → polygonKernelHull ops vertices [a, b, c] = .error .indexError := by
  refine ⟨[(1, 0), (-1, 1 / 10), (-1 / 2, 0), (-1, -1 / 10)], (-10, -10), (10, -10), (0, 20), ?_, ?_⟩
  · simp only [LeftOf, cross]; norm_num
  intro ops S _ hS hg
  set vs : List (Pt ℝ) := [(1, 0), (-1, 1 / 10), (-1 / 2, 0), (-1, -1 / 10)] with hvs
  have half : ∀ f g m : ℝ, (∀ v ∈ vs, f * v.1 + g * v.2 ≤ m) → ∀ x ∈ S, f * x.1 + g * x.2 ≤ m := by
    intro f g m h x hx
    have hc : Convex ℝ {x : Pt ℝ | f * x.1 + g * x.2 ≤ m} := by
      intro x hx y hy s t hs ht hst
      simp only [Set.mem_ofPred_eq, Prod.fst_add, Prod.snd_add, Prod.smul_fst, Prod.smul_snd, smul_eq_mul] at *
      have h1 := mul_le_mul_of_nonneg_left hx hs
      have h2 := mul_le_mul_of_nonneg_left hy ht
      have h3 : s * m + t * m = m := by rw [← add_mul, hst, one_mul]
      linarith
    exact convexHull_min (fun v hv => h v hv) hc (hS hx)
  have hx1 := half 1 0 1 (by simp [hvs]; norm_num)
  have hxy := half 1 1 1 (by simp [hvs]; norm_num)
  have hx10 := half 1 (-10) 1 (by simp [hvs]; norm_num)
  have hxl := half (-1) 0 1 (by simp [hvs]; norm_num)
  have hyl := half 0 (-1) 1 (by simp [hvs]; norm_num)
  have d1 : ops.disjoint (openRay (1, 0) (-10, -10) (1, 0)).1 (openRay (1, 0) (-10, -10) (1, 0)).2 = true := by
    rw [hg.disjoint]
    apply segment_beyond 1 0 1 hx1 <;> simp [openRay] <;> norm_num
  have d2 : ops.disjoint (openRay (1, 0) (10, -10) (1, 0)).1 (openRay (1, 0) (10, -10) (1, 0)).2 = true := by
    rw [hg.disjoint]
    apply segment_beyond 1 1 1 hxy <;> simp [openRay] <;> norm_num
  have d3 : ops.disjoint (openRay (1, 0) (0, 20) (1, 0)).1 (openRay (1, 0) (0, 20) (1, 0)).2 = true := by
    rw [hg.disjoint]
    apply segment_beyond 1 0 1 hx1 <;> simp [openRay] <;> norm_num
  have e1 : ops.meetPolygon (openLine (-10, -10) (1, 0)).1 (openLine (-10, -10) (1, 0)).2 = .empty := by
    rw [hg.empty]
    apply segment_beyond 1 (-10) 1 hx10 <;> simp [openLine] <;> norm_num
  have d4 : ops.disjoint (openRay (-10, -10) (10, -10) (1, 0)).1 (openRay (-10, -10) (10, -10) (1, 0)).2 = true := by
    rw [hg.disjoint]
    apply segment_beyond (-1) 0 1 hxl <;> simp [openRay] <;> norm_num
  have d5 : ops.disjoint (openRay (-10, -10) (0, 20) (1, 0)).1 (openRay (-10, -10) (0, 20) (1, 0)).2 = true := by
    rw [hg.disjoint]
    apply segment_beyond 0 (-1) 1 hyl <;> simp [openRay] <;> norm_num
  have hk : ops.kernelContains (1, 0) = true := by
    rw [hg.kernel]
    simp only [LeftOf, cross]; norm_num
  have ho : orderVertices vs = vs := by
    have ha : argmaxIdx (vs.map Prod.fst) = 0 := by
      simp only [hvs, List.map_cons, List.map_nil, argmaxIdx, List.length_cons, List.length_nil]
      simp only [List.range_succ_eq_map, List.range_zero, List.map_cons, List.map_nil, List.foldl_cons, List.foldl_nil]
      norm_num
    unfold orderVertices
    simp only [ha, List.rotate_zero]
    rw [if_neg]
    simp only [hvs, ptAt, isCw, orientationVal, collinearThreshold]
    norm_num
  have hkps : ([(-10, -10), (10, -10), (0, 20)] : List (Pt ℝ)).filter (fun kp => decide (kp ≠ (-10, -10))) =
      [(10, -10), (0, 20)] := by
    norm_num [List.filter_cons]
  have hp0 : ptAt ([(-10, -10), (10, -10), (0, 20)] : List (Pt ℝ)) 0 = (-10, -10) := rfl
  have haug : ∀ (st : HullState), st.star = [] → st.included.getD 0 false = false →
      augmentOne ops [(-10, -10), (10, -10), (0, 20)] (1, 0) (-1, -1 / 10) st 0 = .error .indexError := by
    intro st h1 h2
    unfold augmentOne
    simp only [hp0, e1, hkps, h2, Meet.isEmpty, List.any_cons, List.any_nil, d4, d5, Bool.not_true, Bool.not_false,
      Bool.or_false, Bool.and_true, Bool.false_eq_true, if_false, if_true]
    unfold appendPoint
    simp only [h1, List.nil_append, List.length_singleton]
    rw [if_pos, if_pos (by norm_num)]
    simp only [isCcw, orientationVal, collinearThreshold]
    norm_num
  have hvisit : ∀ (st : HullState), st.star = [] → st.included.getD 0 false = false →
      visitVertex ops [(-10, -10), (10, -10), (0, 20)] st (1, 0) (-1, -1 / 10) = .error .indexError := by
    intro st h1 h2
    unfold visitVertex
    rw [if_pos (by simp only [List.all_cons, List.all_nil, d1, d2, d3, Bool.and_true])]
    have : addVertex ops [(-10, -10), (10, -10), (0, 20)] st.star (1, 0) = [] := by
      unfold addVertex
      rw [if_neg (by simp [hk]), h1]
    rw [this]
    have : adjustEdge ops [(-10, -10), (10, -10), (0, 20)] [] st.e1 st.e2 (1, 0) = .ok ([], false) := rfl
    rw [this]
    simp only [bind, Except.bind, augment, Bool.false_eq_true, if_false, List.length_cons, List.length_nil]
    rw [show List.range (0 + 1 + 1 + 1) = [0, 1, 2] from rfl, List.foldlM_cons, haug { st with star := [] } rfl h2]
    rfl
  unfold polygonKernelHull
  simp only [ho]
  rw [show List.range vs.length = [0, 1, 2, 3] from rfl, List.foldlM_cons]
  have : ptAt vs 0 = (1, 0) := rfl
  simp only [this, if_true]
  rw [show vs.getLastD (0, 0) = (-1, -1 / 10) from rfl, hvisit { star := [], vBar := (-10, -10), e1 := 0, e2 := 0, included := _ } rfl rfl]
  rfl

end Starworlds
