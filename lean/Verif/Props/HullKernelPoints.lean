import Verif.Props.PolygonHull
import Mathlib.Tactic.IntervalCases

/-! # C78: the last stage of polygon_kernel_starshaped_hull, which inserts kernel points that were left out -/

namespace Starworlds

open Spec

variable {ks star : List (Pt ℝ)} {inc : List Bool}

theorem foldl_inv {α β : Type} (P : α → Prop) (f : α → β → α) (l : List β) (hf : ∀ a, ∀ b ∈ l, P a → P (f a b)) :
    ∀ a, P a → P (l.foldl f a) := by
  induction l with
  | nil => intro a ha; exact ha
  | cons b l ih =>
    intro a ha
    exact ih (fun a b hb => hf a b (List.mem_cons_of_mem _ hb)) _ (hf a b List.mem_cons_self ha)

/-- C78: no vertex is lost, moved or reordered by the insertion of the kernel points. -/
theorem C78_keeps (ks star : List (Pt ℝ)) (inc : List Bool) : star.Sublist (insertKernels ks star inc) := by
  unfold insertKernels
  refine foldl_inv (fun s : List (Pt ℝ) × List Bool => star.Sublist s.1) _ _ ?_ _ (List.Sublist.refl _)
  intro s j _ hs
  refine foldl_inv (fun s : List (Pt ℝ) × List Bool => star.Sublist s.1) _ _ ?_ _ hs
  intro s i _ hs
  generalize (if j = 0 then _ else _ : Pt ℝ) = v
  unfold insertKernel
  split
  · refine hs.trans ?_
    have := (List.sublist_append_left (s.1.take j) [ptAt ks i]).append (List.Sublist.refl (s.1.drop j))
    rwa [List.take_append_drop] at this
  · exact hs

/-- C78: what is added are kernel points that were left out, each of them at most once. -/
theorem C78_once (ks star : List (Pt ℝ)) (inc : List Bool) (hlen : inc.length = ks.length) :
    ∃ T : List Nat, T.Nodup ∧ (∀ i ∈ T, i < ks.length ∧ inc.getD i false = false) ∧
      (insertKernels ks star inc).Perm (T.map (ptAt ks) ++ star) := by
  let P : List (Pt ℝ) × List Bool → Prop := fun s => s.2.length = ks.length ∧ ∃ T : List Nat, T.Nodup ∧
    (∀ i ∈ T, i < ks.length ∧ inc.getD i false = false ∧ s.2.getD i false = true) ∧
    (∀ i, s.2.getD i false = false → inc.getD i false = false) ∧ s.1.Perm (T.map (ptAt ks) ++ star)
  have h0 : P (star, inc) := ⟨hlen, [], List.nodup_nil, by simp, fun _ h => h, by simp⟩
  suffices h : P ((List.range star.length).foldl (fun st j =>
      let v := if j = 0 then st.1.getLastD (0, 0) else ptAt st.1 (j - 1)
      (List.range ks.length).foldl (insertKernel ks v (ptAt st.1 j) j) st) (star, inc)) by
    obtain ⟨_, T, h1, h2, _, h3⟩ := h
    exact ⟨T, h1, fun i hi => ⟨(h2 i hi).1, (h2 i hi).2.1⟩, h3⟩
  refine foldl_inv P _ _ ?_ _ h0
  intro s j _ hs
  refine foldl_inv P _ _ ?_ _ hs
  intro s i hi hs
  generalize (if j = 0 then _ else _ : Pt ℝ) = v
  obtain ⟨hl, T, h1, h2, h4, h3⟩ := hs
  have hik : i < ks.length := List.mem_range.mp hi
  unfold insertKernel
  split
  · rename_i hc
    simp only [Bool.and_eq_true, Bool.not_eq_true'] at hc
    have hset : ∀ m, (s.2.set i true).getD m false = if m = i then true else s.2.getD m false := by
      intro m
      by_cases hm : m = i
      · subst hm; simp [List.getD_eq_getElem?_getD, hl, hik]
      · simp [List.getD_eq_getElem?_getD, Ne.symm hm, hm]
    refine ⟨by simpa using hl, i :: T, List.nodup_cons.mpr ⟨fun hT => ?_, h1⟩, ?_, ?_, ?_⟩
    · rw [(h2 i hT).2.2] at hc; simp at hc
    · intro m hm
      rw [hset]
      rcases List.mem_cons.mp hm with rfl | hm
      · exact ⟨hik, h4 _ hc.1, by simp⟩
      · exact ⟨(h2 m hm).1, (h2 m hm).2.1, by split; rfl; exact (h2 m hm).2.2⟩
    · intro m hm
      rw [hset] at hm
      split at hm
      · simp at hm
      · exact h4 m hm
    · have e : (s.1.take j ++ [ptAt ks i] ++ s.1.drop j).Perm (ptAt ks i :: s.1) := by
        rw [List.append_assoc]
        refine List.perm_append_comm_assoc _ _ _ |>.trans ?_
        rw [List.take_append_drop]; exact List.Perm.refl _
      exact e.trans (h3.cons _)
  · exact ⟨hl, T, h1, h2, h4, h3⟩

/-- The predecessor of vertex `j` in a list of vertices. -/
noncomputable def vertexBefore (l : List (Pt ℝ)) (j : Nat) : Pt ℝ := if j = 0 then l.getLastD (0, 0) else ptAt l (j - 1)

theorem insertKernel_done {v vp : Pt ℝ} {j i : Nat} {s : List (Pt ℝ) × List Bool} (h : s.2.getD i false = true) :
    insertKernel ks v vp j s i = s := by
  unfold insertKernel
  rw [h]; rfl

theorem edge_done {v vp : Pt ℝ} {j : Nat} {s : List (Pt ℝ) × List Bool} {l : List Nat}
    (h : ∀ i ∈ l, s.2.getD i false = true) : l.foldl (insertKernel ks v vp j) s = s := by
  induction l with
  | nil => rfl
  | cons i l ih =>
    rw [List.foldl_cons, insertKernel_done (h i List.mem_cons_self)]
    exact ih fun i hi => h i (List.mem_cons_of_mem _ hi)

/-- With one kernel point left, testing an edge is the test of that point. -/
theorem edge_one {v vp : Pt ℝ} {j k : Nat} {s : List (Pt ℝ) × List Bool} (hk : k < ks.length)
    (hl : s.2.length = ks.length) (h : ∀ i < ks.length, i ≠ k → s.2.getD i false = true) :
    (List.range ks.length).foldl (insertKernel ks v vp j) s = insertKernel ks v vp j s k := by
  have hsplit : List.range ks.length = List.range k ++ k :: (List.range (ks.length - k - 1)).map (· + (k + 1)) := by
    conv_lhs => rw [show ks.length = k + ((ks.length - k - 1) + 1) by omega, List.range_add, List.range_succ_eq_map]
    rw [List.map_cons, List.map_map]
    congr 3
    funext x
    show k + (x + 1) = x + (k + 1)
    omega
  rw [hsplit, List.foldl_append, List.foldl_cons, edge_done (l := List.range k)]
  · apply edge_done
    intro i hi
    obtain ⟨m, hm, rfl⟩ := List.mem_map.mp hi
    have hm := List.mem_range.mp hm
    have hne : m + (k + 1) ≠ k := by omega
    have := h (m + (k + 1)) (by omega) hne
    unfold insertKernel
    split
    · simp only [List.getD_eq_getElem?_getD] at this ⊢
      rw [List.getElem?_set_ne (by omega)]
      exact this
    · exact this
  · intro i hi
    have := List.mem_range.mp hi
    exact h i (by omega) (by omega)

/-- C78, partial: if one kernel point `k` is not yet included, and it is to the right of an edge of the hull, it is inserted into the first
such edge; if there is no such edge the hull is not changed. Missing: several kernel points (`C78_two_false`). -/
theorem C78_one_partial (k : Nat) (hk : k < ks.length) (hl : inc.length = ks.length)
    (hinc : ∀ i < ks.length, (inc.getD i false = true ↔ i ≠ k)) :
    ((∀ j < star.length, isCw (ptAt ks k) (vertexBefore star j) (ptAt star j) = false) ∧ insertKernels ks star inc = star) ∨
    ∃ j < star.length, isCw (ptAt ks k) (vertexBefore star j) (ptAt star j) = true ∧
      (∀ i < j, isCw (ptAt ks k) (vertexBefore star i) (ptAt star i) = false) ∧
      insertKernels ks star inc = star.take j ++ [ptAt ks k] ++ star.drop j := by
  have hkf : inc.getD k false = false := by
    rw [← Bool.not_eq_true]; exact fun e => (hinc k hk).1 e rfl
  have key : ∀ n ≤ star.length,
      ((∀ j < n, isCw (ptAt ks k) (vertexBefore star j) (ptAt star j) = false) ∧
        (List.range n).foldl (fun st j => (List.range ks.length).foldl
          (insertKernel ks (if j = 0 then st.1.getLastD (0, 0) else ptAt st.1 (j - 1)) (ptAt st.1 j) j) st) (star, inc) =
          (star, inc)) ∨
      ∃ j < n, isCw (ptAt ks k) (vertexBefore star j) (ptAt star j) = true ∧
        (∀ i < j, isCw (ptAt ks k) (vertexBefore star i) (ptAt star i) = false) ∧
        (List.range n).foldl (fun st j => (List.range ks.length).foldl
          (insertKernel ks (if j = 0 then st.1.getLastD (0, 0) else ptAt st.1 (j - 1)) (ptAt st.1 j) j) st) (star, inc) =
          (star.take j ++ [ptAt ks k] ++ star.drop j, inc.set k true) := by
    intro n
    induction n with
    | zero => intro _; exact Or.inl ⟨fun j hj => absurd hj (Nat.not_lt_zero _), rfl⟩
    | succ n ih =>
      intro hn
      rw [List.range_succ, List.foldl_append, List.foldl_cons, List.foldl_nil]
      rcases ih (by omega) with ⟨h1, h2⟩ | ⟨j, hj, h1, h2, h3⟩
      · rw [h2]
        simp only
        rw [edge_one hk hl fun i hi hne => (hinc i hi).2 hne]
        cases hc : isCw (ptAt ks k) (vertexBefore star n) (ptAt star n) with
        | false =>
          refine Or.inl ⟨fun j hj => ?_, ?_⟩
          · rcases (Nat.lt_succ_iff.1 hj).eq_or_lt with rfl | hlt
            · exact hc
            · exact h1 j hlt
          · unfold vertexBefore at hc
            unfold insertKernel
            rw [hc, Bool.and_false]; rfl
        | true =>
          refine Or.inr ⟨n, Nat.lt_succ_self n, hc, h1, ?_⟩
          unfold vertexBefore at hc
          unfold insertKernel
          rw [hc, hkf]; rfl
      · refine Or.inr ⟨j, by omega, h1, h2, ?_⟩
        rw [h3]
        apply edge_done
        intro i hi
        have hi := List.mem_range.mp hi
        simp only [List.getD_eq_getElem?_getD, List.getElem?_set]
        by_cases e : k = i
        · subst e; simp [hl, hk]
        · rw [if_neg e]
          have := (hinc i hi).2 (Ne.symm e)
          rwa [List.getD_eq_getElem?_getD] at this
  rcases key star.length le_rfl with ⟨h1, h2⟩ | ⟨j, hj, h1, h2, h3⟩
  · exact Or.inl ⟨h1, congrArg Prod.fst h2⟩
  · exact Or.inr ⟨j, hj, h1, h2, congrArg Prod.fst h3⟩

theorem isCw_right {k v w : Pt ℝ} (h : cross (w - v) (k - v) < -(1 / 10 ^ 10)) : isCw k v w = true := by
  refine decide_eq_true ?_
  simp only [cross, orientationVal, collinearThreshold, Prod.fst_sub, Prod.snd_sub] at h ⊢
  linarith

theorem isCw_left {k v w : Pt ℝ} (h : 0 ≤ cross (w - v) (k - v)) : isCw k v w = false := by
  refine decide_eq_false (not_lt.mpr ?_)
  have : (0 : ℝ) < 1 / 10 ^ 10 := by positivity
  simp only [cross, orientationVal, collinearThreshold, Prod.fst_sub, Prod.snd_sub] at h ⊢
  linarith

/-- C78 is false for two kernel points: the edges are counted before the first one is inserted, so the last edge of the hull is
never tested, and the second kernel point remains outside. -/
theorem C78_two_false : ∃ (ks star result : List (Pt ℝ)), insertKernels ks star [false, false] = result ∧
    ∃ k ∈ ks, k ∉ result ∧ result.length = 5 ∧ LeftOf (ptAt result 4) (ptAt result 3) k := by
  have e : insertKernels [(1, -1), (1, 3)] [(0, 0), (2, 0), (2, 2), (0, 2)] [false, false] =
      [(0, 0), (1, -1), (2, 0), (2, 2), (0, 2)] := by
    have a0 : isCw ((1, -1) : Pt ℝ) (0, 2) (0, 0) = false := isCw_left (by norm_num [cross])
    have b0 : isCw ((1, 3) : Pt ℝ) (0, 2) (0, 0) = false := isCw_left (by norm_num [cross])
    have a1 : isCw ((1, -1) : Pt ℝ) (0, 0) (2, 0) = true := isCw_right (by norm_num [cross])
    have b1 : isCw ((1, 3) : Pt ℝ) (0, 0) (2, 0) = false := isCw_left (by norm_num [cross])
    have b2 : isCw ((1, 3) : Pt ℝ) (1, -1) (2, 0) = false := isCw_left (by norm_num [cross])
    have b3 : isCw ((1, 3) : Pt ℝ) (2, 0) (2, 2) = false := isCw_left (by norm_num [cross])
    simp [insertKernels, insertKernel, List.range_succ, ptAt, a0, b0, a1, b1, b2, b3]
  refine ⟨[(1, -1), (1, 3)], [(0, 0), (2, 0), (2, 2), (0, 2)], _, e, (1, 3), by simp, by norm_num, rfl, ?_⟩
  norm_num [LeftOf, cross, ptAt]

/-- The hypotheses of `C78_one_partial` hold, and the kernel point is inserted. -/
example : insertKernels [(1, 3)] [(0, 0), (2, 0), (2, 2), (0, 2)] [false] = [(0, 0), (2, 0), (2, 2), (1, 3), (0, 2)] := by
  have h1 : ∀ j < 3, isCw ((1, 3) : Pt ℝ) (vertexBefore [(0, 0), (2, 0), (2, 2), (0, 2)] j)
      (ptAt [(0, 0), (2, 0), (2, 2), (0, 2)] j) = false := by
    intro j hj
    interval_cases j <;> exact isCw_left (by norm_num [cross, vertexBefore, ptAt])
  have h2 : isCw ((1, 3) : Pt ℝ) (vertexBefore [(0, 0), (2, 0), (2, 2), (0, 2)] 3)
      (ptAt [(0, 0), (2, 0), (2, 2), (0, 2)] 3) = true := isCw_right (by norm_num [cross, vertexBefore, ptAt])
  have hi : ∀ i < [((1, 3) : Pt ℝ)].length, ([false].getD i false = true ↔ i ≠ 0) := by
    intro i hi
    have : i = 0 := by simpa using hi
    subst this; simp
  rcases C78_one_partial (star := [(0, 0), (2, 0), (2, 2), (0, 2)]) 0 (by simp) (by simp) hi with ⟨h, -⟩ | ⟨j, hj, h, h', e⟩
  · rw [show ptAt [((1, 3) : Pt ℝ)] 0 = (1, 3) from rfl] at h
    rw [h 3 (by simp)] at h2; cases h2
  · have : j = 3 := by
      rcases lt_or_ge j 3 with hlt | hge
      · have e1 := h1 j hlt
        rw [show ptAt [((1, 3) : Pt ℝ)] 0 = (1, 3) from rfl] at h
        rw [h] at e1; cases e1
      · simp at hj; omega
    subst this
    exact e

end Starworlds
