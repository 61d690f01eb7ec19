import Verif.Spec.HullMeaning
import Verif.Props.PolygonHull

/-! # Lemmas for C109: the vertices that the star-shaped hull keeps -/

namespace Starworlds

open Spec

/-- The points `V` are among the collected vertices, and not at the place that may still be moved. -/
def Keeps (V : Set (Pt ℝ)) (star : List (Pt ℝ)) (e1 e2 : Int) : Prop :=
  (0 ≤ e1 ∧ e1 < star.length ∧ ∀ p ∈ V, ∃ i < star.length, ptAt star i = p ∧ (i : Int) ≠ e1) ∨ (e1 = e2 ∧ ∀ p ∈ V, p ∈ star)

theorem ptAt_mem {l : List (Pt ℝ)} {i : ℕ} (h : i < l.length) : ptAt l i ∈ l := by
  rw [ptAt, List.getD_eq_getElem _ _ h]; exact List.getElem_mem _

theorem keeps_mem {V : Set (Pt ℝ)} {star : List (Pt ℝ)} {e1 e2 : Int} (h : Keeps V star e1 e2) : ∀ p ∈ V, p ∈ star := by
  rcases h with ⟨_, _, h⟩ | ⟨_, h⟩
  · intro p hp
    obtain ⟨i, hi, rfl, _⟩ := h p hp
    exact ptAt_mem hi
  · exact h

theorem mem_ptAt {l : List (Pt ℝ)} {p : Pt ℝ} (h : p ∈ l) : ∃ i < l.length, ptAt l i = p := by
  obtain ⟨i, hi, e⟩ := List.mem_iff_getElem.1 h
  exact ⟨i, hi, by rw [ptAt, List.getD_eq_getElem _ _ hi, e]⟩

theorem ptAt_set_ne {l : List (Pt ℝ)} {i j : ℕ} (h : i ≠ j) (q : Pt ℝ) : ptAt (l.set i q) j = ptAt l j := by
  rw [ptAt, ptAt, List.getD_eq_getElem?_getD, List.getD_eq_getElem?_getD, List.getElem?_set_ne h]

theorem ptAt_set_self {l : List (Pt ℝ)} {i : ℕ} (h : i < l.length) (q : Pt ℝ) : ptAt (l.set i q) i = q := by
  rw [ptAt, List.getD_eq_getElem?_getD, List.getElem?_set_self h]; rfl

theorem ptAt_append {l : List (Pt ℝ)} {i : ℕ} (h : i < l.length) (m : List (Pt ℝ)) : ptAt (l ++ m) i = ptAt l i := by
  rw [ptAt, ptAt, List.getD_append _ _ _ _ h]

/-- Adjusting an edge. -/
theorem adjustEdge_keeps {ops : HullOps} {ks star : List (Pt ℝ)} {e1 e2 : Int} {v : Pt ℝ} {r : List (Pt ℝ) × Bool}
    {V : Set (Pt ℝ)} (h0 : Keeps V star e1 e2) (h : adjustEdge ops ks star e1 e2 v = .ok r) : Keeps V r.1 e1 e2 := by
  unfold adjustEdge at h
  split at h
  · cases h; exact h0
  cases h1 : pyGet star e1 with
  | error x => rw [h1] at h; cases h
  | ok a =>
    cases h2 : pyGet star e2 with
    | error x => rw [h1, h2] at h; cases h
    | ok b =>
      rw [h1, h2] at h
      change ks.foldlM (adjustOne ops v a b e1) (star, false) = .ok r at h
      rcases h0 with ⟨g0, g1, g2⟩ | ⟨g1, g2⟩
      · left
        have := foldlM_inv (P := fun s : List (Pt ℝ) × Bool => s.1.length = star.length ∧
          ∀ p ∈ V, ∃ i < star.length, ptAt s.1 i = p ∧ (i : Int) ≠ e1) ?_ ⟨rfl, g2⟩ h
        · exact ⟨g0, by rw [this.1]; exact g1, by rw [this.1]; exact this.2⟩
        · rintro s k s' - ⟨hl, hs⟩ hh
          unfold adjustOne at hh
          simp only at hh
          split at hh
          · cases hh; exact ⟨hl, hs⟩
          cases e : (ops.meetLine (openLine k v) (openLine a b)).xy with
          | error x => rw [e] at hh; cases hh
          | ok p =>
            rw [e] at hh
            simp only [bind, Except.bind] at hh
            cases e' : pyGet s.1 e1 with
            | error x => rw [e'] at hh; cases hh
            | ok cur =>
              rw [e'] at hh
              simp only at hh
              split at hh
              · cases hh
                refine ⟨by simp [pySet, hl], fun q hq => ?_⟩
                obtain ⟨i, hi, hiq, hie⟩ := hs q hq
                refine ⟨i, hi, ?_, hie⟩
                simp only [pySet, if_neg (not_lt.2 g0)]
                rw [ptAt_set_ne (by omega), hiq]
              · cases hh; exact ⟨hl, hs⟩
      · right
        refine ⟨g1, ?_⟩
        have hab : a = b := by
          rw [g1, h2] at h1; cases h1; rfl
        have := foldlM_inv (P := fun s : List (Pt ℝ) × Bool => s.1 = star) ?_ rfl h
        · rw [this]; exact g2
        · rintro s k s' - hs hh
          unfold adjustOne at hh
          simp only at hh
          split at hh
          · cases hh; exact hs
          cases e : (ops.meetLine (openLine k v) (openLine a b)).xy with
          | error x => rw [e] at hh; cases hh
          | ok p =>
            rw [e] at hh
            simp only [bind, Except.bind] at hh
            rw [hs, h1] at hh
            simp only at hh
            split at hh
            · rename_i hlt
              exfalso
              rw [← hab, sub_self] at hlt
              have z : norm2 (0 : Pt ℝ) = 0 := by simp [norm2]
              rw [z] at hlt
              exact absurd hlt (not_lt.2 (Real.sqrt_nonneg _))
            · cases hh; rfl

/-- Appending a point. -/
theorem appendPoint_keeps {st st' : HullState} {u v w : Pt ℝ} {V : Set (Pt ℝ)} (h0 : ∀ p ∈ V, p ∈ st.star)
    (h : appendPoint st u v w = .ok st') : Keeps V st'.star st'.e1 st'.e2 := by
  unfold appendPoint at h
  simp only at h
  split at h
  · split at h
    · cases h
    · rename_i hl
      rw [List.length_append, List.length_singleton] at hl
      cases h
      left
      simp only [List.length_append, List.length_singleton, List.length_set]
      push_cast
      refine ⟨by omega, by omega, fun p hp => ?_⟩
      obtain ⟨i, hi, e⟩ := mem_ptAt (h0 p hp)
      by_cases hi' : i = st.star.length - 1
      · refine ⟨st.star.length, by omega, ?_, by omega⟩
        rw [ptAt_set_self (by simp), ← hi', ptAt_append hi, e]
      · refine ⟨i, by omega, ?_, by omega⟩
        rw [ptAt_set_ne (by omega), ptAt_set_ne (by omega), ptAt_append hi, e]
  · cases h
    left
    simp only [List.length_append, List.length_singleton]
    push_cast
    refine ⟨by omega, by omega, fun p hp => ?_⟩
    obtain ⟨i, hi, e⟩ := mem_ptAt (h0 p hp)
    exact ⟨i, by omega, by rw [ptAt_append hi, e], by omega⟩

theorem augmentOne_keeps {ops : HullOps} {ks : List (Pt ℝ)} {v w : Pt ℝ} {st st' : HullState} {i : ℕ} {V : Set (Pt ℝ)}
    (h0 : Keeps V st.star st.e1 st.e2) (h : augmentOne ops ks v w st i = .ok st') : Keeps V st'.star st'.e1 st'.e2 := by
  unfold augmentOne at h
  simp only at h
  split at h
  · split at h
    · cases h; exact h0
    · rename_i u hu
      split at h
      · cases h; exact h0
      · cases e : moveU ops st.vBar (openLine u v) u (ks.filter fun kp => decide (kp ≠ ptAt ks i)) with
        | error x => rw [e] at h; cases h
        | ok q =>
          rw [e] at h
          exact appendPoint_keeps (keeps_mem h0) h
  · split at h
    · exact appendPoint_keeps (st := { st with included := st.included.set i true }) (keeps_mem h0) h
    · cases h; exact h0

/-- Visiting a vertex: it is kept if all rays are free and it is not inside of the kernel points. -/
theorem visitVertex_keeps {ops : HullOps} {ks : List (Pt ℝ)} {v w : Pt ℝ} {st st' : HullState} {V : Set (Pt ℝ)}
    (h0 : Keeps V st.star st.e1 st.e2) (h : visitVertex ops ks st v w = .ok st') :
    Keeps V st'.star st'.e1 st'.e2 ∧ ((∀ k ∈ ks, ops.disjoint (openRay v k v).1 (openRay v k v).2 = true) →
      (ks.length < 3 ∨ ops.kernelContains v = false) → Keeps (V ∪ {v}) st'.star st'.e1 st'.e2) := by
  have key : ∀ W : Set (Pt ℝ), Keeps W (addVertex ops ks st.star v) st.e1 st.e2 →
      (ks.all fun k => ops.disjoint (openRay v k v).1 (openRay v k v).2) = true → Keeps W st'.star st'.e1 st'.e2 := by
    intro W hW hall
    unfold visitVertex at h
    rw [if_pos hall] at h
    cases e : adjustEdge ops ks (addVertex ops ks st.star v) st.e1 st.e2 v with
    | error x => rw [e] at h; cases h
    | ok r =>
      rw [e] at h
      simp only [bind, Except.bind] at h
      cases e2 : augment ops ks v w r.2 { st with star := r.1 } with
      | error x => rw [e2] at h; cases h
      | ok st2 =>
        rw [e2] at h
        simp only at h
        cases e3 : pyGet st2.star (-1) with
        | error x => rw [e3] at h; cases h
        | ok last =>
          rw [e3] at h
          cases h
          have hr := adjustEdge_keeps hW e
          change Keeps W st2.star st2.e1 st2.e2
          unfold augment at e2
          split at e2
          · cases e2; exact hr
          · exact foldlM_inv (P := fun s : HullState => Keeps W s.star s.e1 s.e2)
              (fun s i s' _ hs hh => augmentOne_keeps hs hh) hr e2
  have hadd : ∀ W : Set (Pt ℝ), (∀ p ∈ W, p ∈ V ∨ p = v) → Keeps W (st.star ++ [v]) st.e1 st.e2 := by
    intro W hW
    rcases h0 with ⟨g0, g1, g2⟩ | ⟨g1, g2⟩
    · left
      refine ⟨g0, by rw [List.length_append]; push_cast; omega, fun p hp => ?_⟩
      rw [List.length_append, List.length_singleton]
      rcases hW p hp with hp | rfl
      · obtain ⟨i, hi, e, hne⟩ := g2 p hp
        exact ⟨i, by omega, by rw [ptAt_append hi, e], hne⟩
      · exact ⟨st.star.length, by omega, by simp [ptAt], by omega⟩
    · right
      refine ⟨g1, fun p hp => ?_⟩
      rcases hW p hp with hp | rfl
      · exact List.mem_append_left _ (g2 p hp)
      · simp
  constructor
  · by_cases hall : (ks.all fun k => ops.disjoint (openRay v k v).1 (openRay v k v).2) = true
    · refine key V ?_ hall
      unfold addVertex
      split
      · exact hadd V fun p hp => Or.inl hp
      · exact h0
    · unfold visitVertex at h
      rw [if_neg hall] at h
      cases h; exact h0
  · intro hfree hc
    refine key _ ?_ (by rw [List.all_eq_true]; exact hfree)
    unfold addVertex
    rw [if_pos]
    · exact hadd _ fun p hp => hp.imp id fun h => h
    · rcases hc with hc | hc
      · simp [hc]
      · simp [hc]

theorem insertKernel_mem {ks : List (Pt ℝ)} {v vp : Pt ℝ} {j i : ℕ} {s : List (Pt ℝ) × List Bool} {p : Pt ℝ} (hs : p ∈ s.1) :
    p ∈ (insertKernel ks v vp j s i).1 := by
  unfold insertKernel
  split
  · rw [← List.take_append_drop j s.1] at hs
    rcases List.mem_append.1 hs with hs | hs
    · exact List.mem_append_left _ (List.mem_append_left _ hs)
    · exact List.mem_append_right _ hs
  · exact hs

theorem insertKernels_mem {ks star : List (Pt ℝ)} {inc : List Bool} {p : Pt ℝ} (h : p ∈ star) : p ∈ insertKernels ks star inc := by
  have fold : ∀ {α β : Type} (P : α → Prop) (f : α → β → α) (l : List β), (∀ a b, b ∈ l → P a → P (f a b)) →
      ∀ a, P a → P (l.foldl f a) := by
    intro α β P f l
    induction l with
    | nil => intro _ a ha; exact ha
    | cons b l ih =>
      intro hf a ha
      exact ih (fun a b hb => hf a b (List.mem_cons_of_mem _ hb)) _ (hf a b (by simp) ha)
  unfold insertKernels
  refine fold (fun s : List (Pt ℝ) × List Bool => p ∈ s.1) _ _ ?_ _ h
  intro s j _ hs
  refine fold (fun s : List (Pt ℝ) × List Bool => p ∈ s.1) _ _ ?_ _ hs
  intro s i _ hs
  exact insertKernel_mem hs

/-- The vertices of the polygon that are vertices of the hull. -/
theorem hull_keeps {ops : HullOps} {vertices ks star : List (Pt ℝ)} (h : polygonKernelHull ops vertices ks = .ok star) {p : Pt ℝ}
    (hp : p ∈ vertices) (hfree : ∀ k ∈ ks, ops.disjoint (openRay p k p).1 (openRay p k p).2 = true)
    (hc : ks.length < 3 ∨ ops.kernelContains p = false) : p ∈ star := by
  unfold polygonKernelHull at h
  cases hk : ks with
  | nil => rw [hk] at h; cases h
  | cons k0 l =>
    rw [hk] at h
    simp only at h
    rw [← hk] at h
    obtain ⟨vs, hvs⟩ : ∃ vs, orderVertices vertices = vs := ⟨_, rfl⟩
    rw [hvs] at h
    cases e : (List.range vs.length).foldlM (fun st i =>
        visitVertex ops ks st (ptAt vs i) (if i = 0 then vs.getLastD (0, 0) else ptAt vs (i - 1)))
        { star := [], vBar := k0, e1 := 0, e2 := 0, included := ks.map fun _ => false } with
    | error x => rw [e] at h; cases h
    | ok st =>
      rw [e] at h
      simp only [bind, Except.bind] at h
      have loop : ∀ n ≤ vs.length, ∀ st : HullState, (List.range n).foldlM (fun st i =>
          visitVertex ops ks st (ptAt vs i) (if i = 0 then vs.getLastD (0, 0) else ptAt vs (i - 1)))
          { star := [], vBar := k0, e1 := 0, e2 := 0, included := ks.map fun _ => false } = .ok st →
          Keeps {q | q = p ∧ ∃ i < n, ptAt vs i = p} st.star st.e1 st.e2 := by
        intro n
        induction n with
        | zero =>
          intro _ st hst
          cases hst
          exact Or.inr ⟨rfl, by rintro q ⟨_, i, hi, _⟩; omega⟩
        | succ n ih =>
          intro hn st hst
          rw [List.range_succ, List.foldlM_append] at hst
          cases e1 : (List.range n).foldlM (fun st i =>
              visitVertex ops ks st (ptAt vs i) (if i = 0 then vs.getLastD (0, 0) else ptAt vs (i - 1)))
              { star := [], vBar := k0, e1 := 0, e2 := 0, included := ks.map fun _ => false } with
          | error x => rw [e1] at hst; cases hst
          | ok s =>
            rw [e1] at hst
            simp only [bind, Except.bind, List.foldlM_cons, List.foldlM_nil] at hst
            cases e2 : visitVertex ops ks s (ptAt vs n) (if n = 0 then vs.getLastD (0, 0) else ptAt vs (n - 1)) with
            | error x => rw [e2] at hst; cases hst
            | ok s' =>
              rw [e2] at hst
              cases hst
              obtain ⟨g1, g2⟩ := visitVertex_keeps (ih (by omega) s e1) e2
              by_cases hpn : ptAt vs n = p
              · rw [hpn] at g2
                rcases g2 hfree hc with ⟨a0, a1, a2⟩ | ⟨a1, a2⟩
                · exact Or.inl ⟨a0, a1, fun q hq => a2 q (Or.inr hq.1)⟩
                · exact Or.inr ⟨a1, fun q hq => a2 q (Or.inr hq.1)⟩
              · have sub : ∀ q, (q = p ∧ ∃ i < n + 1, ptAt vs i = p) → q = p ∧ ∃ i < n, ptAt vs i = p := by
                  rintro q ⟨rfl, i, hi, hq⟩
                  refine ⟨rfl, i, ?_, hq⟩
                  rcases Nat.lt_succ_iff_lt_or_eq.1 hi with h | h
                  · exact h
                  · rw [h] at hq; exact absurd hq hpn
                rcases g1 with ⟨a0, a1, a2⟩ | ⟨a1, a2⟩
                · exact Or.inl ⟨a0, a1, fun q hq => a2 q (sub q hq)⟩
                · exact Or.inr ⟨a1, fun q hq => a2 q (sub q hq)⟩
      have hpv : p ∈ vs := by rw [← hvs, (orderVertices_perm vertices).mem_iff]; exact hp
      obtain ⟨i, hi, hip⟩ := mem_ptAt hpv
      have := keeps_mem (loop _ le_rfl st e) p ⟨rfl, i, hi, hip⟩
      split at h
      · cases h
      · cases h
        exact insertKernels_mem this

end Starworlds
