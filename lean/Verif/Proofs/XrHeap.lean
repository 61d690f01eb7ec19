import Verif.Spec.XrHeap

/-! # Helper lemmas about the arrays behind `xr` and `set_xr` -/

namespace Starworlds

open Spec

/-- Every reference point and every array of the program exists. -/
def XrWorld.Wf (w : XrWorld) : Prop := (∀ o ∈ w.obs, o.2 < w.cells.length) ∧ ∀ a ∈ w.known, a < w.cells.length

theorem XrWorld.empty_wf : XrWorld.empty.Wf := ⟨by simp [XrWorld.empty], by simp [XrWorld.empty]⟩

theorem XrWorld.Wf.addObs {w : XrWorld} (h : w.Wf) (s : StarPoly) (x : Pt ℝ) : (w.addObs s x).Wf := by
  refine ⟨fun o ho => ?_, fun a ha => ?_⟩
  · simp only [XrWorld.addObs, List.mem_append, List.mem_singleton, List.length_append, List.length_singleton] at ho ⊢
    rcases ho with ho | rfl
    · have := h.1 o ho
      omega
    · simp
  · have := h.2 a ha
    simp only [XrWorld.addObs, List.length_append, List.length_singleton]
    omega

theorem mem_modify {α : Type*} {f : α → α} {l : List α} {j : Nat} {x : α} (h : x ∈ l.modify j f) :
    x ∈ l ∨ ∃ y ∈ l, x = f y := by
  obtain ⟨i, hi⟩ := List.mem_iff_getElem?.1 h
  rw [List.getElem?_modify] at hi
  rcases hl : l[i]? with _ | y
  · simp [hl] at hi
  · rw [hl] at hi
    by_cases hj : j = i
    · have hx : some (f y) = some x := by simpa [hj] using hi
      exact .inr ⟨y, List.mem_of_getElem? hl, (Option.some.inj hx).symm⟩
    · have hx : some y = some x := by simpa [hj] using hi
      exact .inl (Option.some.inj hx ▸ List.mem_of_getElem? hl)

theorem XrWorld.Wf.step {w : XrWorld} (h : w.Wf) (argsort : List ℝ → List Nat) (op : XrOp) :
    (w.step argsort op).Wf := by
  obtain ⟨h1, h2⟩ := h
  cases op with
  | construct mm ring x => exact XrWorld.Wf.addObs ⟨h1, h2⟩ _ _
  | copy j =>
    simp only [XrWorld.step]
    split
    · exact ⟨h1, h2⟩
    · split
      · exact ⟨h1, h2⟩
      · exact XrWorld.Wf.addObs ⟨h1, h2⟩ _ _
  | alloc p =>
    refine ⟨fun o ho => ?_, fun a ha => ?_⟩
    · have := h1 o ho
      simp only [XrWorld.step, XrWorld.push, List.length_append, List.length_singleton]
      omega
    · simp only [XrWorld.step, XrWorld.push, List.length_append, List.length_singleton, List.mem_append,
        List.mem_singleton] at ha ⊢
      rcases ha with ha | rfl
      · have := h2 a ha
        omega
      · omega
  | write a p =>
    simp only [XrWorld.step]
    split
    · exact ⟨fun o ho => by simpa using h1 o ho, fun b hb => by simpa using h2 b hb⟩
    · exact ⟨h1, h2⟩
  | xr j f =>
    simp only [XrWorld.step]
    split
    · exact ⟨h1, h2⟩
    · rename_i s a hj
      split
      · refine ⟨h1, fun b hb => ?_⟩
        simp only [List.mem_append, List.mem_singleton] at hb
        rcases hb with hb | rfl
        · exact h2 b hb
        · exact h1 _ (List.mem_of_getElem? hj)
      · split
        · exact ⟨h1, h2⟩
        · split
          · exact ⟨h1, h2⟩
          · refine ⟨fun o ho => ?_, fun b hb => ?_⟩
            · have := h1 o ho
              simp only [XrWorld.push, List.length_append, List.length_singleton]
              omega
            · simp only [XrWorld.push, List.length_append, List.length_singleton, List.mem_append,
                List.mem_singleton] at hb ⊢
              rcases hb with hb | rfl
              · have := h2 b hb
                omega
              · omega
  | setXr j a f =>
    simp only [XrWorld.step]
    split
    · rename_i ha
      split
      · split
        · refine ⟨fun o ho => ?_, h2⟩
          rcases List.mem_or_eq_of_mem_set ho with ho | rfl
          · exact h1 o ho
          · exact h2 a ha
        · split
          · exact ⟨h1, h2⟩
          · refine ⟨fun o ho => ?_, fun b hb => ?_⟩
            · simp only [XrWorld.push, List.length_append, List.length_singleton]
              rcases List.mem_or_eq_of_mem_set ho with ho | rfl
              · have := h1 o ho
                omega
              · simp
            · have := h2 b hb
              simp only [XrWorld.push, List.length_append, List.length_singleton]
              omega
      · exact ⟨h1, h2⟩
    · exact ⟨h1, h2⟩
  | setPose j p =>
    refine ⟨fun o ho => ?_, h2⟩
    rcases mem_modify ho with ho | ⟨y, hy, rfl⟩
    · exact h1 o ho
    · exact h1 y hy
  | setMotionModel j mm =>
    refine ⟨fun o ho => ?_, h2⟩
    rcases mem_modify ho with ho | ⟨y, hy, rfl⟩
    · exact h1 o ho
    · exact h1 y hy

theorem XrWorld.view_eq {w : XrWorld} {j : Nat} {s : StarPoly} (h : w.view j = some s) :
    ∃ s0 a x, w.obs[j]? = some (s0, a) ∧ w.cells[a]? = some x ∧ s = { s0 with xr := x } := by
  unfold XrWorld.view at h
  rcases ho : w.obs[j]? with _ | ⟨s0, a⟩
  · simp [ho] at h
  · rcases hc : w.cells[a]? with _ | x
    · simp [ho, hc] at h
    · simp only [ho, hc, Option.map_some, Option.some.injEq] at h
      exact ⟨s0, a, x, rfl, hc, h.symm⟩

theorem XrWorld.view_of {w : XrWorld} {j : Nat} {s0 : StarPoly} {a : Nat} {x : Pt ℝ} (h : w.obs[j]? = some (s0, a))
    (hc : w.cells[a]? = some x) : w.view j = some { s0 with xr := x } := by simp [XrWorld.view, h, hc]

theorem getElem?_push {α : Type*} {l : List α} {i : Nat} {x y : α} (h : l[i]? = some x) : (l ++ [y])[i]? = some x := by
  rw [List.getElem?_append_left (List.getElem?_eq_some_iff.1 h).1, h]

theorem sameArray_transform {mm : Option Pose} {f : Frame} (h : sameArray mm f = true) (x : Pt ℝ) :
    transform mm x f .obstacle = .ok x := by
  cases mm with
  | none => rfl
  | some p =>
    simp only [sameArray, Option.isNone_some, Bool.false_or, beq_iff_eq] at h
    simp [transform, h]

/-- One operation that keeps the reference points does to an obstacle what its method call does. -/
theorem XrWorld.step_view {w : XrWorld} (argsort : List ℝ → List Nat) {op : XrOp} (hk : KeepsXr w op) {j : Nat}
    {s : StarPoly} (hs : w.view j = some s) :
    (w.step argsort op).view j = some (s.run argsort (callOf w j op).toList) := by
  obtain ⟨s0, a, x, ho, hc, rfl⟩ := XrWorld.view_eq hs
  have hadd : ∀ s' x', (w.addObs s' x').view j = some { s0 with xr := x } := fun s' x' =>
    XrWorld.view_of (w := w.addObs s' x') (getElem?_push ho) (getElem?_push hc)
  have hsame : ∀ (ks : List Nat), (XrWorld.mk w.cells w.obs ks).view j = some { s0 with xr := x } := fun ks =>
    XrWorld.view_of (w := XrWorld.mk w.cells w.obs ks) ho hc
  have hpush : ∀ (y : Pt ℝ) (ks : List Nat), (XrWorld.mk (w.cells ++ [y]) w.obs ks).view j = some { s0 with xr := x } :=
    fun y ks => XrWorld.view_of (w := XrWorld.mk (w.cells ++ [y]) w.obs ks) ho (getElem?_push hc)
  cases op with
  | construct mm ring x' => exact hadd _ _
  | copy i =>
    simp only [XrWorld.step, callOf, Option.toList_none, StarPoly.run, List.foldl_nil]
    split
    · exact hs
    · split
      · exact hs
      · exact hadd _ _
  | alloc p => exact hpush _ _
  | write b p =>
    simp only [XrWorld.step, callOf, Option.toList_none, StarPoly.run, List.foldl_nil]
    split
    · rename_i hb
      have hne : a ≠ b := hk hb _ (List.mem_of_getElem? ho)
      refine XrWorld.view_of (w := { w with cells := w.cells.set b p }) ho ?_
      show (w.cells.set b p)[a]? = _
      rw [List.getElem?_set_ne hne.symm, hc]
    · exact hs
  | xr i f =>
    simp only [XrWorld.step, callOf, Option.toList_none, StarPoly.run, List.foldl_nil]
    split
    · exact hs
    · split
      · exact hsame _
      · split
        · exact hs
        · split
          · exact hs
          · exact hpush _ _
  | setXr i b f =>
    by_cases hb : b ∈ w.known
    swap
    · simpa [XrWorld.step, callOf, hb, StarPoly.run] using hs
    rcases hcb : w.cells[b]? with _ | x'
    · have : w.step argsort (.setXr i b f) = w := by
        simp only [XrWorld.step, if_pos hb, hcb]
        split <;> simp_all
      rw [this]
      simpa [callOf, hcb, StarPoly.run] using hs
    by_cases hij : i = j
    · subst hij
      simp only [XrWorld.step, if_pos hb, ho, hcb, callOf, true_and, Option.map_some, Option.toList_some,
        StarPoly.run, List.foldl_cons, List.foldl_nil, StarPoly.step, StarPoly.setXr, Bool.false_eq_true, if_false]
      have hlt := (List.getElem?_eq_some_iff.1 ho).1
      by_cases hsa : sameArray s0.mm f = true
      · rw [if_pos hsa, sameArray_transform hsa]
        exact XrWorld.view_of (w := { w with obs := w.obs.set i (StarPoly.update argsort { s0 with xr := x' }, b) })
          (s0 := StarPoly.update argsort { s0 with xr := x' }) (a := b) (x := x') (by simp [hlt]) hcb
      · rw [if_neg hsa]
        rcases ht : transform s0.mm x' f .obstacle with e | y
        · exact hs
        · exact XrWorld.view_of (w := ⟨w.cells ++ [y], w.obs.set i (StarPoly.update argsort { s0 with xr := y },
            w.cells.length), w.known⟩) (s0 := StarPoly.update argsort { s0 with xr := y }) (a := w.cells.length) (x := y)
            (by simp [hlt]) (by simp)
    · simp only [XrWorld.step, if_pos hb, hcb, callOf, hij, false_and, if_false, Option.toList_none, StarPoly.run,
        List.foldl_nil]
      rcases hi : w.obs[i]? with _ | ⟨si, ai⟩
      · exact hs
      · by_cases hsa : sameArray si.mm f = true
        · simp only [hsa, if_true]
          exact XrWorld.view_of (w := { w with obs := w.obs.set i (StarPoly.update argsort { si with xr := x' }, b) })
            (by show (w.obs.set i _)[j]? = _; rw [List.getElem?_set_ne hij, ho]) hc
        · simp only [hsa, Bool.false_eq_true, if_false]
          rcases ht : transform si.mm x' f .obstacle with e | y
          · exact hs
          · exact XrWorld.view_of (w := ⟨w.cells ++ [y], w.obs.set i (StarPoly.update argsort { si with xr := y },
              w.cells.length), w.known⟩) (by show (w.obs.set i _)[j]? = _; rw [List.getElem?_set_ne hij, ho])
              (getElem?_push hc)
  | setPose i p =>
    by_cases hij : i = j
    · subst hij
      simp only [XrWorld.step, callOf, if_true, Option.toList_some, StarPoly.run, List.foldl_cons, List.foldl_nil,
        StarPoly.step]
      exact XrWorld.view_of (w := { w with obs := w.obs.modify i _ }) (a := a)
        (s0 := { s0 with mm := s0.mm.map fun _ => p }) (by simp [ho]) hc
    · simp only [XrWorld.step, callOf, hij, if_false, Option.toList_none, StarPoly.run, List.foldl_nil]
      exact XrWorld.view_of (w := { w with obs := w.obs.modify i _ })
        (by show (w.obs.modify i _)[j]? = _; rw [List.getElem?_modify_ne _ _ hij, ho]) hc
  | setMotionModel i mm =>
    by_cases hij : i = j
    · subst hij
      simp only [XrWorld.step, callOf, if_true, Option.toList_some, StarPoly.run, List.foldl_cons, List.foldl_nil,
        StarPoly.step]
      exact XrWorld.view_of (w := { w with obs := w.obs.modify i _ }) (a := a)
        (s0 := { s0 with mm := mm }) (by simp [ho]) hc
    · simp only [XrWorld.step, callOf, hij, if_false, Option.toList_none, StarPoly.run, List.foldl_nil]
      exact XrWorld.view_of (w := { w with obs := w.obs.modify i _ })
        (by show (w.obs.modify i _)[j]? = _; rw [List.getElem?_modify_ne _ _ hij, ho]) hc

theorem keepsXrRun_owns (argsort : List ℝ → List Nat) :
    ∀ (ops : List XrOp) (w : XrWorld), KeepsXrRun argsort w ops → Owns argsort w ops := by
  intro ops
  induction ops with
  | nil => intro w _ j s hs; simpa [XrWorld.run, StarPoly.run, callsOf] using hs
  | cons op ops ih =>
    intro w hk j s hs
    have h1 := XrWorld.step_view argsort hk.1 hs
    have h2 := ih _ hk.2 j _ h1
    simpa [XrWorld.run, StarPoly.run, callsOf, List.foldl_append] using h2

/-- No array of the program is a reference point, and every obstacle has a motion model. -/
def XrWorld.Apart (w : XrWorld) : Prop := (∀ o ∈ w.obs, o.1.mm.isSome ∧ o.2 ∉ w.known)

theorem XrWorld.Apart.step {w : XrWorld} (hw : w.Wf) (h : w.Apart) (argsort : List ℝ → List Nat) {op : XrOp}
    (hg : GlobalOp op) : (w.step argsort op).Apart := by
  have hfresh : w.cells.length ∉ w.known := fun hm => lt_irrefl _ (hw.2 _ hm)
  have hsame : ∀ {mm : Option Pose}, mm.isSome → sameArray mm .global = false := by
    intro mm hm
    cases mm
    · simp at hm
    · rfl
  have hnew : ∀ (o : StarPoly × Nat) (ks : List Nat), o ∈ w.obs → ks = w.known ++ [w.cells.length] →
      o.1.mm.isSome ∧ o.2 ∉ ks := by
    rintro o _ ho rfl
    refine ⟨(h o ho).1, fun hm => ?_⟩
    rcases List.mem_append.1 hm with hm | hm
    · exact (h o ho).2 hm
    · have := hw.1 o ho
      rw [List.mem_singleton] at hm
      omega
  have hadd : ∀ s x, s.mm.isSome → (w.addObs s x).Apart := by
    intro s x hm o ho
    rcases List.mem_append.1 ho with ho | ho
    · exact h o ho
    · rw [List.mem_singleton] at ho
      subst ho
      exact ⟨hm, hfresh⟩
  cases op with
  | construct mm ring x => exact hadd _ _ hg
  | copy i =>
    simp only [XrWorld.step]
    split
    · exact h
    · rename_i s a hi
      split
      · exact h
      · exact hadd _ _ (h _ (List.mem_of_getElem? hi)).1
  | alloc p => exact fun o ho => hnew o _ ho rfl
  | write b p =>
    simp only [XrWorld.step]
    split <;> exact h
  | xr i f =>
    simp only [XrWorld.step]
    split
    · exact h
    · rename_i s a hi
      rw [show f = .global from hg, hsame (h _ (List.mem_of_getElem? hi)).1]
      simp only [Bool.false_eq_true, if_false]
      split
      · exact h
      · split
        · exact h
        · exact fun o ho => hnew o _ ho rfl
  | setXr i b f =>
    simp only [XrWorld.step]
    split
    · split
      · rename_i s a x hi hb
        rw [show f = .global from hg, hsame (h _ (List.mem_of_getElem? hi)).1]
        simp only [Bool.false_eq_true, if_false]
        split
        · exact h
        · intro o ho
          rcases List.mem_or_eq_of_mem_set ho with ho | rfl
          · exact h o ho
          · exact ⟨(h _ (List.mem_of_getElem? hi)).1, hfresh⟩
      · exact h
    · exact h
  | setPose i p =>
    intro o ho
    rcases mem_modify ho with ho | ⟨y, hy, rfl⟩
    · exact h o ho
    · exact ⟨by simpa using (h y hy).1, (h y hy).2⟩
  | setMotionModel i mm =>
    intro o ho
    rcases mem_modify ho with ho | ⟨y, hy, rfl⟩
    · exact h o ho
    · exact ⟨hg, (h y hy).2⟩

theorem apart_keeps (argsort : List ℝ → List Nat) :
    ∀ (ops : List XrOp) (w : XrWorld), w.Wf → w.Apart → (∀ op ∈ ops, GlobalOp op) → KeepsXrRun argsort w ops := by
  intro ops
  induction ops with
  | nil => intros; trivial
  | cons op ops ih =>
    intro w hw h hg
    refine ⟨?_, ih _ (hw.step argsort op) (h.step hw argsort (hg op (by simp))) fun o ho => hg o (by simp [ho])⟩
    cases op <;> try trivial
    exact fun ha o ho he => (h o ho).2 (he ▸ ha)

theorem noWrite_keeps (argsort : List ℝ → List Nat) :
    ∀ (ops : List XrOp) (w : XrWorld), (∀ op ∈ ops, NoWrite op) → KeepsXrRun argsort w ops := by
  intro ops
  induction ops with
  | nil => intros; trivial
  | cons op ops ih =>
    intro w hg
    refine ⟨?_, ih _ fun o ho => hg o (by simp [ho])⟩
    cases op <;> try trivial
    exact absurd (hg _ (List.mem_cons_self ..)) (by simp [NoWrite])

theorem XrWorld.run_wf (argsort : List ℝ → List Nat) (ops : List XrOp) {w : XrWorld} (h : w.Wf) :
    (w.run argsort ops).Wf := by
  induction ops generalizing w with
  | nil => exact h
  | cons op ops ih => exact ih (h.step argsort op)

theorem XrWorld.Wf.view_none {w : XrWorld} (h : w.Wf) {j : Nat} (hv : w.view j = none) : w.obs.length ≤ j := by
  by_contra hj
  push Not at hj
  have ho := List.getElem?_eq_getElem hj
  have hc := List.getElem?_eq_getElem (h.1 _ (List.getElem_mem hj))
  rw [XrWorld.view_of (s0 := w.obs[j].1) (a := w.obs[j].2) ho hc] at hv
  simp at hv

theorem XrWorld.view_ge {w : XrWorld} {j : Nat} (h : w.obs.length ≤ j) : w.view j = none := by
  simp [XrWorld.view, List.getElem?_eq_none h]

theorem addObs_new {w : XrWorld} {s0 s : StarPoly} {x : Pt ℝ} {j : Nat} (hj : w.obs.length ≤ j)
    (hv : (w.addObs s0 x).view j = some s) : s = { s0 with xr := x } := by
  rcases hj.eq_or_lt with rfl | hlt
  · rw [XrWorld.view_of (w := w.addObs s0 x) (s0 := s0) (a := w.cells.length) (x := x) (by simp [XrWorld.addObs])
      (by simp [XrWorld.addObs])] at hv
    exact (Option.some.inj hv).symm
  · rw [XrWorld.view_ge (by simp [XrWorld.addObs]; omega)] at hv
    simp at hv

/-- A new obstacle is as the constructor makes it. -/
theorem XrWorld.step_view_new {w : XrWorld} (hw : w.Wf) (argsort : List ℝ → List Nat) {op : XrOp} {j : Nat}
    {s : StarPoly} (hj : w.view j = none) (hs : (w.step argsort op).view j = some s) :
    ∃ mm ring x, s = StarPoly.make argsort mm ring x := by
  have hl := hw.view_none hj
  have hno : ∀ {w' : XrWorld}, w'.obs.length = w.obs.length → w'.view j ≠ some s := fun h he => by
    rw [XrWorld.view_ge (by omega)] at he
    simp at he
  cases op with
  | construct mm ring x => exact ⟨mm, ring, x, addObs_new hl hs⟩
  | copy i =>
    simp only [XrWorld.step] at hs
    split at hs
    · exact absurd hs (hno rfl)
    · split at hs
      · exact absurd hs (hno rfl)
      · exact ⟨_, _, _, addObs_new hl hs⟩
  | alloc p => exact absurd hs (hno rfl)
  | write b p =>
    refine absurd hs (hno ?_)
    simp only [XrWorld.step]
    split <;> rfl
  | xr i f =>
    refine absurd hs (hno ?_)
    simp only [XrWorld.step]
    repeat' split
    all_goals rfl
  | setXr i b f =>
    refine absurd hs (hno ?_)
    simp only [XrWorld.step]
    repeat' split
    all_goals simp [XrWorld.push]
  | setPose i p => exact absurd hs (hno (by simp [XrWorld.step]))
  | setMotionModel i mm => exact absurd hs (hno (by simp [XrWorld.step]))

/-- A property that the constructor establishes and the methods keep holds after every program that keeps the
reference points. -/
theorem XrWorld.run_view {P : StarPoly → Prop} (argsort : List ℝ → List Nat)
    (hmake : ∀ mm ring x, P (StarPoly.make argsort mm ring x)) (hrun : ∀ s ops, P s → P (s.run argsort ops)) :
    ∀ (ops : List XrOp) (w : XrWorld), w.Wf → (∀ j s, w.view j = some s → P s) → KeepsXrRun argsort w ops →
      ∀ j s, (w.run argsort ops).view j = some s → P s := by
  intro ops
  induction ops with
  | nil => intro w _ h _ j s hs; exact h j s hs
  | cons op ops ih =>
    intro w hw h hk
    refine ih _ (hw.step argsort op) (fun j s hs => ?_) hk.2
    rcases hv : w.view j with _ | s0
    · obtain ⟨mm, ring, x, rfl⟩ := XrWorld.step_view_new hw argsort hv hs
      exact hmake _ _ _
    · rw [XrWorld.step_view argsort hk.1 hv, Option.some.injEq] at hs
      exact hs ▸ hrun _ _ (h j s0 hv)

end Starworlds
