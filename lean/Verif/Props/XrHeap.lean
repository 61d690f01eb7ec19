import Verif.Proofs.XrHeap
import Verif.Props.StarPolygon

/-! # C120: whose array is the reference point -/

namespace Starworlds

open Real Spec

theorem seenAt_cross {p q v : Pt ℝ} {t : ℝ} (h1 : SeenAt p v t) (h2 : SeenAt q v t) :
    (v.1 - p.1) * (v.2 - q.2) = (v.2 - p.2) * (v.1 - q.1) := by
  obtain ⟨r, _, h1⟩ := h1
  obtain ⟨r', _, h2⟩ := h2
  have a1 := congrArg Prod.fst h1
  have a2 := congrArg Prod.snd h1
  have b1 := congrArg Prod.fst h2
  have b2 := congrArg Prod.snd h2
  simp only [Prod.fst_add, Prod.snd_add, Prod.smul_fst, Prod.smul_snd, smul_eq_mul] at a1 a2 b1 b2
  rw [show v.1 - p.1 = r * cos t by linarith, show v.2 - p.2 = r * sin t by linarith,
    show v.1 - q.1 = r' * cos t by linarith, show v.2 - q.2 = r' * sin t by linarith]
  ring

theorem Sorted.anglesMatch {s : StarPoly} (h : Sorted s.ring s) : AnglesMatch s := by
  intro i hi
  by_cases hr : s.ring = []
  · rw [h.perm.length_eq, hr] at hi
    simp at hi
  · exact ((sorted_facts hr h).2.2.2.1 i (h.perm.length_eq ▸ hi)).1

/-- C120 (partial): whatever happened before, while a program does not write to an array that is the reference point
of an obstacle at that time, every obstacle is as the calls of its own methods make it, with the values the given
arrays have at the time of the call. -/
theorem C120_partial (argsort : List ℝ → List Nat) (pre ops : List XrOp)
    (h : KeepsXrRun argsort (XrWorld.empty.run argsort pre) ops) :
    Owns argsort (XrWorld.empty.run argsort pre) ops :=
  keepsXrRun_owns argsort ops _ h

/-- C120 (partial): in particular while the program does not write to arrays at all. -/
theorem C120_no_write_partial (argsort : List ℝ → List Nat) (pre ops : List XrOp) (h : ∀ op ∈ ops, NoWrite op) :
    Owns argsort (XrWorld.empty.run argsort pre) ops :=
  keepsXrRun_owns argsort ops _ (noWrite_keeps argsort ops _ h)

/-- C120 (partial): a program may write to all arrays it has if all obstacles have a motion model and all frames are
the global one. -/
theorem C120_global_partial (argsort : List ℝ → List Nat) (pre ops : List XrOp) (h1 : ∀ op ∈ pre, GlobalOp op)
    (h2 : ∀ op ∈ ops, GlobalOp op) : Owns argsort (XrWorld.empty.run argsort pre) ops := by
  have happ : ∀ (l : List XrOp) (w : XrWorld), w.Wf → w.Apart → (∀ op ∈ l, GlobalOp op) →
      (w.run argsort l).Apart := by
    intro l
    induction l with
    | nil => intro w _ h _; exact h
    | cons op l ih =>
      intro w hw h hg
      exact ih _ (hw.step argsort op) (h.step hw argsort (hg op (by simp))) fun o ho => hg o (by simp [ho])
  exact keepsXrRun_owns argsort ops _ (apart_keeps argsort ops _ (XrWorld.run_wf argsort pre XrWorld.empty_wf)
    (happ pre _ XrWorld.empty_wf (by simp [XrWorld.Apart, XrWorld.empty]) h1) h2)

/-- C120 (partial): after a program that never writes to a reference point, the vertex angles of every obstacle are
those about its reference point. -/
theorem C120_angles_partial (argsort : List ℝ → List Nat) (ha : IsArgsort argsort) (ops : List XrOp)
    (h : KeepsXrRun argsort XrWorld.empty ops) (j : Nat) (s : StarPoly)
    (hs : (XrWorld.empty.run argsort ops).view j = some s) : AnglesMatch s := by
  have hP := XrWorld.run_view (P := fun s => Sorted s.ring s) argsort
    (fun mm ring x => update_sorted ha _ rfl (List.Perm.refl _))
    (fun s l hs => by
      have h := run_sorted ha l hs
      rw [h.hring]
      exact h) ops XrWorld.empty XrWorld.empty_wf (by simp [XrWorld.view, XrWorld.empty]) h j s hs
  exact hP.anglesMatch

/-- C120: the array that `xr` returns holds the reference point in the frame that was asked for, and the call
changes no obstacle. -/
theorem C120_xr (argsort : List ℝ → List Nat) (w : XrWorld) (j : Nat) (s : StarPoly) (hs : w.view j = some s)
    (f : Frame) (hf : f.Valid) :
    let w' := w.step argsort (.xr j f)
    (∃ a, w'.known = w.known ++ [a] ∧ w'.cells[a]? = some (inFrame s.mm f s.xr)) ∧
      ∀ i t, w.view i = some t → w'.view i = some t := by
  refine ⟨?_, fun i t ht => ?_⟩
  · obtain ⟨s0, a, x, ho, hc, rfl⟩ := XrWorld.view_eq hs
    have ht := transform_from_obstacle s0.mm f hf x
    simp only [XrWorld.step, ho, hc, ht]
    by_cases hsa : sameArray s0.mm f = true
    · refine ⟨a, by simp [hsa], ?_⟩
      simp only [hsa, if_true, hc, Option.some.injEq]
      rcases hm : s0.mm with _ | p
      · rw [hm] at ht
        exact Except.ok.inj ht
      · have : f = .obstacle := by simpa [sameArray, hm] using hsa
        simp [this, inFrame]
    · exact ⟨w.cells.length, by simp [hsa], by simp [hsa, XrWorld.push]⟩
  · simpa [callOf, StarPoly.run] using XrWorld.step_view argsort (op := .xr j f) trivial ht

/-- A square. -/
def heapSquare : List (Pt ℝ) := [(0, 0), (1, 0), (1, 1), (0, 1)]

/-- The program gives an array to `set_xr`, and keeps it. -/
noncomputable def writeAfterSet : List XrOp :=
  [.construct (some ⟨(5, 5), 0⟩) heapSquare (1/2, 1/4), .alloc (1/2, 1/2), .setXr 0 1 .obstacle]

/-- The program gets an array from `xr`. -/
noncomputable def writeAfterGet : List XrOp :=
  [.construct (some ⟨(5, 5), 0⟩) heapSquare (1/2, 1/2), .xr 0 .obstacle]

/-- The same without a motion model and with the default arguments. -/
noncomputable def writeAfterGetStatic : List XrOp := [.construct none heapSquare (1/2, 1/2), .xr 0 .global]

/-- Two obstacles get the same array. -/
noncomputable def sharedXr : List XrOp :=
  [.construct none heapSquare (1/2, 1/4), .construct none heapSquare (1/2, 1/4), .alloc (1/2, 1/2),
    .setXr 0 2 .obstacle, .setXr 1 2 .obstacle]

/-- A write to the array that is the reference point replaces the reference point and nothing else. -/
theorem write_view (argsort : List ℝ → List Nat) {w : XrWorld} {j a : Nat} {s0 : StarPoly} {x : Pt ℝ} (p : Pt ℝ)
    (ho : w.obs[j]? = some (s0, a)) (hc : w.cells[a]? = some x) (hk : a ∈ w.known) :
    w.view j = some { s0 with xr := x } ∧ (w.run argsort [.write a p]).view j = some { s0 with xr := p } := by
  refine ⟨XrWorld.view_of ho hc, ?_⟩
  have hlt := (List.getElem?_eq_some_iff.1 hc).1
  simp only [XrWorld.run, List.foldl_cons, List.foldl_nil, XrWorld.step, if_pos hk]
  exact XrWorld.view_of (w := { w with cells := w.cells.set a p }) ho (by simp [hlt])

theorem write_breaks {argsort : List ℝ → List Nat} (ha : IsArgsort argsort) {w : XrWorld} {j a : Nat} {s0 : StarPoly}
    (ho : w.obs[j]? = some (s0, a)) (hc : w.cells[a]? = some (1/2, 1/2)) (hk : a ∈ w.known)
    (hs : Sorted heapSquare { s0 with xr := (1/2, 1/2) }) :
    ¬ Owns argsort w [.write a (1/2, 1/4)] ∧
      ∃ s, (w.run argsort [.write a (1/2, 1/4)]).view j = some s ∧ s.xr = (1/2, 1/4) ∧ ¬ AnglesMatch s := by
  obtain ⟨h1, h2⟩ := write_view argsort (1/2, 1/4) ho hc hk
  refine ⟨fun h => ?_, _, h2, rfl, fun h => ?_⟩
  · have h3 := h j _ h1
    rw [h2] at h3
    simp only [callsOf, callOf, Option.toList_none, List.nil_append, StarPoly.run, List.foldl_nil,
      Option.some.injEq, StarPoly.mk.injEq, Prod.mk.injEq] at h3
    have := h3.2.2.1.2
    norm_num at this
  · have hm : ((1, 1) : Pt ℝ) ∈ s0.vertices := hs.perm.mem_iff.2 (by simp [heapSquare])
    obtain ⟨i, hi, hv⟩ := List.getElem_of_mem hm
    have h3 := h i hi
    have h4 := (hs.hring ▸ hs : Sorted s0.ring { s0 with xr := (1/2, 1/2) }).anglesMatch i hi
    have h5 := seenAt_cross h3 h4
    simp only [List.getD_eq_getElem _ _ hi, hv] at h5
    norm_num at h5

/-- Such a program: it moves the reference point of a moving square in global coordinates, then reuses the array. -/
example (argsort : List ℝ → List Nat) :
    let pre : List XrOp := [.construct (some ⟨(5, 5), 0⟩) heapSquare (1/2, 1/2), .alloc (5 + 1/2, 5 + 1/4)]
    let ops : List XrOp := [.setXr 0 1 .global, .write 1 (0, 0), .xr 0 .global, .write 3 (7, 7)]
    ∃ s, ((XrWorld.empty.run argsort pre).run argsort ops).view 0 = some s ∧ s.xr = (1/2, 1/4) := by
  intro pre ops
  have h := C120_global_partial argsort pre ops (by simp [pre, GlobalOp]) (by simp [ops, GlobalOp]) 0
    (StarPoly.make argsort (some ⟨(5, 5), 0⟩) heapSquare (1/2, 1/2)) rfl
  refine ⟨_, h, ?_⟩
  simp [ops, pre, callsOf, callOf, XrWorld.run, XrWorld.step, XrWorld.empty, XrWorld.addObs, XrWorld.push, sameArray,
    StarPoly.run, StarPoly.step, StarPoly.setXr, StarPoly.make, StarPoly.update, transform, affineTransform]

/-- C120 does not hold in general: the reference point changes, without a call of a method of the obstacle and
without the vertex angles, when the program writes to an array that it gave to `set_xr`, or that it got from `xr` in
the obstacle frame, or from `xr()` without a motion model; and for two obstacles at once when both got the same
array. -/
theorem C120_false (argsort : List ℝ → List Nat) (ha : IsArgsort argsort) :
    (∀ c ∈ [(writeAfterSet, 0, 1), (writeAfterGet, 0, 0), (writeAfterGetStatic, 0, 0), (sharedXr, 0, 2),
        (sharedXr, 1, 2)],
      let w := XrWorld.empty.run argsort c.1
      ¬ Owns argsort w [.write c.2.2 (1/2, 1/4)] ∧
        ∃ s, (w.run argsort [.write c.2.2 (1/2, 1/4)]).view c.2.1 = some s ∧ s.xr = (1/2, 1/4) ∧ ¬ AnglesMatch s) := by
  have hsort : ∀ (mm : Option Pose), Sorted heapSquare (StarPoly.make argsort mm heapSquare (1/2, 1/2)) := fun mm =>
    update_sorted ha _ rfl (List.Perm.refl _)
  have hset : ∀ (mm : Option Pose), Sorted heapSquare (StarPoly.update argsort
      { StarPoly.make argsort mm heapSquare (1/2, 1/4) with xr := (1/2, 1/2) }) := fun mm => by
    refine update_sorted ha _ rfl ?_
    exact (update_sorted ha ⟨mm, heapSquare, (1/2, 1/4), heapSquare, [], _⟩ rfl (List.Perm.refl _)).perm
  intro c hc
  simp only [List.mem_cons, List.not_mem_nil, or_false] at hc
  rcases hc with rfl | rfl | rfl | rfl | rfl
  · exact write_breaks ha (s0 := StarPoly.update argsort
      { StarPoly.make argsort (some ⟨(5, 5), 0⟩) heapSquare (1/2, 1/4) with xr := (1/2, 1/2) }) rfl rfl
      (by simp [writeAfterSet, XrWorld.run, XrWorld.step, XrWorld.empty, XrWorld.addObs, XrWorld.push, sameArray])
      (hset _)
  · exact write_breaks ha rfl rfl (List.mem_singleton.2 rfl) (hsort _)
  · exact write_breaks ha rfl rfl (List.mem_singleton.2 rfl) (hsort _)
  · exact write_breaks ha (s0 := StarPoly.update argsort
      { StarPoly.make argsort none heapSquare (1/2, 1/4) with xr := (1/2, 1/2) }) rfl rfl
      (by simp [sharedXr, XrWorld.run, XrWorld.step, XrWorld.empty, XrWorld.addObs, XrWorld.push, sameArray]) (hset _)
  · exact write_breaks ha (s0 := StarPoly.update argsort
      { StarPoly.make argsort none heapSquare (1/2, 1/4) with xr := (1/2, 1/2) }) rfl rfl
      (by simp [sharedXr, XrWorld.run, XrWorld.step, XrWorld.empty, XrWorld.addObs, XrWorld.push, sameArray]) (hset _)

end Starworlds
