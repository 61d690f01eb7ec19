import Verif.Proofs.MotionHeap

/-! # C97-C99: the arrays that are the positions of motion models -/

namespace Starworlds

open Spec

/-! ## C97: only its own `move` and `set_pos` change the position of a motion model -/

/-- C97, one operation: when no two motion models share their position, an operation of a careful program
that is neither `move` nor `set_pos` of motion model `j` keeps the position of `j`, and positions stay
unshared.  Missing: programs that give the same object to two motion models or write to a position
(`C97_false`, `C97_write_false`). -/
theorem C97_partial {h : ArrHeap} (hs : Separate h) {op : ArrOp} (hc : Careful h op) :
    Separate (stepArr h op) ∧
      ∀ j p, h.position j = some p → ¬ OwnOp j op → (stepArr h op).position j = some p := by
  refine ⟨separate_step hs hc, fun j p hp hown => ?_⟩
  obtain ⟨a, ha, hv⟩ : ∃ a, h.posRef j = some a ∧ h.value a = some p := by
    simpa [ArrHeap.position, Option.bind_eq_some_iff] using hp
  have hj := posRef_lt ha
  have href : (stepArr h op).posRef j = some a := by
    rcases posRef_step h op j hj with e | ⟨b, e, _, _⟩ | ⟨dt, e, _⟩
    · rw [e, ha]
    · subst e; exact absurd rfl hown
    · subst e; exact absurd rfl hown
  have hcell : (stepArr h op).cells[a]? = h.cells[a]? := by
    refine cell_step h op a (hs.2 j a ha) (fun q e => ?_) (fun i dt e hi => ?_)
    · subst e; exact absurd ha (hc j)
    · subst e; exact absurd (hs.1 i j a hi ha) hown
  simp [ArrHeap.position, href, ArrHeap.value, hcell]
  simpa [ArrHeap.value] using hv

/-- C97, histories: in a careful program the position of `j` is kept by every history without own operations
of `j`. -/
theorem C97_history_partial {h : ArrHeap} (hs : Separate h) {ops : List ArrOp} (hc : CarefulRun h ops)
    {j : Nat} {p : Pt ℝ} (hp : h.position j = some p) (hown : ∀ op ∈ ops, ¬ OwnOp j op) :
    (runArr h ops).position j = some p := by
  induction ops generalizing h with
  | nil => exact hp
  | cons op ops ih =>
    have h1 := C97_partial hs hc.1
    exact ih h1.1 hc.2 (h1.2 j p hp (hown op (by simp))) fun o ho => hown o (by simp [ho])

/-- A program that starts with no objects starts with unshared positions. -/
theorem C97_start : Separate ArrHeap.empty := by
  constructor <;> simp [ArrHeap.posRef, ArrHeap.empty]

/-- C97, without `set_pos` and without writing every program is careful: each motion model has an array of
its own, made by its constructor. -/
theorem C97_no_set_pos {ops : List ArrOp}
    (h1 : ∀ j a, ArrOp.setPos j a ∉ ops) (h2 : ∀ a p, ArrOp.write a p ∉ ops) (h : ArrHeap) :
    CarefulRun h ops := by
  induction ops generalizing h with
  | nil => trivial
  | cons op ops ih =>
    refine ⟨?_, ih (fun j a m => h1 j a (by simp [m])) (fun a p m => h2 a p (by simp [m])) _⟩
    rcases op with _ | _ | ⟨a, p⟩ | ⟨j, a⟩ | _ | _
    · trivial
    · trivial
    · exact absurd (by simp) (h2 a p)
    · exact absurd (by simp) (h1 j a)
    · trivial
    · trivial

/-- The motion model that moves with velocity `(1, 0)`: `SinusVelocity(x1_mag=1)`. -/
noncomputable def eastward : MotionKind := .sinus true 1 0 0 0

theorem eastward_linVel (s : MotionState) : linVel eastward s = .ok ((1, 0), s) := by
  simp [eastward, linVel, sinusFreq]

/-- The program of `C97_false`: two motion models at `(0, 0)` and `(5, 5)`, then `m1.set_pos(m0.pos())`. -/
noncomputable def sharedHeap : ArrHeap :=
  runArr .empty [.construct eastward (0, 0) 0, .construct .static (5, 5) 0, .setPos 1 0]

theorem sharedHeap_eq : sharedHeap =
    ⟨[(.floatArray, (0, 0)), (.floatArray, (5, 5))], [⟨eastward, 0, 0, 0, 0⟩, ⟨.static, 0, 0, 0, 0⟩]⟩ := by
  simp [sharedHeap, runArr, stepArr, ArrHeap.empty]

/-- C97 is false: after `m1.set_pos(m0.pos())` moving `m0` moves `m1`, although `m1` is `Static`. -/
theorem C97_false : sharedHeap.posRef 0 = some 0 ∧ sharedHeap.position 1 = some (0, 0) ∧ ¬ OwnOp 1 (.move 0 2) ∧
    (stepArr sharedHeap (.move 0 2)).position 1 = some (2, 0) := by
  rw [sharedHeap_eq]
  refine ⟨rfl, rfl, by simp [OwnOp], ?_⟩
  simp [stepArr, moveHeap, eastward_linVel, ArrHeap.position, ArrHeap.posRef, ArrHeap.value]

/-- C97 is false: writing to the array that `pos()` returned moves the motion model. -/
theorem C97_write_false : ∃ h : ArrHeap, h = runArr .empty [.construct .static (5, 5) 0] ∧ h.posRef 0 = some 0 ∧
    h.position 0 = some (5, 5) ∧ (stepArr h (.write 0 (7, 5))).position 0 = some (7, 5) := by
  refine ⟨_, rfl, ?_, ?_, ?_⟩ <;>
    simp [runArr, stepArr, ArrHeap.empty, ArrHeap.posRef, ArrHeap.position, ArrHeap.value]

/-- An own operation does change the position, so that the exception in C97 is needed. -/
example : (stepArr (runArr .empty [.construct eastward (0, 0) 0, .construct .static (5, 5) 0]) (.move 0 2)).position 0
    = some (2, 0) := by
  simp [runArr, stepArr, ArrHeap.empty, moveHeap, eastward_linVel, ArrHeap.position, ArrHeap.posRef, ArrHeap.value]

/-- `C97_history_partial` applied: two motion models, the first moved twice, a third made in between, and the
second is where it was. -/
example : (runArr (runArr .empty [.construct eastward (0, 0) 0, .construct .static (5, 5) 0])
    [.move 0 2, .construct .static (1, 1) 0, .move 0 3]).position 1 = some (5, 5) := by
  refine C97_history_partial ?_ (C97_no_set_pos (by simp) (by simp) _) ?_ (by simp [OwnOp])
  · have h1 := (C97_partial C97_start (op := .construct eastward (0, 0) 0) trivial).1
    exact (C97_partial h1 (op := .construct .static (5, 5) 0) trivial).1
  · simp [runArr, stepArr, ArrHeap.empty, ArrHeap.position, ArrHeap.posRef, ArrHeap.value]

/-! ## C98: objects of the program are not changed behind its back -/

/-- C98, one operation: an object keeps its entries unless the program writes to it or a motion model moves
whose position it is and it is a float array.  Missing: float arrays that are positions (`C98_false`,
`C98_given_false`). -/
theorem C98_partial (h : ArrHeap) (op : ArrOp) {a : Nat} {p : Pt ℝ} (hv : h.value a = some p)
    (hw : ∀ q, op ≠ .write a q)
    (hfree : (∀ j, h.posRef j ≠ some a) ∨ ∃ tag, tag ≠ .floatArray ∧ h.cells[a]? = some (tag, p)) :
    (stepArr h op).value a = some p := by
  have ha : a < h.cells.length := by
    by_contra hn
    simp [ArrHeap.value, List.getElem?_eq_none (Nat.le_of_not_lt hn)] at hv
  have := cell_step h op a ha hw fun j dt _ hj => by
    rcases hfree with hf | ⟨tag, ht, hc⟩
    · exact absurd hj (hf j)
    · simp [hc, ht]
  simpa [ArrHeap.value, this] using hv

/-- C98, lists, tuples and integer arrays: no history changes their entries, whatever they are given to,
unless the program itself writes to them. -/
theorem C98_other_partial (h : ArrHeap) (ops : List ArrOp) {a : Nat} {tag : CellTag} {p : Pt ℝ}
    (hv : h.cells[a]? = some (tag, p)) (ht : tag ≠ .floatArray) (hw : ∀ q, .write a q ∉ ops) :
    (runArr h ops).value a = some p := by
  suffices (runArr h ops).cells[a]? = some (tag, p) by simp [ArrHeap.value, this]
  induction ops generalizing h with
  | nil => exact hv
  | cons op ops ih =>
    refine ih (stepArr h op) ?_ fun q m => hw q (by simp [m])
    have ha : a < h.cells.length := by
      by_contra hn
      simp [List.getElem?_eq_none (Nat.le_of_not_lt hn)] at hv
    rw [cell_step h op a ha (fun q e => hw q (by simp [e])) fun j dt _ _ => by simp [hv, ht], hv]

/-- C98, arrays that are never given to `set_pos`, among them the arguments of constructors: no history
changes them unless the program writes to them. -/
theorem C98_kept_partial (h : ArrHeap) (ops : List ArrOp) {a : Nat} {p : Pt ℝ} (hv : h.value a = some p)
    (hfree : ∀ j, h.posRef j ≠ some a) (hset : ∀ j, .setPos j a ∉ ops) (hw : ∀ q, .write a q ∉ ops) :
    (runArr h ops).value a = some p := by
  induction ops generalizing h with
  | nil => exact hv
  | cons op ops ih =>
    have ha : a < h.cells.length := by
      by_contra hn
      simp [ArrHeap.value, List.getElem?_eq_none (Nat.le_of_not_lt hn)] at hv
    refine ih (stepArr h op) (C98_partial h op hv (fun q e => hw q (by simp [e])) (.inl hfree)) ?_
      (fun j m => hset j (by simp [m])) fun q m => hw q (by simp [m])
    intro j hj
    by_cases hjl : j < h.mms.length
    · rcases posRef_step h op j hjl with e | ⟨b, e, _, hb⟩ | ⟨dt, e, hb⟩
      · exact hfree j (e ▸ hj)
      · rw [hj, Option.some.injEq] at hb
        subst hb
        exact hset j (by simp [e])
      · rw [hj, Option.some.injEq] at hb; omega
    · rcases op with ⟨k, q, r⟩ | ⟨tag, q⟩ | ⟨b, q⟩ | ⟨i, b⟩ | ⟨i, r⟩ | ⟨i, dt⟩
      · have hl := posRef_lt hj
        simp [stepArr] at hl
        have : j = h.mms.length := by omega
        subst this
        simp [stepArr, ArrHeap.posRef] at hj
        omega
      · exact hfree j hj
      · exact hfree j hj
      · have hl := posRef_lt hj
        by_cases hb : b < h.cells.length <;> simp [stepArr, hb] at hl <;> omega
      · have hl := posRef_lt hj
        simp [stepArr] at hl; omega
      · have hl := posRef_lt hj
        rcases moveHeap_cases h i dt with e | ⟨m, tag, q, hm, hc, hh⟩
        · simp [stepArr, e] at hl; omega
        · rcases hh with ⟨_, _, m1, e1, e⟩ | ⟨_, q, m2, e1, e⟩ | ⟨_, q, m2, e1, e⟩ <;>
            simp [stepArr, e] at hl <;> omega

/-- C98 is false: the array that `pos()` returned has other entries after the next `move`. -/
theorem C98_false : ∃ h : ArrHeap, h = runArr .empty [.construct eastward (0, 0) 0] ∧ h.posRef 0 = some 0 ∧
    h.value 0 = some (0, 0) ∧ (stepArr h (.move 0 2)).value 0 = some (2, 0) := by
  refine ⟨_, rfl, ?_, ?_, ?_⟩ <;>
    simp [runArr, stepArr, ArrHeap.empty, moveHeap, eastward_linVel, ArrHeap.posRef, ArrHeap.value]

/-- C98 is false: an array of the program (address 1) that was given to `set_pos` is changed by `move`. -/
theorem C98_given_false : ∃ h : ArrHeap,
    h = runArr .empty [.construct eastward (0, 0) 0, .alloc .floatArray (3, 4), .setPos 0 1] ∧
    h.value 1 = some (3, 4) ∧ (stepArr h (.move 0 2)).value 1 = some (5, 4) := by
  refine ⟨_, rfl, ?_, ?_⟩ <;>
    simp [runArr, stepArr, ArrHeap.empty, moveHeap, eastward_linVel, ArrHeap.value]
  norm_num

/-- The same with a list: the motion model goes to `(5, 4)`, the list of the program stays. -/
example : ∃ h : ArrHeap,
    h = runArr .empty [.construct eastward (0, 0) 0, .alloc .list (3, 4), .setPos 0 1, .move 0 2] ∧
    h.value 1 = some (3, 4) ∧ h.position 0 = some (5, 4) := by
  refine ⟨_, rfl, ?_, ?_⟩ <;>
    simp [runArr, stepArr, ArrHeap.empty, moveHeap, eastward_linVel, ArrHeap.value, ArrHeap.position, ArrHeap.posRef]
  norm_num

/-! ## C99: `move` works for every position that `set_pos` accepts -/

/-- C99, float arrays and lists: `move` on the heap gives exactly the state of `motionMove` (C46-C49), and
fails exactly when it fails.  Missing: integer arrays and tuples (`C99_int_false`, `C99_tuple_false`). -/
theorem C99_partial {h : ArrHeap} {j : Nat} {m : MotionObj} {tag : CellTag} {p : Pt ℝ}
    (hm : h.mms[j]? = some m) (hc : h.cells[m.ref]? = some (tag, p)) (ht : tag = .floatArray ∨ tag = .list) (dt : ℝ) :
    match motionMove m.kind (m.state p) dt with
    | .ok s => (moveHeap h j dt).2 = .ok () ∧ (moveHeap h j dt).1.state j = some s
    | .error e => (moveHeap h j dt).2 = .error e ∧ (moveHeap h j dt).1 = h := by
  have hj : j < h.mms.length := posRef_lt (posRef_some hm)
  have hr : m.ref < h.cells.length := by
    by_contra hn
    simp [List.getElem?_eq_none (Nat.le_of_not_lt hn)] at hc
  rcases hl : linVel m.kind (m.state p) with e | ⟨v, s⟩
  · simp [motionMove, hl, moveHeap, hm, hc]
  · obtain ⟨k1, k2, k3⟩ := linVel_keeps hl
    simp only [motionMove, hl]
    rcases ht with rfl | rfl
    · rw [moveHeap_float hm hc hl]
      simp [ArrHeap.state, ArrHeap.value, MotionObj.state, hj, hr, k1]
    · rw [moveHeap_list hm hc hl]
      simp [ArrHeap.state, ArrHeap.value, MotionObj.state, hj, k1]

/-- C99, integer arrays and tuples: every `move` fails, and the position stays. -/
theorem C99_fails_partial {h : ArrHeap} {j : Nat} {m : MotionObj} {tag : CellTag} {p : Pt ℝ}
    (hm : h.mms[j]? = some m) (hc : h.cells[m.ref]? = some (tag, p)) (ht : tag = .intArray ∨ tag = .tuple) (dt : ℝ) :
    (∃ e, (moveHeap h j dt).2 = .error e) ∧ (moveHeap h j dt).1.position j = some p := by
  have hj : j < h.mms.length := posRef_lt (posRef_some hm)
  rcases hl : linVel m.kind (m.state p) with e | ⟨v, s⟩
  · simp [hl, moveHeap, hm, hc, ArrHeap.position, ArrHeap.posRef, ArrHeap.value]
  · rcases ht with rfl | rfl
    · rw [moveHeap_int hm hc hl]
      simp [ArrHeap.position, ArrHeap.posRef, ArrHeap.value, hj, hc]
    · rw [moveHeap_tuple hm hc hl]
      simp [ArrHeap.position, ArrHeap.posRef, ArrHeap.value, hj, hc]

/-- C99 is false: after `set_pos(np.array([3, 4]))` (integers) `move` raises, also for `Static`. -/
theorem C99_int_false : ∃ h : ArrHeap,
    h = runArr .empty [.construct .static (0, 0) 0, .alloc .intArray (3, 4), .setPos 0 1] ∧
    h.position 0 = some (3, 4) ∧ ∀ dt, (moveHeap h 0 dt).2 = .error .typeError := by
  refine ⟨_, rfl, ?_, fun dt => ?_⟩ <;>
    simp [runArr, stepArr, ArrHeap.empty, moveHeap, linVel, ArrHeap.value, ArrHeap.position, ArrHeap.posRef]

/-- C99 is false: after `set_pos((3., 4.))` `move` raises. -/
theorem C99_tuple_false : ∃ h : ArrHeap,
    h = runArr .empty [.construct .static (0, 0) 0, .alloc .tuple (3, 4), .setPos 0 1] ∧
    h.position 0 = some (3, 4) ∧ ∀ dt, (moveHeap h 0 dt).2 = .error .attributeError := by
  refine ⟨_, rfl, ?_, fun dt => ?_⟩ <;>
    simp [runArr, stepArr, ArrHeap.empty, moveHeap, linVel, ArrHeap.value, ArrHeap.position, ArrHeap.posRef]

/-- C99, careful programs: whatever the other motion models do in between, motion model `j` gets from its
moves exactly what `runMoves` says, as long as no `set_pos` and no `set_rot` is called for it.  This is what
the statements of C46-C49 on `runMoves` mean for programs with several motion models. -/
theorem C99_run_partial {h : ArrHeap} (hs : Separate h) {ops : List ArrOp} (hc : CarefulRun h ops) {j : Nat}
    {m : MotionObj} {tag : CellTag} {p : Pt ℝ} (hm : h.mms[j]? = some m) (hcell : h.cells[m.ref]? = some (tag, p))
    (ht : tag = .floatArray ∨ tag = .list) (hset : ∀ a, .setPos j a ∉ ops) (hrot : ∀ r, .setRot j r ∉ ops)
    {s : MotionState}
    (hrun : runMoves m.kind (m.state p)
      (ops.filterMap fun o => match o with | .move i dt => if i = j then some dt else none | _ => none) = .ok s) :
    (runArr h ops).state j = some s := by
  induction ops generalizing h m p tag with
  | nil =>
    simp only [List.filterMap_nil, runMoves, Except.ok.injEq] at hrun
    simp [runArr, ArrHeap.state, hm, ArrHeap.value, hcell, hrun]
  | cons op ops ih =>
    have hj : j < h.mms.length := posRef_lt (posRef_some hm)
    have hr : m.ref < h.cells.length := hs.2 j m.ref (posRef_some hm)
    have hset' : ∀ a, .setPos j a ∉ ops := fun a e => hset a (by simp [e])
    have hrot' : ∀ r, .setRot j r ∉ ops := fun r e => hrot r (by simp [e])
    have hs' := separate_step hs hc.1
    by_cases hmv : ∃ dt, op = .move j dt
    · obtain ⟨dt, rfl⟩ := hmv
      simp only [List.filterMap_cons, if_true, runMoves] at hrun
      rcases hl : linVel m.kind (m.state p) with e | ⟨v, s1⟩
      · simp [motionMove, hl] at hrun
      obtain ⟨k1, k2, k3⟩ := linVel_keeps hl
      simp only [motionMove, hl] at hrun
      rcases ht with rfl | rfl
      · refine ih hs' hc.2 (m := { m with wpIdx := s1.wpIdx, rot := s1.rot + rotVel m.kind s1 * dt, t := s1.t + dt })
          (p := p + dt • v) (tag := .floatArray) ?_ ?_ (.inl rfl) hset' hrot' ?_
        · simp only [stepArr]; rw [moveHeap_float hm hcell hl]; simp [hj]
        · simp only [stepArr]; rw [moveHeap_float hm hcell hl]; simp [hr]
        · rw [← hrun]; simp [MotionObj.state, k1]
      · refine ih hs' hc.2 (m := { m with wpIdx := s1.wpIdx, rot := s1.rot + rotVel m.kind s1 * dt, t := s1.t + dt,
                                           ref := h.cells.length })
          (p := p + dt • v) (tag := .floatArray) ?_ ?_ (.inl rfl) hset' hrot' ?_
        · simp only [stepArr]; rw [moveHeap_list hm hcell hl]; simp [hj]
        · simp only [stepArr]; rw [moveHeap_list hm hcell hl]; simp
        · rw [← hrun]; simp [MotionObj.state, k1]
    · have hmm : (stepArr h op).mms[j]? = some m := by
        rcases op with ⟨k, q, r⟩ | ⟨tag', q⟩ | ⟨b, q⟩ | ⟨i, b⟩ | ⟨i, r⟩ | ⟨i, dt⟩
        · simp [stepArr, List.getElem?_append_left hj, hm]
        · exact hm
        · exact hm
        · have : i ≠ j := fun e => hset b (by simp [e])
          by_cases hb : b < h.cells.length <;> simp [stepArr, hb, this, hm]
        · have : i ≠ j := fun e => hrot r (by simp [e])
          simp [stepArr, this, hm]
        · have : i ≠ j := fun e => hmv ⟨dt, by rw [e]⟩
          rcases moveHeap_cases h i dt with e | ⟨m', tag', q, hm', hc', hh⟩
          · simp [stepArr, e, hm]
          · rcases hh with ⟨_, _, m1, e1, e⟩ | ⟨_, q, m2, e1, e⟩ | ⟨_, q, m2, e1, e⟩ <;>
              simp [stepArr, e, this, hm]
      have hcc : (stepArr h op).cells[m.ref]? = some (tag, p) := by
        rw [cell_step h op m.ref hr ?_ ?_, hcell]
        · rintro q rfl
          exact hc.1 j (posRef_some hm)
        · rintro i dt rfl hi
          exact absurd ⟨dt, by rw [hs.1 i j m.ref hi (posRef_some hm)]⟩ hmv
      refine ih hs' hc.2 hmm hcc ht hset' hrot' ?_
      rw [← hrun]
      congr 1
      rcases op with _ | _ | _ | _ | _ | ⟨i, dt⟩
      all_goals try rfl
      have : i ≠ j := fun e => hmv ⟨dt, by rw [e]⟩
      simp [this]

/-- `C99_run_partial` applied: two motion models are moved in turn, the second one by 2 and 3. -/
example : (runArr (runArr .empty [.construct .static (0, 0) 0, .construct eastward (1, 1) 0])
    [.move 0 7, .move 1 2, .move 0 7, .move 1 3]).state 1 = some ⟨(6, 1), 0, 5, 0⟩ := by
  refine C99_run_partial (m := ⟨eastward, 1, 0, 0, 0⟩) (tag := .floatArray) (p := (1, 1)) ?_
    (C97_no_set_pos (by simp) (by simp) _) ?_ ?_ (.inl rfl) (by simp) (by simp) ?_
  · have h1 := (C97_partial C97_start (op := .construct .static (0, 0) 0) trivial).1
    exact (C97_partial h1 (op := .construct eastward (1, 1) 0) trivial).1
  · simp [runArr, stepArr, ArrHeap.empty]
  · simp [runArr, stepArr, ArrHeap.empty]
  · simp only [List.filterMap_cons, List.filterMap_nil]
    simp [eastward_linVel, runMoves, motionMove, MotionObj.state]
    simp [rotVel, eastward]
    norm_num

end Starworlds
