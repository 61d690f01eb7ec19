import Verif.Model.World
import Mathlib.Tactic.Linarith
import Mathlib.Data.List.Basic

/-! # C20, C27: ids and independence of copies -/

namespace Starworlds

variable {M : Type*}

/-! ## C20 -/

/-- What C20 says about the obstacles `obs` of a program whose counter is `c`. -/
structure IdsOk (c : Nat) (obs : List ObRec) : Prop where
  /-- every id is between 1 and the counter -/
  range : ∀ o ∈ obs, ∀ k, o.id = some k → 1 ≤ k ∧ k ≤ c
  /-- an obstacle created with `id='new'` has an id -/
  new_some : ∀ o ∈ obs, o.byNew = true → o.id ≠ none
  /-- two obstacles created with `id='new'` have different ids -/
  unique : obs.Pairwise fun o o' => o.byNew = true → o'.byNew = true → o.id ≠ o'.id

theorem setId_range {c : Nat} {r : IdReq} {k : Nat} (h : (setId c r).2 = some k) :
    1 ≤ k ∧ k ≤ (setId c r).1 := by
  cases r with
  | new => simp [setId] at h ⊢; omega
  | temporary => simp [setId] at h
  | other => simp [setId] at h
  | int j =>
    simp only [setId] at h ⊢
    split at h
    · rename_i hj
      rw [if_pos hj]
      simp at h ⊢; omega
    · simp at h

theorem setId_mono (c : Nat) (r : IdReq) : c ≤ (setId c r).1 := by
  cases r <;> simp [setId]
  split <;> simp

theorem copyId_mono (c : Nat) (kd : CopyKind) (src : Option Nat) (r : CopyReq) : c ≤ (copyId c kd src r).1 := by
  cases r with
  | req r => exact setId_mono c r
  | duplicate =>
    cases kd with
    | deep => exact le_refl _
    | rebuild => cases src <;> exact setId_mono c _

theorem copyId_range {c : Nat} {kd : CopyKind} {src : Option Nat} {r : CopyReq} {k : Nat}
    (hs : ∀ k, src = some k → 1 ≤ k ∧ k ≤ c) (h : (copyId c kd src r).2 = some k) :
    1 ≤ k ∧ k ≤ (copyId c kd src r).1 := by
  cases r with
  | req r => exact setId_range h
  | duplicate =>
    cases kd with
    | deep => exact hs k h
    | rebuild =>
      cases src with
      | none => exact setId_range h
      | some j => exact setId_range h

theorem idsOk_append {c c' : Nat} {obs : List ObRec} (h : IdsOk c obs) (hc : c ≤ c') (o : ObRec)
    (hr : ∀ k, o.id = some k → 1 ≤ k ∧ k ≤ c') (hn : o.byNew = true → o.id = some (c + 1)) :
    IdsOk c' (obs ++ [o]) := by
  refine ⟨?_, ?_, ?_⟩
  · intro p hp k hk
    rcases List.mem_append.1 hp with hp | hp
    · have := h.range p hp k hk; omega
    · rw [List.mem_singleton] at hp; subst hp; exact hr k hk
  · intro p hp hb
    rcases List.mem_append.1 hp with hp | hp
    · exact h.new_some p hp hb
    · rw [List.mem_singleton] at hp; subst hp; rw [hn hb]; simp
  · rw [List.pairwise_append]
    refine ⟨h.unique, by simp, ?_⟩
    intro p hp q hq hb hb' e
    rw [List.mem_singleton] at hq; subst hq
    rw [hn hb'] at e
    have := h.range p hp _ e
    omega

/-- One operation keeps the C20 facts and never decreases the counter. -/
theorem C20_step (step : ℝ → M → M) (w : World M) (op : WOp M) (h : IdsOk w.counter w.obs) :
    IdsOk (stepW step w op).counter (stepW step w op).obs ∧ w.counter ≤ (stepW step w op).counter := by
  cases op with
  | construct kd r mm =>
    refine ⟨idsOk_append h (setId_mono _ _) _ (fun k hk => setId_range hk) ?_, setId_mono _ _⟩
    intro hb
    cases r <;> simp [IdReq.isNew] at hb
    rfl
  | copy i r =>
    simp only [stepW]
    split
    · exact ⟨h, le_refl _⟩
    · rename_i o ho
      have hm : o ∈ w.obs := List.mem_of_getElem? ho
      refine ⟨idsOk_append h (copyId_mono _ _ _ _) _ (fun k hk => copyId_range (h.range o hm) hk) ?_,
        copyId_mono _ _ _ _⟩
      intro hb
      cases r with
      | duplicate => simp [CopyReq.isNew] at hb
      | req r =>
        cases r <;> simp [CopyReq.isNew, IdReq.isNew] at hb
        rfl
  | move i dt =>
    simp only [stepW]
    split <;> exact ⟨h, le_refl _⟩
  | setMotionModel i mm =>
    refine ⟨⟨?_, ?_, ?_⟩, le_refl _⟩
    · intro o ho k hk
      simp only [stepW] at ho hk ⊢
      obtain ⟨j, hj, rfl⟩ := List.getElem_of_mem ho
      rw [List.getElem_modify] at hk
      rw [List.length_modify] at hj
      split at hk <;> exact h.range _ (List.getElem_mem hj) k hk
    · intro o ho hb
      simp only [stepW] at ho
      obtain ⟨j, hj, rfl⟩ := List.getElem_of_mem ho
      rw [List.getElem_modify] at hb ⊢
      rw [List.length_modify] at hj
      split at hb <;> split <;> first | contradiction | exact h.new_some w.obs[j] (List.getElem_mem hj) hb
    · simp only [stepW]
      rw [List.pairwise_iff_getElem]
      intro a b ha hb hab h1 h2
      rw [List.length_modify] at ha hb
      rw [List.getElem_modify] at h1 h2 ⊢
      rw [List.getElem_modify]
      have key := List.pairwise_iff_getElem.1 h.unique a b ha hb hab
      split at h1 <;> split at h2 <;> (try split) <;> first | contradiction | exact key h1 h2

/-- C20: after any history of constructing, copying, moving: ids of obstacles created with `'new'` are
pairwise different, every id lies between 1 and the counter. -/
theorem C20_unique (step : ℝ → M → M) (ops : List (WOp M)) :
    IdsOk (runW step World.empty ops).counter (runW step World.empty ops).obs := by
  have key : ∀ (ops : List (WOp M)) (w : World M), IdsOk w.counter w.obs →
      IdsOk (runW step w ops).counter (runW step w ops).obs := by
    intro ops
    induction ops with
    | nil => exact fun w h => h
    | cons op ops ih => exact fun w h => ih _ (C20_step step w op h).1
  exact key ops _ ⟨by simp [World.empty], by simp [World.empty], by simp [World.empty]⟩

/-- C20: the counter never decreases, whatever the starting state. -/
theorem C20_counter_mono (step : ℝ → M → M) (w : World M) (ops : List (WOp M)) :
    w.counter ≤ (runW step w ops).counter := by
  have h1 : ∀ (w : World M) (op : WOp M), w.counter ≤ (stepW step w op).counter := by
    intro w op
    cases op with
    | construct kd r mm => exact setId_mono _ _
    | copy i r =>
      simp only [stepW]
      split
      · exact le_refl _
      · exact copyId_mono _ _ _ _
    | move i dt => simp only [stepW]; split <;> exact le_refl _
    | setMotionModel i mm => exact le_refl _
  induction ops generalizing w with
  | nil => exact le_refl _
  | cons op ops ih => exact (h1 w op).trans (ih _)

/-- C20: a `'temporary'` or invalid request gives no id and leaves the counter alone; a valid existing id
is taken as it is; `'new'` advances the counter by one and gives that number. -/
theorem C20_requests (c : Nat) :
    setId c .temporary = (c, none) ∧ setId c .other = (c, none) ∧
    (∀ k : Int, ¬ (0 < k ∧ k ≤ c) → setId c (.int k) = (c, none)) ∧
    (∀ k : Nat, 0 < k → k ≤ c → setId c (.int k) = (c, some k)) ∧
    setId c .new = (c + 1, some (c + 1)) := by
  refine ⟨rfl, rfl, ?_, ?_, rfl⟩
  · intro k hk; simp [setId, hk]
  · intro k h1 h2; simp [setId]; omega

/-- C20: a duplicate has the id of the original, for every class, as long as the original's id is one
the counter has reached (always the case, `C20_unique`). -/
theorem C20_duplicate (c : Nat) (kd : CopyKind) (src : Option Nat)
    (hs : ∀ k, src = some k → 1 ≤ k ∧ k ≤ c) : copyId c kd src .duplicate = (c, src) := by
  cases kd with
  | deep => rfl
  | rebuild =>
    cases src with
    | none => rfl
    | some k =>
      have := hs k rfl
      simp [copyId, setId]; omega

/-- Default names of obstacles with different ids differ. -/
theorem C20_names (i j : Option Nat) (h : setName none i = setName none j) (hi : i ≠ none) (hj : j ≠ none) :
    i = j := by
  cases i with
  | none => exact absurd rfl hi
  | some a => cases j with
    | none => exact absurd rfl hj
    | some b =>
      simp only [setName] at h
      have : Nat.repr a = Nat.repr b := h
      have hd : Nat.toDigits 10 a = Nat.toDigits 10 b := by
        rw [← Nat.toList_repr, ← Nat.toList_repr, this]
      have := congrArg (fun l => Nat.ofDigitChars 10 l 0) hd
      simp only [Nat.ofDigitChars_toDigits (b := 10) (by omega) (by omega)] at this
      rw [this]

/-- C20: a given name is used as it is; without a name, or with an empty one, the name is the id as text. -/
theorem C20_given_name (n : String) (i : Option Nat) :
    (n ≠ "" → setName (some n) i = n) ∧ setName (some "") i = setName none i ∧
      ∀ k : Nat, setName none (some k) = toString k := by
  refine ⟨fun h => ?_, ?_, fun k => rfl⟩
  · have : n.isEmpty = false := by
      rw [Bool.eq_false_iff]; intro hc; exact h (String.isEmpty_iff.1 hc)
    simp [setName, this]
  · simp [setName]

/-- A history with two new obstacles, a copy, a duplicate and an invalid id. -/
example : ((runW (fun _ m => m) (World.empty (M := Unit))
    [.construct .rebuild .new .none, .construct .deep .new .none, .copy 0 (.req .new), .copy 1 .duplicate,
     .construct .deep (.int 7) .none, .construct .deep (.int 2) .none]).obs.map ObRec.id) =
    [some 1, some 2, some 3, some 2, none, some 2] := by decide +kernel

/-! ## C27 -/

/-- No two obstacles refer to the same motion model object, and all references are valid. -/
structure NoShare (w : World M) : Prop where
  valid : ∀ o ∈ w.obs, ∀ r, o.ref = some r → r < w.heap.length
  distinct : w.obs.Pairwise fun o o' => ∀ r, o.ref = some r → o'.ref ≠ some r

theorem noShare_append {w : World M} (h : NoShare w) (c : Nat) (heap' : List M) (o : ObRec)
    (hl : w.heap.length ≤ heap'.length)
    (hr : ∀ r, o.ref = some r → r < heap'.length ∧ w.heap.length ≤ r) :
    NoShare (⟨c, heap', w.obs ++ [o]⟩ : World M) := by
  refine ⟨?_, ?_⟩
  · intro p hp r hr'
    rcases List.mem_append.1 hp with hp | hp
    · exact (h.valid p hp r hr').trans_le hl
    · rw [List.mem_singleton] at hp; subst hp; exact (hr r hr').1
  · simp only []
    rw [List.pairwise_append]
    refine ⟨h.distinct, by simp, ?_⟩
    intro p hp q hq r h1 h2
    rw [List.mem_singleton] at hq; subst hq
    have := h.valid p hp r h1
    have := (hr r h2).2
    omega

/-- The programs of the true part of C27: no motion model object is passed to a second obstacle, and
only classes with the deep `copy` (Polygon, StarshapedPrimitiveCombination) are copied. -/
def OpOk (w : World M) : WOp M → Prop
  | .construct _ _ mm => ∀ r, mm ≠ .existing r
  | .copy i _ => ∀ o, w.obs[i]? = some o → o.kind = .deep
  | .move _ _ => True
  | .setMotionModel _ mm => ∀ r, mm ≠ .existing r

theorem noShare_step (step : ℝ → M → M) (w : World M) (op : WOp M) (h : NoShare w) (hop : OpOk w op) :
    NoShare (stepW step w op) := by
  cases op with
  | construct kd r mm =>
    cases mm with
    | none => exact noShare_append h _ _ _ (le_refl _) (by simp [allocMM])
    | fresh m => exact noShare_append h _ _ _ (by simp [allocMM]) (by simp [allocMM])
    | existing r => exact absurd rfl (hop r)
  | copy i r =>
    simp only [stepW]
    split
    · exact h
    · rename_i o ho
      have hk := hop o ho
      have hm : o ∈ w.obs := List.mem_of_getElem? ho
      cases hro : o.ref with
      | none => exact noShare_append h _ _ _ (by simp [copyMM]) (by simp [copyMM])
      | some r0 =>
        have hv := h.valid o hm r0 hro
        have e : copyMM w.heap o.kind (some r0) = (w.heap ++ [w.heap[r0]], some w.heap.length) := by
          rw [hk]; simp [copyMM, List.getElem?_eq_getElem hv]
        rw [e]
        exact noShare_append h _ _ _ (by simp) (by simp)
  | move i dt =>
    simp only [stepW]
    split
    · exact ⟨fun o ho r hr => by simpa using h.valid o ho r hr, h.distinct⟩
    · exact h
  | setMotionModel i mm =>
    have hlen : w.heap.length ≤ (allocMM w.heap mm).1.length := by
      cases mm <;> simp [allocMM]
      split <;> simp
    have hnew : ∀ r, (allocMM w.heap mm).2 = some r → r < (allocMM w.heap mm).1.length ∧ w.heap.length ≤ r := by
      cases mm with
      | none => simp [allocMM]
      | fresh m => simp [allocMM]
      | existing r => exact absurd rfl (hop r)
    refine ⟨?_, ?_⟩
    · intro o ho r hr
      simp only [stepW] at ho ⊢
      obtain ⟨j, hj, rfl⟩ := List.getElem_of_mem ho
      rw [List.getElem_modify] at hr
      rw [List.length_modify] at hj
      split at hr
      · exact (hnew r hr).1
      · exact (h.valid _ (List.getElem_mem hj) r hr).trans_le hlen
    · simp only [stepW]
      rw [List.pairwise_iff_getElem]
      intro a b ha hb hab r h1 h2
      rw [List.length_modify] at ha hb
      rw [List.getElem_modify] at h1 h2
      split at h1
      · split at h2
        · omega
        · have := (hnew r h1).2
          have := h.valid _ (List.getElem_mem hb) r h2
          omega
      · split at h2
        · have := (hnew r h2).2
          have := h.valid _ (List.getElem_mem ha) r h1
          omega
        · exact List.pairwise_iff_getElem.1 h.distinct a b ha hb hab r h1 h2

/-- All operations of a history are of the allowed kind. -/
def OpsOk (step : ℝ → M → M) : World M → List (WOp M) → Prop
  | _, [] => True
  | w, op :: ops => OpOk w op ∧ OpsOk step (stepW step w op) ops

theorem noShare_run (step : ℝ → M → M) (ops : List (WOp M)) (w : World M) (h : NoShare w)
    (ho : OpsOk step w ops) : NoShare (runW step w ops) := by
  induction ops generalizing w with
  | nil => exact h
  | cons op ops ih => exact ih _ (noShare_step step w op h ho.1) ho.2

/-- C27, the true part: in every history in which each motion model object is given to one obstacle and
only obstacles of the deep-copying classes are copied, moving an obstacle never changes the motion state
of any other one, in particular not that of its original or its copies.  (Missing: Ellipse and
StarshapedPolygon, see `C27_rebuild_false`.) -/
theorem C27_independent_partial (step : ℝ → M → M) (ops : List (WOp M)) (ho : OpsOk step World.empty ops)
    (i j : Nat) (hij : i ≠ j) (dt : ℝ) :
    (stepW step (runW step World.empty ops) (.move i dt)).motion j = (runW step World.empty ops).motion j := by
  have h := noShare_run step ops World.empty ⟨by simp [World.empty], by simp [World.empty]⟩ ho
  generalize runW step World.empty ops = w at h
  have hne : ∀ (a b : Nat) (o o' : ObRec) (r : Nat), w.obs[a]? = some o → w.obs[b]? = some o' → a < b →
      o.ref = some r → o'.ref ≠ some r := by
    intro a b o o' r ha hb hab
    obtain ⟨la, ea⟩ := List.getElem?_eq_some_iff.1 ha
    obtain ⟨lb, eb⟩ := List.getElem?_eq_some_iff.1 hb
    have := List.pairwise_iff_getElem.1 h.distinct a b la lb hab r
    rw [ea, eb] at this
    exact this
  simp only [stepW]
  split
  · rename_i kd id r bn hi
    simp only [World.motion]
    split
    · rename_i kd' id' r' bn' hj
      have hrr : r ≠ r' := by
        intro e; subst e
        rcases Nat.lt_or_gt_of_ne hij with hl | hl
        · exact hne i j _ _ r hi hj hl rfl rfl
        · exact hne j i _ _ r hj hi hl rfl rfl
      rw [List.getElem?_modify]; simp [hrr]
    · rfl
  · rfl

/-- C27: a deep copy starts with the motion state of its original. -/
theorem C27_copy_same_state (step : ℝ → M → M) (w : World M) (i : Nat) (o : ObRec) (r : CopyReq)
    (ho : w.obs[i]? = some o) (hv : ∀ r, o.ref = some r → r < w.heap.length) :
    (stepW step w (.copy i r)).motion w.obs.length = w.motion i ∧
    (stepW step w (.copy i r)).motion i = w.motion i := by
  obtain ⟨kd, id, ref, bn⟩ := o
  have hi : i < w.obs.length := (List.getElem?_eq_some_iff.1 ho).1
  cases ref with
  | none => simp [stepW, ho, World.motion, copyMM, List.getElem?_append_left hi]
  | some r0 =>
    have hr := hv r0 rfl
    cases kd with
    | rebuild => simp [stepW, ho, World.motion, copyMM, List.getElem?_append_left hi]
    | deep =>
      simp [stepW, ho, World.motion, copyMM, List.getElem?_append_left hi, List.getElem?_eq_getElem hr,
        List.getElem?_append_left hr]

/-- C27 is false for Ellipse and StarshapedPolygon: after `copy`, the original and the copy have the same
motion state after every further sequence of moves of any obstacles; so whatever the copy does, the
original does too. -/
theorem C27_rebuild_false (step : ℝ → M → M) (w : World M) (i : Nat) (id : Option Nat) (r0 : Nat) (bn : Bool)
    (r : CopyReq) (ho : w.obs[i]? = some ⟨.rebuild, id, some r0, bn⟩) (moves : List (Nat × ℝ)) :
    let w' := runW step (stepW step w (.copy i r)) (moves.map fun m => .move m.1 m.2)
    w'.motion w.obs.length = w'.motion i := by
  have hi : i < w.obs.length := (List.getElem?_eq_some_iff.1 ho).1
  have hobs : ∀ (ms : List (Nat × ℝ)) (v : World M),
      (runW step v (ms.map fun m => .move m.1 m.2)).obs = v.obs := by
    intro ms
    induction ms with
    | nil => exact fun v => rfl
    | cons m ms ih =>
      intro v
      have : (runW step v ((m :: ms).map fun m => .move m.1 m.2)) =
        runW step (stepW step v (.move m.1 m.2)) (ms.map fun m => .move m.1 m.2) := rfl
      rw [this, ih]
      simp only [stepW]
      split <;> rfl
  simp only []
  unfold World.motion
  rw [hobs]
  simp [stepW, ho, copyMM, List.getElem?_append_left hi]

/-- The concrete form: an ellipse at motion state 0 is copied, the copy is moved by 5, and the original
has moved. -/
theorem C27_rebuild_witness_false :
    let w := runW (fun (dt : ℝ) (m : ℝ) => m + dt) World.empty
      [.construct .rebuild .new (.fresh 0), .copy 0 (.req .temporary), .move 1 5]
    w.motion 0 = some 5 := by
  simp [runW, World.empty, stepW, allocMM, copyMM, copyId, setId, World.motion, List.modify]

/-- Hypotheses of `C27_independent_partial` met by a program with a deep copy and moves, and the copy
then keeps its place. -/
example : OpsOk (fun (dt : ℝ) (m : ℝ) => m + dt) World.empty
    [.construct .deep .new (.fresh 0), .copy 0 (.req .new), .move 0 5] ∧
    (runW (fun (dt : ℝ) (m : ℝ) => m + dt) World.empty
      [.construct .deep .new (.fresh 0), .copy 0 (.req .new), .move 0 5]).motion 1 = some 0 := by
  constructor
  · simp [OpsOk, OpOk, World.empty, stepW, allocMM]
  · simp [runW, World.empty, stepW, allocMM, copyMM, copyId, setId, World.motion, List.modify]

end Starworlds
