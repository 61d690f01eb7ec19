import Verif.Spec.MotionHeap
import Verif.Proofs.Motion

/-! # Helpers for the position arrays -/

namespace Starworlds

open Spec

theorem linVel_keeps {k : MotionKind} {s s' : MotionState} {v : Pt ℝ} (h : linVel k s = .ok (v, s')) :
    s'.pos = s.pos ∧ s'.rot = s.rot ∧ s'.t = s.t := by
  unfold linVel at h
  rcases k with _ | ⟨_ | _, _, _, _, _⟩ | ⟨p0, tp⟩ | ⟨wps, vel, th⟩
  · simp only [Except.ok.injEq, Prod.mk.injEq] at h; rw [← h.2]; simp
  · simp only [Except.ok.injEq, Prod.mk.injEq] at h; rw [← h.2]; simp
  · simp only [Except.ok.injEq, Prod.mk.injEq] at h; rw [← h.2]; simp
  · rcases e : intervalLinVel p0 tp s.t s.pos with _ | _ <;> simp [e] at h
    rw [← h.2]; simp
  · rcases e : wpLinVel vel th s.pos (wps.drop s.wpIdx) s.wpIdx with _ | ⟨_, _⟩ <;> simp [e] at h
    rw [← h.2]; simp

/-- The effect of `move` on the heap, by cases. -/
theorem moveHeap_cases (h : ArrHeap) (j : Nat) (dt : ℝ) :
    ((moveHeap h j dt).1 = h) ∨
    ∃ m tag p, h.mms[j]? = some m ∧ h.cells[m.ref]? = some (tag, p) ∧
      ((tag ≠ .floatArray ∧ tag ≠ .list ∧ ∃ m1 : MotionObj, m1.ref = m.ref ∧ (moveHeap h j dt).1 = ⟨h.cells, h.mms.set j m1⟩) ∨
       (tag = .floatArray ∧ ∃ q m2, MotionObj.ref m2 = m.ref ∧
          (moveHeap h j dt).1 = ⟨h.cells.set m.ref (.floatArray, q), h.mms.set j m2⟩) ∨
       (tag = .list ∧ ∃ q m2, MotionObj.ref m2 = h.cells.length ∧
          (moveHeap h j dt).1 = ⟨h.cells ++ [(.floatArray, q)], h.mms.set j m2⟩)) := by
  rcases hm : h.mms[j]? with _ | m
  · left; simp [moveHeap, hm]
  rcases hc : h.cells[m.ref]? with _ | ⟨tag, p⟩
  · left; simp [moveHeap, hm, hc]
  rcases hl : linVel m.kind (m.state p) with e | ⟨v, s⟩
  · left; simp [moveHeap, hm, hc, hl]
  · right
    refine ⟨m, tag, p, rfl, hc, ?_⟩
    rcases tag
    · right; left
      exact ⟨rfl, p + dt • v, { m with wpIdx := s.wpIdx, rot := s.rot + rotVel m.kind s * dt, t := s.t + dt },
        rfl, by simp [moveHeap, hm, hc, hl]⟩
    · left
      exact ⟨by decide, by decide, { m with wpIdx := s.wpIdx }, rfl, by simp [moveHeap, hm, hc, hl]⟩
    · right; right
      exact ⟨rfl, p + dt • v,
        { m with wpIdx := s.wpIdx, rot := s.rot + rotVel m.kind s * dt, t := s.t + dt, ref := h.cells.length },
        rfl, by simp [moveHeap, hm, hc, hl]⟩
    · left
      exact ⟨by decide, by decide, { m with wpIdx := s.wpIdx }, rfl, by simp [moveHeap, hm, hc, hl]⟩

theorem moveHeap_float {h : ArrHeap} {j : Nat} {m : MotionObj} {p v : Pt ℝ} {s : MotionState} {dt : ℝ}
    (hm : h.mms[j]? = some m) (hc : h.cells[m.ref]? = some (.floatArray, p)) (hl : linVel m.kind (m.state p) = .ok (v, s)) :
    moveHeap h j dt = (⟨h.cells.set m.ref (.floatArray, p + dt • v),
      h.mms.set j { m with wpIdx := s.wpIdx, rot := s.rot + rotVel m.kind s * dt, t := s.t + dt }⟩, .ok ()) := by
  simp only [moveHeap, hm, hc, hl]

theorem moveHeap_list {h : ArrHeap} {j : Nat} {m : MotionObj} {p v : Pt ℝ} {s : MotionState} {dt : ℝ}
    (hm : h.mms[j]? = some m) (hc : h.cells[m.ref]? = some (.list, p)) (hl : linVel m.kind (m.state p) = .ok (v, s)) :
    moveHeap h j dt = (⟨h.cells ++ [(.floatArray, p + dt • v)],
      h.mms.set j { m with wpIdx := s.wpIdx, rot := s.rot + rotVel m.kind s * dt, t := s.t + dt,
                           ref := h.cells.length }⟩, .ok ()) := by
  simp only [moveHeap, hm, hc, hl]

theorem moveHeap_int {h : ArrHeap} {j : Nat} {m : MotionObj} {p v : Pt ℝ} {s : MotionState} {dt : ℝ}
    (hm : h.mms[j]? = some m) (hc : h.cells[m.ref]? = some (.intArray, p)) (hl : linVel m.kind (m.state p) = .ok (v, s)) :
    moveHeap h j dt = (⟨h.cells, h.mms.set j { m with wpIdx := s.wpIdx }⟩, .error .typeError) := by
  simp only [moveHeap, hm, hc, hl]

theorem moveHeap_tuple {h : ArrHeap} {j : Nat} {m : MotionObj} {p v : Pt ℝ} {s : MotionState} {dt : ℝ}
    (hm : h.mms[j]? = some m) (hc : h.cells[m.ref]? = some (.tuple, p)) (hl : linVel m.kind (m.state p) = .ok (v, s)) :
    moveHeap h j dt = (⟨h.cells, h.mms.set j { m with wpIdx := s.wpIdx }⟩, .error .attributeError) := by
  simp only [moveHeap, hm, hc, hl]

theorem posRef_lt {h : ArrHeap} {j a : Nat} (e : h.posRef j = some a) : j < h.mms.length := by
  by_contra hj
  simp [ArrHeap.posRef, List.getElem?_eq_none (Nat.le_of_not_lt hj)] at e

theorem posRef_some {h : ArrHeap} {j : Nat} {m : MotionObj} (e : h.mms[j]? = some m) :
    h.posRef j = some m.ref := by simp [ArrHeap.posRef, e]

theorem posRef_set_self {cs : List (CellTag × Pt ℝ)} {ms : List MotionObj} {j : Nat} {m : MotionObj}
    (hj : j < ms.length) : (ArrHeap.mk cs (ms.set j m)).posRef j = some m.ref := by
  simp [ArrHeap.posRef, hj]

theorem posRef_set_ne {cs cs' : List (CellTag × Pt ℝ)} {ms : List MotionObj} {j i : Nat} {m : MotionObj}
    (hi : i ≠ j) : (ArrHeap.mk cs (ms.set j m)).posRef i = (ArrHeap.mk cs' ms).posRef i := by
  simp [ArrHeap.posRef, hi.symm]

/-- The addresses after one operation. -/
theorem posRef_step (h : ArrHeap) (op : ArrOp) (i : Nat) (hi : i < h.mms.length) :
    (stepArr h op).posRef i = h.posRef i ∨
    (∃ a, op = .setPos i a ∧ a < h.cells.length ∧ (stepArr h op).posRef i = some a) ∨
    (∃ dt, op = .move i dt ∧ (stepArr h op).posRef i = some h.cells.length) := by
  rcases op with ⟨k, p, r⟩ | ⟨tag, p⟩ | ⟨a, p⟩ | ⟨j, a⟩ | ⟨j, r⟩ | ⟨j, dt⟩
  · left; simp [stepArr, ArrHeap.posRef, List.getElem?_append_left hi]
  · left; rfl
  · left; rfl
  · by_cases ha : a < h.cells.length
    · by_cases hj : j = i
      · subst hj
        right; left
        exact ⟨a, rfl, ha, by simp [stepArr, ha, ArrHeap.posRef, hi]⟩
      · left; simp [stepArr, ha, ArrHeap.posRef, hj]
    · left; simp [stepArr, ha]
  · left
    by_cases hj : j = i
    · subst hj
      simp [stepArr, ArrHeap.posRef, hi]
    · simp [stepArr, ArrHeap.posRef, hj]
  · rcases moveHeap_cases h j dt with e | ⟨m, tag, p, hm, hc, hh⟩
    · left; simp [stepArr, e]
    · by_cases hj : i = j
      · subst hj
        rcases hh with ⟨_, _, m1, e1, e⟩ | ⟨_, q, m2, e1, e⟩ | ⟨_, q, m2, e1, e⟩
        · left; simp only [stepArr, e]; rw [posRef_set_self hi, posRef_some hm, e1]
        · left; simp only [stepArr, e]; rw [posRef_set_self hi, posRef_some hm, e1]
        · right; right; refine ⟨dt, rfl, ?_⟩; simp only [stepArr, e]; rw [posRef_set_self hi, e1]
      · left
        rcases hh with ⟨_, _, m1, e1, e⟩ | ⟨_, q, m2, e1, e⟩ | ⟨_, q, m2, e1, e⟩ <;>
          (simp only [stepArr, e]; exact posRef_set_ne hj)

/-- The number of motion models never goes down. -/
theorem mms_length_step (h : ArrHeap) (op : ArrOp) : h.mms.length ≤ (stepArr h op).mms.length := by
  rcases op with ⟨k, p, r⟩ | ⟨tag, p⟩ | ⟨a, p⟩ | ⟨j, a⟩ | ⟨j, r⟩ | ⟨j, dt⟩
  · simp [stepArr]
  · simp [stepArr]
  · simp [stepArr]
  · by_cases ha : a < h.cells.length <;> simp [stepArr, ha]
  · simp [stepArr]
  · rcases moveHeap_cases h j dt with e | ⟨m, tag, p, hm, hc, hh⟩
    · simp [stepArr, e]
    · rcases hh with ⟨_, _, m1, e1, e⟩ | ⟨_, q, m2, e1, e⟩ | ⟨_, q, m2, e1, e⟩ <;> simp [stepArr, e]

/-- The number of objects never goes down. -/
theorem cells_length_step (h : ArrHeap) (op : ArrOp) : h.cells.length ≤ (stepArr h op).cells.length := by
  rcases op with ⟨k, p, r⟩ | ⟨tag, p⟩ | ⟨a, p⟩ | ⟨j, a⟩ | ⟨j, r⟩ | ⟨j, dt⟩
  · simp [stepArr]
  · simp [stepArr]
  · simp [stepArr]
  · by_cases ha : a < h.cells.length <;> simp [stepArr, ha]
  · simp [stepArr]
  · rcases moveHeap_cases h j dt with e | ⟨m, tag, p, hm, hc, hh⟩
    · simp [stepArr, e]
    · rcases hh with ⟨_, _, m1, e1, e⟩ | ⟨_, q, m2, e1, e⟩ | ⟨_, q, m2, e1, e⟩ <;> simp [stepArr, e]

/-- What one operation does to an object: nothing, unless the program writes to it or it is the float array
that is the position of the motion model that moves. -/
theorem cell_step (h : ArrHeap) (op : ArrOp) (a : Nat) (ha : a < h.cells.length)
    (hw : ∀ p, op ≠ .write a p)
    (hmv : ∀ j dt, op = .move j dt → h.posRef j = some a → h.cells[a]?.map Prod.fst ≠ some .floatArray) :
    (stepArr h op).cells[a]? = h.cells[a]? := by
  rcases op with ⟨k, p, r⟩ | ⟨tag, p⟩ | ⟨b, p⟩ | ⟨j, b⟩ | ⟨j, r⟩ | ⟨j, dt⟩
  · simp [stepArr, List.getElem?_append_left ha]
  · simp [stepArr, List.getElem?_append_left ha]
  · have : b ≠ a := fun e => hw p (by rw [e])
    simp [stepArr, this]
  · by_cases hb : b < h.cells.length <;> simp [stepArr, hb]
  · simp [stepArr]
  · rcases moveHeap_cases h j dt with e | ⟨m, tag, p, hm, hc, hh⟩
    · simp [stepArr, e]
    · rcases hh with ⟨_, _, m1, e1, e⟩ | ⟨et, q, m2, e1, e⟩ | ⟨_, q, m2, e1, e⟩
      · simp [stepArr, e]
      · have hne : m.ref ≠ a := by
          intro e'
          subst e'
          exact hmv j dt rfl (posRef_some hm) (by simp [hc, et])
        simp [stepArr, e, hne]
      · simp [stepArr, e, List.getElem?_append_left ha]

/-- The kind of an object never changes. -/
theorem tag_step (h : ArrHeap) (op : ArrOp) (a : Nat) (ha : a < h.cells.length) :
    (stepArr h op).cells[a]?.map Prod.fst = h.cells[a]?.map Prod.fst := by
  by_cases hw : ∃ p, op = .write a p
  · obtain ⟨p, rfl⟩ := hw
    rcases hcell : h.cells[a]? with _ | c
    · simp [stepArr, hcell]
    · by_cases hc : c.1 = .tuple <;> simp [stepArr, hcell, hc]
  by_cases hm : ∃ j dt, op = .move j dt ∧ h.posRef j = some a ∧ h.cells[a]?.map Prod.fst = some .floatArray
  · obtain ⟨j, dt, rfl, h1, h2⟩ := hm
    rcases moveHeap_cases h j dt with e | ⟨m, tag, p, hm, hc, hh⟩
    · simp [stepArr, e]
    · rw [posRef_some hm, Option.some.injEq] at h1
      subst h1
      rcases hh with ⟨_, _, m1, e1, e⟩ | ⟨et, q, m2, e1, e⟩ | ⟨_, q, m2, e1, e⟩
      · simp [stepArr, e]
      · rw [h2]; simp [stepArr, e, ha]
      · simp [stepArr, e, List.getElem?_append_left ha]
  · rw [cell_step h op a ha (fun p e => hw ⟨p, e⟩) (fun j dt e h1 h2 => hm ⟨j, dt, e, h1, h2⟩)]

/-- Careful operations keep the positions separate. -/
theorem separate_step {h : ArrHeap} (hs : Separate h) {op : ArrOp} (hc : Careful h op) :
    Separate (stepArr h op) := by
  obtain ⟨hs1, hs2⟩ := hs
  by_cases hcon : ∃ k p r, op = .construct k p r
  · obtain ⟨k, p, r, rfl⟩ := hcon
    have key : ∀ i a, (stepArr h (.construct k p r)).posRef i = some a →
        (i < h.mms.length ∧ h.posRef i = some a ∧ a < h.cells.length) ∨ (i = h.mms.length ∧ a = h.cells.length) := by
      intro i a e
      rcases lt_trichotomy i h.mms.length with hi | hi | hi
      · left
        have : h.posRef i = some a := by
          simpa [stepArr, ArrHeap.posRef, List.getElem?_append_left hi] using e
        exact ⟨hi, this, hs2 i a this⟩
      · right
        subst hi
        simp [stepArr, ArrHeap.posRef] at e
        exact ⟨rfl, e.symm⟩
      · have := posRef_lt e
        simp [stepArr] at this
        omega
    refine ⟨fun i j a ei ej => ?_, fun i a e => ?_⟩
    · rcases key i a ei with ⟨h1, h2, h3⟩ | ⟨h1, h2⟩ <;> rcases key j a ej with ⟨g1, g2, g3⟩ | ⟨g1, g2⟩
      · exact hs1 i j a h2 g2
      · omega
      · omega
      · omega
    · rcases key i a e with ⟨h1, h2, h3⟩ | ⟨h1, h2⟩ <;> simp [stepArr] <;> omega
  · have hlen : (stepArr h op).mms.length = h.mms.length := by
      rcases op with ⟨k, p, r⟩ | ⟨tag, p⟩ | ⟨a, p⟩ | ⟨j, a⟩ | ⟨j, r⟩ | ⟨j, dt⟩
      · exact absurd ⟨k, p, r, rfl⟩ hcon
      · simp [stepArr]
      · simp [stepArr]
      · by_cases ha : a < h.cells.length <;> simp [stepArr, ha]
      · simp [stepArr]
      · rcases moveHeap_cases h j dt with e | ⟨m, tag, p, hm, hc, hh⟩
        · simp [stepArr, e]
        · rcases hh with ⟨_, _, m1, e1, e⟩ | ⟨_, q, m2, e1, e⟩ | ⟨_, q, m2, e1, e⟩ <;> simp [stepArr, e]
    have key : ∀ i a, (stepArr h op).posRef i = some a →
        h.posRef i = some a ∨ (op = .setPos i a ∧ a < h.cells.length) ∨
        ((∃ dt, op = .move i dt) ∧ a = h.cells.length) := by
      intro i a e
      have hi : i < h.mms.length := hlen ▸ posRef_lt e
      rcases posRef_step h op i hi with h1 | ⟨b, h1, h2, h3⟩ | ⟨dt, h1, h2⟩
      · left; rw [← h1, e]
      · right; left
        rw [e, Option.some.injEq] at h3
        subst h3; exact ⟨h1, h2⟩
      · right; right
        rw [e, Option.some.injEq] at h2
        exact ⟨⟨dt, h1⟩, h2⟩
    refine ⟨fun i j a ei ej => ?_, fun i a e => ?_⟩
    · rcases key i a ei with h1 | ⟨h1, h2⟩ | ⟨⟨dt, h1⟩, h2⟩
      · rcases key j a ej with g1 | ⟨g1, g2⟩ | ⟨⟨dt', g1⟩, g2⟩
        · exact hs1 i j a h1 g1
        · by_contra hij
          rw [g1] at hc
          exact hc i hij h1
        · have := hs2 i a h1; omega
      · rcases key j a ej with g1 | ⟨g1, g2⟩ | ⟨⟨dt', g1⟩, g2⟩
        · by_contra hij
          rw [h1] at hc
          exact hc j (fun e => hij e.symm) g1
        · rw [h1] at g1; cases g1; rfl
        · omega
      · rcases key j a ej with g1 | ⟨g1, g2⟩ | ⟨⟨dt', g1⟩, g2⟩
        · have := hs2 j a g1; omega
        · omega
        · rw [h1] at g1; cases g1; rfl
    · rcases key i a e with h1 | ⟨h1, h2⟩ | ⟨⟨dt, h1⟩, h2⟩
      · exact lt_of_lt_of_le (hs2 i a h1) (cells_length_step h op)
      · exact lt_of_lt_of_le h2 (cells_length_step h op)
      · rcases moveHeap_cases h i dt with e' | ⟨m, tag, p, hm, hc', hh⟩
        · subst h1
          simp only [stepArr, e'] at e ⊢
          exact hs2 i a e
        · subst h1
          rcases hh with ⟨_, _, m1, e1, e'⟩ | ⟨_, q, m2, e1, e'⟩ | ⟨_, q, m2, e1, e'⟩
          · simp only [stepArr, e'] at e ⊢
            rw [posRef_set_self (posRef_lt (posRef_some hm)), e1] at e
            exact hs2 i a (by rw [posRef_some hm, e])
          · simp only [stepArr, e'] at e ⊢
            rw [posRef_set_self (posRef_lt (posRef_some hm)), e1] at e
            simpa using hs2 i a (by rw [posRef_some hm, e])
          · simp [stepArr, e', h2]

end Starworlds
