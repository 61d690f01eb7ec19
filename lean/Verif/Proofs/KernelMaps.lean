import Verif.Proofs.KernelTracks
import Mathlib.Data.List.GetD
import Mathlib.Tactic.Linarith
import Mathlib.Tactic.LinearCombination
import Mathlib.Tactic.Ring

/-!
# The kernel under maps of the plane
-/

namespace Starworlds

set_option linter.unusedSectionVars false

variable {K K' : Type} [Field K] [LinearOrder K] [Field K'] [LinearOrder K']

theorem ptAt_map (φ : Pt K → Pt K') (v : List (Pt K)) {i : Nat} (h : i < v.length) :
    ptAt (v.map φ) i = φ (ptAt v i) := by
  simp only [ptAt]
  rw [List.getD_eq_getElem _ _ (by simpa using h), List.getD_eq_getElem _ _ h, List.getElem_map]

/-- A map of the plane that keeps the outcome of the orientation tests. -/
structure KeepsTurns (φ : Pt K → Pt K') : Prop where
  collinear : ∀ a b c, isCollinear (φ a) (φ b) (φ c) = isCollinear a b c
  cw : ∀ a b c, isCw (φ a) (φ b) (φ c) = isCw a b c
  ccw : ∀ a b c, isCcw (φ a) (φ b) (φ c) = isCcw a b c

theorem firstBend_map {φ : Pt K → Pt K'} (h : KeepsTurns φ) (v : List (Pt K)) : ∀ fuel i,
    firstBend (v.map φ) fuel i = firstBend v fuel i
  | 0, _ => rfl
  | fuel + 1, i => by
    unfold firstBend
    simp only [List.length_map]
    by_cases hi : v.length ≤ i
    · rw [if_pos hi, if_pos hi]
    · have hl : 0 < v.length := by omega
      rw [if_neg hi, if_neg hi, ptAt_map φ v (Nat.mod_lt _ hl), ptAt_map φ v (by omega), ptAt_map φ v (Nat.mod_lt _ hl),
        h.collinear, firstBend_map h v fuel (i + 1)]

theorem any_congr_mem {α : Type*} {l : List α} {p q : α → Bool} (h : ∀ x ∈ l, p x = q x) : l.any p = l.any q := by
  induction l with
  | nil => rfl
  | cons x l ih =>
    rw [List.any_cons, List.any_cons, h x List.mem_cons_self, ih fun y hy => h y (List.mem_cons_of_mem _ hy)]

theorem checkConvexity_map {φ : Pt K → Pt K'} (h : KeepsTurns φ) (v : List (Pt K)) :
    checkConvexity (v.map φ) = checkConvexity v := by
  unfold checkConvexity
  simp only [List.length_map, firstBend_map h]
  cases firstBend v (v.length + 1) 0 with
  | error e => rfl
  | ok i =>
    show (if _ then _ else _) = (if _ then _ else _)
    by_cases hi : v.length ≤ i + 1
    · rw [if_pos hi, if_pos hi]
    · have hl : 0 < v.length := by omega
      have a1 : ∀ j ∈ List.range v.length,
          isCcw (ptAt (v.map φ) ((j + v.length - 1) % v.length)) (ptAt (v.map φ) j) (ptAt (v.map φ) ((j + 1) % v.length)) =
          isCcw (ptAt v ((j + v.length - 1) % v.length)) (ptAt v j) (ptAt v ((j + 1) % v.length)) := by
        intro j hj
        rw [ptAt_map φ v (Nat.mod_lt _ hl), ptAt_map φ v (List.mem_range.mp hj), ptAt_map φ v (Nat.mod_lt _ hl), h.ccw]
      have a2 : ∀ j ∈ List.range v.length,
          isCw (ptAt (v.map φ) ((j + v.length - 1) % v.length)) (ptAt (v.map φ) j) (ptAt (v.map φ) ((j + 1) % v.length)) =
          isCw (ptAt v ((j + v.length - 1) % v.length)) (ptAt v j) (ptAt v ((j + 1) % v.length)) := by
        intro j hj
        rw [ptAt_map φ v (Nat.mod_lt _ hl), ptAt_map φ v (List.mem_range.mp hj), ptAt_map φ v (Nat.mod_lt _ hl), h.cw]
      rw [if_neg hi, if_neg hi, ptAt_map φ v (Nat.mod_lt _ hl), ptAt_map φ v (by omega), ptAt_map φ v (by omega), h.cw,
        any_congr_mem a1, any_congr_mem a2]

theorem edgesOf_map (φ : Pt K → Pt K') : ∀ l : List (Pt K), edgesOf (l.map φ) = (edgesOf l).map (Prod.map φ φ)
  | [] => rfl
  | [_] => rfl
  | a :: b :: l => by
    have := edgesOf_map φ (b :: l)
    simp only [List.map_cons] at this
    simp only [List.map_cons, edgesOf, this]
    rfl

theorem ringOf_map (φ : Pt K → Pt K') (l : List (Pt K)) : ringOf (l.map φ) = (ringOf l).map φ := by
  cases l <;> simp [ringOf]

theorem orientRing_map {φ : Pt K → Pt K'} {v : List (Pt K)} (h : 0 ≤ signedArea2 (v.map φ) ↔ 0 ≤ signedArea2 v) :
    orientRing (v.map φ) = (orientRing v).map φ := by
  unfold orientRing
  by_cases ha : 0 ≤ signedArea2 v
  · rw [if_pos ha, if_pos (h.mpr ha)]
  · rw [if_neg ha, if_neg fun x => ha (h.mp x)]
    simp [List.map_take]

theorem polygonKernel_tracks {u : Prop} {o : KernelOps (Pt K)} {o' : KernelOps (Pt K')} {φ : Pt K → Pt K'}
    (h : KernelOps.Hom u o o' φ) (hφ : Function.Injective φ) (ht : KeepsTurns φ) (debug : Bool) {v : List (Pt K)}
    (ha : 0 ≤ signedArea2 (v.map φ) ↔ 0 ≤ signedArea2 v) :
    Tracks u (Option.map (List.map φ)) (polygonKernel o debug v) (polygonKernel o' debug (v.map φ)) := by
  unfold polygonKernel
  rw [checkConvexity_map ht, orientRing_map ha]
  refine Tracks.bind (φ := id) (Or.inr ?_) fun c => ?_
  · cases checkConvexity v <;> rfl
  · exact Tracks.ite (Tracks.ok (Option.map (List.map φ)) (some v)) (kernelVertices_tracks h hφ debug _)

theorem constructKernel_tracks {u : Prop} {o : KernelOps (Pt K)} {o' : KernelOps (Pt K')} {φ : Pt K → Pt K'}
    (h : KernelOps.Hom u o o' φ) (hφ : Function.Injective φ) (ht : KeepsTurns φ) {v : List (Pt K)}
    (ha : 0 ≤ signedArea2 (v.map φ) ↔ 0 ≤ signedArea2 v) :
    Tracks u (List.map φ) (constructKernel o v) (constructKernel o' (v.map φ)) := by
  unfold constructKernel
  refine (polygonKernel_tracks h hφ ht false ha).bind fun r => ?_
  cases r with
  | none => exact Tracks.err _ _
  | some k => exact Tracks.ok (List.map φ) k

/-- Maps that keep the orientation value keep the outcome of the tests. -/
theorem keepsTurns_of_orient {φ : Pt K → Pt K} (h : ∀ a b c, orientationVal (φ a) (φ b) (φ c) = orientationVal a b c) :
    KeepsTurns φ := by
  constructor <;> intro a b c <;> simp only [isCollinear, isCw, isCcw, h]

end Starworlds
