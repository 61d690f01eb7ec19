import Verif.Model.Area
import Mathlib.Data.List.Rotate
import Mathlib.Tactic.LinearCombination

/-! # The sum over the edges of a ring: first vertex and orientation -/

namespace Starworlds

variable {K : Type} [Field K] [LinearOrder K]

/-- The sum over the edges of a path. -/
def pathArea (l : List (Pt K)) : K := ((edgesOf l).map fun e => e.1.1 * e.2.2 - e.2.1 * e.1.2).sum

theorem pathArea_cons (a b : Pt K) (l : List (Pt K)) :
    pathArea (a :: b :: l) = (a.1 * b.2 - b.1 * a.2) + pathArea (b :: l) := by
  simp [pathArea, edgesOf]

theorem pathArea_append : ∀ (l : List (Pt K)) (x y : Pt K),
    pathArea (l ++ [x, y]) = pathArea (l ++ [x]) + (x.1 * y.2 - y.1 * x.2)
  | [], x, y => by simp [pathArea, edgesOf]
  | [a], x, y => by simp [pathArea, edgesOf]
  | a :: b :: l, x, y => by
    have := pathArea_append (b :: l) x y
    simp only [List.cons_append] at this ⊢
    rw [pathArea_cons, pathArea_cons, this, add_assoc]

theorem pathArea_reverse : ∀ l : List (Pt K), pathArea l.reverse = -pathArea l
  | [] => by simp [pathArea, edgesOf]
  | [a] => by simp [pathArea, edgesOf]
  | a :: b :: l => by
    have := pathArea_reverse (b :: l)
    rw [List.reverse_cons] at this
    rw [List.reverse_cons, List.reverse_cons, List.append_assoc, List.singleton_append, pathArea_append, this, pathArea_cons]
    ring

theorem signedArea2_step (a : Pt K) (l : List (Pt K)) : signedArea2 (l ++ [a]) = signedArea2 (a :: l) := by
  cases l with
  | nil => rfl
  | cons b m =>
    change pathArea (b :: (m ++ [a]) ++ [b]) = pathArea (a :: b :: m ++ [a])
    have := pathArea_append (b :: m) a b
    simp only [List.cons_append, List.append_assoc, List.nil_append] at this ⊢
    rw [this, pathArea_cons, add_comm]

theorem signedArea2_rotate (v : List (Pt K)) : ∀ n, signedArea2 (v.rotate n) = signedArea2 v
  | 0 => by simp
  | n + 1 => by
    rw [← List.rotate_rotate, ← signedArea2_rotate v n]
    cases h : v.rotate n with
    | nil => rfl
    | cons a l => simpa using signedArea2_step a l

theorem signedArea2_flip (a : Pt K) (l : List (Pt K)) : signedArea2 (a :: l.reverse) = -signedArea2 (a :: l) := by
  have := pathArea_reverse (a :: l ++ [a])
  simpa [signedArea2, ringOf, pathArea] using this

theorem signedArea2_reverse (v : List (Pt K)) : signedArea2 v.reverse = -signedArea2 v := by
  cases v with
  | nil => simp [signedArea2, ringOf, edgesOf]
  | cons a l => rw [List.reverse_cons, signedArea2_step, signedArea2_flip]

variable [IsStrictOrderedRing K]

theorem shapelyArea_orient (v : List (Pt K)) : shapelyArea (orientRing v) = shapelyArea v := by
  unfold orientRing shapelyArea
  split
  · rfl
  · cases v with
    | nil => rfl
    | cons a l => simp [signedArea2_flip]

theorem shapelyArea_ring {v w : List (Pt K)} (h : v ~r w ∨ v ~r w.reverse) : shapelyArea w = shapelyArea v := by
  unfold shapelyArea
  rcases h with ⟨n, rfl⟩ | ⟨n, h⟩
  · rw [signedArea2_rotate]
  · rw [← abs_neg, ← signedArea2_reverse, ← h, signedArea2_rotate]

end Starworlds
