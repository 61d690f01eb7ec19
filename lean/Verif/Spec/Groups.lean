import Verif.Model.Cluster

/-! # Specification: groups of obstacles that are apart -/

namespace Starworlds.Spec

variable {Ob Star KP P : Type}

/-- The cluster obstacles of the two clusters, if they have any, do not meet. -/
def ApartFrom (g : Geo Ob Star KP P) (c d : Cl Ob Star KP P) : Prop :=
  ∀ s t, c.star = some s → d.star = some t → g.inter (g.starPoly s) (g.starPoly t) = false

/-- All clusters of the history that a call has returned. -/
def recorded (r : Res Ob Star KP P) : List (Cl Ob Star KP P) :=
  match r.history with
  | none => []
  | some (.flat l) => l
  | some (.iters l) => l.flatten

/-- `list(set(l))` of numbers below `N` has the same order after all numbers have been increased by the same amount. CPython: true for
`N ≤ 8`, where the order is that of the numbers; but `list(set([7] + [8]))` is `[8, 7]`. -/
def ShiftFree (N : Nat) (setList : List Nat → List Nat) : Prop :=
  ∀ (k : Nat) (l : List Nat), (∀ x ∈ l, k + x < N) → setList (l.map (k + ·)) = (setList l).map (k + ·)

end Starworlds.Spec
