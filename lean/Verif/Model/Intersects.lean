import Verif.Model.Obstacle

/-!
# obstacles/obstacle.py:91-92 `Obstacle.intersects`

`inter` is shapely's `intersects` of two polygons (law: `Spec.InterOk`). The obstacles of a program are numbered; a
history mixes the calls of `Verif.Model.Obstacle` on single obstacles with calls of `intersects`, which fill the polygon
caches of both.
-/

namespace Starworlds

/-- obstacles/obstacle.py:91-92 `self.polygon().intersects(other.polygon())` for the obstacles number `i` and `j`; these
can be the same object. -/
noncomputable def intersectsCall (inter : Shape → Shape → Bool) (w : Nat → ObState) (i j : Nat) :
    Except PyErr Bool × (Nat → ObState) :=
  let (p, s) := polygonCall (w i) .global
  let w := Function.update w i s
  match p with
  | .error e => (.error e, w)
  | .ok p =>
    let (q, t) := polygonCall (w j) .global
    let w := Function.update w j t
    match q with
    | .error e => (.error e, w)
    | .ok q => (.ok (inter p q), w)

/-- What a program can do with its obstacles. -/
inductive PairOp where
  | on (i : Nat) (op : ObOp)
  | intersects (i j : Nat)

/-- The states after one call. -/
noncomputable def pairStep (inter : Shape → Shape → Bool) (src : Nat → KernelSrc) (nr : Bool) (w : Nat → ObState) :
    PairOp → (Nat → ObState)
  | .on i op => Function.update w i (stepOp (src i) nr (w i) op)
  | .intersects i j => (intersectsCall inter w i j).2

/-- The states after a history. -/
noncomputable def pairRun (inter : Shape → Shape → Bool) (src : Nat → KernelSrc) (nr : Bool) (w : Nat → ObState)
    (ops : List PairOp) : Nat → ObState :=
  ops.foldl (pairStep inter src nr) w

end Starworlds
