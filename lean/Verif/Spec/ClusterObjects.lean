import Verif.Model.ClusterObjects

/-! # Clusters as objects: what is seen through addresses -/

namespace Starworlds.Spec

variable {Ob Star KP P : Type}

/-- The same cluster, up to whether its polygon has been cached. -/
def Alike (g : Geo Ob Star KP P) (c d : Cl Ob Star KP P) : Prop :=
  c.name = d.name ∧ c.obstacles = d.obstacles ∧ c.star = d.star ∧ c.kernelPoints = d.kernelPoints ∧
    c.polygon.or (c.star.map g.starPoly) = d.polygon.or (d.star.map g.starPoly)

/-- The objects of the addresses are these clusters. -/
def Reads (H : ClHeap Ob Star KP P) (l : List Nat) (cls : List (Cl Ob Star KP P)) : Prop :=
  List.Forall₂ (fun a c => H[a]? = some c) l cls

/-- The objects of the addresses show these clusters, up to cached polygons. -/
def Shows (g : Geo Ob Star KP P) (H : ClHeap Ob Star KP P) (l : List Nat) (cls : List (Cl Ob Star KP P)) : Prop :=
  List.Forall₂ (fun a c => ∃ d, H[a]? = some d ∧ Alike g d c) l cls

/-- The objects of the addresses show these clusters, up to cached polygons and except for the objects in `ex`. -/
def ShowsExcept (g : Geo Ob Star KP P) (H : ClHeap Ob Star KP P) (ex l : List Nat) (cls : List (Cl Ob Star KP P)) : Prop :=
  List.Forall₂ (fun a c => a ∉ ex → ∃ d, H[a]? = some d ∧ Alike g d c) l cls

/-- Both histories have the same form, and the one with addresses shows the clusters of the other, except for the objects in `ex`. -/
inductive SameHistory (g : Geo Ob Star KP P) (H : ClHeap Ob Star KP P) (ex : List Nat) :
    Option ObjHist → Option (HistVal Ob Star KP P) → Prop
  | none : SameHistory g H ex none none
  | flat {l cls} : ShowsExcept g H ex l cls → SameHistory g H ex (some (.flat l)) (some (.flat cls))
  | iters {l cls} : List.Forall₂ (ShowsExcept g H ex) l cls → SameHistory g H ex (some (.iters l)) (some (.iters cls))

/-- Both calls do the same; the objects of the returned clusters are the clusters, and those of the history, except for the
objects in `ex ro`, are as they were recorded. -/
inductive SameCall (g : Geo Ob Star KP P) (ex : ObjRes Ob Star KP P → List Nat) :
    Option (Except PyErr (ObjRes Ob Star KP P)) → Option (Except PyErr (Res Ob Star KP P)) → Prop
  | none : SameCall g ex none none
  | error (e : PyErr) : SameCall g ex (some (.error e)) (some (.error e))
  | ok {ro r} : Reads ro.heap ro.clusters r.clusters → ro.flag = r.flag → ro.nIter = r.nIter →
      SameHistory g ro.heap (ex ro) ro.history r.history → SameCall g ex (some (.ok ro)) (some (.ok r))

end Starworlds.Spec
