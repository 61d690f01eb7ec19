import Verif.Model.StarifyIds
import Verif.Spec.Graph

/-! # Specification of the programs that C104 is about: any sequence of calls of `cluster_and_starify` -/

namespace Starworlds.Spec

open Starworlds

variable {Ob Star KP P : Type}

/-- A program that makes obstacles with new ids and calls `cluster_and_starify` for any of them, in any state of the
geometry, with any parameters and with any earlier result as `previous_clusters`. `Session ident counter known results`:
`counter` is the id counter, `known` are the ids of the obstacles of the program, `results` are the clusters of the calls
so far, the latest first. `ident` gives the ids of the obstacles, which never change. -/
inductive Session (ident : Ob → Option Nat) : Nat → (Nat → Prop) → List (List (IdCl Ob Star KP P)) → Prop
  | start : Session ident 0 (fun _ => False) []
  | create {counter : Nat} {known : Nat → Prop} {results : List (List (IdCl Ob Star KP P))} :
      Session ident counter known results → Session ident (counter + 1) (fun k => k = counter + 1 ∨ known k) results
  | call {counter : Nat} {known : Nat → Prop} {results : List (List (IdCl Ob Star KP P))} (g : Geo Ob Star KP P)
      (own : Star → Bool) (par : Params) (workspace : Bool) (prev : Option (List (IdCl Ob Star KP P))) (fuel : Nat)
      (obstacles : List Ob) (r : Res Ob (Star × Option Nat) KP P) (counter' : Nat) :
      Session ident counter known results → g.id = ident → IsSetList g.setList →
      (∀ o ∈ obstacles, ∃ k, ident o = some k ∧ known k) → (obstacles.map ident).Nodup →
      (∀ l, prev = some l → l ∈ results) →
      clusterAndStarifyId g own par workspace prev fuel obstacles counter = some (.ok (r, counter')) →
      Session ident counter' known (r.clusters :: results)

end Starworlds.Spec
