import Verif.Model.Cluster
import Mathlib.Data.Multiset.Defs

/-! # Specification: results that do not depend on the order of the obstacles -/

namespace Starworlds.Spec

variable {Ob Star KP P X : Type}

/-- What is seen of a cluster if the order of its obstacles is left out; `look` is what is seen of a cluster obstacle. -/
def view (look : Star → X) (c : Cl Ob Star KP P) : Multiset Ob × Option KP × Option X × Option P :=
  (c.obstacles, c.kernelPoints, c.star.map look, c.polygon)

/-- Both calls end, with the same exit flag, after as many iterations, and with the same clusters in some order. -/
def SameResult (look : Star → X) (r r' : Option (Except PyErr (Res Ob Star KP P))) : Prop :=
  ∃ a b, r = some (.ok a) ∧ r' = some (.ok b) ∧ a.flag = b.flag ∧ a.nIter = b.nIter ∧
    (a.clusters.map (view look)).Perm (b.clusters.map (view look))

/-- The geometry routines give the same for the same obstacles in another order, `intersects` is symmetric, and what is seen of a cluster
obstacle tells its polygon. -/
structure OrderFree (g : Geo Ob Star KP P) (look : Star → X) : Prop where
  inter : ∀ p q, g.inter p q = g.inter q p
  poly : ∀ s t, look s = look t → g.starPoly s = g.starPoly t
  adm : ∀ n l l', List.Perm l l' → g.admEmpty n l = g.admEmpty n l'
  kernel : ∀ n l l' k, List.Perm l l' → g.kernelSel n l k = g.kernelSel n l' k
  loop : ∀ n l l' kp s, List.Perm l l' → g.loopStar n l kp = .ok s → ∃ t, g.loopStar n l' kp = .ok t ∧ look t = look s

/-- What is seen of a cluster obstacle tells whether it is convex, and what is seen of it when it is replaced by its hull. -/
structure ConvexFree (g : Geo Ob Star KP P) (look : Star → X) : Prop where
  convex : ∀ s t, look s = look t → g.isConvex s = g.isConvex t
  hull : ∀ h s t, look s = look t → look (g.hullStar h s) = look (g.hullStar h t)

end Starworlds.Spec
