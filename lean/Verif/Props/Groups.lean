import Verif.Proofs.GroupsCall
import Verif.Proofs.ConvexOrder
import Verif.Props.Cluster

/-! # C124: groups of obstacles that are apart do not influence each other -/

namespace Starworlds

open Spec

variable {Ob Star KP P : Type} {g : Geo Ob Star KP P} {A B : List Ob} {prev : Option (List (Cl Ob Star KP P))}

/-- **C124, partial.** Two groups of obstacles with distinct ids, such that no cluster obstacle that the call for one group makes meets one
that the call for the other makes: the call for all obstacles returns the clusters of the one call followed by those of the other, and needs
as many iterations as the longer one. Missing: `make_convex` (below), an iteration limit, time-outs, temporary ids, numbers of obstacles for
which the order of `list(set(·))` depends on more than the order of the numbers, and calls that raise exceptions. -/
theorem C124_partial (hs : IsSetList g.setList) (hsh : ShiftFree (A ++ B).length g.setList) (hti : ∀ i, g.timeoutInit i = false)
    (htm : ∀ n, g.timeoutIter n = false) (hid : ((A ++ B).map g.id).Nodup) {fuel : Nat} {rA rB : Res Ob Star KP P}
    (hA : clusterAndStarify g ⟨none, false, true⟩ prev fuel A = some (.ok rA))
    (hB : clusterAndStarify g ⟨none, false, true⟩ prev fuel B = some (.ok rB))
    (cA : rA.flag = .complete) (cB : rB.flag = .complete)
    (hap : ∀ c ∈ recorded rA, ∀ d ∈ recorded rB, ApartFrom g c d) (history : Bool) :
    ∃ r, clusterAndStarify g ⟨none, false, history⟩ prev fuel (A ++ B) = some (.ok r) ∧ r.clusters = rA.clusters ++ rB.clusters ∧
      r.flag = .complete ∧ r.nIter = max rA.nIter rB.nIter := by
  rcases call_two hs hsh hti htm hid hA hB hap (par := ⟨none, false, history⟩) rfl with
    ⟨_, _, hi, cls0, cls1, ex, it, h0, h1, h2⟩ | ⟨h | h, _⟩
  · refine ⟨⟨rA.clusters ++ rB.clusters, .complete, max rA.nIter rB.nIter, if history then some (.iters it) else none⟩, ?_, rfl, rfl, rfl⟩
    simp only [clusterAndStarify, hi, h0, h1, h2, Bool.false_eq_true, if_false]
  · rw [cA] at h; cases h
  · rw [cB] at h; cases h

/-- **C124, partial.** If the clustering of one group is given up, so is the clustering of all obstacles: the result is the default one,
with a cluster of its own for every obstacle of either group. -/
theorem C124_incomplete_partial (hs : IsSetList g.setList) (hsh : ShiftFree (A ++ B).length g.setList) (hti : ∀ i, g.timeoutInit i = false)
    (htm : ∀ n, g.timeoutIter n = false) (hid : ((A ++ B).map g.id).Nodup) {fuel : Nat} {rA rB : Res Ob Star KP P}
    (hA : clusterAndStarify g ⟨none, false, true⟩ prev fuel A = some (.ok rA))
    (hB : clusterAndStarify g ⟨none, false, true⟩ prev fuel B = some (.ok rB))
    (hinc : rA.flag = .incomplete ∨ rB.flag = .incomplete)
    (hap : ∀ c ∈ recorded rA, ∀ d ∈ recorded rB, ApartFrom g c d) (convex history : Bool) :
    ∃ r, clusterAndStarify g ⟨none, convex, history⟩ prev fuel (A ++ B) = some (.ok r) ∧ r.flag = .incomplete ∧
      r.clusters.map (·.obstacles) = (A ++ B).map fun o => [o] := by
  rcases call_two hs hsh hti htm hid hA hB hap (par := ⟨none, convex, history⟩) rfl with ⟨h, h', _⟩ | ⟨_, n, it, h⟩
  · rcases hinc with hi | hi
    · rw [h] at hi; cases hi
    · rw [h'] at hi; cases hi
  · refine ⟨_, h, rfl, ?_⟩
    simp only [defaultResult, List.map_map]
    exact List.map_congr_left fun o _ => rfl

theorem call_nil (fuel : Nat) (par : Params) : ∃ h, clusterAndStarify g par prev fuel [] = some (.ok ⟨[], .complete, 1, h⟩) ∧
    (par.returnHistory = true → h = some (.iters [[]])) := by
  refine ⟨if par.returnHistory then some (.iters (if par.returnHistory then [[]] else [])) else none, ?_, fun h => by simp only [h, if_true]⟩
  cases hc : par.makeConvex <;> cases fuel <;> simp [clusterAndStarify, initLoop, getIntersectionClusters, clusterLoop, makeConvexLoop, pure, Except.pure, hc]

theorem Spec.ShiftFree.mono {N M : Nat} {s : List Nat → List Nat} (h : ShiftFree N s) (hm : M ≤ N) : ShiftFree M s :=
  fun k l hl => h k l fun x hx => lt_of_lt_of_le (hl x hx) hm

/-- The call with `make_convex`, from the one without. -/
theorem convex_call {par : Params} (hs : IsSetList g.setList) (hid : (A.map g.id).Nodup) (htc : ∀ j, g.timeoutConvex j = false)
    (hh : ∀ p, ∃ q, g.hullOf p = .ok q) {fuel : Nat} (hmax : par.maxIterations = none) {cls0 cls1 out : List (Cl Ob Star KP P)} {ex : Bool} {n : Nat}
    {it : List (List (Cl Ob Star KP P))} (hi : initLoop g 0 A = .ok true) (h0 : A.mapM (firstCluster g prev) = .ok cls0)
    (h1 : getIntersectionClusters g cls0 = .ok (cls1, ex))
    (h2 : clusterLoop g par prev fuel cls1 ex (firstHistory cls0) 1 (if par.returnHistory then [cls0] else []) = some (.ok (.done out n it)))
    (hc : par.makeConvex = true) :
    Final g A out ∧ ∃ h, clusterAndStarify g par prev fuel A = some (.ok ⟨out.map (convOf g out), .complete, n, h⟩) := by
  obtain ⟨m1, m2, _⟩ := mapM_first A (fun o ho => ho) h0
  have hp0 : (A.map g.id).Nodup → List.Perm (cls0.flatMap (·.obstacles)) A := by
    intro _; rw [m2]
  have f : Final g A out := by
    refine clusterLoop_final hs hmax fuel cls1 ex _ 1 _ (histOk_first cls0 m1) ?_ ?_ h2
    · rintro rfl
      exact ⟨gic_fresh hs m1 h1, fun hid => (gic_perm hs h1).trans (hp0 hid)⟩
    · rintro rfl
      exact gic_final hs m1 hp0 h1
  refine ⟨f, if par.returnHistory then some (.iters it) else none, ?_⟩
  have hn := (f.perm hid).nodup_iff.2 (List.Nodup.of_map _ hid)
  have hmc := makeConvex_form out (fun c hc => (f.good c hc).1.star)
    (fun c hc => by rw [(f.good c hc).2, Option.isSome_map]; exact (f.good c hc).1.star) (fun c hc => (f.good c hc).1.nonempty) hn htc hh
  simp only [clusterAndStarify, hi, h0, h1, h2, hc, if_true, hmc]

/-- Which clusters of another group are there makes no difference for a cluster whose hull they do not meet. -/
theorem convOf_two {X Y : List (Cl Ob Star KP P)} {c : Cl Ob Star KP P} (cls : List (Cl Ob Star KP P))
    (hm : ∀ d, d ∈ cls ↔ d ∈ X ∨ d ∈ Y)
    (hy : ∀ d ∈ Y, ∀ p h q, c.polygon = some p → g.hullOf p = .ok h → d.polygon = some q → g.inter h q = false) :
    convOf g cls c = convOf g X c := by
  unfold convOf
  cases hst : c.star with
  | none => rfl
  | some st => cases hp : c.polygon with
    | none => rfl
    | some p =>
      simp only []
      split
      · rfl
      · cases hh : g.hullOf p with
        | error => rfl
        | ok h =>
          simp only []
          have : MeetsElse g cls c h ↔ MeetsElse g X c h := by
            constructor
            · rintro ⟨d, hd, hne, q, hq, hi⟩
              rcases (hm d).1 hd with hd | hd
              · exact ⟨d, hd, hne, q, hq, hi⟩
              · rw [hy d hd p h q hp hh hq] at hi; cases hi
            · rintro ⟨d, hd, r⟩
              exact ⟨d, (hm d).2 (Or.inl hd), r⟩
          by_cases hb : g.blocked h = true ∨ MeetsElse g cls c h
          · rw [if_pos hb, if_pos (by rwa [this] at hb)]
          · rw [if_neg hb, if_neg (by rwa [this] at hb)]

/-- **C124, partial**, with `make_convex`: it is needed that the convex hulls of the clusters of one group do not meet the clusters of the
other. -/
theorem C124_convex_partial (hs : IsSetList g.setList) (hsh : ShiftFree (A ++ B).length g.setList) (hti : ∀ i, g.timeoutInit i = false)
    (htm : ∀ n, g.timeoutIter n = false) (htc : ∀ j, g.timeoutConvex j = false) (hh : ∀ p, ∃ q, g.hullOf p = .ok q)
    (hid : ((A ++ B).map g.id).Nodup) {fuel : Nat} {rA rB : Res Ob Star KP P}
    (hA : clusterAndStarify g ⟨none, false, true⟩ prev fuel A = some (.ok rA))
    (hB : clusterAndStarify g ⟨none, false, true⟩ prev fuel B = some (.ok rB))
    (cA : rA.flag = .complete) (cB : rB.flag = .complete)
    (hap : ∀ c ∈ recorded rA, ∀ d ∈ recorded rB, ApartFrom g c d)
    (hhull : ∀ c ∈ rA.clusters, ∀ d ∈ rB.clusters, ∀ s t, c.star = some s → d.star = some t →
      (∀ h, g.hullOf (g.starPoly s) = .ok h → g.inter h (g.starPoly t) = false) ∧
      (∀ h, g.hullOf (g.starPoly t) = .ok h → g.inter h (g.starPoly s) = false)) (history : Bool) :
    ∃ sA sB r, clusterAndStarify g ⟨none, true, history⟩ prev fuel A = some (.ok sA) ∧
      clusterAndStarify g ⟨none, true, history⟩ prev fuel B = some (.ok sB) ∧
      clusterAndStarify g ⟨none, true, history⟩ prev fuel (A ++ B) = some (.ok r) ∧
      r.clusters = sA.clusters ++ sB.clusters ∧ r.flag = .complete ∧ r.nIter = max sA.nIter sB.nIter := by
  have idA : (A.map g.id).Nodup := by rw [List.map_append] at hid; exact hid.of_append_left
  have idB : (B.map g.id).Nodup := by rw [List.map_append] at hid; exact hid.of_append_right
  obtain ⟨hn, hnil, hn'⟩ := call_nil (g := g) (prev := prev) fuel ⟨none, false, true⟩
  obtain rfl := hn' rfl
  have one : ∀ (L : List Ob) (r : Res Ob Star KP P), L.length ≤ (A ++ B).length → (L.map g.id).Nodup →
      clusterAndStarify g ⟨none, false, true⟩ prev fuel L = some (.ok r) → r.flag = .complete → Final g L r.clusters ∧
        ∃ h, clusterAndStarify g ⟨none, true, history⟩ prev fuel L =
          some (.ok ⟨r.clusters.map (convOf g r.clusters), .complete, max r.nIter 1, h⟩) := by
    intro L r hl hidL hL hc
    rcases call_two (A := L) (B := []) hs (hsh.mono (by simpa using hl)) hti htm (by simpa using hidL) hL hnil
      (by intro c _ d hd; simp [recorded] at hd) (par := ⟨none, true, history⟩) rfl with
      ⟨_, _, hi, cls0, cls1, ex, it, h0, h1, h2⟩ | ⟨h | h, _⟩
    · simp only [List.append_nil] at hi h0 h2
      exact convex_call hs hidL htc hh rfl hi h0 h1 h2 rfl
    · rw [hc] at h; cases h
    · cases h
  obtain ⟨fA, kA, eA⟩ := one A rA (by simp) idA hA cA
  obtain ⟨fB, kB, eB⟩ := one B rB (by simp) idB hB cB
  rcases call_two hs hsh hti htm hid hA hB hap (par := ⟨none, true, history⟩) rfl with
    ⟨_, _, hi, cls0, cls1, ex, it, h0, h1, h2⟩ | ⟨h | h, _⟩
  · obtain ⟨f, k, e⟩ := convex_call hs hid htc hh rfl hi h0 h1 h2 rfl
    refine ⟨_, _, _, eA, eB, e, ?_, rfl, ?_⟩
    · simp only [List.map_append]
      congr 1
      · refine List.map_congr_left fun c hc => ?_
        refine convOf_two _ (fun d => List.mem_append) ?_
        intro d hd p h q hp hph hq
        rw [(fA.good c hc).2, Option.map_eq_some_iff] at hp
        rw [(fB.good d hd).2, Option.map_eq_some_iff] at hq
        obtain ⟨s, hs, rfl⟩ := hp
        obtain ⟨t, ht, rfl⟩ := hq
        exact (hhull c hc d hd s t hs ht).1 h hph
      · refine List.map_congr_left fun c hc => ?_
        refine convOf_two (X := rB.clusters) (Y := rA.clusters) _ (fun d => by rw [List.mem_append, or_comm]) ?_
        intro d hd p h q hp hph hq
        rw [(fB.good c hc).2, Option.map_eq_some_iff] at hp
        rw [(fA.good d hd).2, Option.map_eq_some_iff] at hq
        obtain ⟨t, ht, rfl⟩ := hp
        obtain ⟨s, hs, rfl⟩ := hq
        exact (hhull d hd c hc s t hs ht).2 h hph
    · simp only []
      have hn := C124_partial (A := A) (B := []) hs (hsh.mono (by simp)) hti htm (by simpa using idA) hA hnil cA rfl
        (by intro c _ d hd; simp [recorded] at hd) true
      rw [List.append_nil, hA] at hn
      obtain ⟨_, h3, _, _, h4⟩ := hn
      simp only [Option.some.injEq, Except.ok.injEq] at h3
      rw [← h3] at h4
      simp only [] at h4
      omega
  · rw [cA] at h; cases h
  · rw [cB] at h; cases h

/-! ## A concrete geometry -/

/-- As `demoGeo`, and 3 meets 4. -/
def groupDemo : Geo Nat (List Nat) Unit (List Nat) :=
  { demoGeo with inter := fun p q => demoMeet p q || (p.contains 3 && q.contains 4) || (p.contains 4 && q.contains 3) }

theorem shiftFree_dedup (N : Nat) : ShiftFree N List.dedup := by
  intro k l _
  exact List.dedup_map_of_injective (fun a b h => by simpa using h) l

instance (g : Geo Nat (List Nat) Unit (List Nat)) (c d : Cl Nat (List Nat) Unit (List Nat)) : Decidable (ApartFrom g c d) :=
  decidable_of_iff (∀ s ∈ c.star, ∀ t ∈ d.star, g.inter (g.starPoly s) (g.starPoly t) = false)
    ⟨fun h s t hs ht => h s hs t ht, fun h s hs t ht => h s t hs ht⟩

/-- A concrete case: 0, 1, 2 end in one cluster after three iterations, 3 and 4 in another one after two. -/
example : ∃ r, clusterAndStarify groupDemo ⟨none, false, false⟩ none 5 ([0, 1, 2] ++ [3, 4]) = some (.ok r) ∧
    r.clusters.map (·.obstacles) = [[0, 1, 2], [3, 4]] ∧ r.flag = .complete ∧ r.nIter = 3 := by
  obtain ⟨r, h1, h2, h3, h4⟩ := C124_partial (g := groupDemo) (A := [0, 1, 2]) (B := [3, 4]) (prev := none) isSetList_dedup
    (shiftFree_dedup _) (fun _ => rfl) (fun _ => rfl) (by decide) (fuel := 5) rfl rfl rfl rfl (by decide +kernel) false
  refine ⟨r, h1, ?_, h3, h4⟩
  rw [h2]
  decide +kernel

/-- A concrete case of `C124_convex_partial`: the hulls meet nothing. -/
example : ∃ sA sB r, clusterAndStarify groupDemo ⟨none, true, false⟩ none 5 [0, 1, 2] = some (.ok sA) ∧
    clusterAndStarify groupDemo ⟨none, true, false⟩ none 5 [3, 4] = some (.ok sB) ∧
    clusterAndStarify groupDemo ⟨none, true, false⟩ none 5 ([0, 1, 2] ++ [3, 4]) = some (.ok r) ∧
    r.clusters = sA.clusters ++ sB.clusters ∧ r.flag = .complete ∧ r.nIter = max sA.nIter sB.nIter := by
  have key : ∀ rA rB, clusterAndStarify groupDemo ⟨none, false, true⟩ none 5 [0, 1, 2] = some (.ok rA) →
      clusterAndStarify groupDemo ⟨none, false, true⟩ none 5 [3, 4] = some (.ok rB) →
      ∀ c ∈ rA.clusters, ∀ d ∈ rB.clusters, ApartFrom groupDemo c d ∧ ApartFrom groupDemo d c := by
    intro rA rB hA hB
    obtain rfl := Except.ok.inj (Option.some.inj hA)
    obtain rfl := Except.ok.inj (Option.some.inj hB)
    decide +kernel
  refine C124_convex_partial (g := groupDemo) (A := [0, 1, 2]) (B := [3, 4]) (prev := none) isSetList_dedup
    (shiftFree_dedup _) (fun _ => rfl) (fun _ => rfl) (fun _ => rfl) (fun _ => ⟨_, rfl⟩) (by decide) (fuel := 5) rfl rfl rfl rfl
    (by decide +kernel) (fun c hc d hd s t hs ht => ?_) false
  have := key _ _ rfl rfl c hc d hd
  refine ⟨fun h hh => ?_, fun h hh => ?_⟩ <;> obtain rfl := Except.ok.inj hh
  · exact this.1 s t hs ht
  · exact this.2 t s ht hs

/-- A concrete case of `C124_incomplete_partial`: the cluster of 3 and 4 has an empty admissible kernel, and the cluster of 0, 1 and 2 is
not made any more. -/
example : ∃ r, clusterAndStarify { groupDemo with admEmpty := fun _ l => .ok (l.contains 3) } ⟨none, true, false⟩ none 5 ([0, 1, 2] ++ [3, 4]) = some (.ok r) ∧
    r.flag = .incomplete ∧ r.clusters.map (·.obstacles) = [[0], [1], [2], [3], [4]] :=
  C124_incomplete_partial (g := { groupDemo with admEmpty := fun _ l => .ok (l.contains 3) }) (A := [0, 1, 2]) (B := [3, 4]) (prev := none) isSetList_dedup
    (shiftFree_dedup _) (fun _ => rfl) (fun _ => rfl) (by decide) (fuel := 5) rfl rfl (Or.inr rfl) (by decide +kernel) true false

/-! ## Refutations -/

/-- **C124 is false** with an iteration limit: the call for 3 and 4 alone stays below the limit and returns their cluster obstacle and kernel
points; if 0, 1 and 2, which are far from them, reach the limit, the cluster of 3 and 4 loses both. -/
theorem C124_limit_false : ∃ rA rB r, clusterAndStarify groupDemo ⟨some 2, false, true⟩ none 5 [3, 4] = some (.ok rA) ∧
    clusterAndStarify groupDemo ⟨some 2, false, true⟩ none 5 [0, 1, 2] = some (.ok rB) ∧
    clusterAndStarify groupDemo ⟨some 2, false, true⟩ none 5 ([3, 4] ++ [0, 1, 2]) = some (.ok r) ∧
    (∀ c ∈ recorded rA, ∀ d ∈ recorded rB, ApartFrom groupDemo c d) ∧
    rA.flag = .complete ∧ rB.flag = .complete ∧ r.flag = .complete ∧
    (rA.clusters.map fun c => (c.obstacles, c.star, c.kernelPoints)) = [([3, 4], some [3, 4], some ())] ∧
    (r.clusters.map fun c => (c.obstacles, c.star, c.kernelPoints)) = [([3, 4], none, none), ([0, 1, 2], none, none)] := by
  refine ⟨_, _, _, rfl, rfl, rfl, ?_, rfl, rfl, rfl, ?_, ?_⟩ <;> decide +kernel

/-- The convex hull of a polygon with 3 meets the obstacle 0. -/
def groupHull : Geo Nat (List Nat) Unit (List Nat) :=
  { groupDemo with
    hullOf := fun p => .ok (9 :: p)
    inter := fun p q => groupDemo.inter p q || (p.contains 9 && p.contains 3 && q.contains 0) }

/-- **C124 is false** with `make_convex`, if the convex hull of a cluster of one group meets the other group. -/
theorem C124_convex_false : ∃ rA rB sA r, clusterAndStarify groupHull ⟨none, false, true⟩ none 5 [3, 4] = some (.ok rA) ∧
    clusterAndStarify groupHull ⟨none, false, true⟩ none 5 [0] = some (.ok rB) ∧
    (∀ c ∈ recorded rA, ∀ d ∈ recorded rB, ApartFrom groupHull c d) ∧
    clusterAndStarify groupHull ⟨none, true, true⟩ none 5 [3, 4] = some (.ok sA) ∧
    clusterAndStarify groupHull ⟨none, true, true⟩ none 5 ([3, 4] ++ [0]) = some (.ok r) ∧
    sA.clusters.map (·.star) = [some [9, 3, 4]] ∧ r.clusters.map (·.star) = [some [3, 4], some [9, 0]] := by
  refine ⟨_, _, _, _, rfl, rfl, ?_, rfl, rfl, ?_, ?_⟩ <;> decide +kernel

/-- **C124 is false** with temporary ids: 2 and 3 have none, and 2 is replaced by 3, which is far from it. -/
theorem C124_temporary_false : ∃ rA rB r, clusterAndStarify demoTemp ⟨none, false, true⟩ none 5 [0, 1, 2] = some (.ok rA) ∧
    clusterAndStarify demoTemp ⟨none, false, true⟩ none 5 [3] = some (.ok rB) ∧
    clusterAndStarify demoTemp ⟨none, false, true⟩ none 5 ([0, 1, 2] ++ [3]) = some (.ok r) ∧
    (∀ c ∈ recorded rA, ∀ d ∈ recorded rB, ApartFrom demoTemp c d) ∧
    rA.clusters.map (·.obstacles) = [[0, 1], [2]] ∧ rB.clusters.map (·.obstacles) = [[3]] ∧
    r.clusters.map (·.obstacles) = [[0, 1], [3], [3]] := by
  refine ⟨_, _, _, rfl, rfl, rfl, ?_, ?_, ?_, ?_⟩ <;> decide +kernel

/-- `list(set(l))` in CPython for a set of at most four numbers below 16, no two of which are the same modulo 8: a table of eight places. -/
def smallSet (l : List Nat) : List Nat := l.dedup.insertionSort fun a b => a % 8 ≤ b % 8

theorem isSetList_smallSet : IsSetList smallSet := fun l =>
  ⟨((List.perm_insertionSort _ _).nodup_iff).2 l.nodup_dedup, fun x => by
    rw [smallSet, (List.perm_insertionSort _ _).mem_iff, List.mem_dedup]⟩

/-- Obstacles 7 and 8 meet. -/
def groupOrder : Geo Nat (List Nat) Unit (List Nat) :=
  { demoGeo with
    setList := smallSet
    inter := fun p q => p.contains 7 && q.contains 8 }

/-- **C124 is false** for more than eight obstacles: with seven other obstacles before them, the obstacles of the cluster come in the other
order, in which its name, and with it the previous cluster, differs. -/
theorem C124_order_false : IsSetList groupOrder.setList ∧
    ∃ rA rB r, clusterAndStarify groupOrder ⟨none, false, true⟩ none 9 [0, 1, 2, 3, 4, 5, 6] = some (.ok rA) ∧
    clusterAndStarify groupOrder ⟨none, false, true⟩ none 9 [7, 8] = some (.ok rB) ∧
    clusterAndStarify groupOrder ⟨none, false, true⟩ none 9 ([0, 1, 2, 3, 4, 5, 6] ++ [7, 8]) = some (.ok r) ∧
    (∀ c ∈ recorded rA, ∀ d ∈ recorded rB, ApartFrom groupOrder c d) ∧
    rB.clusters.map (fun c => (c.name, c.obstacles)) = [("7_8", [7, 8])] ∧
    r.clusters.map (fun c => (c.name, c.obstacles)) =
      [("0", [0]), ("1", [1]), ("2", [2]), ("3", [3]), ("4", [4]), ("5", [5]), ("6", [6]), ("8_7", [8, 7])] := by
  refine ⟨isSetList_smallSet, _, _, _, rfl, rfl, rfl, ?_, ?_, ?_⟩ <;> decide +kernel

end Starworlds
