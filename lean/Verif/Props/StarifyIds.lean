import Verif.Proofs.StarifyEach
import Verif.Spec.StarifyIds
import Verif.Props.Cluster

/-! # C104-C106: the ids of cluster obstacles -/

namespace Starworlds

open Spec

variable {Ob Star KP P : Type} {g : Geo Ob Star KP P} {own : Star → Bool} {par : Params} {obstacles : List Ob}

/-! ## C104 -/

theorem session_owner {ident : Ob → Option Nat} {counter : Nat} {known : Nat → Prop} {results : List (List (IdCl Ob Star KP P))}
    (h : Session ident counter known results) :
    ∃ owner : Nat → Option String, Owners owner counter ∧ (∀ k, known k → owner k = some (clusterName [some k])) ∧
      ∀ r ∈ results, (r.map (·.name)).Nodup ∧ ∀ c ∈ r, Named owner c ∧ c.obstacles ≠ [] ∧ c.name = clusterName (c.obstacles.map ident) := by
  induction h with
  | start => exact ⟨fun _ => none, (by intro k nm h; cases h), (fun _ h => h.elim), by simp⟩
  | @create counter known results _ ih =>
    obtain ⟨owner, h1, h2, h3⟩ := ih
    obtain ⟨owner', a1, a2, k, a3, a4⟩ := setId_owner (Ob := Ob) (Star := Star) (KP := KP) (P := P) (p := none)
      (nm := clusterName [some (counter + 1)]) h1 (by intro c e; cases e) (req := .new) rfl
    have : k = counter + 1 := by simpa [setId] using a3.symm
    subst this
    refine ⟨owner', a2, ?_, ?_⟩
    · rintro m (rfl | hm)
      · exact a4
      · exact a1 _ _ (h2 m hm)
    · intro r hr
      exact ⟨(h3 r hr).1, fun c hc => ⟨((h3 r hr).2 c hc).1.mono a1, ((h3 r hr).2 c hc).2⟩⟩
  | call g own par workspace prev fuel obstacles r counter' hs hg hset hknown hnd hprev hcall ih =>
    subst hg
    rename_i counter known results
    obtain ⟨owner, h1, h2, h3⟩ := ih
    have hp : PrevNamed owner prev := fun l hl c hc => ((h3 l (hprev l hl)).2 c hc).1
    have hown : OwnIds g owner obstacles := by
      intro o ho
      obtain ⟨k, hk, hkk⟩ := hknown o ho
      exact ⟨k, hk, h2 k hkk⟩
    obtain ⟨owner', a1, a2, a3⟩ := clusterAndStarifyId_tagged h1 hp hown hcall
    have he := clusterAndStarify_erase (g := g) (own := own) (par := par) workspace prev fuel obstacles counter
    rw [hcall] at he
    have hl := clusterAndStarify_labelled hset he
    refine ⟨owner', a2, fun k hk => a1 _ _ (h2 k hk), ?_⟩
    intro r' hr'
    rcases List.mem_cons.1 hr' with rfl | hr'
    · refine ⟨?_, fun c hc => ⟨(a3 c hc).named, ?_, ?_⟩⟩
      · have := hl.names hnd
        simpa [eraseRes, List.map_map, Function.comp_def, eraseCl_name] using this
      · exact hl.nonempty (eraseCl c) (List.mem_map_of_mem hc)
      · exact hl.name (eraseCl c) (List.mem_map_of_mem hc)
    · exact ⟨(h3 r' hr').1, fun c hc => ⟨((h3 r' hr').2 c hc).1.mono a1, ((h3 r' hr').2 c hc).2⟩⟩

/-- **C104, partial.** In a program whose obstacles all have ids: each cluster obstacle has an id, and two cluster obstacles
with the same id, of the same or of different results, belong to clusters of the same obstacles. -/
theorem C104_partial {ident : Ob → Option Nat} {counter : Nat} {known : Nat → Prop} {results : List (List (IdCl Ob Star KP P))}
    (h : Session ident counter known results) {r r' : List (IdCl Ob Star KP P)} (hr : r ∈ results) (hr' : r' ∈ results)
    {a b : IdCl Ob Star KP P} (ha : a ∈ r) (hb : b ∈ r') {s t : Star × Option Nat} (hs : a.star = some s) (ht : b.star = some t) :
    (∃ k, s.2 = some k ∧ 0 < k ∧ k ≤ counter) ∧ (s.2 = t.2 → a.obstacles.map ident = b.obstacles.map ident) := by
  obtain ⟨owner, h1, _, h3⟩ := session_owner h
  obtain ⟨na, nea, ea⟩ := (h3 r hr).2 a ha
  obtain ⟨nb, neb, eb⟩ := (h3 r' hr').2 b hb
  obtain ⟨k, k1, k2⟩ := na s hs
  obtain ⟨m, m1, m2⟩ := nb t ht
  refine ⟨⟨k, k1, h1 _ _ k2⟩, fun e => ?_⟩
  rw [k1, m1, Option.some.injEq] at e
  subst e
  rw [k2, Option.some.injEq, ea, eb] at m2
  exact clusterName_inj (by simpa using nea) (by simpa using neb) m2

/-- **C104, partial.** In a program whose obstacles all have ids, the cluster obstacles of a result have different ids. -/
theorem C104_distinct_partial {ident : Ob → Option Nat} {counter : Nat} {known : Nat → Prop} {results : List (List (IdCl Ob Star KP P))}
    (h : Session ident counter known results) {r : List (IdCl Ob Star KP P)} (hr : r ∈ results) :
    r.Pairwise fun a b => ∀ s t, a.star = some s → b.star = some t → s.2 ≠ t.2 := by
  obtain ⟨owner, _, _, h3⟩ := session_owner h
  have hnd := (h3 r hr).1
  rw [List.Nodup, List.pairwise_map] at hnd
  refine List.Pairwise.imp_of_mem ?_ hnd
  intro a b ha hb hne s t hs ht e
  obtain ⟨k, k1, k2⟩ := ((h3 r hr).2 a ha).1 s hs
  obtain ⟨m, m1, m2⟩ := ((h3 r hr).2 b hb).1 t ht
  rw [k1, m1, Option.some.injEq] at e
  subst e
  rw [k2, Option.some.injEq] at m2
  exact hne m2

/-- Obstacles are numbers, and polygons are lists of the parts of a region. Obstacle 1 meets 2. The hull of obstacle 3 has a part
that the obstacle does not have if `ext`. -/
def idDemo (ext : Bool) : Geo Nat (List Nat) Unit (List Nat) :=
  { demoGeo with
    inter := fun p q => p.contains 1 && q.contains 2
    firstStar := fun o _ => .ok (if o = 3 && ext then [3, 30] else [o])
    isConvex := fun p => p.contains 9
    hullOf := fun p => .ok (9 :: p) }

/-- There is a hull extension if the cluster obstacle has more parts than the obstacle. -/
def idDemoOwn (p : List Nat) : Bool := p.length == 1

/-- Obstacles and id of each cluster, and the counter. -/
def idView (r : Option (Except PyErr (Res Nat (List Nat × Option Nat) Unit (List Nat) × Nat))) :
    Option (Except PyErr (List (List Nat × Option (Option Nat)) × Nat)) :=
  r.map fun e => e.map fun r => (r.1.clusters.map fun c => (c.obstacles, c.star.map Prod.snd), r.2)

/-- The clusters of a call, for the next one. -/
def idClusters (r : Option (Except PyErr (Res Nat (List Nat × Option Nat) Unit (List Nat) × Nat))) :
    Option (List (IdCl Nat (List Nat) Unit (List Nat))) :=
  match r with
  | some (.ok r) => some r.1.clusters
  | _ => none

theorem idDemo_first : isOk ([([1, 2], some (some 4)), ([3], some (some 3))], 4)
    (idView (clusterAndStarifyId (idDemo false) idDemoOwn demoPar true none 3 [1, 2, 3] 3)) = true := by decide +kernel

/-- A concrete case of `C104_partial` and `C104_distinct_partial`: three obstacles, the first two of which meet. -/
example : ∃ r : List (IdCl Nat (List Nat) Unit (List Nat)), Session some 4 (fun k => k = 3 ∨ k = 2 ∨ k = 1 ∨ False) [r] ∧ r.map (fun c => (c.obstacles, c.star.map Prod.snd)) = [([1, 2], some (some 4)), ([3], some (some 3))] := by
  have h := idDemo_first
  rcases hc : clusterAndStarifyId (idDemo false) idDemoOwn demoPar true none 3 [1, 2, 3] 3 with _ | e | ⟨r, k⟩
  · rw [hc] at h; simp [idView, isOk] at h
  · rw [hc] at h; simp [idView, isOk, Except.map] at h
  · rw [hc] at h
    simp only [idView, Option.map_some, Except.map, isOk, decide_eq_true_eq, Prod.mk.injEq] at h
    obtain ⟨h1, rfl⟩ := h
    exact ⟨r.clusters, Session.call (idDemo false) idDemoOwn demoPar true none 3 [1, 2, 3] r 4 (.create (.create (.create .start))) rfl
      isSetList_dedup (by simp) (by simp) (by simp) hc, h1⟩

/-- **C104 is false** for obstacles with temporary ids: two clusters of different obstacles with the id `None`. -/
theorem C104_false : isOk ([([1], some none), ([2], some none)], 0)
    (idView (clusterAndStarifyId { idDemo false with id := fun _ => none, inter := fun _ _ => false } idDemoOwn demoPar true none 2 [1, 2] 0)) = true := by
  decide +kernel

/-! ## C105 -/

/-- **C105, partial.** A cluster of the previous result that is also in the result keeps the id of its cluster obstacle, unless
it is a single obstacle that has become its own cluster obstacle, or has been made convex. -/
theorem C105_partial {workspace : Bool} {l : List (IdCl Ob Star KP P)} (hl : (l.map (·.name)).Nodup) {fuel : Nat}
    {counter counter' : Nat} {r : Res Ob (Star × Option Nat) KP P}
    (h : clusterAndStarifyId g own par workspace (some l) fuel obstacles counter = some (.ok (r, counter')))
    {c d : IdCl Ob Star KP P} (hc : c ∈ l) (hd : d ∈ r.clusters) (hn : c.name = d.name) {s t : Star × Option Nat} (hs : c.star = some s)
    (ht : d.star = some t) (hk : ∀ k, s.2 = some k → 0 < k ∧ k ≤ counter) :
    t.2 = s.2 ∨ (∃ o, d.obstacles = [o] ∧ t.2 = g.id o) ∨ (par.makeConvex = true ∧ ∃ k, counter < k ∧ t.2 = some k) := by
  have hex : ∀ e, extractCluster c.name (some l) = some e ∨ lastCluster c.name (some l) = some e → e = c := by
    intro e he
    have key : e ∈ l ∧ e.name = c.name := by
      rcases he with he | he
      · have he : l.find? (fun x => x.name == c.name) = some e := he
        exact ⟨List.mem_of_find?_eq_some he, by simpa using List.find?_some he⟩
      · have he : l.reverse.find? (fun x => x.name == c.name) = some e := he
        exact ⟨List.mem_reverse.1 (List.mem_of_find?_eq_some he), by simpa using List.find?_some he⟩
    exact List.inj_on_of_nodup_map hl key.1 hc key.2
  have hset : ∀ k req p, counter ≤ k → (p = none → False) → (∀ e, p = some e → e = c) → idRequest p = .ok req → (setId k req).2 = s.2 := by
    intro k req p hkk hp1 hp2 hreq
    cases p with
    | none => exact (hp1 rfl).elim
    | some e =>
      rw [hp2 e rfl] at hreq
      simp only [idRequest, hs] at hreq
      cases hs2 : s.2 with
      | none =>
        rw [hs2] at hreq
        simp only [Except.ok.injEq] at hreq
        rw [← hreq]; rfl
      | some m =>
        rw [hs2] at hreq
        simp only [Except.ok.injEq] at hreq
        have hv := hk m hs2
        have : (0 : Int) < (m : Int) ∧ (m : Int) ≤ (k : Int) := by omega
        rw [← hreq]
        simp only [setId, this, and_self, if_true, Int.toNat_natCast]
  have hne : extractCluster c.name (some l) ≠ none := by
    intro e
    have e : l.find? (fun x => x.name == c.name) = none := e
    simpa using List.find?_eq_none.1 e c hc
  have hnl : lastCluster c.name (some l) ≠ none := by
    intro e
    have e : l.reverse.find? (fun x => x.name == c.name) = none := e
    simpa using List.find?_eq_none.1 e c (List.mem_reverse.2 hc)
  have hR : IdRule g obstacles (some l) counter fun nm obs i => nm = c.name →
      i = s.2 ∨ (∃ o, obs = [o] ∧ i = g.id o) ∨ (par.makeConvex = true ∧ ∃ k, counter < k ∧ i = some k) := by
    refine ⟨?_, ?_, ?_⟩
    · intro o _ _
      exact Or.inr (Or.inl ⟨o, rfl, rfl⟩)
    · intro nm o k req hkk hreq e
      subst e
      exact Or.inl (hset k req _ hkk hne (fun e he => hex e (Or.inl he)) hreq)
    · intro nm o k req hkk hreq e
      subst e
      exact Or.inl (hset k req _ hkk hnl (fun e he => hex e (Or.inr he)) hreq)
  exact ((clusterAndStarifyId_ruled hR (fun hm nm obs k hkk _ => Or.inr (Or.inr ⟨hm, k + 1, by omega, rfl⟩)) h).2 d hd).2 t ht hn.symm

/-- A concrete case of `C105_partial`: the cluster of the obstacles 1 and 2 keeps the id 4 in a second call, and the counter stays at 4. -/
example : isOk ([([1, 2], some (some 4)), ([3], some (some 3))], 4)
    (idView (clusterAndStarifyId (idDemo false) idDemoOwn demoPar true
      (idClusters (clusterAndStarifyId (idDemo false) idDemoOwn demoPar true none 3 [1, 2, 3] 3)) 3 [1, 2, 3] 4)) = true := by decide +kernel

/-- **C105 is false.** Obstacle 3 needs a hull extension in the first call and none in the second one: its cluster obstacle has the
id 4 in the first result, and the id 3 in the second. -/
theorem C105_false : isOk ([([3], some (some 4))], 4)
      (idView (clusterAndStarifyId (idDemo true) idDemoOwn demoPar true none 3 [3] 3)) = true ∧
    isOk ([([3], some (some 3))], 4) (idView (clusterAndStarifyId (idDemo false) idDemoOwn demoPar true
      (idClusters (clusterAndStarifyId (idDemo true) idDemoOwn demoPar true none 3 [3] 3)) 3 [3] 4)) = true := by decide +kernel

/-- **C105 is false** with `make_convex`: the second of two equal calls gives a new id. -/
theorem C105_convex_false : isOk ([([3], some (some 4))], 4)
      (idView (clusterAndStarifyId (idDemo false) idDemoOwn ⟨none, true, false⟩ true none 3 [3] 3)) = true ∧
    isOk ([([3], some (some 5))], 5) (idView (clusterAndStarifyId (idDemo false) idDemoOwn ⟨none, true, false⟩ true
      (idClusters (clusterAndStarifyId (idDemo false) idDemoOwn ⟨none, true, false⟩ true none 3 [3] 3)) 3 [3] 4)) = true := by decide +kernel

/-- Obstacle 1 meets obstacle `a`, and the hull of both meets obstacle `b`. -/
def idDemoTwice (a b : Nat) : Geo Nat (List Nat) Unit (List Nat) :=
  { idDemo false with
    inter := fun p q => (p.contains 1 && q.contains a) || (p.contains 1 && p.contains a && q.contains b) ||
      (q.contains 1 && q.contains a && p.contains b) }

/-- **C105 is false** for clusters that grow in another way: in both calls the obstacles 1, 2, 3 end in one cluster. In the first call 1 and 2
are merged first and the name is `1_2_3`; in the second call 1 and 3 are, the name is `1_3_2`, and the id 5 is replaced by 7. If the clusters
grow in the same way, the id is kept. -/
theorem C105_order_false : isOk ([([1, 2, 3], some (some 5))], 5)
      (idView (clusterAndStarifyId (idDemoTwice 2 3) idDemoOwn demoPar true none 3 [1, 2, 3] 3)) = true ∧
    isOk ([([1, 3, 2], some (some 7))], 7) (idView (clusterAndStarifyId (idDemoTwice 3 2) idDemoOwn demoPar true
      (idClusters (clusterAndStarifyId (idDemoTwice 2 3) idDemoOwn demoPar true none 3 [1, 2, 3] 3)) 3 [1, 2, 3] 5)) = true ∧
    isOk ([([1, 2, 3], some (some 5))], 6) (idView (clusterAndStarifyId (idDemoTwice 2 3) idDemoOwn demoPar true
      (idClusters (clusterAndStarifyId (idDemoTwice 2 3) idDemoOwn demoPar true none 3 [1, 2, 3] 3)) 3 [1, 2, 3] 5)) = true := by decide +kernel

/-! ## C106 -/

/-- **C106, partial.** The counter does not decrease. -/
theorem C106_mono_partial {workspace : Bool} {prev : Option (List (IdCl Ob Star KP P))} {fuel : Nat}
    {counter counter' : Nat} {r : Res Ob (Star × Option Nat) KP P}
    (h : clusterAndStarifyId g own par workspace prev fuel obstacles counter = some (.ok (r, counter'))) : counter ≤ counter' :=
  (clusterAndStarifyId_ruled (R := fun _ _ _ => True) ⟨by simp, by simp, by simp⟩ (by simp) h).1

theorem firstLoopId_counter {l : List (IdCl Ob Star KP P)} (obs : List Ob) (hp : ∀ o ∈ obs, ∃ c ∈ l, c.name = clusterName [g.id o])
    {counter : Nat} {cls : List (IdCl Ob Star KP P)} {counter' : Nat}
    (h : firstLoopId g own (some l) obs counter = .ok (cls, counter')) : counter' = counter := by
  induction obs generalizing counter cls counter' with
  | nil =>
    simp only [firstLoopId, Except.ok.injEq, Prod.mk.injEq] at h
    exact h.2.symm
  | cons o obs ih =>
    simp only [firstLoopId] at h
    cases h1 : firstClusterId g own (some l) o counter with
    | error e => rw [h1] at h; simp at h
    | ok v =>
      obtain ⟨c, counter1⟩ := v
      rw [h1] at h
      simp only at h
      have e1 : counter1 = counter := by
        have hx : extractCluster (newCluster (idGeo g) [o]).name (some l) ≠ none := by
          intro e
          have e : l.find? (fun x => x.name == clusterName [g.id o]) = none := e
          obtain ⟨d, hd, hdn⟩ := hp o (by simp)
          simpa [hdn] using List.find?_eq_none.1 e d hd
        simp only [firstClusterId] at h1
        cases hkp : computeKernelPoints (idGeo g) 0 [o] (extractCluster (newCluster (idGeo g) [o]).name (some l)) with
        | error e => rw [hkp] at h1; simp [bind, Except.bind] at h1
        | ok kp =>
          cases hreq : idRequest (extractCluster (newCluster (idGeo g) [o]).name (some l)) with
          | error e => rw [hkp, hreq] at h1; simp [bind, Except.bind] at h1
          | ok req =>
            cases hst : g.firstStar o kp with
            | error e => rw [hkp, hreq] at h1; simp [bind, Except.bind, hst] at h1
            | ok st =>
              rw [hkp, hreq] at h1
              simp only [bind, Except.bind, hst] at h1
              have hno : (setId counter req).1 = counter := by
                cases hxx : extractCluster (newCluster (idGeo g) [o]).name (some l) with
                | none => exact absurd hxx hx
                | some d =>
                  rw [hxx] at hreq
                  cases hds : d.star with
                  | none => simp [idRequest, hds] at hreq
                  | some s =>
                    cases hs2 : s.2 with
                    | none =>
                      simp only [idRequest, hds, hs2, Except.ok.injEq] at hreq
                      rw [← hreq]; rfl
                    | some k =>
                      simp only [idRequest, hds, hs2, Except.ok.injEq] at hreq
                      rw [← hreq]
                      simp only [setId]
                      split <;> rfl
              split at h1 <;> simp only [Except.ok.injEq, Prod.mk.injEq] at h1
              · exact h1.2.symm
              · rw [← h1.2]; exact hno
      subst e1
      cases h2 : firstLoopId g own (some l) obs counter1 with
      | error e => rw [h2] at h; simp at h
      | ok v =>
        obtain ⟨rest, counter2⟩ := v
        rw [h2] at h
        simp only [Except.ok.injEq, Prod.mk.injEq] at h
        rw [← h.2]
        exact ih (fun o ho => hp o (by simp [ho])) h2

theorem clusterLoopId_done {prev : Option (List (IdCl Ob Star KP P))} (fuel : Nat) (cls : List (IdCl Ob Star KP P)) (ex : Bool)
    (h : History Ob (Star × Option Nat) KP P) (n : Nat) (iters : List (List (IdCl Ob Star KP P))) (counter : Nat)
    {out : List (IdCl Ob Star KP P)} {n' : Nat} {it : List (List (IdCl Ob Star KP P))} {counter' : Nat}
    (he : clusterLoopId g par prev fuel cls ex h n iters counter = some (.ok (.done out n' it, counter'))) :
    n ≤ n' ∧ (n = n' → counter' = counter) := by
  induction fuel generalizing cls ex h n iters counter with
  | zero =>
    cases ex with
    | true => simp [clusterLoopId] at he
    | false =>
      simp only [clusterLoopId, Option.some.injEq, Except.ok.injEq, Prod.mk.injEq, LoopEnd.done.injEq] at he
      exact ⟨by omega, fun _ => he.2.symm⟩
  | succ fuel ih =>
    cases ex with
    | false =>
      simp only [clusterLoopId, Option.some.injEq, Except.ok.injEq, Prod.mk.injEq, LoopEnd.done.injEq] at he
      exact ⟨by omega, fun _ => he.2.symm⟩
    | true =>
      simp only [clusterLoopId] at he
      split at he
      · simp at he
      · rcases hr : starifyAllId g prev n cls h counter with e | ⟨part | ⟨cls', h'⟩, counter1⟩
        · rw [hr] at he; simp at he
        · rw [hr] at he; simp at he
        · rw [hr] at he
          simp only at he
          rcases hg : getIntersectionClusters (idGeo g) cls' with e | ⟨cls'', ex'⟩
          · rw [hg] at he; simp at he
          · rw [hg] at he
            simp only at he
            split at he
            · simp only [Option.some.injEq, Except.ok.injEq, Prod.mk.injEq, LoopEnd.done.injEq] at he
              omega
            · have := (ih _ _ _ _ _ _ he).1
              omega

/-- **C106, partial.** A call with a workspace and without `make_convex` that finds no intersections uses up no ids if each
obstacle is a cluster of the previous result. -/
theorem C106_partial {l : List (IdCl Ob Star KP P)} (hp : ∀ o ∈ obstacles, ∃ c ∈ l, c.name = clusterName [g.id o]) (hm : par.makeConvex = false)
    {fuel : Nat} {counter counter' : Nat} {r : Res Ob (Star × Option Nat) KP P}
    (h : clusterAndStarifyId g own par true (some l) fuel obstacles counter = some (.ok (r, counter')))
    (hr : r.flag ≠ .incomplete) (hn : r.nIter = 1) : counter' = counter := by
  simp only [clusterAndStarifyId] at h
  rcases hi : initLoop (idGeo g) 0 obstacles with e | _ | _
  · rw [hi] at h; simp at h
  · rw [hi] at h
    simp only [Option.some.injEq, Except.ok.injEq, Prod.mk.injEq] at h
    exact absurd (by rw [← h.1]; rfl) hr
  · rw [hi] at h
    simp only [workspaceCounter, if_true, hm, Bool.false_eq_true, if_false] at h
    rcases hf : firstLoopId g own (some l) obstacles counter with e | ⟨cls0, counter0⟩
    · rw [hf] at h; simp at h
    · rw [hf] at h
      simp only at h
      have e0 := firstLoopId_counter obstacles hp hf
      subst e0
      rcases hg : getIntersectionClusters (idGeo g) cls0 with e | ⟨cls1, ex⟩
      · rw [hg] at h; simp at h
      · rw [hg] at h
        simp only at h
        generalize hit : (if par.returnHistory = true then [cls0] else []) = iters0 at h
        rcases hl : clusterLoopId g par (some l) fuel cls1 ex (firstHistory cls0) 1 iters0 counter0 with _ | e | ⟨⟨n, iters⟩ | ⟨cls, n, iters⟩, counter1⟩
        · rw [hl] at h; simp at h
        · rw [hl] at h; simp at h
        · rw [hl] at h
          simp only [Option.some.injEq, Except.ok.injEq, Prod.mk.injEq] at h
          exact absurd (by rw [← h.1]; rfl) hr
        · rw [hl] at h
          simp only [Option.some.injEq, Except.ok.injEq, Prod.mk.injEq] at h
          obtain ⟨rfl, rfl⟩ := h
          exact (clusterLoopId_done fuel cls1 ex _ 1 iters0 counter0 hl).2 hn.symm

/-- A concrete case of `C106_partial`: obstacle 3 with a hull extension, twice. -/
example : isOk ([([3], some (some 4))], 4) (idView (clusterAndStarifyId (idDemo true) idDemoOwn demoPar true
      (idClusters (clusterAndStarifyId (idDemo true) idDemoOwn demoPar true none 3 [3] 3)) 3 [3] 4)) = true := by decide +kernel

/-- **C106 is false** without a workspace: the same call again gives the same clusters and uses up an id. -/
theorem C106_false : isOk ([([3], some (some 3))], 4)
      (idView (clusterAndStarifyId (idDemo false) idDemoOwn demoPar false none 3 [3] 3)) = true ∧
    isOk ([([3], some (some 3))], 5) (idView (clusterAndStarifyId (idDemo false) idDemoOwn demoPar false
      (idClusters (clusterAndStarifyId (idDemo false) idDemoOwn demoPar false none 3 [3] 3)) 3 [3] 4)) = true := by decide +kernel

/-- Obstacles 2 and 3, which meet; obstacle 3 has a hull extension. -/
def idMerge : Geo Nat (List Nat) Unit (List Nat) := { idDemo true with inter := fun p q => p.contains 2 && q.contains 3 }

/-- **C106 is false** for obstacles that meet: the same call again gives the same clusters and uses up an id for the hull of
obstacle 3, which is not in the result. -/
theorem C106_merged_false : isOk ([([2, 3], some (some 5))], 5)
      (idView (clusterAndStarifyId idMerge idDemoOwn demoPar true none 3 [2, 3] 3)) = true ∧
    isOk ([([2, 3], some (some 5))], 6) (idView (clusterAndStarifyId idMerge idDemoOwn demoPar true
      (idClusters (clusterAndStarifyId idMerge idDemoOwn demoPar true none 3 [2, 3] 3)) 3 [2, 3] 5)) = true := by decide +kernel

/-- The run with ids is, without the ids, the run that the other properties of `cluster_and_starify` are about. -/
theorem C104_same_run (workspace : Bool) (prev : Option (List (IdCl Ob Star KP P))) (fuel : Nat) (obstacles : List Ob) (counter : Nat) :
    clusterAndStarify g par (erasePrev prev) fuel obstacles =
      (clusterAndStarifyId g own par workspace prev fuel obstacles counter).map fun r => r.map fun r => eraseRes r.1 :=
  clusterAndStarify_erase workspace prev fuel obstacles counter

end Starworlds
