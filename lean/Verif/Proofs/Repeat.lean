import Verif.Proofs.Cluster

/-! # Repeating a call of `cluster_and_starify` -/

namespace Starworlds

open Spec

variable {Ob Star KP P : Type}

/-! ## Another clock -/

/-- The same scene with another clock. -/
def Geo.withClock (g : Geo Ob Star KP P) (a b c : Nat → Bool) : Geo Ob Star KP P :=
  { g with timeoutInit := a, timeoutIter := b, timeoutConvex := c }

variable {g : Geo Ob Star KP P} {a b c : Nat → Bool}

theorem withClock_cache (d : Cl Ob Star KP P) : cachePolygon (g.withClock a b c) d = cachePolygon g d := rfl

theorem withClock_gic (cls : List (Cl Ob Star KP P)) :
    getIntersectionClusters (g.withClock a b c) cls = getIntersectionClusters g cls := rfl

theorem withClock_first (prev : Option (List (Cl Ob Star KP P))) (o : Ob) :
    firstCluster (g.withClock a b c) prev o = firstCluster g prev o := rfl

theorem withClock_starifyAll (prev : Option (List (Cl Ob Star KP P))) (n : Nat) (cls : List (Cl Ob Star KP P))
    (h : History Ob Star KP P) : starifyAll (g.withClock a b c) prev n cls h = starifyAll g prev n cls h := by
  induction cls generalizing h with
  | nil => rfl
  | cons cl cls ih =>
    simp only [starifyAll, ih]
    rfl

theorem withClock_init (ha : ∀ i, a i = false) (l : List Ob) (i : Nat) (h : initLoop g i l = .ok true) :
    initLoop (g.withClock a b c) i l = .ok true := by
  induction l generalizing i with
  | nil => rfl
  | cons o l ih =>
    simp only [initLoop, bind, Except.bind] at h ⊢
    have e : (g.withClock a b c).timeoutInit i = false := ha i
    rw [e]
    split at h
    · simp at h
    · cases h1 : g.robotFree o with
      | error e => rw [h1] at h; simp at h
      | ok r =>
        cases h2 : g.goalFree o with
        | error e => rw [h1, h2] at h; simp at h
        | ok s =>
          rw [h1, h2] at h
          simp only at h
          have h1' : (g.withClock a b c).robotFree o = .ok r := h1
          have h2' : (g.withClock a b c).goalFree o = .ok s := h2
          rw [h1', h2']
          simp only [Bool.false_eq_true, if_false]
          split at h
          · simp at h
          · rename_i hb
            rw [if_neg hb]
            cases h3 : g.exclude o with
            | error e => rw [h3] at h; simp at h
            | ok u =>
              rw [h3] at h
              have h3' : (g.withClock a b c).exclude o = .ok u := h3
              rw [h3']
              exact ih _ h

theorem withClock_loop (hb : ∀ i, b i = false) {par : Params} {prev : Option (List (Cl Ob Star KP P))} (fuel : Nat)
    (cls : List (Cl Ob Star KP P)) (ex : Bool) (h : History Ob Star KP P) (n : Nat) (iters : List (List (Cl Ob Star KP P)))
    {out : List (Cl Ob Star KP P)} {n' : Nat} {iters' : List (List (Cl Ob Star KP P))}
    (he : clusterLoop g par prev fuel cls ex h n iters = some (.ok (.done out n' iters'))) :
    clusterLoop (g.withClock a b c) par prev fuel cls ex h n iters = some (.ok (.done out n' iters')) := by
  induction fuel generalizing cls ex h n iters with
  | zero =>
    cases ex with
    | true => simp [clusterLoop] at he
    | false => simpa [clusterLoop] using he
  | succ fuel ih =>
    cases ex with
    | false => simpa [clusterLoop] using he
    | true =>
      simp only [clusterLoop] at he ⊢
      have e : (g.withClock a b c).timeoutIter n = false := hb n
      rw [e, withClock_starifyAll]
      simp only [Bool.false_eq_true, if_false]
      split at he
      · simp at he
      · split at he
        · simp at he
        · simp at he
        · rename_i cls' h' hst
          simp only [withClock_gic]
          split at he
          · simp at he
          · rename_i cls'' ex' hgic
            split at he
            · rename_i hr
              rw [if_pos hr]; exact he
            · rename_i hr
              rw [if_neg hr]; exact ih _ _ _ _ _ he

theorem withClock_meets (cls : List (Cl Ob Star KP P)) (j : Nat) (p : P) :
    meetsOther (g.withClock a b c) cls j p = meetsOther g cls j p := rfl

theorem withClock_convex (hc : ∀ i, c i = false) (k j : Nat) (cls : List (Cl Ob Star KP P))
    {out : List (Cl Ob Star KP P)} (h : makeConvexLoop g k j cls = .ok (.inr out)) :
    makeConvexLoop (g.withClock a b c) k j cls = .ok (.inr out) := by
  induction k generalizing j cls with
  | zero => exact h
  | succ k ih =>
    simp only [makeConvexLoop] at h ⊢
    cases h1 : cls[j]? with
    | none => rw [h1] at h; exact h
    | some cl =>
      rw [h1] at h
      simp only at h ⊢
      cases h2 : cl.star with
      | none => rw [h2] at h; simp at h
      | some st =>
        rw [h2] at h
        simp only at h ⊢
        have e1 : (g.withClock a b c).isConvex st = g.isConvex st := rfl
        have e2 : (g.withClock a b c).timeoutConvex j = false := hc j
        rw [e1, e2]
        split at h
        · rename_i hh
          rw [if_pos hh]; exact ih _ _ h
        · rename_i hh
          rw [if_neg hh]
          split at h
          · simp at h
          · simp only [Bool.false_eq_true, if_false]
            change (match (cachePolygon g cl).polygon with
              | none => _
              | some p => match g.hullOf p with
                | .error e => _
                | .ok h => if g.blocked h || meetsOther g (cls.map (cachePolygon g)) j h then _ else _) = _
            split at h
            · simp at h
            · rename_i p hp
              split at h
              · simp at h
              · rename_i q hq
                split at h
                · rename_i hm
                  simp only [hp, hq, hm, if_true]
                  exact ih _ _ h
                · rename_i hm
                  simp only [hp, hq, hm]
                  exact ih _ _ h

/-- A complete result does not depend on the clock, as long as there is no time-out. -/
theorem withClock_complete (ha : ∀ i, a i = false) (hb : ∀ i, b i = false) (hc : ∀ i, c i = false) {par : Params}
    {prev : Option (List (Cl Ob Star KP P))} {fuel : Nat} {obstacles : List Ob} {r : Res Ob Star KP P}
    (h : clusterAndStarify g par prev fuel obstacles = some (.ok r)) (hf : r.flag = .complete) :
    clusterAndStarify (g.withClock a b c) par prev fuel obstacles = some (.ok r) := by
  unfold clusterAndStarify at h ⊢
  split at h
  · simp at h
  · simp only [Option.some.injEq, Except.ok.injEq] at h
    rw [← h] at hf; simp [defaultResult] at hf
  · rename_i hi
    rw [withClock_init ha _ _ hi]
    simp only
    have e : (firstCluster (g.withClock a b c) prev) = firstCluster g prev := funext fun o => withClock_first prev o
    rw [e]
    split at h
    · simp at h
    · rename_i cls0 h0
      simp only [withClock_gic] at h ⊢
      split at h
      · simp at h
      · rename_i cls1 ex h1
        split at h
        · simp at h
        · simp at h
        · simp only [Option.some.injEq, Except.ok.injEq] at h
          rw [← h] at hf; simp [defaultResult] at hf
        · rename_i cls n iters hl
          rw [withClock_loop hb _ _ _ _ _ _ hl]
          simp only
          split at h
          · rename_i hmc
            rw [if_pos hmc]
            split at h
            · simp at h
            · simp only [Option.some.injEq, Except.ok.injEq] at h
              rw [← h] at hf; cases hf
            · rename_i out ho
              rw [withClock_convex hc _ _ _ ho]; exact h
          · rename_i hmc
            rw [if_neg hmc]; exact h

/-! ## Other previous clusters -/

variable {prev : Option (List (Cl Ob Star KP P))} {obstacles : List Ob} {L : List (Cl Ob Star KP P)}

/-- What is asked of the clusters `L` of the new call: they are good, their kernel points are chosen again where
they were chosen before, and every previous cluster of the old call has a namesake among them. -/
structure Settled (g : Geo Ob Star KP P) (obstacles : List Ob) (prev : Option (List (Cl Ob Star KP P)))
    (L : List (Cl Ob Star KP P)) : Prop where
  name : ∀ f ∈ L, f.name = clusterName (f.obstacles.map g.id)
  nonempty : ∀ f ∈ L, f.obstacles ≠ []
  sub : ∀ f ∈ L, ∀ o ∈ f.obstacles, o ∈ obstacles
  star : ∀ f ∈ L, f.star.isSome
  again : ∀ f ∈ L, ∃ kp, f.kernelPoints = some kp ∧ ∀ n pr, g.kernelSel n f.obstacles pr = .ok kp →
    g.kernelSel n f.obstacles (some kp) = .ok kp
  old : ∀ l, prev = some l → ∀ d ∈ l, ∃ f ∈ L, f.name = d.name

/-- The kernel points of the clusters `L` are those in the history. -/
def Matches (L : List (Cl Ob Star KP P)) (h : History Ob Star KP P) : Prop :=
  ∀ f ∈ L, ∀ d, h f.name = some d → f.kernelPoints = d.kernelPoints

theorem find_none {l : List (Cl Ob Star KP P)} {nm : String} : (l.find? fun c => c.name == nm) = none ↔ ∀ c ∈ l, c.name ≠ nm := by
  simp [List.find?_eq_none]

/-- The kernel points are computed again. -/
theorem compute_again (hid : (obstacles.map g.id).Nodup) (hL : Settled g obstacles prev L) {n : Nat} {obs : List Ob} (h0 : obs ≠ [])
    (hsub : ∀ o ∈ obs, o ∈ obstacles) {p q : Option (Cl Ob Star KP P)}
    (hp : ∀ d, p = some d → ∃ l, prev = some l ∧ d ∈ l ∧ d.name = clusterName (obs.map g.id))
    (hq : ∀ f, q = some f → f ∈ L ∧ f.name = clusterName (obs.map g.id))
    (hq' : q = none → ∀ f ∈ L, f.name ≠ clusterName (obs.map g.id)) {kp : KP}
    (h1 : computeKernelPoints g n obs p = .ok kp) (h2 : prevId p = .ok ())
    (hm : ∀ f ∈ L, f.name = clusterName (obs.map g.id) → f.kernelPoints = some kp) :
    computeKernelPoints g n obs q = .ok kp ∧ prevId q = .ok () := by
  cases q with
  | none =>
    cases p with
    | none => exact ⟨h1, h2⟩
    | some d =>
      obtain ⟨l, hl, hd, hn⟩ := hp d rfl
      obtain ⟨f, hf, hfn⟩ := hL.old l hl d hd
      exact absurd (hfn.trans hn) (hq' rfl f hf)
  | some f =>
    obtain ⟨hf, hn⟩ := hq f rfl
    have hk := hm f hf hn
    obtain ⟨kp', hk', ha⟩ := hL.again f hf
    rw [hk] at hk'
    injection hk' with hk'
    subst hk'
    have ho : f.obstacles = obs := same_obstacles hid (hL.sub f hf) hsub (hL.nonempty f hf) h0 (by rw [← hL.name f hf, hn])
    obtain ⟨s, hs⟩ := Option.isSome_iff_exists.1 (hL.star f hf)
    refine ⟨?_, ?_⟩
    · simp only [computeKernelPoints, hk]
      rw [← ho] at h1 ⊢
      cases p with
      | none => exact ha n none h1
      | some d =>
        simp only [computeKernelPoints] at h1
        cases hd : d.kernelPoints with
        | none => rw [hd] at h1; simp at h1
        | some k => rw [hd] at h1; exact ha n (some k) h1
    · simp [prevId, hs]

theorem firstCluster_again (hid : (obstacles.map g.id).Nodup) (hL : Settled g obstacles prev L) {o : Ob} (ho : o ∈ obstacles)
    {d : Cl Ob Star KP P} (h : firstCluster g prev o = .ok d)
    (hm : ∀ f ∈ L, f.name = d.name → f.kernelPoints = d.kernelPoints) : firstCluster g (some L) o = .ok d := by
  simp only [firstCluster, bind, Except.bind] at h ⊢
  cases h1 : computeKernelPoints g 0 [o] (extractCluster (newCluster g [o]).name prev) with
  | error e => rw [h1] at h; simp at h
  | ok kp =>
    rw [h1] at h
    simp only at h
    cases h2 : prevId (extractCluster (newCluster g [o]).name prev) with
    | error e => rw [h2] at h; simp at h
    | ok u =>
      rw [h2] at h
      simp only at h
      cases h3 : g.firstStar o kp with
      | error e => rw [h3] at h; simp at h
      | ok st =>
        rw [h3] at h
        simp only [Except.ok.injEq] at h
        have key := compute_again (p := extractCluster (newCluster g [o]).name prev) (q := extractCluster (newCluster g [o]).name (some L)) (kp := kp) (n := 0) (obs := [o]) hid hL (by simp) (by simpa using ho)
        suffices hk : computeKernelPoints g 0 [o] (extractCluster (newCluster g [o]).name (some L)) = .ok kp ∧
            prevId (extractCluster (newCluster g [o]).name (some L)) = .ok () by
          obtain ⟨e1, e2⟩ := hk
          rw [e1, e2]
          simp only [h3, h]
        refine key ?_ ?_ ?_ h1 h2 ?_
        · intro d hd
          cases prev with
          | none => simp [extractCluster] at hd
          | some l =>
            simp only [extractCluster] at hd
            have := List.find?_some hd
            exact ⟨l, rfl, List.mem_of_find?_eq_some hd, by simpa [newCluster] using this⟩
        · intro f hf
          simp only [extractCluster] at hf
          have := List.find?_some hf
          exact ⟨List.mem_of_find?_eq_some hf, by simpa [newCluster] using this⟩
        · intro hn
          exact find_none.1 hn
        · intro f hf hfn
          rw [hm f hf (by rw [hfn, ← h]; rfl), ← h]

theorem starifyCluster_again (hid : (obstacles.map g.id).Nodup) (hL : Settled g obstacles prev L) {n : Nat} {cl d : Cl Ob Star KP P}
    (hf : Fresh g obstacles cl) (h : starifyCluster g prev n cl = .ok (some d))
    (hm : ∀ f ∈ L, f.name = d.name → f.kernelPoints = d.kernelPoints) : starifyCluster g (some L) n cl = .ok (some d) := by
  unfold starifyCluster at h ⊢
  split at h
  · cases h
  · injection h with h; cases h
  · simp only [bind, Except.bind] at h ⊢
    cases h1 : computeKernelPoints g n cl.obstacles (lastCluster cl.name prev) with
    | error e => rw [h1] at h; simp at h
    | ok kp =>
      rw [h1] at h
      simp only at h
      cases h2 : prevId (lastCluster cl.name prev) with
      | error e => rw [h2] at h; simp at h
      | ok u =>
        rw [h2] at h
        simp only at h
        cases h3 : g.loopStar n cl.obstacles kp with
        | error e => rw [h3] at h; simp at h
        | ok st =>
          rw [h3] at h
          simp only [Except.ok.injEq, Option.some.injEq] at h
          have key := compute_again (p := lastCluster cl.name prev) (q := lastCluster cl.name (some L)) (kp := kp) (n := n) hid hL hf.nonempty hf.sub
          suffices hk : computeKernelPoints g n cl.obstacles (lastCluster cl.name (some L)) = .ok kp ∧
              prevId (lastCluster cl.name (some L)) = .ok () by
            obtain ⟨e1, e2⟩ := hk
            rw [e1, e2]
            simp only [h3, h]
          refine key ?_ ?_ ?_ h1 h2 ?_
          · intro d hd
            cases prev with
            | none => simp [lastCluster] at hd
            | some l =>
              simp only [lastCluster] at hd
              have := List.find?_some hd
              exact ⟨l, rfl, List.mem_reverse.1 (List.mem_of_find?_eq_some hd), by rw [← hf.name]; simpa using this⟩
          · intro f hfd
            simp only [lastCluster] at hfd
            have := List.find?_some hfd
            exact ⟨List.mem_reverse.1 (List.mem_of_find?_eq_some hfd), by rw [← hf.name]; simpa using this⟩
          · intro hn f hfl
            rw [← hf.name]
            exact find_none.1 hn f (List.mem_reverse.2 hfl)
          · intro f hfl hfn
            have e : d.name = cl.name := by rw [← h, cachePolygon_name]
            rw [hm f hfl (by rw [hfn, e, hf.name]), ← h, cachePolygon_kernelPoints]

theorem starifyCluster_name {n : Nat} {cl d : Cl Ob Star KP P} (h : starifyCluster g prev n cl = .ok (some d)) : d.name = cl.name := by
  unfold starifyCluster at h
  split at h
  · cases h
  · injection h with h; cases h
  · simp only [bind, Except.bind] at h
    split at h
    · cases h
    · split at h
      · cases h
      · split at h
        · cases h
        · injection h with h
          injection h with h
          rw [← h, cachePolygon_name]

/-- The history only grows, and the clusters of the new list are in it. -/
theorem starifyAll_history {n : Nat} (cls : List (Cl Ob Star KP P)) (h : History Ob Star KP P)
    (hn : ∀ nm d, h nm = some d → d.name = nm) {cls' : List (Cl Ob Star KP P)} {h' : History Ob Star KP P}
    (he : starifyAll g prev n cls h = .ok (.inr (cls', h'))) :
    (∀ nm d, h nm = some d → h' nm = some d) ∧ (∀ d ∈ cls', h' d.name = some d) ∧ ∀ nm d, h' nm = some d → d.name = nm := by
  induction cls generalizing h cls' h' with
  | nil =>
    simp only [starifyAll] at he
    injection he with he; injection he with he; injection he with he1 he2
    subst he1 he2
    exact ⟨fun _ _ h => h, by simp, hn⟩
  | cons cl cls ih =>
    simp only [starifyAll] at he
    split at he
    · rename_i d hd
      obtain ⟨rest, hr, rfl⟩ := consStarified_inr he
      obtain ⟨h1, h2, h3⟩ := ih h hn hr
      refine ⟨h1, ?_, h3⟩
      intro e he
      rcases List.mem_cons.1 he with rfl | he
      · rw [hn _ _ hd]; exact h1 _ _ hd
      · exact h2 e he
    · rename_i hnone
      split at he
      · cases he
      · injection he with he; cases he
      · rename_i d hd
        obtain ⟨rest, hr, rfl⟩ := consStarified_inr he
        have hdn := starifyCluster_name hd
        obtain ⟨h1, h2, h3⟩ := ih (h.insert d) (by
          intro nm e he
          simp only [History.insert] at he
          split at he
          · rename_i hh
            injection he with he
            rw [← he, hh]
          · exact hn nm e he) hr
        refine ⟨?_, ?_, h3⟩
        · intro nm e he
          refine h1 nm e ?_
          simp only [History.insert]
          rw [if_neg]
          · exact he
          · intro hh
            rw [hh, hdn, hnone] at he
            cases he
        · intro e he
          rcases List.mem_cons.1 he with rfl | he
          · exact h1 _ _ (by simp [History.insert])
          · exact h2 e he

theorem starifyAll_again (hid : (obstacles.map g.id).Nodup) (hL : Settled g obstacles prev L) {n : Nat}
    (cls : List (Cl Ob Star KP P)) (h : History Ob Star KP P) (hn : ∀ nm d, h nm = some d → d.name = nm)
    (hf : ∀ c ∈ cls, Fresh g obstacles c) {cls' : List (Cl Ob Star KP P)} {h' : History Ob Star KP P}
    (he : starifyAll g prev n cls h = .ok (.inr (cls', h'))) (hm : Matches L h') :
    starifyAll g (some L) n cls h = .ok (.inr (cls', h')) := by
  induction cls generalizing h cls' h' with
  | nil => simpa only [starifyAll] using he
  | cons cl cls ih =>
    have hf' : ∀ c ∈ cls, Fresh g obstacles c := fun c hc => hf c (by simp [hc])
    simp only [starifyAll] at he ⊢
    cases hcl : h cl.name with
    | some d =>
      rw [hcl] at he
      simp only at he ⊢
      obtain ⟨rest, hr, rfl⟩ := consStarified_inr he
      rw [ih h hn hf' hr hm]
      rfl
    | none =>
      rw [hcl] at he
      simp only at he ⊢
      split at he
      · cases he
      · injection he with he; cases he
      · rename_i d hd
        obtain ⟨rest, hr, rfl⟩ := consStarified_inr he
        have hn' : ∀ nm e, (h.insert d) nm = some e → e.name = nm := by
          intro nm e he
          simp only [History.insert] at he
          split at he
          · rename_i hh
            injection he with he
            rw [← he, hh]
          · exact hn nm e he
        obtain ⟨h1, -, -⟩ := starifyAll_history _ _ hn' hr
        have hdh : h' d.name = some d := h1 _ _ (by simp [History.insert])
        rw [starifyCluster_again hid hL (hf cl (by simp)) hd fun f hfl hfn => hm f hfl d (by rw [hfn]; exact hdh)]
        simp only
        rw [ih _ hn' hf' hr hm]
        rfl

/-- Final clusters have the kernel points of the history. -/
theorem clusterLoop_matches {par : Params} (hmax : par.maxIterations = none) (fuel : Nat)
    (cls : List (Cl Ob Star KP P)) (ex : Bool) (h : History Ob Star KP P) (n : Nat) (iters : List (List (Cl Ob Star KP P)))
    (hn : ∀ nm d, h nm = some d → d.name = nm) (hx : ex = false → Matches cls h)
    {out : List (Cl Ob Star KP P)} {n' : Nat} {iters' : List (List (Cl Ob Star KP P))}
    (he : clusterLoop g par prev fuel cls ex h n iters = some (.ok (.done out n' iters'))) : Matches out h := by
  induction fuel generalizing cls ex h n iters with
  | zero =>
    cases ex with
    | true => simp [clusterLoop] at he
    | false =>
      simp only [clusterLoop, Option.some.injEq, Except.ok.injEq, LoopEnd.done.injEq] at he
      rw [← he.1]; exact hx rfl
  | succ fuel ih =>
    cases ex with
    | false =>
      simp only [clusterLoop, Option.some.injEq, Except.ok.injEq, LoopEnd.done.injEq] at he
      rw [← he.1]; exact hx rfl
    | true =>
      simp only [clusterLoop] at he
      split at he
      · simp at he
      · split at he
        · simp at he
        · simp at he
        · rename_i cls' h' hst
          split at he
          · simp at he
          · rename_i cls'' ex' hgic
            rw [if_neg (by simp [reachedMax, hmax])] at he
            obtain ⟨h1, h2, hn'⟩ := starifyAll_history cls h hn hst
            intro f hf d hd
            refine ih cls'' ex' h' _ _ hn' ?_ he f hf d (h1 _ _ hd)
            rintro rfl
            rw [(gic_false hgic).1]
            intro e hem d' hd'
            obtain ⟨e0, he0, rfl⟩ := List.mem_map.1 hem
            rw [cachePolygon_name, h2 e0 he0] at hd'
            injection hd' with hd'
            rw [cachePolygon_kernelPoints, hd']

theorem clusterLoop_again (hs : IsSetList g.setList) (hid : (obstacles.map g.id).Nodup) (hL : Settled g obstacles prev L)
    {par : Params} (hmax : par.maxIterations = none) (fuel : Nat)
    (cls : List (Cl Ob Star KP P)) (ex : Bool) (h : History Ob Star KP P) (n : Nat) (iters : List (List (Cl Ob Star KP P)))
    (hh : HistOk g obstacles h) (hx : ex = true → ∀ c ∈ cls, Fresh g obstacles c) (hx' : ex = false → Matches cls h)
    {out : List (Cl Ob Star KP P)} {n' : Nat} {iters' : List (List (Cl Ob Star KP P))}
    (he : clusterLoop g par prev fuel cls ex h n iters = some (.ok (.done out n' iters')))
    (hout : ∀ f ∈ L, ∃ e ∈ out, e.name = f.name ∧ e.kernelPoints = f.kernelPoints) :
    clusterLoop g par (some L) fuel cls ex h n iters = some (.ok (.done out n' iters')) := by
  induction fuel generalizing cls ex h n iters with
  | zero =>
    cases ex with
    | true => simp [clusterLoop] at he
    | false => simpa [clusterLoop] using he
  | succ fuel ih =>
    cases ex with
    | false => simpa [clusterLoop] using he
    | true =>
      have hf := hx rfl
      have hn : ∀ nm d, h nm = some d → d.name = nm := fun nm d hd => (hh nm d hd).2
      simp only [clusterLoop] at he ⊢
      split at he
      · simp at he
      · rename_i ht
        rw [if_neg ht]
        split at he
        · simp at he
        · simp at he
        · rename_i cls' h' hst
          split at he
          · simp at he
          · rename_i cls'' ex' hgic
            rw [if_neg (by simp [reachedMax, hmax])] at he
            obtain ⟨h1, h2, hn'⟩ := starifyAll_history cls h hn hst
            obtain ⟨g1, g2, -⟩ := starifyAll_good cls h hh hf hst
            have hx2 : ex' = false → Matches cls'' h' := by
              rintro rfl
              rw [(gic_false hgic).1]
              intro e hem d' hd'
              obtain ⟨e0, he0, rfl⟩ := List.mem_map.1 hem
              rw [cachePolygon_name, h2 e0 he0] at hd'
              injection hd' with hd'
              rw [cachePolygon_kernelPoints, hd']
            have hmo : Matches out h' := clusterLoop_matches hmax fuel cls'' ex' h' _ _ hn' hx2 he
            have hm : Matches L h' := by
              intro f hfl d hd
              obtain ⟨e, heo, hen, hek⟩ := hout f hfl
              rw [← hek]
              exact hmo e heo d (by rw [hen]; exact hd)
            rw [starifyAll_again hid hL cls h hn hf hst hm]
            simp only [hgic]
            rw [if_neg (by simp [reachedMax, hmax])]
            refine ih cls'' ex' h' _ _ g1 ?_ hx2 he
            rintro rfl
            exact gic_fresh hs g2 hgic

theorem firstHistory_mem (cls : List (Cl Ob Star KP P)) (h0 : History Ob Star KP P) (hn : (cls.map (·.name)).Nodup) :
    ∀ d ∈ cls, (cls.foldl History.insert h0) d.name = some d := by
  have key : ∀ (cls : List (Cl Ob Star KP P)) (h0 : History Ob Star KP P) (nm : String), (∀ d ∈ cls, d.name ≠ nm) →
      (cls.foldl History.insert h0) nm = h0 nm := by
    intro cls
    induction cls with
    | nil => intro h0 nm _; rfl
    | cons e cls ih =>
      intro h0 nm hd
      rw [List.foldl_cons, ih _ _ fun d hdm => hd d (by simp [hdm])]
      simp only [History.insert]
      rw [if_neg]
      exact fun hh => hd e (by simp) hh.symm
  induction cls generalizing h0 with
  | nil => simp
  | cons e cls ih =>
    intro d hd
    rw [List.map_cons, List.nodup_cons] at hn
    rcases List.mem_cons.1 hd with rfl | hd
    · rw [List.foldl_cons, key]
      · simp [History.insert]
      · intro f hf hfn
        exact hn.1 (hfn ▸ List.mem_map_of_mem hf)
    · exact ih _ hn.2 d hd

theorem mapM_first_names (l : List Ob) {cls : List (Cl Ob Star KP P)} (h : l.mapM (firstCluster g prev) = .ok cls) :
    cls.map (·.name) = l.map fun o => clusterName [g.id o] := by
  induction l generalizing cls with
  | nil =>
    simp only [List.mapM_nil, pure, Except.pure] at h
    injection h with h; subst h; rfl
  | cons o l ih =>
    simp only [List.mapM_cons, bind, Except.bind] at h
    split at h
    · cases h
    · rename_i d hd
      split at h
      · cases h
      · rename_i rest hr
        simp only [pure, Except.pure] at h
        injection h with h; subst h
        rw [List.map_cons, List.map_cons, ih hr]
        congr 1
        have hg := firstCluster_good (obstacles := [o]) (by simp) hd
        rw [hg.1.name, hg.2]
        rfl

theorem mapM_first_again (hid : (obstacles.map g.id).Nodup) (hL : Settled g obstacles prev L) (l : List Ob)
    (hl : ∀ o ∈ l, o ∈ obstacles) {cls : List (Cl Ob Star KP P)} (h : l.mapM (firstCluster g prev) = .ok cls)
    (hm : ∀ d ∈ cls, ∀ f ∈ L, f.name = d.name → f.kernelPoints = d.kernelPoints) : l.mapM (firstCluster g (some L)) = .ok cls := by
  induction l generalizing cls with
  | nil => simpa using h
  | cons o l ih =>
    simp only [List.mapM_cons, bind, Except.bind] at h ⊢
    split at h
    · cases h
    · rename_i d hd
      split at h
      · cases h
      · rename_i rest hr
        simp only [pure, Except.pure] at h
        injection h with h; subst h
        rw [firstCluster_again hid hL (hl o (by simp)) hd (hm d (by simp)),
          ih (fun x hx => hl x (by simp [hx])) hr fun e he => hm e (by simp [he])]
        rfl

/-- Repeating a call with settled clusters gives the same result. -/
theorem clusterAndStarify_again (hs : IsSetList g.setList) (hid : (obstacles.map g.id).Nodup) {par : Params}
    (hmax : par.maxIterations = none) {fuel : Nat} {r : Res Ob Star KP P}
    (h : clusterAndStarify g par prev fuel obstacles = some (.ok r)) (hf : r.flag ≠ .incomplete)
    (ha : ∀ f ∈ r.clusters, ∀ kp, f.kernelPoints = some kp → ∀ n pr, g.kernelSel n f.obstacles pr = .ok kp →
      g.kernelSel n f.obstacles (some kp) = .ok kp)
    (hold : ∀ l, prev = some l → ∀ d ∈ l, ∃ f ∈ r.clusters, f.name = d.name) :
    clusterAndStarify g par (some r.clusters) fuel obstacles = some (.ok r) := by
  obtain ⟨cls0, cls1, ex, cls, n, iters, h0, h1, hl, -, hr⟩ := clusterAndStarify_done h hf
  obtain ⟨m1, m2, -⟩ := mapM_first obstacles (fun o ho => ho) h0
  have hfin : Final g obstacles cls := by
    refine clusterLoop_final hs hmax fuel cls1 ex _ 1 _ (histOk_first cls0 m1) ?_ ?_ hl
    · rintro rfl
      exact ⟨gic_fresh hs m1 h1, fun _ => (gic_perm hs h1).trans (by rw [m2])⟩
    · rintro rfl
      exact gic_final hs m1 (fun _ => by rw [m2]) h1
  have hst : ∀ c ∈ cls, c.star.isSome := fun c hc => (hfin.good c hc).1.star
  have hpo : ∀ c ∈ cls, c.polygon.isSome := fun c hc => by
    rw [(hfin.good c hc).2, Option.isSome_map]; exact hst c hc
  have hstrip : r.clusters.map Cl.strip = cls.map Cl.strip := by
    rcases hr with ⟨-, hr, -⟩ | ⟨-, hr, -⟩ | ⟨-, hr, -⟩
    · rw [hr]
    · exact makeConvexLoop_strip _ _ _ hst hpo (Or.inr hr)
    · exact makeConvexLoop_strip _ _ _ hst hpo (Or.inl hr)
  have hback : ∀ f ∈ r.clusters, ∃ e ∈ cls, e.strip = f.strip := fun f hf =>
    List.mem_map.1 (hstrip ▸ List.mem_map_of_mem hf)
  have hL : Settled g obstacles prev r.clusters := by
    refine ⟨?_, ?_, ?_, ?_, ?_, hold⟩
    · intro f hf
      obtain ⟨e, he, hs⟩ := hback f hf
      simp only [Cl.strip, Prod.mk.injEq] at hs
      rw [← hs.1, ← hs.2.1]; exact (hfin.good e he).1.name
    · intro f hf
      obtain ⟨e, he, hs⟩ := hback f hf
      simp only [Cl.strip, Prod.mk.injEq] at hs
      rw [← hs.2.1]; exact (hfin.good e he).1.nonempty
    · intro f hf
      obtain ⟨e, he, hs⟩ := hback f hf
      simp only [Cl.strip, Prod.mk.injEq] at hs
      rw [← hs.2.1]; exact (hfin.good e he).1.sub
    · exact strip_star hstrip hst
    · intro f hf
      obtain ⟨e, he, hs⟩ := hback f hf
      simp only [Cl.strip, Prod.mk.injEq] at hs
      obtain ⟨kp, hkp⟩ := Option.isSome_iff_exists.1 (hfin.good e he).1.kernel
      rw [hs.2.2.1] at hkp
      exact ⟨kp, hkp, ha f hf kp hkp⟩
  have hnames : (cls0.map (·.name)).Nodup := by
    rw [mapM_first_names _ h0]
    have : (obstacles.map fun o => clusterName [g.id o]) = (obstacles.map g.id).map fun i => clusterName [i] := by
      rw [List.map_map]; rfl
    rw [this]
    refine hid.map ?_
    intro i j hij
    have := clusterName_inj (l := [i]) (m := [j]) (by simp) (by simp) hij
    simpa using this
  have hmem := firstHistory_mem cls0 (fun _ => none) hnames
  have hx1 : ex = false → Matches cls1 (firstHistory cls0) := by
    rintro rfl
    rw [(gic_false h1).1]
    intro e hem d' hd'
    obtain ⟨e0, he0, rfl⟩ := List.mem_map.1 hem
    rw [cachePolygon_name, firstHistory, hmem e0 he0] at hd'
    injection hd' with hd'
    rw [cachePolygon_kernelPoints, hd']
  have hout : ∀ f ∈ r.clusters, ∃ e ∈ cls, e.name = f.name ∧ e.kernelPoints = f.kernelPoints := by
    intro f hf
    obtain ⟨e, he, hs⟩ := hback f hf
    simp only [Cl.strip, Prod.mk.injEq] at hs
    exact ⟨e, he, hs.1, hs.2.2.1⟩
  have hmo : Matches cls (firstHistory cls0) :=
    clusterLoop_matches hmax fuel cls1 ex _ _ _ (fun nm d hd => (histOk_first cls0 m1 nm d hd).2) hx1 hl
  have e0 : obstacles.mapM (firstCluster g (some r.clusters)) = .ok cls0 := by
    refine mapM_first_again hid hL obstacles (fun o ho => ho) h0 ?_
    intro d hd f hf hfn
    obtain ⟨e, he, hen, hek⟩ := hout f hf
    rw [← hek]
    exact hmo e he d (by rw [hen, hfn, firstHistory]; exact hmem d hd)
  have e1 := clusterLoop_again hs hid hL hmax fuel cls1 ex _ _ _ (histOk_first cls0 m1)
    (by rintro rfl; exact gic_fresh hs m1 h1) hx1 hl hout
  unfold clusterAndStarify at h ⊢
  split at h
  · simp at h
  · simp only [Option.some.injEq, Except.ok.injEq] at h
    rw [← h] at hf; simp [defaultResult] at hf
  · rename_i hi
    simp only [h0, h1, hl] at h
    simp only [e0, h1, e1]
    exact h

end Starworlds
