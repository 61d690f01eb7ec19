import Verif.Props.ClusterDistance

/-! # C139: the iteration limit of `cluster_and_starify` -/

namespace Starworlds

open Spec

variable {Ob Star KP P : Type} {g : Geo Ob Star KP P} {par : Params} {prev : Option (List (Cl Ob Star KP P))}

/-- The same parameters without iteration limit. -/
def Params.unlimited (par : Params) : Params := { par with maxIterations := none }

/-- The number of iterations when the loop ended. -/
def LoopEnd.count : LoopEnd Ob Star KP P → Nat
  | .incomplete n _ => n
  | .done _ n _ => n

theorem reached_some {m n : Nat} (hm : par.maxIterations = some m) : reachedMax par n = decide (m ≤ n) := by
  simp [reachedMax, hm]

theorem reached_unlimited (n : Nat) : reachedMax par.unlimited n = false := rfl

/-- A loop that ends below the limit does the same without limit. -/
theorem loop_below {m : Nat} (hm : par.maxIterations = some m) (fuel : Nat) (cls : List (Cl Ob Star KP P)) (ex : Bool)
    (h : History Ob Star KP P) (n : Nat) (iters : List (List (Cl Ob Star KP P))) (e : LoopEnd Ob Star KP P)
    (he : clusterLoop g par prev fuel cls ex h n iters = some (.ok e)) (hb : e.count < m ∨ e.count ≤ n) :
    clusterLoop g par.unlimited prev fuel cls ex h n iters = some (.ok e) := by
  induction fuel generalizing cls ex h n iters with
  | zero =>
    cases ex with
    | false => simpa [clusterLoop] using he
    | true => simp [clusterLoop] at he
  | succ fuel ih =>
    cases ex with
    | false => simpa [clusterLoop] using he
    | true =>
      simp only [clusterLoop] at he ⊢
      by_cases ht : g.timeoutIter n = true
      · rw [if_pos ht] at he ⊢; exact he
      · rw [if_neg ht] at he ⊢
        revert he
        split
        · exact id
        · exact id
        · split
          · exact id
          · rename_i cls'' ex' _
            intro he
            rw [reached_some hm] at he
            rw [reached_unlimited]
            by_cases hr : m ≤ n + 1
            · rw [if_pos (by simpa using hr)] at he
              injection he with he; injection he with he
              subst he
              simp only [LoopEnd.count] at hb
              omega
            · rw [if_neg (by simpa using hr)] at he
              rw [if_neg (by simp)]
              exact ih _ _ _ _ _ he (by omega)

/-- The number of iterations does not fall, and rises when the loop is entered and finishes. -/
theorem loop_count (fuel : Nat) (cls : List (Cl Ob Star KP P)) (ex : Bool)
    (h : History Ob Star KP P) (n : Nat) (iters : List (List (Cl Ob Star KP P))) (e : LoopEnd Ob Star KP P)
    (he : clusterLoop g par prev fuel cls ex h n iters = some (.ok e)) :
    n ≤ e.count ∧ ∀ out k it, e = .done out k it → ex = true → n + 1 ≤ k := by
  induction fuel generalizing cls ex h n iters with
  | zero =>
    cases ex with
    | false =>
      simp only [clusterLoop, Option.some.injEq, Except.ok.injEq] at he
      subst he; simp [LoopEnd.count]
    | true => simp [clusterLoop] at he
  | succ fuel ih =>
    cases ex with
    | false =>
      simp only [clusterLoop, Option.some.injEq, Except.ok.injEq] at he
      subst he; simp [LoopEnd.count]
    | true =>
      simp only [clusterLoop] at he
      by_cases ht : g.timeoutIter n = true
      · rw [if_pos ht] at he
        injection he with he; injection he with he
        subst he; simp [LoopEnd.count]
      · rw [if_neg ht] at he
        revert he
        split
        · intro he; injection he with he; simp at he
        · intro he; injection he with he; injection he with he
          subst he; simp [LoopEnd.count]
        · split
          · intro he; injection he with he; simp at he
          · intro he
            by_cases hr : reachedMax par (n + 1) = true
            · rw [if_pos hr] at he
              injection he with he; injection he with he
              subst he
              refine ⟨by simp [LoopEnd.count], fun out k it hk _ => ?_⟩
              injection hk with _ hk _
              omega
            · rw [if_neg hr] at he
              obtain ⟨k1, -⟩ := ih _ _ _ _ _ he
              refine ⟨by omega, fun out k it hk _ => ?_⟩
              subst hk
              exact k1

/-- A loop without limit that ends within the limit does the same with it. -/
theorem loop_within {m : Nat} (hm : par.maxIterations = some m) (fuel : Nat) (cls : List (Cl Ob Star KP P)) (ex : Bool)
    (h : History Ob Star KP P) (n : Nat) (iters : List (List (Cl Ob Star KP P))) (e : LoopEnd Ob Star KP P)
    (he : clusterLoop g par.unlimited prev fuel cls ex h n iters = some (.ok e))
    (hb : e.count < m ∨ e.count ≤ n ∨ ∃ out k it, e = .done out k it ∧ k ≤ m) :
    clusterLoop g par prev fuel cls ex h n iters = some (.ok e) := by
  induction fuel generalizing cls ex h n iters with
  | zero =>
    cases ex with
    | false => simpa [clusterLoop] using he
    | true => simp [clusterLoop] at he
  | succ fuel ih =>
    cases ex with
    | false => simpa [clusterLoop] using he
    | true =>
      simp only [clusterLoop] at he ⊢
      by_cases ht : g.timeoutIter n = true
      · rw [if_pos ht] at he ⊢; exact he
      · rw [if_neg ht] at he ⊢
        revert he
        split
        · exact id
        · exact id
        · split
          · exact id
          · rename_i cls'' ex' _
            intro he
            rw [reached_some hm]
            rw [reached_unlimited, if_neg (by simp)] at he
            obtain ⟨k1, k2⟩ := loop_count _ _ _ _ _ _ _ he
            by_cases hr : m ≤ n + 1
            · rw [if_pos (by simpa using hr)]
              cases ex' with
              | false =>
                cases fuel <;> (simp only [clusterLoop] at he; exact he)
              | true =>
                rcases hb with hb | hb | ⟨out, k, it, hk, hb⟩
                · omega
                · omega
                · have := k2 out k it hk rfl
                  omega
            · rw [if_neg (by simpa using hr)]
              refine ih _ _ _ _ _ he ?_
              rcases hb with hb | hb | hb
              · exact Or.inl hb
              · exact Or.inr (Or.inl (by omega))
              · exact Or.inr (Or.inr hb)

/-- With a limit the loop ends after at most that many iterations. -/
theorem loop_ends {m : Nat} (hm : par.maxIterations = some m) (fuel : Nat) (cls : List (Cl Ob Star KP P)) (ex : Bool)
    (h : History Ob Star KP P) (n : Nat) (iters : List (List (Cl Ob Star KP P))) (h0 : 0 < fuel) (hf : m ≤ n + fuel) :
    (clusterLoop g par prev fuel cls ex h n iters).isSome ∧
      ∀ e, clusterLoop g par prev fuel cls ex h n iters = some (.ok e) → e.count ≤ max m (n + 1) := by
  induction fuel generalizing cls ex h n iters with
  | zero => omega
  | succ fuel ih =>
    cases ex with
    | false =>
      refine ⟨by simp [clusterLoop], fun e he => ?_⟩
      simp only [clusterLoop, Option.some.injEq, Except.ok.injEq] at he
      subst he; simp [LoopEnd.count]
    | true =>
      simp only [clusterLoop]
      by_cases ht : g.timeoutIter n = true
      · rw [if_pos ht]
        refine ⟨rfl, fun e he => ?_⟩
        injection he with he; injection he with he
        subst he; simp [LoopEnd.count]
      · rw [if_neg ht]
        split
        · exact ⟨rfl, by simp⟩
        · refine ⟨rfl, fun e he => ?_⟩
          injection he with he; injection he with he
          subst he; simp [LoopEnd.count]
        · split
          · exact ⟨rfl, by simp⟩
          · rw [reached_some hm]
            by_cases hr : m ≤ n + 1
            · rw [if_pos (by simpa using hr)]
              refine ⟨rfl, fun e he => ?_⟩
              injection he with he; injection he with he
              subst he; simp [LoopEnd.count]
            · rw [if_neg (by simpa using hr)]
              have key := fun cls ex h n' it (hn : n' = n + 1) => ih cls ex h n' it (by omega) (by omega)
              obtain ⟨k1, k2⟩ := key _ _ _ _ _ rfl
              refine ⟨k1, fun e he => ?_⟩
              have := k2 e he
              omega

/-- A limit of as many iterations as there were obstacles is never reached while clusters intersect. -/
theorem loop_enough (hs : IsSetList g.setList) {m N : Nat} (hm : par.maxIterations = some m) (hN : N ≤ m) (fuel : Nat)
    (cls : List (Cl Ob Star KP P)) (ex : Bool) (h : History Ob Star KP P) (n : Nat) (iters : List (List (Cl Ob Star KP P)))
    (hinv : ex = true → cls.length + n ≤ N) :
    clusterLoop g par prev fuel cls ex h n iters = clusterLoop g par.unlimited prev fuel cls ex h n iters := by
  induction fuel generalizing cls ex h n iters with
  | zero => cases ex <;> simp [clusterLoop]
  | succ fuel ih =>
    cases ex with
    | false => simp [clusterLoop]
    | true =>
      have hinv := hinv rfl
      simp only [clusterLoop]
      by_cases ht : g.timeoutIter n = true
      · rw [if_pos ht, if_pos ht]
      · rw [if_neg ht, if_neg ht]
        split
        · rfl
        · rfl
        · rename_i cls' h' hst
          split
          · rfl
          · rename_i cls'' ex' hg
            have hl := starifyAll_length _ _ hst
            have hgl := (gic_length hs hg).1
            rw [reached_some hm, reached_unlimited, if_neg (c := false = true) (by simp)]
            by_cases hr : m ≤ n + 1
            · rw [if_pos (by simpa using hr)]
              cases ex' with
              | false => cases fuel <;> (simp only [clusterLoop]; rfl)
              | true =>
                have := hgl rfl
                omega
            · rw [if_neg (by simpa using hr)]
              refine ih _ _ _ _ _ fun hx => ?_
              have := hgl hx
              omega

/-! ## The call -/

/-- The limit was not reached. -/
def Res.Below (r : Res Ob Star KP P) (par : Params) : Prop := ∀ m, par.maxIterations = some m → r.nIter < m ∨ r.nIter ≤ 1

/-- C139, partial: a call that reports fewer iterations than the limit, or one, returns what the call without limit returns. -/
theorem C139_below_partial (fuel : Nat) (obstacles : List Ob) (r : Res Ob Star KP P)
    (h : clusterAndStarify g par prev fuel obstacles = some (.ok r)) (hb : r.Below par) :
    clusterAndStarify g par.unlimited prev fuel obstacles = some (.ok r) := by
  cases hm : par.maxIterations with
  | none =>
    have : par.unlimited = par := by cases par; simp_all [Params.unlimited]
    rw [this]; exact h
  | some m =>
    have hb := hb m hm
    revert h
    unfold clusterAndStarify
    split
    · exact id
    · exact id
    · split
      · exact id
      · simp only
        split
        · exact id
        · rename_i cls0 _ _ cls1 ex _
          intro h
          have e0 : (if par.unlimited.returnHistory = true then [cls0] else []) = if par.returnHistory = true then [cls0] else [] := rfl
          rw [e0]
          cases hl : clusterLoop g par prev fuel cls1 ex (firstHistory cls0) 1 (if par.returnHistory = true then [cls0] else []) with
          | none => rw [hl] at h; simp at h
          | some a =>
            cases a with
            | error e => rw [hl] at h; simp at h
            | ok e =>
              rw [hl] at h
              have hc : e.count = r.nIter := by
                cases e with
                | incomplete n it =>
                  simp only [Option.some.injEq, Except.ok.injEq] at h
                  subst h; rfl
                | done out n it =>
                  revert h
                  simp only
                  split
                  · split
                    · simp
                    · intro h; injection h with h; injection h with h; subst h; rfl
                    · intro h; injection h with h; injection h with h; subst h; rfl
                  · intro h; injection h with h; injection h with h; subst h; rfl
              rw [loop_below hm fuel cls1 ex _ 1 _ e hl (by omega)]
              exact h

/-- C139, partial: if the call without limit returns within the limit and not INCOMPLETE, the call with the limit returns the same. -/
theorem C139_within_partial (fuel : Nat) (obstacles : List Ob) (r : Res Ob Star KP P) {m : Nat} (hm : par.maxIterations = some m)
    (h : clusterAndStarify g par.unlimited prev fuel obstacles = some (.ok r))
    (hb : r.nIter < m ∨ r.nIter ≤ 1 ∨ r.nIter ≤ m ∧ r.flag ≠ .incomplete) :
    clusterAndStarify g par prev fuel obstacles = some (.ok r) := by
  revert h
  unfold clusterAndStarify
  split
  · exact id
  · exact id
  · split
    · exact id
    · simp only
      split
      · exact id
      · rename_i cls0 _ _ cls1 ex _
        intro h
        have e0 : (if par.unlimited.returnHistory = true then [cls0] else []) = if par.returnHistory = true then [cls0] else [] := rfl
        rw [e0] at h
        cases hl : clusterLoop g par.unlimited prev fuel cls1 ex (firstHistory cls0) 1 (if par.returnHistory = true then [cls0] else []) with
        | none => rw [hl] at h; simp at h
        | some a =>
          cases a with
          | error e => rw [hl] at h; simp at h
          | ok e =>
            rw [hl] at h
            have hc : e.count = r.nIter ∧ (r.flag ≠ .incomplete → ∃ out k it, e = .done out k it) := by
              cases e with
              | incomplete n it =>
                simp only [Option.some.injEq, Except.ok.injEq] at h
                subst h
                exact ⟨rfl, fun h => absurd rfl h⟩
              | done out n it =>
                refine ⟨?_, fun _ => ⟨_, _, _, rfl⟩⟩
                revert h
                simp only
                split
                · split
                  · simp
                  · intro h; injection h with h; injection h with h; subst h; rfl
                  · intro h; injection h with h; injection h with h; subst h; rfl
                · intro h; injection h with h; injection h with h; subst h; rfl
            rw [loop_within hm fuel cls1 ex _ 1 _ e hl ?_]
            · exact h
            · rcases hb with hb | hb | ⟨hb, hf⟩
              · left; omega
              · right; left; omega
              · obtain ⟨out, k, it, rfl⟩ := hc.2 hf
                exact Or.inr (Or.inr ⟨out, k, it, rfl, by have := hc.1; simp only [LoopEnd.count] at this; omega⟩)

/-- C139, partial: a call with limit ends, after at most as many iterations as the limit, or two. Missing: that a limit of 0 or 1 is
kept (`C139_false`). -/
theorem C139_ends_partial (fuel : Nat) (obstacles : List Ob) {m : Nat} (hm : par.maxIterations = some m) (h0 : 0 < fuel)
    (hf : m ≤ fuel + 1) :
    ∃ a, clusterAndStarify g par prev fuel obstacles = some a ∧ ∀ r, a = .ok r → r.nIter ≤ max m 2 := by
  unfold clusterAndStarify
  split
  · exact ⟨_, rfl, by simp⟩
  · refine ⟨_, rfl, fun r h => ?_⟩
    injection h with h; subst h; simp [defaultResult]
  · split
    · exact ⟨_, rfl, by simp⟩
    · simp only
      split
      · exact ⟨_, rfl, by simp⟩
      · rename_i cls0 _ _ cls1 ex _
        obtain ⟨k1, k2⟩ := loop_ends (g := g) (prev := prev) hm fuel cls1 ex (firstHistory cls0) 1
          (if par.returnHistory = true then [cls0] else []) h0 (by omega)
        obtain ⟨a, ha⟩ := Option.isSome_iff_exists.1 k1
        rw [ha] at k2 ⊢
        cases a with
        | error e => exact ⟨_, rfl, by simp⟩
        | ok e =>
          have := k2 e rfl
          cases e with
          | incomplete n it =>
            refine ⟨_, rfl, fun r h => ?_⟩
            injection h with h; subst h; exact this
          | done out n it =>
            simp only
            split
            · split
              · exact ⟨_, rfl, by simp⟩
              · refine ⟨_, rfl, fun r h => ?_⟩
                injection h with h; subst h; exact this
              · refine ⟨_, rfl, fun r h => ?_⟩
                injection h with h; subst h; exact this
            · refine ⟨_, rfl, fun r h => ?_⟩
              injection h with h; subst h; exact this

/-- C139, partial: a limit of at least the number of obstacles changes nothing, exceptions included. -/
theorem C139_enough_partial (hs : IsSetList g.setList) (fuel : Nat) (obstacles : List Ob) {m : Nat} (hm : par.maxIterations = some m)
    (hN : obstacles.length ≤ m) :
    clusterAndStarify g par prev fuel obstacles = clusterAndStarify g par.unlimited prev fuel obstacles := by
  unfold clusterAndStarify
  split
  · rfl
  · rfl
  · split
    · rfl
    · rename_i cls0 h0
      obtain ⟨_, _, hlen⟩ := mapM_first (g := g) obstacles (fun o ho => ho) h0
      simp only
      split
      · rfl
      · rename_i cls1 ex h1
        have := (gic_length hs h1).1
        rw [loop_enough (par := par) hs hm hN fuel cls1 ex _ 1 _ (fun hx => by have := this hx; omega)]
        rfl

/-- With any limit the loop ends without intersections or with clusters that were just merged, and the clusters share out the obstacles. -/
theorem loop_any (hs : IsSetList g.setList) {obstacles : List Ob} (fuel : Nat)
    (cls : List (Cl Ob Star KP P)) (ex : Bool) (h : History Ob Star KP P) (n : Nat)
    (iters : List (List (Cl Ob Star KP P))) (hh : HistOk g obstacles h)
    (htrue : ex = true → (∀ c ∈ cls, Fresh g obstacles c) ∧
      ((obstacles.map g.id).Nodup → List.Perm (cls.flatMap (·.obstacles)) obstacles))
    (hfalse : ex = false → Final g obstacles cls)
    {out : List (Cl Ob Star KP P)} {n' : Nat} {iters' : List (List (Cl Ob Star KP P))}
    (he : clusterLoop g par prev fuel cls ex h n iters = some (.ok (.done out n' iters'))) :
    ((obstacles.map g.id).Nodup → List.Perm (out.flatMap (·.obstacles)) obstacles) ∧
      (Final g obstacles out ∨ ∃ cls', getIntersectionClusters g cls' = .ok (out, true)) := by
  induction fuel generalizing cls ex h n iters with
  | zero =>
    cases ex with
    | true => simp [clusterLoop] at he
    | false =>
      simp only [clusterLoop, Option.some.injEq, Except.ok.injEq, LoopEnd.done.injEq] at he
      rw [← he.1]; exact ⟨(hfalse rfl).perm, Or.inl (hfalse rfl)⟩
  | succ fuel ih =>
    cases ex with
    | false =>
      simp only [clusterLoop, Option.some.injEq, Except.ok.injEq, LoopEnd.done.injEq] at he
      rw [← he.1]; exact ⟨(hfalse rfl).perm, Or.inl (hfalse rfl)⟩
    | true =>
      obtain ⟨hf, hp⟩ := htrue rfl
      simp only [clusterLoop] at he
      split at he
      · simp at he
      · split at he
        · simp at he
        · simp at he
        · rename_i cls' h' hst
          split at he
          · simp at he
          · rename_i cls'' ex' hgic
            obtain ⟨h1, h2, h3⟩ := starifyAll_good cls h hh hf hst
            have hp' : (obstacles.map g.id).Nodup → List.Perm (cls'.flatMap (·.obstacles)) obstacles := by
              intro hid
              rw [flatMap_congr_obs (h3 hid)]; exact hp hid
            by_cases hr : reachedMax par (n + 1) = true
            · rw [if_pos hr] at he
              simp only [Option.some.injEq, Except.ok.injEq, LoopEnd.done.injEq] at he
              obtain ⟨rfl, -, -⟩ := he
              refine ⟨fun hid => (gic_perm hs hgic).trans (hp' hid), ?_⟩
              cases ex' with
              | true => exact Or.inr ⟨_, hgic⟩
              | false => exact Or.inl (gic_final hs h2 hp' hgic)
            · rw [if_neg hr] at he
              refine ih cls'' ex' h' _ _ h1 ?_ ?_ he
              · rintro rfl
                exact ⟨gic_fresh hs h2 hgic, fun hid => (gic_perm hs hgic).trans (hp' hid)⟩
              · rintro rfl
                exact gic_final hs h2 hp' hgic

/-- `make_convex` does not change which obstacles a cluster has. -/
theorem makeConvex_obstacles (k j : Nat) (cls : List (Cl Ob Star KP P)) {out : List (Cl Ob Star KP P)}
    (h : makeConvexLoop g k j cls = .ok (.inl out) ∨ makeConvexLoop g k j cls = .ok (.inr out)) :
    out.map (·.obstacles) = cls.map (·.obstacles) := by
  induction k generalizing j cls with
  | zero =>
    simp only [makeConvexLoop] at h
    rcases h with h | h
    · simp at h
    · injection h with h; injection h with h; rw [h]
  | succ k ih =>
    have hc : ∀ l : List (Cl Ob Star KP P), (l.map (cachePolygon g)).map (·.obstacles) = l.map (·.obstacles) := by
      intro l
      rw [List.map_map]
      exact List.map_congr_left fun c _ => cachePolygon_obstacles g c
    simp only [makeConvexLoop] at h
    split at h
    · rcases h with h | h
      · simp at h
      · injection h with h; injection h with h; rw [h]
    · split at h
      · simp at h
      · split at h
        · exact ih _ _ h
        · split at h
          · rcases h with h | h
            · injection h with h; injection h with h; rw [h]
            · simp at h
          · split at h
            · simp at h
            · split at h
              · simp at h
              · split at h
                · rw [ih _ _ h, hc]
                · rw [ih _ _ h, ← hc cls]
                  apply List.ext_getElem?
                  intro i
                  simp only [List.getElem?_map, List.getElem?_modify]
                  cases cls[i]? with
                  | none => simp
                  | some c => by_cases hij : j = i <;> simp [hij]

/-- C139, partial: whatever the limit, if the ids differ every obstacle is in exactly one cluster of the result, also of an INCOMPLETE one. -/
theorem C139_shares_partial (hs : IsSetList g.setList) (fuel : Nat) (obstacles : List Ob) (r : Res Ob Star KP P)
    (h : clusterAndStarify g par prev fuel obstacles = some (.ok r)) (hid : (obstacles.map g.id).Nodup) :
    List.Perm (r.clusters.flatMap (·.obstacles)) obstacles := by
  by_cases hf : r.flag = .incomplete
  · have := (C54_singletons g par prev fuel obstacles r h hf).1
    rw [List.flatMap_def, this, ← List.flatMap_def]
    simp
  · obtain ⟨cls0, cls1, ex, cls, n, iters, h0, h1, hl, _, hr⟩ := clusterAndStarify_done h hf
    obtain ⟨m1, m2, _⟩ := mapM_first obstacles (fun o ho => ho) h0
    have hp0 : (obstacles.map g.id).Nodup → List.Perm (cls0.flatMap (·.obstacles)) obstacles := by
      intro _; rw [m2]
    have key := (loop_any hs fuel cls1 ex _ 1 _ (histOk_first cls0 m1) (by
      rintro rfl
      exact ⟨gic_fresh hs m1 h1, fun hid => (gic_perm hs h1).trans (hp0 hid)⟩) (by
      rintro rfl
      exact gic_final hs m1 hp0 h1) hl).1 hid
    rcases hr with ⟨-, hr, _⟩ | ⟨-, hr, _⟩ | ⟨-, hr, _⟩
    · rw [hr]; exact key
    · rw [flatMap_congr_obs (makeConvex_obstacles _ _ _ (Or.inr hr))]; exact key
    · rw [flatMap_congr_obs (makeConvex_obstacles _ _ _ (Or.inl hr))]; exact key

/-- C139, partial: without `make_convex`, a result that is not INCOMPLETE is as C53 says, or it has been cut off after a merge: no cluster
has kernel points or a polygon, and the clusters of several obstacles have no cluster obstacle. -/
theorem C139_cut_partial (hs : IsSetList g.setList) (hmc : par.makeConvex = false) (fuel : Nat) (obstacles : List Ob)
    (r : Res Ob Star KP P) (h : clusterAndStarify g par prev fuel obstacles = some (.ok r)) (hf : r.flag ≠ .incomplete) :
    ((∀ c ∈ r.clusters, c.star.isSome ∧ c.kernelPoints.isSome ∧ c.polygon.isSome) ∧
      r.clusters.Pairwise fun c d => ∀ p q, c.polygon = some p → d.polygon = some q → g.inter p q = false) ∨
    (∃ m, par.maxIterations = some m ∧ m ≤ r.nIter) ∧
      ∀ c ∈ r.clusters, c.kernelPoints = none ∧ c.polygon = none ∧ (1 < c.obstacles.length → c.star = none) := by
  obtain ⟨cls0, cls1, ex, cls, n, iters, h0, h1, hl, hn, hr⟩ := clusterAndStarify_done h hf
  obtain ⟨m1, m2, _⟩ := mapM_first obstacles (fun o ho => ho) h0
  have hp0 : (obstacles.map g.id).Nodup → List.Perm (cls0.flatMap (·.obstacles)) obstacles := by
    intro _; rw [m2]
  have hcl : r.clusters = cls := by
    rcases hr with ⟨-, hr, _⟩ | ⟨hm, -⟩ | ⟨hm, -⟩
    · exact hr
    · rw [hmc] at hm; cases hm
    · rw [hmc] at hm; cases hm
  have hfin : ∀ cls, Final g obstacles cls → (∀ c ∈ cls, c.star.isSome ∧ c.kernelPoints.isSome ∧ c.polygon.isSome) ∧
      cls.Pairwise fun c d => ∀ p q, c.polygon = some p → d.polygon = some q → g.inter p q = false := by
    intro cls hF
    refine ⟨fun c hc => ⟨(hF.good c hc).1.star, (hF.good c hc).1.kernel, ?_⟩, ?_⟩
    · rw [(hF.good c hc).2, Option.isSome_map]; exact (hF.good c hc).1.star
    · rw [List.pairwise_iff_getElem]
      intro i j hi hj hij p q hp hq
      have := hF.sep i j hij hj
      simpa only [interIdx, List.getElem?_eq_getElem hi, List.getElem?_eq_getElem hj, hp, hq] using this
  by_cases hb : r.Below par
  · left
    have h' := C139_below_partial fuel obstacles r h hb
    obtain ⟨cls', hF, -, -, e⟩ := clusterAndStarify_final (par := par.unlimited) hs rfl h' hf
    rw [e hmc]
    exact hfin _ hF
  · have hlim : ∃ m, par.maxIterations = some m ∧ m ≤ r.nIter := by
      simp only [Res.Below, not_forall, not_or, not_lt, not_le] at hb
      obtain ⟨m, hm, hb, -⟩ := hb
      exact ⟨m, hm, hb⟩
    rcases (loop_any hs fuel cls1 ex _ 1 _ (histOk_first cls0 m1) (by
      rintro rfl
      exact ⟨gic_fresh hs m1 h1, fun hid => (gic_perm hs h1).trans (hp0 hid)⟩) (by
      rintro rfl
      exact gic_final hs m1 hp0 h1) hl).2 with hF | ⟨cls', hg⟩
    · left; rw [hcl]; exact hfin _ hF
    · right
      refine ⟨hlim, fun c hc => ?_⟩
      rw [hcl, (gic_true hg).1] at hc
      obtain ⟨grp, -, rfl⟩ := List.mem_map.1 hc
      refine ⟨rfl, rfl, fun h => ?_⟩
      simp only [newCluster] at h ⊢
      rw [if_pos h]

/-- C57 for calls whose obstacles do not meet at the start: all are kept, whatever their ids. -/
theorem C57_apart_partial (hs : IsSetList g.setList) (fuel : Nat) (obstacles : List Ob) (r : Res Ob Star KP P)
    (h : clusterAndStarify g par prev fuel obstacles = some (.ok r)) (h1 : r.nIter ≤ 1) :
    List.Perm (r.clusters.flatMap (·.obstacles)) obstacles := by
  by_cases hf : r.flag = .incomplete
  · have := (C54_singletons g par prev fuel obstacles r h hf).1
    rw [List.flatMap_def, this, ← List.flatMap_def]
    simp
  · obtain ⟨cls0, cls1, ex, cls, n, iters, h0, hg, hl, hn, hr⟩ := clusterAndStarify_done h hf
    obtain ⟨-, m2, _⟩ := mapM_first obstacles (fun o ho => ho) h0
    have key : List.Perm (cls.flatMap (·.obstacles)) obstacles := by
      cases ex with
      | true =>
        have := (loop_count _ _ _ _ _ _ _ hl).2 _ _ _ rfl rfl
        omega
      | false =>
        have e : cls = cls1 := by
          cases fuel <;> simp only [clusterLoop, Option.some.injEq, Except.ok.injEq, LoopEnd.done.injEq] at hl <;> exact hl.1.symm
        rw [e, ← m2]
        exact gic_perm hs hg
    rcases hr with ⟨-, hr, _⟩ | ⟨-, hr, _⟩ | ⟨-, hr, _⟩
    · rw [hr]; exact key
    · rw [flatMap_congr_obs (makeConvex_obstacles _ _ _ (Or.inr hr))]; exact key
    · rw [flatMap_congr_obs (makeConvex_obstacles _ _ _ (Or.inl hr))]; exact key

/-- C139 is false for small limits: with `max_iterations=1` (or 0) two iterations are made. -/
theorem C139_false : ∀ m ≤ 1, ∃ r, clusterAndStarify demoGeo ⟨some m, false, false⟩ none 3 [0, 1, 2] = some (.ok r) ∧ m < r.nIter := by
  intro m hm
  have h : isOk ([([0, 1, 2], false)], Flag.complete, 2, 4)
      (viewOf (clusterAndStarify demoGeo ⟨some m, false, false⟩ none 3 [0, 1, 2])) = true := by
    interval_cases m <;> decide +kernel
  cases hr : clusterAndStarify demoGeo ⟨some m, false, false⟩ none 3 [0, 1, 2] with
  | none => rw [hr] at h; simp [viewOf, isOk] at h
  | some e =>
    cases e with
    | error e => rw [hr] at h; simp [viewOf, isOk, Except.map] at h
    | ok r =>
      rw [hr] at h
      simp only [viewOf, isOk, Option.map_some, Except.map, Res.view, decide_eq_true_eq, Prod.mk.injEq] at h
      exact ⟨r, rfl, by rw [h.2.2.1]; omega⟩

/-- C53 for calls that did not reach the limit. -/
theorem C53_limit_partial (hs : IsSetList g.setList) (fuel : Nat) (obstacles : List Ob)
    (r : Res Ob Star KP P) (h : clusterAndStarify g par prev fuel obstacles = some (.ok r))
    (hb : r.Below par) (hf : r.flag ≠ .incomplete) :
    (∀ c ∈ r.clusters, c.star.isSome ∧ c.polygon.isSome) ∧
    (r.clusters.Pairwise fun c d => ∀ p q, c.polygon = some p → d.polygon = some q → g.inter p q = false) ∧
    ((obstacles.map g.id).Nodup → List.Perm (r.clusters.flatMap (·.obstacles)) obstacles) :=
  C53_complete_partial g hs par.unlimited rfl prev fuel obstacles r (C139_below_partial fuel obstacles r h hb) hf

/-- C85 for calls that did not reach the limit. -/
theorem C85_limit_partial {cfg : StarCfg} {pts : ConvObs → Set (Pt ℝ)}
    {prev : Option (List (Cl ConvObs ClusterObs Triple (Set (Pt ℝ))))} {fuel : Nat} {obstacles : List ConvObs}
    {r : Res ConvObs ClusterObs Triple (Set (Pt ℝ))}
    (hs : IsSetList cfg.setList) (hu : IsUnique cfg.unique)
    (hO : ∀ o ∈ obstacles, Convex ℝ (pts o)) (hpoly : ∀ o ∈ obstacles, o.polygon = pts o)
    (hsel : ∀ c ∈ r.clusters, ∀ n pr T, (∀ o ∈ c.obstacles, o ∈ obstacles) → c.kernelPoints = some T →
      cfg.select n c.obstacles pr = .ok T → SelectionOk cfg pts c.obstacles T)
    (h : clusterAndStarify (starGeo cfg) par prev fuel obstacles = some (.ok r)) (hb : r.Below par) (hf : r.flag ≠ .incomplete) :
    ∀ c ∈ r.clusters, ∃ T s, c.kernelPoints = some T ∧ c.star = some s ∧ s.xr = some ((1 / 3 : ℝ) • (T.1 + T.2.1 + T.2.2)) ∧
      (∀ k ∈ convexHull ℝ {T.1, T.2.1, T.2.2}, StarConvex ℝ k (clusterRegion pts s)) ∧
      (1 / 3 : ℝ) • (T.1 + T.2.1 + T.2.2) ∈ clusterRegion pts s ∧
      (∀ o ∈ c.obstacles, pts o ⊆ clusterRegion pts s) ∧
      cfg.x ∉ interior (clusterRegion pts s) ∧ cfg.xg ∉ interior (clusterRegion pts s) :=
  C85_convex_partial hs hu (par := par.unlimited) rfl hO hpoly hsel (C139_below_partial fuel obstacles r h hb) hf

/-- Three obstacles of which two meet, and their hull meets the third: with the limit 4, as with 3, the call makes the 3 iterations that
it makes without limit, and returns one cluster with its obstacle. -/
example : clusterAndStarify demoGeo ⟨some 3, false, false⟩ none 3 [0, 1, 2] = clusterAndStarify demoGeo ⟨none, false, false⟩ none 3 [0, 1, 2] ∧
    isOk ([([0, 1, 2], true)], Flag.complete, 3, 4) (viewOf (clusterAndStarify demoGeo ⟨some 3, false, false⟩ none 3 [0, 1, 2])) = true ∧
    ∃ r, clusterAndStarify demoGeo ⟨some 4, false, false⟩ none 3 [0, 1, 2] = some (.ok r) ∧ r.Below ⟨some 4, false, false⟩ ∧
      r.clusters.map (·.obstacles) = [[0, 1, 2]] := by
  have e := C139_enough_partial (g := demoGeo) (par := ⟨some 3, false, false⟩) (prev := none) isSetList_dedup 3 [0, 1, 2] rfl (by simp)
  refine ⟨e, by decide +kernel, ?_⟩
  have h : isOk ([([0, 1, 2], true)], Flag.complete, 3, 4)
      (viewOf (clusterAndStarify demoGeo ⟨some 4, false, false⟩ none 3 [0, 1, 2])) = true := by decide +kernel
  cases hr : clusterAndStarify demoGeo ⟨some 4, false, false⟩ none 3 [0, 1, 2] with
  | none => rw [hr] at h; simp [viewOf, isOk] at h
  | some e =>
    cases e with
    | error e => rw [hr] at h; simp [viewOf, isOk, Except.map] at h
    | ok r =>
      rw [hr] at h
      simp only [viewOf, isOk, Option.map_some, Except.map, Res.view, decide_eq_true_eq, Prod.mk.injEq] at h
      refine ⟨r, rfl, fun m hm => ?_, ?_⟩
      · injection hm with hm
        left; omega
      · have := congrArg (List.map Prod.fst) h.1
        simpa using this

end Starworlds
