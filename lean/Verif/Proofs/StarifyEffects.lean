import Verif.Model.StarifyEffects
import Verif.Proofs.ClusterMade

/-! # Reference points that `cluster_and_starify` stores -/

namespace Starworlds

open Spec

variable {cfg : StarCfg} {key : ConvObs → Nat} {prev : Option (List (Cl ConvObs ClusterObs Triple (Set (Pt ℝ))))}

theorem firstLoop_fst (l : List ConvObs) (m : Refs) : (firstLoop cfg key prev l m).1 = l.mapM (firstCluster (starGeo cfg) prev) := by
  induction l generalizing m with
  | nil => rfl
  | cons o l ih =>
    rw [firstLoop, List.mapM_cons]
    cases h : firstCluster (starGeo cfg) prev o with
    | error e => rfl
    | ok c =>
      simp only [ih, bind, Except.bind]
      cases l.mapM (firstCluster (starGeo cfg) prev) <;> rfl

/-- What `firstCluster` gives for a convex obstacle. -/
theorem firstCluster_star {o : ConvObs} {c : Cl ConvObs ClusterObs Triple (Set (Pt ℝ))} (h : firstCluster (starGeo cfg) prev o = .ok c) :
    ∃ pr T, o.hasKernel = true ∧ cfg.select 0 [o] pr = .ok T ∧ c.kernelPoints = some T ∧
      ∃ r, clusterHull cfg [o] T = .ok r ∧ c.star = some ⟨[o], r, some T.mean⟩ := by
  simp only [firstCluster, bind, Except.bind] at h
  split at h
  · cases h
  · rename_i kp hk
    split at h
    · cases h
    · split at h
      · cases h
      · rename_i st hst
        injection h with h
        subst h
        obtain ⟨pr, hk⟩ := computeKernelPoints_sel hk
        simp only [starGeo, List.all_cons, List.all_nil, Bool.and_true] at hk
        split at hk
        · rename_i hK
          refine ⟨pr, kp, hK, hk, rfl, ?_⟩
          simp only [starGeo, bind, Except.bind, hK, if_true] at hst
          split at hst
          · cases hst
          · split at hst <;> (injection hst with hst; subst hst; rename_i hr; exact ⟨_, hr, rfl⟩)
        · cases hk

theorem writeXr_other (o : ConvObs) (c : Cl ConvObs ClusterObs Triple (Set (Pt ℝ))) (m : Refs) {k : Nat} (h : k ≠ key o) :
    writeXr key o c m k = m k := by
  unfold writeXr
  rcases c.star with _ | ⟨_, _ | _, _ | xr⟩ <;> simp [h]

/-- A reference point that the loop changes. -/
theorem firstLoop_changed (l : List ConvObs) (m : Refs) {k : Nat} (h : (firstLoop cfg key prev l m).2 k ≠ m k) :
    ∃ o ∈ l, key o = k ∧ ∃ pr T, cfg.select 0 [o] pr = .ok T ∧ clusterHull cfg [o] T = .ok none ∧ (firstLoop cfg key prev l m).2 k = T.mean ∧
      ∃ c, firstCluster (starGeo cfg) prev o = .ok c ∧ c.kernelPoints = some T := by
  induction l generalizing m with
  | nil => exact absurd rfl h
  | cons o l ih =>
    rw [firstLoop] at h ⊢
    cases hc : firstCluster (starGeo cfg) prev o with
    | error e => rw [hc] at h; exact absurd rfl h
    | ok c =>
      rw [hc] at h
      dsimp only at h ⊢
      by_cases hl : (firstLoop cfg key prev l (writeXr key o c m)).2 k = writeXr key o c m k
      · rw [hl] at h ⊢
        obtain ⟨pr, T, _, h1, h0, r, h2, h3⟩ := firstCluster_star hc
        refine ⟨o, by simp, ?_⟩
        have hk : key o = k := by
          by_contra hne
          exact h (writeXr_other o c m (Ne.symm hne))
        refine ⟨hk, pr, T, h1, ?_⟩
        cases r with
        | none => exact ⟨h2, by simp [writeXr, h3, hk], c, hc, h0⟩
        | some q => exact absurd (by simp [writeXr, h3]) h
      · obtain ⟨o', ho', h1⟩ := ih _ hl
        exact ⟨o', by simp [ho'], h1⟩

theorem firstLoop_other (l : List ConvObs) (m : Refs) {k : Nat} (h : ∀ o ∈ l, key o ≠ k) : (firstLoop cfg key prev l m).2 k = m k := by
  by_contra hne
  obtain ⟨o, ho, hk, _⟩ := firstLoop_changed l m hne
  exact h o ho hk

/-- Each obstacle without hull extension has its reference point after the loop. -/
theorem firstLoop_value (l : List ConvObs) (m : Refs) (hk : (l.map key).Nodup) {cls : List (Cl ConvObs ClusterObs Triple (Set (Pt ℝ)))}
    (h : l.mapM (firstCluster (starGeo cfg) prev) = .ok cls) {o : ConvObs} (ho : o ∈ l) {c : Cl ConvObs ClusterObs Triple (Set (Pt ℝ))}
    (hc : firstCluster (starGeo cfg) prev o = .ok c) {xr : Pt ℝ} (hs : c.star = some ⟨[o], none, some xr⟩) :
    (firstLoop cfg key prev l m).2 (key o) = xr := by
  induction l generalizing m cls with
  | nil => simp at ho
  | cons a l ih =>
    rw [List.map_cons, List.nodup_cons] at hk
    rw [List.mapM_cons] at h
    rw [firstLoop]
    cases ha : firstCluster (starGeo cfg) prev a with
    | error e => rw [ha] at h; cases h
    | ok d =>
      rw [ha] at h
      dsimp only [bind, Except.bind] at h ⊢
      split at h
      · cases h
      · rename_i rest hr
        rcases List.mem_cons.1 ho with rfl | ho
        · rw [firstLoop_other l _ (fun b hb (he : key b = key o) => hk.1 (he ▸ List.mem_map_of_mem hb))]
          rw [hc] at ha
          injection ha with ha
          subst ha
          simp [writeXr, hs]
        · exact ih _ hk.2 hr ho

/-- Where a cluster obstacle of the loop comes from. -/
def Origin (cfg : StarCfg) (prev : Option (List (Cl ConvObs ClusterObs Triple (Set (Pt ℝ))))) (obstacles : List ConvObs) (s : ClusterObs) : Prop :=
  s.xr = none ∨ s.hull.isSome ∨ 1 < s.members.length ∨
    ∃ o ∈ obstacles, ∃ c, firstCluster (starGeo cfg) prev o = .ok c ∧ c.star = some s

variable {obstacles : List ConvObs}

def AllOrigin (cfg : StarCfg) (prev : Option (List (Cl ConvObs ClusterObs Triple (Set (Pt ℝ))))) (obstacles : List ConvObs)
    (cls : List (Cl ConvObs ClusterObs Triple (Set (Pt ℝ)))) : Prop :=
  ∀ c ∈ cls, ∀ s, c.star = some s → Origin cfg prev obstacles s

/-- The history has a cluster for each obstacle. -/
structure HistOrigin (cfg : StarCfg) (prev : Option (List (Cl ConvObs ClusterObs Triple (Set (Pt ℝ))))) (obstacles : List ConvObs)
    (h : History ConvObs ClusterObs Triple (Set (Pt ℝ))) : Prop where
  origin : ∀ nm c, h nm = some c → ∀ s, c.star = some s → Origin cfg prev obstacles s
  single : ∀ o ∈ obstacles, (h (clusterName [o.id])).isSome

theorem histOrigin_insert {h : History ConvObs ClusterObs Triple (Set (Pt ℝ))} (hh : HistOrigin cfg prev obstacles h)
    {c : Cl ConvObs ClusterObs Triple (Set (Pt ℝ))} (hc : ∀ s, c.star = some s → Origin cfg prev obstacles s) :
    HistOrigin cfg prev obstacles (h.insert c) := by
  constructor
  · intro nm d hd
    unfold History.insert at hd
    split at hd
    · injection hd with hd; subst hd; exact hc
    · exact hh.origin nm d hd
  · intro o ho
    unfold History.insert
    split
    · rfl
    · exact hh.single o ho

theorem mapM_each {g : Geo ConvObs ClusterObs Triple (Set (Pt ℝ))} (l : List ConvObs) {cls : List (Cl ConvObs ClusterObs Triple (Set (Pt ℝ)))}
    (h : l.mapM (firstCluster g prev) = .ok cls) :
    (∀ c ∈ cls, ∃ o ∈ l, firstCluster g prev o = .ok c) ∧ ∀ o ∈ l, ∃ c ∈ cls, firstCluster g prev o = .ok c := by
  induction l generalizing cls with
  | nil =>
    simp only [List.mapM_nil, pure, Except.pure] at h
    injection h with h; subst h; simp
  | cons o l ih =>
    simp only [List.mapM_cons, bind, Except.bind] at h
    split at h
    · cases h
    · rename_i c hc
      split at h
      · cases h
      · rename_i rest hr
        simp only [pure, Except.pure] at h
        injection h with h; subst h
        obtain ⟨h1, h2⟩ := ih hr
        constructor
        · intro d hd
          rcases List.mem_cons.1 hd with rfl | hd
          · exact ⟨o, by simp, hc⟩
          · obtain ⟨o', ho', hd'⟩ := h1 d hd
            exact ⟨o', by simp [ho'], hd'⟩
        · intro o' ho'
          rcases List.mem_cons.1 ho' with rfl | ho'
          · exact ⟨c, by simp, hc⟩
          · obtain ⟨d, hd, hd'⟩ := h2 o' ho'
            exact ⟨d, by simp [hd], hd'⟩

theorem firstHistory_some {cls : List (Cl ConvObs ClusterObs Triple (Set (Pt ℝ)))} {c : Cl ConvObs ClusterObs Triple (Set (Pt ℝ))}
    (hc : c ∈ cls) : (firstHistory cls c.name).isSome := by
  unfold firstHistory
  have keep : ∀ (l : List (Cl ConvObs ClusterObs Triple (Set (Pt ℝ)))) (h : History ConvObs ClusterObs Triple (Set (Pt ℝ))) (nm : String),
      (h nm).isSome → (l.foldl History.insert h nm).isSome := by
    intro l
    induction l with
    | nil => exact fun _ _ h => h
    | cons a l ih =>
      intro h nm hn
      refine ih _ nm ?_
      unfold History.insert
      split
      · rfl
      · exact hn
  generalize (fun _ => none : History ConvObs ClusterObs Triple (Set (Pt ℝ))) = h0
  induction cls generalizing h0 with
  | nil => simp at hc
  | cons a l ih =>
    rcases List.mem_cons.1 hc with rfl | hc
    · exact keep l _ _ (by simp [History.insert])
    · exact ih hc _

theorem histOrigin_first {cls : List (Cl ConvObs ClusterObs Triple (Set (Pt ℝ)))}
    (h : obstacles.mapM (firstCluster (starGeo cfg) prev) = .ok cls) : HistOrigin cfg prev obstacles (firstHistory cls) := by
  obtain ⟨h1, h2⟩ := mapM_each obstacles h
  constructor
  · have : ∀ (l : List (Cl ConvObs ClusterObs Triple (Set (Pt ℝ)))) (h : History ConvObs ClusterObs Triple (Set (Pt ℝ))),
        AllOrigin cfg prev obstacles l → (∀ nm c, h nm = some c → ∀ s, c.star = some s → Origin cfg prev obstacles s) →
        ∀ nm c, l.foldl History.insert h nm = some c → ∀ s, c.star = some s → Origin cfg prev obstacles s := by
      intro l
      induction l with
      | nil => exact fun h _ hh => hh
      | cons a l ih =>
        intro h hl hh
        refine ih _ (fun c hc => hl c (by simp [hc])) ?_
        intro nm d hd
        unfold History.insert at hd
        split at hd
        · injection hd with hd; subst hd; exact hl a (by simp)
        · exact hh nm d hd
    refine this cls _ ?_ (by intro nm c h; cases h)
    intro c hc s hs
    obtain ⟨o, ho, hf⟩ := h1 c hc
    exact Or.inr (Or.inr (Or.inr ⟨o, ho, c, hf, hs⟩))
  · intro o ho
    obtain ⟨c, hc, hf⟩ := h2 o ho
    have hg := firstCluster_good ho hf
    have hn : c.name = clusterName [o.id] := by
      have := hg.1.name
      rw [hg.2] at this
      exact this
    rw [← hn]
    exact firstHistory_some hc

theorem starifyAll_origin {n : Nat} (cls : List (Cl ConvObs ClusterObs Triple (Set (Pt ℝ)))) (h : History ConvObs ClusterObs Triple (Set (Pt ℝ)))
    (hh : HistOrigin cfg prev obstacles h) (hf : ∀ c ∈ cls, Fresh (starGeo cfg) obstacles c)
    {cls' : List (Cl ConvObs ClusterObs Triple (Set (Pt ℝ)))} {h' : History ConvObs ClusterObs Triple (Set (Pt ℝ))}
    (he : starifyAll (starGeo cfg) prev n cls h = .ok (.inr (cls', h'))) :
    HistOrigin cfg prev obstacles h' ∧ AllOrigin cfg prev obstacles cls' := by
  induction cls generalizing h cls' h' with
  | nil =>
    simp only [starifyAll] at he
    injection he with he; injection he with he; injection he with he1 he2
    subst he1 he2
    exact ⟨hh, by simp [AllOrigin]⟩
  | cons cl cls ih =>
    have hf' : ∀ c ∈ cls, Fresh (starGeo cfg) obstacles c := fun c hc => hf c (by simp [hc])
    have hcl := hf cl (by simp)
    simp only [starifyAll] at he
    split at he
    · rename_i c hc
      obtain ⟨rest, hr, rfl⟩ := consStarified_inr he
      obtain ⟨h1, h2⟩ := ih h hh hf' hr
      refine ⟨h1, fun d hd => ?_⟩
      rcases List.mem_cons.1 hd with rfl | hd
      · exact hh.origin _ _ hc
      · exact h2 d hd
    · rename_i hnone
      split at he
      · cases he
      · injection he with he; cases he
      · rename_i c hc
        obtain ⟨rest, hr, rfl⟩ := consStarified_inr he
        have hlen : 1 < cl.obstacles.length := by
          by_contra hle
          have h0 := List.length_pos_of_ne_nil hcl.nonempty
          obtain ⟨o, ho⟩ := List.length_eq_one_iff.1 (by omega : cl.obstacles.length = 1)
          have := hh.single o (hcl.sub o (by simp [ho]))
          have hn := hcl.name
          rw [ho] at hn
          rw [show clusterName [o.id] = cl.name from hn.symm, hnone] at this
          cases this
        have hg : ∀ s, c.star = some s → Origin cfg prev obstacles s := by
          intro s hs
          have hs' := starifyCluster_star hc hs
          right; right; left
          rw [hs']
          exact hlen
        obtain ⟨h1, h2⟩ := ih _ (histOrigin_insert hh hg) hf' hr
        refine ⟨h1, fun d hd => ?_⟩
        rcases List.mem_cons.1 hd with rfl | hd
        · exact hg
        · exact h2 d hd
where
  starifyCluster_star {cfg : StarCfg} {prev : Option (List (Cl ConvObs ClusterObs Triple (Set (Pt ℝ))))} {n : Nat}
      {cl c : Cl ConvObs ClusterObs Triple (Set (Pt ℝ))} (h : starifyCluster (starGeo cfg) prev n cl = .ok (some c))
      {s : ClusterObs} (hs : c.star = some s) : s.members = cl.obstacles := by
    unfold starifyCluster at h
    split at h
    · cases h
    · injection h with h; cases h
    · simp only [bind, Except.bind] at h
      split at h
      · cases h
      · split at h
        · cases h
        · split at h
          · cases h
          · rename_i st hst
            injection h with h
            injection h with h
            subst h
            rw [cachePolygon_star] at hs
            injection hs with hs
            subst hs
            simp only [starGeo, bind, Except.bind] at hst
            split at hst
            · cases hst
            · injection hst with hst
              rw [← hst]

theorem gic_origin {cls out : List (Cl ConvObs ClusterObs Triple (Set (Pt ℝ)))} {ex : Bool}
    (hg : AllOrigin cfg prev obstacles cls) (h : getIntersectionClusters (starGeo cfg) cls = .ok (out, ex)) : AllOrigin cfg prev obstacles out := by
  intro c hc s hs
  cases ex with
  | false =>
    rw [(gic_false h).1] at hc
    obtain ⟨d, hd, rfl⟩ := List.mem_map.1 hc
    rw [cachePolygon_star] at hs
    exact hg d hd s hs
  | true =>
    rw [(gic_true h).1] at hc
    obtain ⟨grp, _, rfl⟩ := List.mem_map.1 hc
    left
    simp only [newCluster] at hs
    split at hs
    · cases hs
    · rw [Option.map_eq_some_iff] at hs
      obtain ⟨o, _, rfl⟩ := hs
      rfl

theorem clusterLoop_origin (hsl : IsSetList cfg.setList) {par : Params} (fuel : Nat)
    (cls : List (Cl ConvObs ClusterObs Triple (Set (Pt ℝ)))) (ex : Bool) (h : History ConvObs ClusterObs Triple (Set (Pt ℝ))) (n : Nat)
    (iters : List (List (Cl ConvObs ClusterObs Triple (Set (Pt ℝ))))) (hh : HistOrigin cfg prev obstacles h)
    (hok : HistOk (starGeo cfg) obstacles h)
    (hf : ex = true → ∀ c ∈ cls, Fresh (starGeo cfg) obstacles c) (ho : AllOrigin cfg prev obstacles cls)
    {out : List (Cl ConvObs ClusterObs Triple (Set (Pt ℝ)))} {n' : Nat} {iters' : List (List (Cl ConvObs ClusterObs Triple (Set (Pt ℝ))))}
    (he : clusterLoop (starGeo cfg) par prev fuel cls ex h n iters = some (.ok (.done out n' iters'))) :
    AllOrigin cfg prev obstacles out := by
  induction fuel generalizing cls ex h n iters with
  | zero =>
    cases ex with
    | true => simp [clusterLoop] at he
    | false =>
      simp only [clusterLoop, Option.some.injEq, Except.ok.injEq, LoopEnd.done.injEq] at he
      rw [← he.1]; exact ho
  | succ fuel ih =>
    cases ex with
    | false =>
      simp only [clusterLoop, Option.some.injEq, Except.ok.injEq, LoopEnd.done.injEq] at he
      rw [← he.1]; exact ho
    | true =>
      simp only [clusterLoop] at he
      split at he
      · simp at he
      · split at he
        · simp at he
        · simp at he
        · rename_i cls' h' hst
          split at he
          · simp at he
          · rename_i cls'' ex' hgic
            obtain ⟨h1, h2⟩ := starifyAll_origin cls h hh (hf rfl) hst
            obtain ⟨g1, g2, _⟩ := starifyAll_good cls h hok (hf rfl) hst
            split at he
            · simp only [Option.some.injEq, Except.ok.injEq, LoopEnd.done.injEq] at he
              rw [← he.1]; exact gic_origin h2 hgic
            · refine ih cls'' ex' h' _ _ h1 g1 ?_ (gic_origin h2 hgic) he
              rintro rfl
              exact gic_fresh hsl g2 hgic

theorem makeConvexLoop_origin (k j : Nat) (cls : List (Cl ConvObs ClusterObs Triple (Set (Pt ℝ)))) (hc : AllOrigin cfg prev obstacles cls)
    {out : List (Cl ConvObs ClusterObs Triple (Set (Pt ℝ)))}
    (h : makeConvexLoop (starGeo cfg) k j cls = .ok (.inl out) ∨ makeConvexLoop (starGeo cfg) k j cls = .ok (.inr out)) :
    AllOrigin cfg prev obstacles out := by
  induction k generalizing j cls with
  | zero => simp only [makeConvexLoop, Except.ok.injEq, reduceCtorEq, Sum.inr.injEq, false_or] at h; rw [← h]; exact hc
  | succ k ih =>
    have hcache : AllOrigin cfg prev obstacles (cls.map (cachePolygon (starGeo cfg))) := by
      intro c hc' s hs
      obtain ⟨d, hd, rfl⟩ := List.mem_map.1 hc'
      rw [cachePolygon_star] at hs
      exact hc d hd s hs
    simp only [makeConvexLoop] at h
    split at h
    · simp only [Except.ok.injEq, reduceCtorEq, Sum.inr.injEq, false_or] at h; rw [← h]; exact hc
    · split at h
      · simp at h
      · split at h
        · exact ih _ _ hc h
        · split at h
          · simp only [Except.ok.injEq, reduceCtorEq, Sum.inl.injEq, or_false] at h; rw [← h]; exact hc
          · split at h
            · simp at h
            · split at h
              · simp at h
              · split at h
                · exact ih _ _ hcache h
                · refine ih _ _ ?_ h
                  intro c hc' s hs
                  obtain ⟨i, hi⟩ := List.getElem?_of_mem hc'
                  rw [List.getElem?_modify] at hi
                  cases hci : (cls.map (cachePolygon (starGeo cfg)))[i]? with
                  | none => rw [hci] at hi; simp at hi
                  | some e =>
                    rw [hci] at hi
                    by_cases hij : j = i
                    · simp only [hij, if_true, Option.map_eq_map, Option.map_some, Option.some.injEq] at hi
                      rw [← hi] at hs
                      injection hs with hs
                      right; left
                      rw [← hs]; rfl
                    · simp only [hij, if_false, Option.map_eq_map, Option.map_some, Option.some.injEq] at hi
                      rw [← hi] at hs
                      exact hcache e (List.mem_of_getElem? hci) s hs

/-- Where the returned cluster obstacles come from, for all parameters and flags. -/
theorem clusterAndStarify_origin (hsl : IsSetList cfg.setList) {par : Params} {fuel : Nat} {r : Res ConvObs ClusterObs Triple (Set (Pt ℝ))}
    (h : clusterAndStarify (starGeo cfg) par prev fuel obstacles = some (.ok r)) : AllOrigin cfg prev obstacles r.clusters := by
  by_cases hf : r.flag = .incomplete
  · have hdef : ∀ n it, AllOrigin cfg prev obstacles (defaultResult (starGeo cfg) par obstacles n it).clusters := by
      intro n it c hc s hs
      obtain ⟨o, _, rfl⟩ := List.mem_map.1 hc
      left
      simp only [newCluster, List.length_singleton, gt_iff_lt, lt_irrefl, if_false, List.head?_cons, Option.map_some, Option.some.injEq] at hs
      rw [← hs]; rfl
    unfold clusterAndStarify at h
    split at h
    · simp at h
    · simp only [Option.some.injEq, Except.ok.injEq] at h
      rw [← h]; exact hdef _ _
    · split at h
      · simp at h
      · simp only at h
        split at h
        · simp at h
        · split at h
          · simp at h
          · simp at h
          · simp only [Option.some.injEq, Except.ok.injEq] at h
            rw [← h]; exact hdef _ _
          · split at h
            · split at h
              · simp at h
              · simp only [Option.some.injEq, Except.ok.injEq] at h
                rw [← h] at hf; cases hf
              · simp only [Option.some.injEq, Except.ok.injEq] at h
                rw [← h] at hf; cases hf
            · simp only [Option.some.injEq, Except.ok.injEq] at h
              rw [← h] at hf; cases hf
  · obtain ⟨cls0, cls1, ex, cls, n, iters, h0, h1, hl, _, hr⟩ := clusterAndStarify_done h hf
    obtain ⟨m1, _, _⟩ := mapM_first obstacles (fun o ho => ho) h0
    have o0 : AllOrigin cfg prev obstacles cls0 := by
      intro c hc s hs
      obtain ⟨o, ho, hfc⟩ := (mapM_each obstacles h0).1 c hc
      exact Or.inr (Or.inr (Or.inr ⟨o, ho, c, hfc, hs⟩))
    have hcls : AllOrigin cfg prev obstacles cls := by
      refine clusterLoop_origin hsl fuel cls1 ex _ 1 _ (histOrigin_first h0) (histOk_first cls0 m1) ?_ (gic_origin o0 h1) hl
      rintro rfl
      exact gic_fresh hsl m1 h1
    rcases hr with ⟨_, hr, _⟩ | ⟨_, hr, _⟩ | ⟨_, hr, _⟩
    · rw [hr]; exact hcls
    · exact makeConvexLoop_origin _ _ _ hcls (Or.inr hr)
    · exact makeConvexLoop_origin _ _ _ hcls (Or.inl hr)

end Starworlds
