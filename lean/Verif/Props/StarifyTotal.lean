import Verif.Props.StarifyExample
import Verif.Proofs.ClusterTotal

/-! # C86: calls with convex obstacles do not fail -/

namespace Starworlds

open Real Spec

variable {cfg : StarCfg} {pts : ConvObs → Set (Pt ℝ)} {par : Params}
  {prev : Option (List (Cl ConvObs ClusterObs Triple (Set (Pt ℝ))))} {fuel : Nat} {obstacles : List ConvObs}

theorem clusterHull_ok (hu : IsUnique cfg.unique) {obs : List ConvObs} (hO : ∀ o ∈ obs, Convex ℝ (pts o)) {T : Triple}
    (hT : SelectionOk cfg pts obs T) : ∃ r, clusterHull cfg obs T = .ok r := by
  have e1 : ((obs.map fun o => (o.tangentPoints, pts o)).map fun o => HullObs.convex o.1) =
      obs.map fun o => HullObs.convex o.tangentPoints := by simp [Function.comp_def]
  obtain ⟨R, hR, -⟩ := C59_list_partial cfg.unique hu (obs.map fun o => (o.tangentPoints, pts o)) T.points
    cfg.hullFuel (by simpa using hO)
    (by
      intro a ha
      obtain ⟨o, ho, rfl⟩ := List.mem_map.1 ha
      exact hT.tangents o ho)
    (by
      intro a ha
      obtain ⟨o, ho, rfl⟩ := List.mem_map.1 ha
      exact hT.position o ho)
  rw [e1] at hR
  exact ⟨R.map regions, by simp only [clusterHull, hR]⟩

/-- C86 (partial): a call for convex obstacles of star-shaped classes without iteration limit, with robot and goal seeing
tangent points of every obstacle, gives a result, whether or not earlier results are handed in; and without time-outs and
empty admissible kernels it is not INCOMPLETE. Missing: plain polygons (`C86_polygon_false`), kernel points not in general
position, failing selections of kernel points. -/
theorem C86_result_partial (hs : IsSetList cfg.setList) (hu : IsUnique cfg.unique) (hmax : par.maxIterations = none)
    (hprev : ∀ l, prev = some l → ∀ c ∈ l, c.star.isSome ∧ c.kernelPoints.isSome) (hfuel : obstacles.length ≤ fuel)
    (hO : ∀ o ∈ obstacles, o.hasKernel = true ∧ Convex ℝ (pts o))
    (hfree : ∀ o ∈ obstacles, (∃ t s l, o.tangentPoints cfg.x = .ok (t :: s :: l)) ∧
      ∃ t s l, o.tangentPoints cfg.xg = .ok (t :: s :: l))
    (hadm : ∀ n obs, (∀ o ∈ obs, o ∈ obstacles) → ∃ b, cfg.admEmpty n obs = .ok b)
    (hsel : ∀ n obs pr, obs ≠ [] → (∀ o ∈ obs, o ∈ obstacles) → (n = 0 ∨ cfg.admEmpty n obs = .ok false) →
      ∃ T, cfg.select n obs pr = .ok T)
    (hok : ∀ n obs pr T, (∀ o ∈ obs, o ∈ obstacles) → cfg.select n obs pr = .ok T → SelectionOk cfg pts obs T) :
    ∃ r, clusterAndStarify (starGeo cfg) par prev fuel obstacles = some (.ok r) ∧
      ((∀ n, cfg.timeoutInit n = false) → (∀ n, cfg.timeoutIter n = false) →
        (∀ n obs, (∀ o ∈ obs, o ∈ obstacles) → cfg.admEmpty n obs = .ok false) → r.flag ≠ .incomplete) := by
  have hfree' : ∀ o ∈ obstacles, (starGeo cfg).robotFree o = .ok true ∧ (starGeo cfg).goalFree o = .ok true := by
    intro o ho
    obtain ⟨⟨t, s, l, h1⟩, ⟨t', s', l', h2⟩⟩ := hfree o ho
    simp [starGeo, admissibleKernel, h1, h2, bind, Except.bind, Except.map]
  have hall : ∀ obs : List ConvObs, (∀ o ∈ obs, o ∈ obstacles) → obs.all (·.hasKernel) = true := by
    intro obs h
    rw [List.all_eq_true]
    exact fun o ho => (hO o (h o ho)).1
  have hselk : ∀ n obs pr T, (∀ o ∈ obs, o ∈ obstacles) → (starGeo cfg).kernelSel n obs pr = .ok T →
      SelectionOk cfg pts obs T := by
    intro n obs pr T h hk
    simp only [starGeo, hall obs h, if_true] at hk
    exact hok n obs pr T h hk
  have ht : (starGeo cfg).TotalOn obstacles := by
    refine ⟨fun o ho => ⟨_, (hfree' o ho).1⟩, fun o ho => ⟨_, (hfree' o ho).2⟩, fun _ _ => rfl, hadm, ?_, ?_, ?_, ?_,
      fun p => ⟨_, rfl⟩⟩
    · intro o ho k
      have hsub : ∀ a ∈ [o], a ∈ obstacles := by simpa using ho
      obtain ⟨T, hT⟩ := hsel 0 [o] k (by simp) hsub (Or.inl rfl)
      exact ⟨T, by simp only [starGeo, hall [o] hsub, if_true]; exact hT⟩
    · intro n l k hl hsub ha
      obtain ⟨T, hT⟩ := hsel n l k hl hsub (Or.inr ha)
      exact ⟨T, by simp only [starGeo, hall l hsub, if_true]; exact hT⟩
    · intro o ho k kp hk
      have hsub : ∀ a ∈ [o], a ∈ obstacles := by simpa using ho
      obtain ⟨r, hr⟩ := clusterHull_ok hu (fun a ha => (hO a (hsub a ha)).2) (hselk 0 [o] k kp hsub hk)
      cases r with
      | none => exact ⟨_, by simp only [starGeo, bind, Except.bind, hr, (hO o ho).1, if_true]; rfl⟩
      | some H => exact ⟨_, by simp only [starGeo, bind, Except.bind, hr]; rfl⟩
    · intro n l k kp hl hsub hk
      obtain ⟨r, hr⟩ := clusterHull_ok hu (fun a ha => (hO a (hsub a ha)).2) (hselk n l k kp hsub hk)
      exact ⟨_, by simp only [starGeo, bind, Except.bind, hr]; rfl⟩
  obtain ⟨r, hr⟩ := clusterAndStarify_on (prev := prev) (par := par) (fuel := fuel) hs ht hmax hprev hfuel
  exact ⟨r, hr, fun h1 h2 h3 => clusterAndStarify_complete hs ⟨h2, h1⟩ hfree' h3 hr⟩

/-- The two boxes: the call returns a result, and it is not INCOMPLETE. -/
example (mk : Bool) : ∃ r, clusterAndStarify (starGeo cornerCfg) ⟨none, mk, false⟩ none 2 [obsA, obsB] = some (.ok r) ∧
    r.flag ≠ .incomplete := by
  obtain ⟨r, h1, h2⟩ := C86_result_partial (cfg := cornerCfg) (pts := (·.polygon)) (par := ⟨none, mk, false⟩) (prev := none)
    (fuel := 2) (obstacles := [obsA, obsB]) isSetList_dedup isUnique_dedup rfl (by simp) (by simp)
    (by
      intro o ho
      refine ⟨?_, corner_obstacles o ho⟩
      simp only [List.mem_cons, List.not_mem_nil, or_false] at ho
      rcases ho with rfl | rfl <;> rfl)
    (by
      intro o ho
      have key : ∀ (v : List (Pt ℝ)) (x : Pt ℝ), v ≠ [] → x ∉ polyRegion none v → ∃ t s l,
          polygonTangentPoints none v x .global .global = .ok (t :: s :: l) := by
        intro v x hv hx
        rw [polyRegion_none] at hx
        obtain ⟨t, s, h, _⟩ := polygon_seen none v hv x hx
        exact ⟨_, _, _, h⟩
      simp only [List.mem_cons, List.not_mem_nil, or_false] at ho
      rcases ho with rfl | rfl
      · exact ⟨key boxA _ (by simp [boxA]) fun h => by have := boxA_le h; norm_num [cornerCfg] at this,
          key boxA _ (by simp [boxA]) fun h => by have := boxA_le h; norm_num [cornerCfg] at this⟩
      · exact ⟨key boxB _ (by simp [boxB]) fun h => by have := boxB_le h; norm_num [cornerCfg] at this,
          key boxB _ (by simp [boxB]) fun h => by have := boxB_le h; norm_num [cornerCfg] at this⟩)
    (fun _ _ _ => ⟨false, rfl⟩) (fun _ _ _ _ _ _ => ⟨cornerTriple, rfl⟩)
    (by
      intro n obs pr T ho hT
      have e : cornerCfg.select n obs pr = .ok cornerTriple := rfl
      rw [e] at hT
      injection hT with hT
      rw [← hT]
      exact corner_selection obs ho)
  exact ⟨r, h1, h2 (fun _ => rfl) (fun _ => rfl) fun _ _ _ => rfl⟩

/-- C86 is false for plain polygons: with one of them among the obstacles every call fails, unless a time limit is hit
before. -/
theorem C86_polygon_fails (cfg : StarCfg) (par : Params) (prev : Option (List (Cl ConvObs ClusterObs Triple (Set (Pt ℝ)))))
    (fuel : Nat) (obstacles : List ConvObs) (hex : ∃ o ∈ obstacles, o.hasKernel = false)
    (htime : ∀ n, cfg.timeoutInit n = false)
    (hfree : ∀ o ∈ obstacles, (∃ t s l, o.tangentPoints cfg.x = .ok (t :: s :: l)) ∧
      ∃ t s l, o.tangentPoints cfg.xg = .ok (t :: s :: l)) :
    ∃ e, clusterAndStarify (starGeo cfg) par prev fuel obstacles = some (.error e) := by
  have hinit : ∀ (l : List ConvObs) (i : Nat), (∀ o ∈ l, o ∈ obstacles) → initLoop (starGeo cfg) i l = .ok true := by
    intro l
    induction l with
    | nil => intro i _; rfl
    | cons o os ih =>
      intro i hl
      obtain ⟨⟨t, s, l, h1⟩, ⟨t', s', l', h2⟩⟩ := hfree o (hl o (by simp))
      have r1 : (starGeo cfg).robotFree o = .ok true := by
        simp [starGeo, admissibleKernel, h1, bind, Except.bind, Except.map]
      have r2 : (starGeo cfg).goalFree o = .ok true := by
        simp [starGeo, admissibleKernel, h2, bind, Except.bind, Except.map]
      have r3 : (starGeo cfg).timeoutInit i = false := htime i
      have r4 : (starGeo cfg).exclude o = .ok () := rfl
      simpa [initLoop, r1, r2, r3, r4, bind, Except.bind] using ih (i + 1) fun a ha => hl a (List.mem_cons_of_mem _ ha)
  have hbad : ∀ o, o.hasKernel = false → ∃ e, firstCluster (starGeo cfg) prev o = .error e := by
    intro o ho
    cases h : firstCluster (starGeo cfg) prev o with
    | error e => exact ⟨e, rfl⟩
    | ok c =>
      exfalso
      simp only [firstCluster, bind, Except.bind] at h
      cases hk : computeKernelPoints (starGeo cfg) 0 [o] (extractCluster (newCluster (starGeo cfg) [o]).name prev) with
      | error e => rw [hk] at h; cases h
      | ok kp =>
        obtain ⟨k, hk⟩ := computeKernelPoints_sel hk
        simp [starGeo, ho] at hk
  obtain ⟨o, ho, hko⟩ := hex
  simp only [clusterAndStarify, hinit obstacles 0 fun o ho => ho]
  cases hm : obstacles.mapM (firstCluster (starGeo cfg) prev) with
  | error e => exact ⟨e, rfl⟩
  | ok cls =>
    exfalso
    obtain ⟨e, he⟩ := hbad o hko
    obtain ⟨b, hb⟩ := mapM_error _ _ ⟨cls, hm⟩ o ho
    rw [he] at hb
    cases hb

/-- C86 is false: a plain `Polygon` for the box with corners (0, 0) and (3, 1), robot at (2, 2) and goal at (5, 5): the call
raises AttributeError. -/
theorem C86_polygon_false : ∃ (cfg : StarCfg) (o : ConvObs), Convex ℝ o.polygon ∧ cfg.x ∉ o.polygon ∧ cfg.xg ∉ o.polygon ∧
    (∀ k, TangentsOk o.tangentPoints o.polygon k) ∧ (∀ n obs pr, ∃ T, cfg.select n obs pr = .ok T) ∧
    ∀ par fuel, clusterAndStarify (starGeo cfg) par none fuel [o] = some (.error .attributeError) := by
  have hx : ∀ x : Pt ℝ, 1 < x.2 → x ∉ polyRegion none boxA := fun x h hx => by have := boxA_le hx; linarith [this.2.2.2]
  refine ⟨cornerCfg, polygonObs (some 0) false none boxA, polyRegion_convex none boxA, hx _ (by norm_num [cornerCfg]),
    hx _ (by norm_num [cornerCfg]), fun k => (C59_polygon none boxA (by simp [boxA]) k).2, fun _ _ _ => ⟨_, rfl⟩, ?_⟩
  intro par fuel
  have h1 : (starGeo cornerCfg).robotFree (polygonObs (some 0) false none boxA) = .ok true :=
    admissible_some (by simp [boxA]) (hx (2, 2) (by norm_num))
  have h2 : (starGeo cornerCfg).goalFree (polygonObs (some 0) false none boxA) = .ok true :=
    admissible_some (by simp [boxA]) (hx (5, 5) (by norm_num))
  have h3 : initLoop (starGeo cornerCfg) 0 [polygonObs (some 0) false none boxA] = .ok true := by
    have r3 : ∀ i, (starGeo cornerCfg).timeoutInit i = false := fun _ => rfl
    have r4 : ∀ o, (starGeo cornerCfg).exclude o = .ok () := fun _ => rfl
    simp [initLoop, h1, h2, r3, r4, bind, Except.bind]
  have h4 : [polygonObs (some 0) false none boxA].mapM (firstCluster (starGeo cornerCfg) none) = .error .attributeError := by
    simp [firstCluster, extractCluster, computeKernelPoints, starGeo, polygonObs, bind, Except.bind]
  simp only [clusterAndStarify, h3, h4]

end Starworlds
