import Verif.Spec.Exchange
import Verif.Props.TranslateExample
import Verif.Props.Repeat

/-! # C126: robot and goal exchanged -/

namespace Starworlds

open Spec

theorem orientation_exchange (x xg p : Pt ℝ) : orientationVal xg x p = -orientationVal x xg p := by
  simp only [orientationVal]; ring

theorem orientation_cross (x xg p : Pt ℝ) : orientationVal x xg p = -cross (xg - x) (p - x) := by
  simp only [orientationVal, cross, Prod.fst_sub, Prod.snd_sub]; ring

theorem isCollinear_exchange (x xg p : Pt ℝ) : isCollinear xg x p = isCollinear x xg p := by
  simp only [isCollinear, orientation_exchange x xg p, abs_neg]

theorem isCcw_exchange {x xg p : Pt ℝ} (h : OffLine x xg p) : isCcw xg x p = !isCcw x xg p := by
  rw [OffLine, show |cross (xg - x) (p - x)| = |orientationVal x xg p| by rw [orientation_cross, abs_neg], lt_abs] at h
  simp only [isCcw, orientation_exchange x xg p, collinearThreshold]
  have hp : (0 : ℝ) < 1 / 10 ^ 10 := by positivity
  rcases h with h | h
  · have h1 : -orientationVal x xg p < -(1 / 10 ^ 10) := by linarith
    have h2 : ¬ orientationVal x xg p < -(1 / 10 ^ 10) := by linarith
    simp only [h1, h2, decide_true, decide_false, Bool.not_false]
  · have h1 : ¬ -orientationVal x xg p < -(1 / 10 ^ 10) := by linarith
    have h2 : orientationVal x xg p < -(1 / 10 ^ 10) := by linarith
    simp only [h1, h2, decide_true, decide_false, Bool.not_true]

theorem offLine_not_collinear {x xg p : Pt ℝ} (h : OffLine x xg p) : isCollinear x xg p = false := by
  rw [OffLine, show |cross (xg - x) (p - x)| = |orientationVal x xg p| by rw [orientation_cross, abs_neg]] at h
  simp only [isCollinear, collinearThreshold]
  exact decide_eq_false (not_lt.2 h.le)

theorem perturb_exchange (x xg : Pt ℝ) (draws : List (Pt ℝ)) : ∀ tc, perturb xg x tc draws = perturb x xg tc draws := by
  induction draws with
  | nil => intro tc; simp only [perturb, isCollinear_exchange]
  | cons d ds ih => intro tc; simp only [perturb, isCollinear_exchange, ih]

theorem sameSide_exchange {G : Type} (geo : PolyOps G) {x xg prev : Pt ℝ} (hp : OffLine x xg prev) (first : G) (gs : List G)
    (h : ∀ g ∈ gs, ∀ q, geo.centroid g = .ok q → OffLine x xg q) : sameSide geo xg x prev first gs = sameSide geo x xg prev first gs := by
  induction gs with
  | nil => rfl
  | cons g gs ih =>
    rw [sameSide, sameSide]
    cases hc : geo.centroid g with
    | error e => rfl
    | ok c =>
      simp only [bind, Except.bind, isCcw_exchange hp, isCcw_exchange (h g (by simp) c hc), Bool.not_inj_iff,
        ih fun g hg => h g (by simp [hg])]

theorem triangleCentre_exchange {G : Type} (geo : PolyOps G) {x xg : Pt ℝ} (hs : SplitsBothWays geo x xg) (adm S : G) (prev : Option (Pt ℝ))
    (hp : ∀ c, prev = some c → SidesClear geo x xg S c) (draws : List (Pt ℝ)) :
    triangleCentre geo adm S xg x prev draws = triangleCentre geo adm S x xg prev draws := by
  cases prev with
  | none => simp only [triangleCentre, perturb_exchange]
  | some c =>
    simp only [triangleCentre, isCollinear_exchange x xg c, ← hs S]
    rcases hp c rfl with ⟨h1, h2⟩ | ⟨h1, h2⟩
    · rw [h1, offLine_not_collinear h2]
      rfl
    · split
      · rfl
      · cases hsp : geo.split S x xg with
        | error e => rfl
        | ok gs =>
          cases gs with
          | nil => rfl
          | cons first rest =>
            simp only [bind, Except.bind, sameSide_exchange geo h1 first rest fun g hg q hq => h2 _ hsp g (by simp [hg]) q hq]

/-- `compute_kernel_points`: with robot and goal exchanged the kernel points are the same, exceptions included, if there is no previous cluster, or its
centre is not near the line and either kept or no part of the selection set has its centroid near the line. Missing: centres near the line, see
`C126_line_false`. -/
theorem C126_points_partial {G : Type} (geo : PolyOps G) {x xg : Pt ℝ} (hs : SplitsBothWays geo x xg) (adm poly ws : G) (kernels : Option (List G))
    (eps : ℝ) (prev : Option (Pt ℝ)) (hp : ∀ c, prev = some c → SidesClear geo x xg (selectionSet geo adm poly ws kernels) c)
    (draws : List (Pt ℝ)) (clock : Clock) :
    kernelPoints geo adm poly ws kernels xg x eps prev draws clock = kernelPoints geo adm poly ws kernels x xg eps prev draws clock := by
  simp only [kernelPoints, triangleCentre_exchange geo hs adm _ prev hp]

/-! ## The call -/

theorem initLoop_exchange {Ob Star KP P : Type} (g : Geo Ob Star KP P) (os : List Ob) : ∀ (i : Nat) b, initLoop g i os = .ok b →
    initLoop { g with robotFree := g.goalFree, goalFree := g.robotFree } i os = .ok b := by
  induction os with
  | nil => intro i b h; exact h
  | cons o os ih =>
    intro i b h
    rw [initLoop] at h ⊢
    split at h
    · rename_i ht
      rw [if_pos ht]; exact h
    · rename_i ht
      rw [if_neg ht]
      simp only [bind, Except.bind] at h ⊢
      cases hr : g.robotFree o with
      | error e => rw [hr] at h; cases h
      | ok r =>
        rw [hr] at h
        cases hg : g.goalFree o with
        | error e => rw [hg] at h; cases h
        | ok q =>
          rw [hg] at h
          simp only [Bool.or_comm (!q) (!r)] at h ⊢
          split at h
          · rename_i hc; rw [if_pos hc]; exact h
          · rename_i hc
            rw [if_neg hc]
            cases he : g.exclude o with
            | error e => rw [he] at h; cases h
            | ok u => rw [he] at h; exact ih _ _ h

theorem convexLoop_exchange {Ob Star KP P : Type} (g : Geo Ob Star KP P) (rf gf : Ob → Except PyErr Bool) : ∀ k j cls,
    makeConvexLoop { g with robotFree := rf, goalFree := gf } k j cls = makeConvexLoop g k j cls := by
  intro k
  induction k with
  | zero => intro j cls; rfl
  | succ k ih => intro j cls; simp only [makeConvexLoop, ih]; rfl

theorem loop_exchange {Ob Star KP P : Type} (g : Geo Ob Star KP P) (rf gf : Ob → Except PyErr Bool) (par : Params)
    (prev : Option (List (Cl Ob Star KP P))) : ∀ fuel cls ex h n iters,
    clusterLoop { g with robotFree := rf, goalFree := gf } par prev fuel cls ex h n iters = clusterLoop g par prev fuel cls ex h n iters := by
  have hst : ∀ n cls h, starifyAll { g with robotFree := rf, goalFree := gf } prev n cls h = starifyAll g prev n cls h := by
    intro n cls
    induction cls with
    | nil => intro h; rfl
    | cons c cls ih => intro h; simp only [starifyAll, ih]; rfl
  intro fuel
  induction fuel with
  | zero => intro cls ex h n iters; cases ex <;> rfl
  | succ fuel ih =>
    intro cls ex h n iters
    cases ex with
    | false => rfl
    | true => simp only [clusterLoop, hst, ih]; rfl

/-- In which order robot and goal are tested for being free does not matter. -/
theorem call_exchange {Ob Star KP P : Type} (g : Geo Ob Star KP P) (par : Params) (prev : Option (List (Cl Ob Star KP P))) (fuel : Nat)
    (obstacles : List Ob) (r : Res Ob Star KP P) (h : clusterAndStarify g par prev fuel obstacles = some (.ok r)) :
    clusterAndStarify { g with robotFree := g.goalFree, goalFree := g.robotFree } par prev fuel obstacles = some (.ok r) := by
  have hf : firstCluster { g with robotFree := g.goalFree, goalFree := g.robotFree } prev = firstCluster g prev := rfl
  have hg : ∀ cls, getIntersectionClusters { g with robotFree := g.goalFree, goalFree := g.robotFree } cls = getIntersectionClusters g cls := fun _ => rfl
  have hd : ∀ n it, defaultResult { g with robotFree := g.goalFree, goalFree := g.robotFree } par obstacles n it = defaultResult g par obstacles n it :=
    fun _ _ => rfl
  rw [← h]
  simp only [clusterAndStarify, hf, hg, hd, loop_exchange, convexLoop_exchange] at h ⊢
  cases hi : initLoop g 0 obstacles with
  | error e => rw [hi] at h; cases h
  | ok b => rw [initLoop_exchange g obstacles 0 b hi]

/-- The call, when kernel points and the test for empty kernels are the same: a result is returned for exchanged robot and goal
if and only if it is returned for robot and goal. Missing: which exception is raised when robot and goal both raise one. -/
theorem C126_call_partial {cfg cfg' : StarCfg} (hset : IsSetList cfg.setList) (hx : cfg'.x = cfg.xg) (hg : cfg'.xg = cfg.x)
    (hu : cfg'.unique = cfg.unique) (hf : cfg'.hullFuel = cfg.hullFuel) (hs : cfg'.setList = cfg.setList)
    (ht : cfg'.timeoutInit = cfg.timeoutInit ∧ cfg'.timeoutIter = cfg.timeoutIter ∧ cfg'.timeoutConvex = cfg.timeoutConvex)
    (hc : cfg'.isConvex = cfg.isConvex) (obstacles : List ConvObs) (hid : (obstacles.map (·.id)).Nodup)
    (prev : Option (List (Cl ConvObs ClusterObs Triple (Set (Pt ℝ)))))
    (ha : ∀ n l, Part obstacles l → cfg'.admEmpty n l = cfg.admEmpty n l)
    (hsel : ∀ n l k, Part obstacles l → (n = 0 ∧ (∃ o, l = [o]) ∨ cfg.admEmpty n l = .ok false) →
      (∀ kp, k = some kp → ∃ cs, prev = some cs ∧ ∃ c ∈ cs, c.kernelPoints = some kp) → cfg'.select n l k = cfg.select n l k)
    (par : Params) (fuel : Nat) (r : Res ConvObs ClusterObs Triple (Set (Pt ℝ))) :
    clusterAndStarify (starGeo cfg') par prev fuel obstacles = some (.ok r) ↔
      clusterAndStarify (starGeo cfg) par prev fuel obstacles = some (.ok r) := by
  have half : ∀ {cfg cfg' : StarCfg}, IsSetList cfg.setList → cfg'.x = cfg.xg → cfg'.xg = cfg.x → cfg'.unique = cfg.unique →
      cfg'.hullFuel = cfg.hullFuel → cfg'.setList = cfg.setList →
      (cfg'.timeoutInit = cfg.timeoutInit ∧ cfg'.timeoutIter = cfg.timeoutIter ∧ cfg'.timeoutConvex = cfg.timeoutConvex) →
      cfg'.isConvex = cfg.isConvex → (∀ n l, Part obstacles l → cfg'.admEmpty n l = cfg.admEmpty n l) →
      (∀ n l k, Part obstacles l → (n = 0 ∧ (∃ o, l = [o]) ∨ cfg.admEmpty n l = .ok false) →
        (∀ kp, k = some kp → ∃ cs, prev = some cs ∧ ∃ c ∈ cs, c.kernelPoints = some kp) → cfg'.select n l k = cfg.select n l k) →
      clusterAndStarify (starGeo cfg) par prev fuel obstacles = some (.ok r) →
      clusterAndStarify (starGeo cfg') par prev fuel obstacles = some (.ok r) := by
    intro cfg cfg' hset hx hg hu hf hs ht hc ha hsel h
    have e : starGeo cfg' = { ({ starGeo cfg with robotFree := (starGeo cfg).goalFree, goalFree := (starGeo cfg).robotFree } :
        Geo ConvObs ClusterObs Triple (Set (Pt ℝ))) with admEmpty := cfg'.admEmpty, kernelSel := (starGeo cfg').kernelSel } := by
      have hh : clusterHull cfg' = clusterHull cfg := by funext l kp; simp only [clusterHull, hu, hf]
      have hb : (starGeo cfg').blocked = (starGeo cfg).blocked := by
        funext h
        simp only [starGeo]
        exact decide_eq_decide.2 (by rw [hx, hg]; exact or_comm)
      simp only [starGeo] at hb
      simp only [starGeo, hx, hg, hs, ht, hc, hh] at hb ⊢
      rw [hb]
    rw [e]
    refine (result_agree (g := { starGeo cfg with robotFree := (starGeo cfg).goalFree, goalFree := (starGeo cfg).robotFree }) hset hid ?_ ?_ par
      fuel).trans (call_exchange _ par prev fuel obstacles r h)
    · intro n l hl
      exact (ha n l ⟨hl.nonempty, hl.nodup, hl.sub⟩).symm
    · intro n l k hl hq hk
      simp only [starGeo, hsel n l k ⟨hl.nonempty, hl.nodup, hl.sub⟩ hq hk]
  constructor
  · refine half (hs ▸ hset) hg.symm hx.symm hu.symm hf.symm hs.symm ⟨ht.1.symm, ht.2.1.symm, ht.2.2.symm⟩ hc.symm (fun n l hl => (ha n l hl).symm) ?_
    intro n l k hl hq hk
    rw [ha n l hl] at hq
    exact (hsel n l k hl hq hk).symm
  · exact half hset hx hg hu hf hs ht hc ha hsel

/-! ## The kernels -/

/-- Where there is an admissible kernel, it does not depend on the order of robot and goal. -/
theorem C126_kernel_partial {G : Type} {cones : ConeGeo G} (hc : ∀ a b, cones.intersection a b = cones.intersection b a) {x xg : Pt ℝ} {n : Nat}
    {l : List ConvObs} {A : G} (h : admissibleKernels cones x xg n l = .ok A) : admissibleKernels cones xg x n l = .ok A := by
  have loop : ∀ {l : List ConvObs}, admissibleLoop cones x xg [] l = .ok A → admissibleLoop cones xg x [] l = .ok A := by
    intro l h
    simp only [admissibleLoop, bind, Except.bind, List.foldl_nil] at h ⊢
    cases h1 : l.mapM (coneOf x) with
    | error e => rw [h1] at h; cases h
    | ok rs =>
      rw [h1] at h
      simp only at h ⊢
      cases h2 : coneListIntersection cones rs true with
      | error e => rw [h2] at h; cases h
      | ok a =>
        rw [h2] at h
        simp only at h ⊢
        cases h3 : l.mapM (coneOf xg) with
        | error e => rw [h3] at h; cases h
        | ok gs =>
          rw [h3] at h
          simp only at h ⊢
          cases h4 : coneListIntersection cones gs true with
          | error e => rw [h4] at h; cases h
          | ok b =>
            rw [h4] at h
            simp only at h ⊢
            rw [hc b a]; exact h
  unfold admissibleKernels at h ⊢
  split at h
  · rename_i o
    simp only [admissibleFirst, coneIntersection, bind, Except.bind, Bool.false_eq_true, if_false] at h ⊢
    cases h1 : coneOf x o with
    | error e => rw [h1] at h; cases h
    | ok rs =>
      rw [h1] at h
      simp only at h ⊢
      cases h2 : coneOf xg o with
      | error e => rw [h2] at h; cases h
      | ok gs =>
        rw [h2] at h
        simp only at h ⊢
        cases h3 : coneShape cones rs with
        | error e => rw [h3] at h; cases h
        | ok a =>
          rw [h3] at h
          simp only at h ⊢
          cases h4 : coneShape cones gs with
          | error e => rw [h4] at h; cases h
          | ok b =>
            rw [h4] at h
            simp only at h ⊢
            rw [hc b a]; exact h
  · exact loop h

/-- The whole call with the kernels and the kernel points that are computed: in a scene in general position, where the previous kernel points and the
parts of the selection sets are not near the line through robot and goal, exchanging them does not change the result. -/
theorem C126_program_partial {cfg cfg' : StarCfg} (hset : IsSetList cfg.setList) (hx : cfg'.x = cfg.xg) (hg : cfg'.xg = cfg.x)
    (hu : cfg'.unique = cfg.unique) (hf : cfg'.hullFuel = cfg.hullFuel) (hs : cfg'.setList = cfg.setList)
    (ht : cfg'.timeoutInit = cfg.timeoutInit ∧ cfg'.timeoutIter = cfg.timeoutIter ∧ cfg'.timeoutConvex = cfg.timeoutConvex)
    (hc : cfg'.isConvex = cfg.isConvex) (obstacles : List ConvObs) (hid : (obstacles.map (·.id)).Nodup)
    (prev : Option (List (Cl ConvObs ClusterObs Triple (Set (Pt ℝ)))))
    {cones : ConeGeo (Set (Pt ℝ))} {t s t' s' : ConvObs → Pt ℝ} {valid : List (Pt ℝ) → Prop}
    (h : CallSceneOk cones cfg.x cfg.xg obstacles t s t' s' valid) (hx1 : WellInBox cfg.x) (hg1 : WellInBox cfg.xg)
    (hv : ValidCones cfg.x cfg.xg obstacles t s t' s' valid 0)
    (ha : cfg.admEmpty = fun n l => (admissibleKernels cones cfg.x cfg.xg n l).map cones.negligible)
    (ha' : cfg'.admEmpty = fun n l => (admissibleKernels cones cfg'.x cfg'.xg n l).map cones.negligible)
    (geo : PolyOps (Set (Pt ℝ))) (hgeo : SplitsBothWays geo cfg.x cfg.xg) (ws : Set (Pt ℝ)) (eps : ℝ)
    (draws : Nat → List ConvObs → List (Pt ℝ)) (clock : Nat → List ConvObs → Clock)
    (hsel : cfg.select = selectPoints geo (admissibleKernels cones cfg.x cfg.xg) unionOf ws (·.polygon) cfg.x cfg.xg eps draws clock)
    (hsel' : cfg'.select = selectPoints geo (admissibleKernels cones cfg'.x cfg'.xg) unionOf ws (·.polygon) cfg'.x cfg'.xg eps draws clock)
    (hclear : ∀ n l A, Part obstacles l → admissibleKernels cones cfg.x cfg.xg n l = .ok A →
      ∀ cs, prev = some cs → ∀ c ∈ cs, ∀ kp, c.kernelPoints = some kp →
        SidesClear geo cfg.x cfg.xg (selectionSet geo A (unionOf l) ws (some (l.map (·.polygon)))) kp.mean)
    (par : Params) (fuel : Nat) (r : Res ConvObs ClusterObs Triple (Set (Pt ℝ))) :
    clusterAndStarify (starGeo cfg') par prev fuel obstacles = some (.ok r) ↔
      clusterAndStarify (starGeo cfg) par prev fuel obstacles = some (.ok r) := by
  have hcomm : ∀ a b, cones.intersection a b = cones.intersection b a := fun a b => by
    have e1 := h.cones.inter a b
    have e2 := h.cones.inter b a
    simp only [id] at e1 e2
    rw [e1, e2, Set.inter_comm]
  have hA : ∀ n l, Part obstacles l → ∃ A, admissibleKernels cones cfg.x cfg.xg n l = .ok A ∧ admissibleKernels cones cfg.xg cfg.x n l = .ok A := by
    intro n l hl
    obtain ⟨A, h1, -⟩ := kernel_points_of h hx1 hg1 hv hl n
    exact ⟨A, h1, C126_kernel_partial hcomm h1⟩
  refine C126_call_partial hset hx hg hu hf hs ht hc obstacles hid prev ?_ ?_ par fuel r
  · intro n l hl
    obtain ⟨A, h1, h2⟩ := hA n l hl
    simp only [ha, ha', hx, hg, h1, h2]
  · intro n l k hl _ hk
    obtain ⟨A, h1, h2⟩ := hA n l hl
    simp only [hsel, hsel', hx, hg, selectPoints, h1, h2, bind, Except.bind]
    rw [C126_points_partial geo hgeo]
    intro c hc'
    cases k with
    | none => cases hc'
    | some kp =>
      obtain ⟨cs, e1, c', e2, e3⟩ := hk kp rfl
      rw [Option.map_some, Option.some.injEq] at hc'
      rw [← hc']
      exact hclear n l A hl h1 cs e1 c' e2 kp e3

/-! ### A scene -/

/-- The scene of `scene_example` with the test for empty kernels that is computed. -/
noncomputable def pairCfg (x xg : Pt ℝ) : StarCfg :=
  { sceneCfg 0 with
    x := x
    xg := xg
    admEmpty := fun n l => (admissibleKernels setGeo x xg n l).map setGeo.negligible
    select := selectPoints boxOps (admissibleKernels setGeo x xg) unionOf Set.univ (·.polygon) x xg (1 / 10) (fun _ _ => [])
      (fun _ _ => ⟨0, 1, 1, 1, 1, 1⟩) }

theorem pair_result : clusterAndStarify (starGeo (pairCfg (-1, 0) (5, 1 / 2))) ⟨none, false, false⟩ none 2 [obsNear] = some (.ok
    ⟨[⟨clusterName [some 0], [obsNear], some ⟨[obsNear], none, some (3 / 2, 0)⟩, some (nearTriple 0),
      some (ClusterObs.polygon ⟨[obsNear], none, some (3 / 2, 0)⟩)⟩], .complete, 1, none⟩) := by
  have hs := scene_select
  simp only [sceneCfg, add_zero] at hs
  have hr := one_alone (pairCfg (-1, 0) (5, 1 / 2)) obsNear (nearTriple 0) 2 rfl
    (admissible_some (by simp [nearBox]) near_robot.outside)
    (admissible_some (by simp [nearBox]) (near_goal (g := 1 / 2) (by norm_num) le_rfl).outside) hs
    (clusterHull_none _ _ _ fun o ho k hk => by rw [List.mem_singleton.1 ho]; exact (near_none le_rfl (by norm_num) k hk).1) (fun _ => rfl)
  rw [near_mean] at hr
  exact hr

/-- A robot at (-1, 0) with the goal (5, 1/2), and a robot at (5, 1/2) with the goal (-1, 0). -/
example : clusterAndStarify (starGeo (pairCfg (5, 1 / 2) (-1, 0))) ⟨none, false, false⟩ none 2 [obsNear] = some (.ok
    ⟨[⟨clusterName [some 0], [obsNear], some ⟨[obsNear], none, some (3 / 2, 0)⟩, some (nearTriple 0),
      some (ClusterObs.polygon ⟨[obsNear], none, some (3 / 2, 0)⟩)⟩], .complete, 1, none⟩) := by
  have hscene : CallSceneOk setGeo (-1, 0) (5, 1 / 2) [obsNear] (fun _ => (1, 1)) (fun _ => (1, -1)) (fun _ => (2, -1)) (fun _ => (2, 1))
      (fun _ => True) := by
    refine ⟨setGeo_ok, fun o ho => ?_, fun o ho => ?_, by norm_num [cross], by norm_num [cross]⟩
    · rw [List.mem_singleton.1 ho]; exact near_robot
    · rw [List.mem_singleton.1 ho]; exact near_goal (by norm_num) le_rfl
  exact (C126_program_partial (cfg := pairCfg (-1, 0) (5, 1 / 2)) (cfg' := pairCfg (5, 1 / 2) (-1, 0)) isSetList_dedup rfl rfl rfl rfl rfl
    ⟨rfl, rfl, rfl⟩ rfl [obsNear] (by simp) none (cones := setGeo) hscene (by norm_num [WellInBox, pairCfg])
    (by norm_num [WellInBox, pairCfg, abs_of_pos]) (fun _ _ _ _ => trivial) rfl rfl boxOps (fun _ => rfl) Set.univ (1 / 10) (fun _ _ => [])
    (fun _ _ => ⟨0, 1, 1, 1, 1, 1⟩) rfl rfl (fun _ _ _ _ _ _ h => by cases h) ⟨none, false, false⟩ 2 _).2 pair_result

/-! ## On the line -/

namespace Spec

/-- The geometry library with the square about the origin, which the line through robot and goal divides into an upper and a lower half; `ws` is
the workspace. -/
structure SquareOps (geo : PolyOps (Set (Pt ℝ))) (ws : Set (Pt ℝ)) : Prop where
  inter : ∀ a b, geo.intersection a b = a ∩ b
  within : geo.within (rect (0, 0) 1 1) ws = true
  area : geo.area (rect (0, 0) 1 1) = 4
  upper : geo.centroid (rect (0, 1 / 2) 1 (1 / 2)) = .ok (0, 1 / 2)
  lower : geo.centroid (rect (0, -1 / 2) 1 (1 / 2)) = .ok (0, -1 / 2)
  nearest : ∀ g c, geo.centroid g = .ok c → ∃ q, geo.nearestToCentroid (rect (0, 0) 1 1) g = .ok q ∧ NearestIn (rect (0, 0) 1 1) c q
  split : SplitsBothWays geo (-5, 0) (5, 0)
  halves : geo.split (rect (0, 0) 1 1) (-5, 0) (5, 0) = .ok [rect (0, 1 / 2) 1 (1 / 2), rect (0, -1 / 2) 1 (1 / 2)] ∨
    geo.split (rect (0, 0) 1 1) (-5, 0) (5, 0) = .ok [rect (0, -1 / 2) 1 (1 / 2), rect (0, 1 / 2) 1 (1 / 2)]
  polygon : geo.isPolygon (rect (0, 0) 1 1) = true
  distance : ∀ p, ∃ d, geo.exteriorDistance (rect (0, 0) 1 1) p = .ok d

end Spec

theorem square_inter {geo : PolyOps (Set (Pt ℝ))} {ws : Set (Pt ℝ)} (h : SquareOps geo ws) :
    selectionSet geo (rect (0, 0) 1 1) (rect (0, 0) 1 1) ws (some [rect (0, 0) 1 1]) = rect (0, 0) 1 1 := by
  have e : ¬ (4 : ℝ) < 1e-6 := by norm_num
  have e' : (4 : ℝ) > 1e-6 := by norm_num
  simp [selectionSet, limitToExterior, h.within, h.inter, h.area, e, e']

/-- C126 is false: robot and goal are at (-5, 0) and (5, 0), the square about the origin is obstacle, kernel and admissible kernel, and the centre of the
kernel points of the previous cluster is the origin, on the line. With robot and goal exchanged, the new kernel points are in the other half of
the square. -/
theorem C126_line_false {geo : PolyOps (Set (Pt ℝ))} {ws : Set (Pt ℝ)} (h : SquareOps geo ws) (eps : ℝ) (draws : List (Pt ℝ)) (clock : Clock)
    (hclock : timings clock = .ok ()) : ∃ T T',
    kernelPoints geo (rect (0, 0) 1 1) (rect (0, 0) 1 1) ws (some [rect (0, 0) 1 1]) (-5, 0) (5, 0) eps (some (0, 0)) draws clock = .ok (some T) ∧
    kernelPoints geo (rect (0, 0) 1 1) (rect (0, 0) 1 1) ws (some [rect (0, 0) 1 1]) (5, 0) (-5, 0) eps (some (0, 0)) draws clock = .ok (some T') ∧
    (centreOf T).2 = -(centreOf T').2 ∧ |(centreOf T).2| = 1 / 2 := by
  have hT : ∀ c, ∃ T, kernelTriangle geo (rect (0, 0) 1 1) c eps = .ok T ∧ centreOf T = c := by
    intro c
    obtain ⟨d, hd⟩ := h.distance c
    refine ⟨equilateralTriangle c (min eps (0.9 * d)) 0, ?_, (C10_centroid_partial _ _ 0 (Or.inl rfl)).1⟩
    simp [kernelTriangle, borderDistance, h.polygon, hd, bind, Except.bind]
  have hn1 : geo.nearestToCentroid (rect (0, 0) 1 1) (rect (0, 1 / 2) 1 (1 / 2)) = .ok (0, 1 / 2) := by
    obtain ⟨q, h1, h2⟩ := h.nearest _ _ h.upper
    rw [h1, nearest_self h2 (by norm_num [rect, abs_of_pos])]
  have hn2 : geo.nearestToCentroid (rect (0, 0) 1 1) (rect (0, -1 / 2) 1 (1 / 2)) = .ok (0, -1 / 2) := by
    obtain ⟨q, h1, h2⟩ := h.nearest _ _ h.lower
    rw [h1, nearest_self h2 (by norm_num [rect, abs_of_pos, abs_of_neg])]
  have c1 : isCollinear ((-5, 0) : Pt ℝ) (5, 0) (0, 0) = true := by norm_num [isCollinear, orientationVal, collinearThreshold]
  have c2 : isCollinear ((5, 0) : Pt ℝ) (-5, 0) (0, 0) = true := by norm_num [isCollinear, orientationVal, collinearThreshold]
  have w1 : isCcw ((-5, 0) : Pt ℝ) (5, 0) (0, 0) = false := by norm_num [isCcw, orientationVal, collinearThreshold]
  have w2 : isCcw ((5, 0) : Pt ℝ) (-5, 0) (0, 0) = false := by norm_num [isCcw, orientationVal, collinearThreshold]
  have u1 : isCcw ((-5, 0) : Pt ℝ) (5, 0) (0, 1 / 2) = true := by norm_num [isCcw, orientationVal, collinearThreshold]
  have u2 : isCcw ((5, 0) : Pt ℝ) (-5, 0) (0, 1 / 2) = false := by norm_num [isCcw, orientationVal, collinearThreshold]
  have l1 : isCcw ((-5, 0) : Pt ℝ) (5, 0) (0, -1 / 2) = false := by norm_num [isCcw, orientationVal, collinearThreshold]
  have l2 : isCcw ((5, 0) : Pt ℝ) (-5, 0) (0, -1 / 2) = true := by norm_num [isCcw, orientationVal, collinearThreshold]
  have t1 : triangleCentre geo (rect (0, 0) 1 1) (rect (0, 0) 1 1) (-5, 0) (5, 0) (some (0, 0)) draws = .ok (some (0, -1 / 2)) := by
    rcases h.halves with hh | hh <;>
      simp [triangleCentre, c1, hh, bind, Except.bind, sameSide, h.upper, h.lower, w1, u1, l1, hn2, -one_div]
  have t2 : triangleCentre geo (rect (0, 0) 1 1) (rect (0, 0) 1 1) (5, 0) (-5, 0) (some (0, 0)) draws = .ok (some (0, 1 / 2)) := by
    rcases h.halves with hh | hh <;>
      simp [triangleCentre, c2, ← h.split _, hh, bind, Except.bind, sameSide, h.upper, h.lower, w2, u2, l2, hn1, -one_div]
  obtain ⟨T, a1, a2⟩ := hT (0, -1 / 2)
  obtain ⟨T', b1, b2⟩ := hT (0, 1 / 2)
  refine ⟨T, T', ?_, ?_, ?_, ?_⟩
  · simp only [kernelPoints, square_inter h, bind, Except.bind, t1, a1, hclock]
  · simp only [kernelPoints, square_inter h, bind, Except.bind, t2, b1, hclock]
  · rw [a2, b2]; norm_num
  · rw [a2]; norm_num [abs_of_neg]

open scoped Classical in
/-- Operations as in `SquareOps`; the centroids are given for the halves and the square. -/
noncomputable def squareGeo : PolyOps (Set (Pt ℝ)) where
  difference a b := a \ b
  intersection a b := a ∩ b
  within a b := decide (a ⊆ b)
  area a := if a = ∅ then 0 else 4
  centroid g := if g = rect (0, 1 / 2) 1 (1 / 2) then .ok (0, 1 / 2) else if g = rect (0, -1 / 2) 1 (1 / 2) then .ok (0, -1 / 2) else .ok (0, 0)
  nearestToCentroid _ g := if g = rect (0, 1 / 2) 1 (1 / 2) then .ok (0, 1 / 2) else if g = rect (0, -1 / 2) 1 (1 / 2) then .ok (0, -1 / 2)
    else .ok (0, 0)
  contains a p := decide (p ∈ interior a)
  split _ _ _ := .ok [rect (0, 1 / 2) 1 (1 / 2), rect (0, -1 / 2) 1 (1 / 2)]
  isPolygon _ := true
  geoms g := [g]
  exteriorDistance _ _ := .ok (1 / 2)

theorem squareGeo_ok : SquareOps squareGeo Set.univ := by
  have ne : rect (0, -1 / 2) 1 (1 / 2) ≠ rect (0, 1 / 2) 1 (1 / 2) := by
    intro h
    have : ((0, 1) : Pt ℝ) ∈ rect (0, 1 / 2) 1 (1 / 2) := by norm_num [rect, abs_of_pos]
    rw [← h] at this
    norm_num [rect, abs_of_pos] at this
  have self : ∀ c ∈ rect (0, 0) 1 1, NearestIn (rect (0, 0) 1 1) c c := fun c hc => ⟨hc, fun p _ => by
    simp only [normSq, sub_self, Prod.fst_zero, Prod.snd_zero]; nlinarith [sq_nonneg (p - c).1, sq_nonneg (p - c).2]⟩
  refine ⟨fun _ _ => rfl, by simp [squareGeo], ?_, if_pos rfl, (if_neg ne).trans (if_pos rfl), ?_, fun _ => rfl, Or.inl rfl, rfl, fun _ => ⟨_, rfl⟩⟩
  · exact if_neg (Set.nonempty_iff_ne_empty.1 ⟨(0, 0), by norm_num [rect]⟩)
  · intro g c h
    refine ⟨c, h, self c ?_⟩
    simp only [squareGeo] at h
    split at h
    · injection h with h
      rw [← h]; norm_num [rect, abs_of_pos]
    · split at h
      · injection h with h
        rw [← h]; norm_num [rect, abs_of_pos, abs_of_neg]
      · injection h with h
        rw [← h]; norm_num [rect]

example : ∃ T T', kernelPoints squareGeo (rect (0, 0) 1 1) (rect (0, 0) 1 1) Set.univ (some [rect (0, 0) 1 1]) (-5, 0) (5, 0) (1 / 10) (some (0, 0)) []
      ⟨0, 1, 2, 3, 4, 5⟩ = .ok (some T) ∧
    kernelPoints squareGeo (rect (0, 0) 1 1) (rect (0, 0) 1 1) Set.univ (some [rect (0, 0) 1 1]) (5, 0) (-5, 0) (1 / 10) (some (0, 0)) []
      ⟨0, 1, 2, 3, 4, 5⟩ = .ok (some T') ∧ T ≠ T' := by
  obtain ⟨T, T', h1, h2, h3, h4⟩ := C126_line_false squareGeo_ok (1 / 10) [] ⟨0, 1, 2, 3, 4, 5⟩ (by norm_num [timings])
  refine ⟨T, T', h1, h2, ?_⟩
  rintro rfl
  have : (centreOf T).2 = 0 := by linarith
  rw [this] at h4
  norm_num at h4

/-- A previous centre above the line, outside of the square, is not near the line: the kernel points are the same. -/
example : kernelPoints squareGeo (rect (0, 0) 1 1) (rect (0, 0) 1 1) Set.univ (some [rect (0, 0) 1 1]) (5, 0) (-5, 0) (1 / 10) (some (0, 3)) []
      ⟨0, 1, 2, 3, 4, 5⟩ =
    kernelPoints squareGeo (rect (0, 0) 1 1) (rect (0, 0) 1 1) Set.univ (some [rect (0, 0) 1 1]) (-5, 0) (5, 0) (1 / 10) (some (0, 3)) []
      ⟨0, 1, 2, 3, 4, 5⟩ := by
  refine C126_points_partial squareGeo squareGeo_ok.split _ _ _ _ _ _ ?_ _ _
  intro c hc
  rw [← Option.some.inj hc, square_inter squareGeo_ok]
  right
  refine ⟨by norm_num [OffLine, cross, abs_of_pos], ?_⟩
  intro gs hgs g hg q hq
  change Except.ok _ = Except.ok gs at hgs
  injection hgs with hgs
  rw [← hgs] at hg
  simp only [List.mem_cons, List.not_mem_nil, or_false] at hg
  rcases hg with rfl | rfl
  · rw [squareGeo_ok.upper] at hq
    injection hq with hq
    rw [← hq]; norm_num [OffLine, cross, abs_of_pos]
  · rw [squareGeo_ok.lower] at hq
    injection hq with hq
    rw [← hq]; norm_num [OffLine, cross, abs_of_neg]

end Starworlds
