import Verif.Props.ConeIntersection
import Verif.Proofs.FreeCone
import Verif.Props.StarifySelect

/-! # C93: the admissible kernel of a cluster -/

namespace Starworlds

open Real Spec

variable {G : Type}

/-- The cone of an obstacle seen from outside. -/
theorem view_cone {O : Set (Pt ℝ)} {o : ConvObs} {y t s : Pt ℝ} (h : ViewOk O o.tangentPoints y t s)
    (hx : |y.1| ≤ 10 ^ 6 - 1) (hy : |y.2| ≤ 10 ^ 6 - 1) :
    coneOf y o = .ok ⟨y, y - t, y - s⟩ ∧ ConeOk ⟨y, y - t, y - s⟩ ∧ NotThin ⟨y, y - t, y - s⟩ ∧
      conePts ⟨y, y - t, y - s⟩ = closure (freeFrom O y) := by
  refine ⟨by simp [coneOf, admissibleKernel, h.tangents, bind, Except.bind], ⟨hx, hy, h.left, h.right⟩, ?_, ?_⟩
  · have := seen_pos h.convex h.inner h.outside h.seen
    have e : cross (y - t) (y - s) = -cross (s - y) (t - y) := by simp only [cross, Prod.fst_sub, Prod.snd_sub]; ring
    exact Or.inr (Or.inl (show cross (y - t) (y - s) < 0 by linarith))
  · ext p
    exact (free_sweep h.convex h.inner h.outside h.seen p).symm

/-- C93 (partial), a single obstacle. -/
theorem C93_first_partial {geo : ConeGeo G} {gpts : G → Set (Pt ℝ)} {valid : List (Pt ℝ) → Prop} (hg : ConeGeoOk geo gpts valid)
    {o : ConvObs} {O : Set (Pt ℝ)} {x xg t s t' s' : Pt ℝ} (hx1 : |x.1| ≤ 10 ^ 6 - 1) (hx2 : |x.2| ≤ 10 ^ 6 - 1)
    (hg1 : |xg.1| ≤ 10 ^ 6 - 1) (hg2 : |xg.2| ≤ 10 ^ 6 - 1) (hr : ViewOk O o.tangentPoints x t s) (hgo : ViewOk O o.tangentPoints xg t' s')
    (hv : ∀ c ∈ [(⟨x, x - t, x - s⟩ : Cone ℝ), ⟨xg, xg - t', xg - s'⟩], ∀ v, conePolygon c 4 = .ok (some v) → valid v) :
    ∃ A, admissibleFirst geo x xg o = .ok A ∧
      ∀ p, InBox p → (p ∈ gpts A ↔ p ∈ closure (freeFrom O x) ∧ p ∈ closure (freeFrom O xg)) := by
  obtain ⟨a1, a2, a3, a4⟩ := view_cone hr hx1 hx2
  obtain ⟨b1, b2, b3, b4⟩ := view_cone hgo hg1 hg2
  obtain ⟨A, h1, h2⟩ := C92_intersection_partial hg a2 b2 a3 b3 hv
  refine ⟨A, by simp [admissibleFirst, a1, b1, h1, bind, Except.bind], fun p hp => ?_⟩
  rw [h2 p hp, a4, b4]

theorem mapM_cones {y : Pt ℝ} {t s : ConvObs → Pt ℝ} : ∀ {obs : List ConvObs},
    (∀ o ∈ obs, coneOf y o = .ok ⟨y, y - t o, y - s o⟩) →
    obs.mapM (coneOf y) = .ok (obs.map fun o => (⟨y, y - t o, y - s o⟩ : Cone ℝ)) := by
  intro obs
  induction obs with
  | nil => intro _; rfl
  | cons o obs ih =>
    intro h
    simp [h o (by simp), ih fun o ho => h o (by simp [ho]), bind, Except.bind, pure, Except.pure]

/-- The apex is in every cone. -/
theorem apex_mem {c : Cone ℝ} (h : NotThin c) : c.apex ∈ conePts c := by
  have hc' : 0 < cross c.dir1 c.dir2 ∨ cross c.dir1 c.dir2 < 0 ∨ (cross c.dir1 c.dir2 = 0 ∧ dot c.dir1 c.dir2 < 0) :=
    h.imp (fun h => lt_trans (by norm_num) h) id
  have := (sweep_smul_left hc' le_rfl).1
  change c.apex - c.apex ∈ sweep c.dir1 c.dir2
  rwa [zero_smul, ← sub_self c.apex] at this

/-- The cones of the obstacles of a cluster for robot or goal. -/
theorem view_list {geo : ConeGeo G} {gpts : G → Set (Pt ℝ)} {valid : List (Pt ℝ) → Prop} (hg : ConeGeoOk geo gpts valid)
    {obs : List ConvObs} (hne : obs ≠ []) {pts : ConvObs → Set (Pt ℝ)} {y : Pt ℝ} {t s : ConvObs → Pt ℝ} (hx1 : |y.1| ≤ 10 ^ 6 - 1)
    (hx2 : |y.2| ≤ 10 ^ 6 - 1) (hr : ∀ o ∈ obs, ViewOk (pts o) o.tangentPoints y (t o) (s o))
    (hp : List.Pairwise (fun u v => 1 / 10 ^ 10 < |cross u v|) (obs.flatMap fun o => [y - t o, y - s o]))
    (hv : ∀ c, madeOf (obs.map fun o => ⟨y, y - t o, y - s o⟩) c → ∀ v, conePolygon c 4 = .ok (some v) → valid v) :
    ∃ a, (obs.mapM (coneOf y) >>= fun cs => coneListIntersection geo cs true) = .ok a ∧
      ∀ p, InBox p → (p ∈ gpts a → ∀ o ∈ obs, p ∈ closure (freeFrom (pts o) y)) ∧
        (p ≠ y → (∀ o ∈ obs, p ∈ closure (freeFrom (pts o) y)) → p ∈ gpts a) := by
  have hm := mapM_cones fun o ho => (view_cone (hr o ho) hx1 hx2).1
  obtain ⟨a, h1, h2⟩ := C92_same_apex_partial (a := y) hg (cs := obs.map fun o => (⟨y, y - t o, y - s o⟩ : Cone ℝ)) (by simpa using hne)
    (by
      intro c hc
      obtain ⟨o, ho, rfl⟩ := List.mem_map.1 hc
      exact (view_cone (hr o ho) hx1 hx2).2.1)
    (by
      intro c hc
      obtain ⟨o, ho, rfl⟩ := List.mem_map.1 hc
      rfl)
    (by simpa [List.flatMap_map] using hp) hv
  have key : ∀ p, (∀ c ∈ obs.map fun o => (⟨y, y - t o, y - s o⟩ : Cone ℝ), p ∈ conePts c) ↔ ∀ o ∈ obs, p ∈ closure (freeFrom (pts o) y) := by
    intro p
    rw [List.forall_mem_map]
    refine forall₂_congr fun o ho => ?_
    rw [(view_cone (hr o ho) hx1 hx2).2.2.2]
  refine ⟨a, by simp only [hm, bind, Except.bind, h1], fun p hpb => ?_⟩
  by_cases hpy : p = y
  · refine ⟨fun _ o ho => ?_, fun h => absurd hpy h⟩
    rw [← (view_cone (hr o ho) hx1 hx2).2.2.2, hpy]
    exact apex_mem (view_cone (hr o ho) hx1 hx2).2.2.1
  · rw [h2 p hpb hpy, key]
    exact ⟨id, fun _ h => h⟩

theorem fold_inter {geo : ConeGeo G} {gpts : G → Set (Pt ℝ)} (h : ∀ a b, gpts (geo.intersection a b) = gpts a ∩ gpts b) :
    ∀ (l : List G) (A : G), gpts (l.foldl geo.intersection A) ⊆ gpts A := by
  intro l
  induction l with
  | nil => intro A; exact subset_rfl
  | cons b l ih =>
    intro A
    refine (ih (geo.intersection A b)).trans ?_
    rw [h]; exact Set.inter_subset_left

/-- C93 (partial), a cluster: inside the box, the admissible kernel is the closed region from which neither robot nor goal is in
the way of an obstacle of the cluster; with `exclude_obstacles` it is a part of it. Missing: tangents that are not in
general position, for which it is false (`C93_touching_false`). -/
theorem C93_loop_partial {geo : ConeGeo G} {gpts : G → Set (Pt ℝ)} {valid : List (Pt ℝ) → Prop} (hg : ConeGeoOk geo gpts valid)
    {obs : List ConvObs} (hne : obs ≠ []) {pts : ConvObs → Set (Pt ℝ)} {x xg : Pt ℝ} {t s t' s' : ConvObs → Pt ℝ}
    (hx1 : |x.1| ≤ 10 ^ 6 - 1) (hx2 : |x.2| ≤ 10 ^ 6 - 1) (hg1 : |xg.1| ≤ 10 ^ 6 - 1) (hg2 : |xg.2| ≤ 10 ^ 6 - 1)
    (hr : ∀ o ∈ obs, ViewOk (pts o) o.tangentPoints x (t o) (s o)) (hgo : ∀ o ∈ obs, ViewOk (pts o) o.tangentPoints xg (t' o) (s' o))
    (hp : List.Pairwise (fun u v => 1 / 10 ^ 10 < |cross u v|) (obs.flatMap fun o => [x - t o, x - s o]))
    (hp' : List.Pairwise (fun u v => 1 / 10 ^ 10 < |cross u v|) (obs.flatMap fun o => [xg - t' o, xg - s' o]))
    (hv : ∀ c, (madeOf (obs.map fun o => ⟨x, x - t o, x - s o⟩) c ∨ madeOf (obs.map fun o => ⟨xg, xg - t' o, xg - s' o⟩) c) →
      ∀ v, conePolygon c 4 = .ok (some v) → valid v) (excluded : List G) :
    ∃ A, admissibleLoop geo x xg excluded obs = .ok A ∧ ∀ p, InBox p →
      (p ∈ gpts A → ∀ o ∈ obs, p ∈ closure (freeFrom (pts o) x) ∧ p ∈ closure (freeFrom (pts o) xg)) ∧
      (excluded = [] → p ≠ x → p ≠ xg → (∀ o ∈ obs, p ∈ closure (freeFrom (pts o) x) ∧ p ∈ closure (freeFrom (pts o) xg)) →
        p ∈ gpts A) := by
  obtain ⟨a, ha, ha'⟩ := view_list hg hne hx1 hx2 hr hp fun c hc => hv c (Or.inl hc)
  obtain ⟨b, hb, hb'⟩ := view_list hg hne hg1 hg2 hgo hp' fun c hc => hv c (Or.inr hc)
  have hm := mapM_cones fun o ho => (view_cone (hr o ho) hx1 hx2).1
  have hm' := mapM_cones fun o ho => (view_cone (hgo o ho) hg1 hg2).1
  simp only [hm, bind, Except.bind] at ha
  simp only [hm', bind, Except.bind] at hb
  refine ⟨_, by simp only [admissibleLoop, hm, hm', ha, hb, bind, Except.bind]; rfl, fun p hpb => ⟨fun h => ?_, fun he h1 h2 h => ?_⟩⟩
  · have h0 : p ∈ gpts (geo.intersection a b) := by
      split at h
      · exact h
      · exact fold_inter hg.inter excluded _ h
    rw [hg.inter] at h0
    exact fun o ho => ⟨(ha' p hpb).1 h0.1 o ho, (hb' p hpb).1 h0.2 o ho⟩
  · subst he
    have h0 : p ∈ gpts (geo.intersection a b) := by
      rw [hg.inter]
      exact ⟨(ha' p hpb).2 h1 fun o ho => (h o ho).1, (hb' p hpb).2 h2 fun o ho => (h o ho).2⟩
    split
    · exact h0
    · exact h0

theorem inBox_open : IsOpen {p : Pt ℝ | InBox p} := by
  have : {p : Pt ℝ | InBox p} = {p : Pt ℝ | |p.1| < 10 ^ 6} ∩ {p | |p.2| < 10 ^ 6} := rfl
  rw [this]
  exact (isOpen_lt (by fun_prop) continuous_const).inter (isOpen_lt (by fun_prop) continuous_const)

theorem inBox_convex : Convex ℝ {p : Pt ℝ | InBox p} := by
  have : {p : Pt ℝ | InBox p} = Set.Ioo (-10 ^ 6) (10 ^ 6) ×ˢ Set.Ioo (-10 ^ 6) (10 ^ 6) := by
    ext p; simp only [Set.mem_ofPred_eq, InBox, abs_lt, Set.mem_prod, Set.mem_Ioo]
  rw [this]
  exact (convex_Ioo _ _).prod (convex_Ioo _ _)

/-- The cones of the obstacles for a point with tangent points `t` and `s`. -/
def viewCones (y : Pt ℝ) (t s : ConvObs → Pt ℝ) (obs : List ConvObs) : List (Cone ℝ) := obs.map fun o => ⟨y, y - t o, y - s o⟩

/-- What is needed of the inputs and of the shapely answers for a list of obstacles and its kernel points: tangents in general
position, but for a single obstacle in the first iteration, points in the box, a selection set without holes that contains the
centre. -/
structure ConeInput (cfg : StarCfg) (pts : ConvObs → Set (Pt ℝ)) (geo : PolyOps G) (gpts : G → Set (Pt ℝ)) (t s t' s' : ConvObs → Pt ℝ)
    (n : Nat) (S : G) (obs : List ConvObs) (T : Triple) : Prop where
  robot : (n = 0 → obs.length ≠ 1) → List.Pairwise (fun u v => 1 / 10 ^ 10 < |cross u v|) (obs.flatMap fun o => [cfg.x - t o, cfg.x - s o])
  goal : (n = 0 → obs.length ≠ 1) → List.Pairwise (fun u v => 1 / 10 ^ 10 < |cross u v|) (obs.flatMap fun o => [cfg.xg - t' o, cfg.xg - s' o])
  points : ∀ k ∈ T.points, InBox k
  simple : Simple geo gpts S
  centre : T.mean ∈ gpts S
  tangents : ∀ o ∈ obs, ∀ k ∈ T.points, TangentsOk o.tangentPoints (pts o) k
  position : ∀ o ∈ obs, ∀ tps, T.points.mapM o.tangentPoints = .ok tps →
    GeneralPosition (cfg.unique tps.flatten ++ T.points) ∧ (cfg.unique tps.flatten ++ T.points).length ≤ cfg.hullFuel

/-- C85 (partial): the same with the admissible kernels that the program computes. Robot and goal see every obstacle between
its tangent points, and nothing is assumed about the admissible kernels. -/
theorem C85_cones_partial {cfg : StarCfg} {pts : ConvObs → Set (Pt ℝ)} {par : Params}
    {prev : Option (List (Cl ConvObs ClusterObs Triple (Set (Pt ℝ))))} {fuel : Nat} {obstacles : List ConvObs}
    {r : Res ConvObs ClusterObs Triple (Set (Pt ℝ))} (hs : IsSetList cfg.setList) (hu : IsUnique cfg.unique)
    (hmax : par.maxIterations = none) (hmc : par.makeConvex = false)
    (hx1 : |cfg.x.1| ≤ 10 ^ 6 - 1) (hx2 : |cfg.x.2| ≤ 10 ^ 6 - 1) (hg1 : |cfg.xg.1| ≤ 10 ^ 6 - 1) (hg2 : |cfg.xg.2| ≤ 10 ^ 6 - 1)
    (t s t' s' : ConvObs → Pt ℝ) (hr : ∀ o ∈ obstacles, ViewOk (pts o) o.tangentPoints cfg.x (t o) (s o))
    (hgo : ∀ o ∈ obstacles, ViewOk (pts o) o.tangentPoints cfg.xg (t' o) (s' o))
    (geo : PolyOps G) (cones : ConeGeo G) (gpts : G → Set (Pt ℝ)) (hg : OpsOk geo gpts) (valid : List (Pt ℝ) → Prop)
    (hcg : ConeGeoOk cones gpts valid)
    (hv : ∀ c, (c ∈ viewCones cfg.x t s obstacles ∨ c ∈ viewCones cfg.xg t' s' obstacles ∨ madeOf (viewCones cfg.x t s obstacles) c ∨
      madeOf (viewCones cfg.xg t' s' obstacles) c) → ∀ v, conePolygon c 4 = .ok (some v) → valid v)
    (poly : List ConvObs → G) (ws : G) (kernelOf : ConvObs → G) (eps : ℝ) (he : 0 ≤ eps)
    (draws : Nat → List ConvObs → List (Pt ℝ)) (clock : Nat → List ConvObs → Clock)
    (hcfg : cfg.select = selectPoints geo (admissibleKernels cones cfg.x cfg.xg) poly ws kernelOf cfg.x cfg.xg eps draws clock)
    (hin : ∀ c ∈ r.clusters, ∀ n pr A T, (∀ o ∈ c.obstacles, o ∈ obstacles) → admissibleKernels cones cfg.x cfg.xg n c.obstacles = .ok A →
      c.kernelPoints = some T → cfg.select n c.obstacles pr = .ok T →
      ConeInput cfg pts geo gpts t s t' s' n (selectionSet geo A (poly c.obstacles) ws (some (c.obstacles.map kernelOf))) c.obstacles T)
    (h : clusterAndStarify (starGeo cfg) par prev fuel obstacles = some (.ok r)) (hf : r.flag ≠ .incomplete) :
    (∀ c ∈ r.clusters, ∃ T s, c.kernelPoints = some T ∧ c.star = some s ∧ s.xr = some ((1 / 3 : ℝ) • (T.1 + T.2.1 + T.2.2)) ∧
      (∀ k ∈ convexHull ℝ {T.1, T.2.1, T.2.2}, StarConvex ℝ k (clusterRegion pts s)) ∧
      (1 / 3 : ℝ) • (T.1 + T.2.1 + T.2.2) ∈ clusterRegion pts s ∧
      (∀ o ∈ c.obstacles, pts o ⊆ clusterRegion pts s) ∧ cfg.x ∉ clusterRegion pts s ∧ cfg.xg ∉ clusterRegion pts s) ∧
    ((obstacles.map (·.id)).Nodup → List.Perm (r.clusters.flatMap (·.obstacles)) obstacles) := by
  refine C85_program_partial hs hu hmax hmc (fun o ho => ⟨(hr o ho).convex, (hr o ho).inner⟩) geo gpts hg
    (admissibleKernels cones cfg.x cfg.xg) poly ws kernelOf eps he draws clock hcfg {p | InBox p} inBox_open inBox_convex ?_ h hf
  intro c hc n pr A T hobs hA hk hT
  have hi := hin c hc n pr A T hobs hA hk hT
  generalize c.obstacles = obs at hobs hA hT hi ⊢
  have key : ∀ p, InBox p → p ∈ gpts A → ∀ o ∈ obs, p ∈ closure (freeFrom (pts o) cfg.x) ∧ p ∈ closure (freeFrom (pts o) cfg.xg) := by
    have mono : ∀ (y : Pt ℝ) (t s : ConvObs → Pt ℝ) c, madeOf (obs.map fun o => ⟨y, y - t o, y - s o⟩) c → madeOf (viewCones y t s obstacles) c := by
      have sub : ∀ (y : Pt ℝ) (t s : ConvObs → Pt ℝ), ∀ d ∈ obs.map fun o => (⟨y, y - t o, y - s o⟩ : Cone ℝ), d ∈ viewCones y t s obstacles := by
        intro y t s d hd
        obtain ⟨o, ho, rfl⟩ := List.mem_map.1 hd
        exact List.mem_map.2 ⟨o, hobs o ho, rfl⟩
      rintro y t s c ⟨⟨d0, m0, e0⟩, ⟨d1, m1, e1⟩, ⟨d2, m2, e2⟩, e3⟩
      exact ⟨⟨d0, sub y t s d0 m0, e0⟩, ⟨d1, sub y t s d1 m1, e1⟩, ⟨d2, sub y t s d2 m2, e2⟩, e3⟩
    have loop : (n = 0 → obs.length ≠ 1) → admissibleLoop cones cfg.x cfg.xg [] obs = .ok A →
        ∀ p, InBox p → p ∈ gpts A → ∀ o ∈ obs, p ∈ closure (freeFrom (pts o) cfg.x) ∧ p ∈ closure (freeFrom (pts o) cfg.xg) := by
      intro hn hA
      have hne : obs ≠ [] := by
        rintro rfl
        simp [admissibleLoop, coneListIntersection, Cone.listIntersection, bind, Except.bind, pure, Except.pure] at hA
      obtain ⟨A', h1, h2⟩ := C93_loop_partial hcg hne hx1 hx2 hg1 hg2 (fun o ho => hr o (hobs o ho)) (fun o ho => hgo o (hobs o ho))
        (hi.robot hn) (hi.goal hn) (fun c hc => hv c (hc.elim (fun h => Or.inr (Or.inr (Or.inl (mono _ _ _ _ h))))
          (fun h => Or.inr (Or.inr (Or.inr (mono _ _ _ _ h)))))) []
      rw [hA] at h1
      simp only [Except.ok.injEq] at h1
      subst h1
      exact fun p hp => (h2 p hp).1
    unfold admissibleKernels at hA
    split at hA
    · rename_i o
      have ho := hobs o (by simp)
      obtain ⟨A', h1, h2⟩ := C93_first_partial hcg hx1 hx2 hg1 hg2 (hr o ho) (hgo o ho) (by
        intro c hc
        simp only [List.mem_cons, List.not_mem_nil, or_false] at hc
        rcases hc with rfl | rfl
        · exact hv _ (Or.inl (List.mem_map.2 ⟨o, ho, rfl⟩))
        · exact hv _ (Or.inr (Or.inl (List.mem_map.2 ⟨o, ho, rfl⟩))))
      rw [hA] at h1
      simp only [Except.ok.injEq] at h1
      subst h1
      intro p hp hpA o' ho'
      rw [List.mem_singleton.1 ho']
      exact (h2 p hp).1 hpA
    · rename_i hno
      refine loop (fun h0 h1 => ?_) hA
      obtain ⟨o, rfl⟩ := List.length_eq_one_iff.1 h1
      exact hno o h0 rfl
  exact ⟨hi.points, fun o ho p hp => (key p hp.2 hp.1 o ho).1, fun o ho p hp => (key p hp.2 hp.1 o ho).2, hi.simple, hi.centre, hi.tangents, hi.position⟩

end Starworlds
