import Verif.Props.CombinationContinuous
import Verif.Props.LeastHull
import Verif.Props.StarifyExample
import Verif.Proofs.HullRunGeometry
import Verif.Props.KernelReference
import Verif.Props.PolygonSimple

/-! # C138: the distance functions of the obstacles returned by cluster_and_starify -/

namespace Starworlds

open Real Spec Filter Topology

theorem tri_open {a b c x : Pt ℝ} (h : 0 < cross (b - a) (c - a)) (h1 : 0 < cross (b - a) (x - a)) (h2 : 0 < cross (c - b) (x - b))
    (h3 : 0 < cross (a - c) (x - c)) : x ∈ interior (convexHull ℝ {a, b, c}) := by
  have hc : ∀ p q : Pt ℝ, Continuous fun x : Pt ℝ => cross (q - p) (x - p) := fun p q => by unfold cross; fun_prop
  refine mem_interior.2 ⟨{x | 0 < cross (b - a) (x - a)} ∩ ({x | 0 < cross (c - b) (x - b)} ∩ {x | 0 < cross (a - c) (x - c)}), ?_, ?_,
    h1, h2, h3⟩
  · rintro x ⟨h1, h2, h3⟩
    exact (tri_hull h x).2 ⟨le_of_lt h1, le_of_lt h2, le_of_lt h3⟩
  · exact (isOpen_lt continuous_const (hc a b)).inter ((isOpen_lt continuous_const (hc b c)).inter (isOpen_lt continuous_const (hc c a)))

/-- The mean of three points that are not collinear is inside of their triangle. -/
theorem mean_interior {a b c : Pt ℝ} (h : cross (b - a) (c - a) ≠ 0) : (1 / 3 : ℝ) • (a + b + c) ∈ interior (convexHull ℝ {a, b, c}) := by
  have pos : ∀ {a b c : Pt ℝ}, 0 < cross (b - a) (c - a) → (1 / 3 : ℝ) • (a + b + c) ∈ interior (convexHull ℝ {a, b, c}) := by
    intro a b c h
    have e1 : cross (b - a) ((1 / 3 : ℝ) • (a + b + c) - a) = 1 / 3 * cross (b - a) (c - a) := by simp [cross]; ring
    have e2 : cross (c - b) ((1 / 3 : ℝ) • (a + b + c) - b) = 1 / 3 * cross (b - a) (c - a) := by simp [cross]; ring
    have e3 : cross (a - c) ((1 / 3 : ℝ) • (a + b + c) - c) = 1 / 3 * cross (b - a) (c - a) := by simp [cross]; ring
    exact tri_open h (by rw [e1]; positivity) (by rw [e2]; positivity) (by rw [e3]; positivity)
  rcases lt_or_gt_of_ne h with h | h
  · have h' : 0 < cross (c - a) (b - a) := by
      have : cross (c - a) (b - a) = - cross (b - a) (c - a) := by simp [cross]; ring
      rw [this]; linarith
    have := pos h'
    rwa [show a + c + b = a + b + c by abel, show ({a, c, b} : Set (Pt ℝ)) = {a, b, c} by ext p; simp; tauto] at this
  · exact pos h

/-- Kernel points that fit are not collinear. -/
theorem selection_triangle {cfg : StarCfg} {pts : ConvObs → Set (Pt ℝ)} {obs : List ConvObs} {T : Triple} (hne : obs ≠ [])
    (hT : SelectionOk cfg pts obs T) : cross (T.2.1 - T.1) (T.2.2 - T.1) ≠ 0 := by
  obtain ⟨o, ho⟩ := List.exists_mem_of_ne_nil obs hne
  obtain ⟨tps, htps, -, -⟩ := mapM_exists o.tangentPoints T.points fun k hk => (hT.tangents o ho k hk).imp fun L h => h.1
  obtain ⟨h, -⟩ := hT.position o ho tps htps
  set l := cfg.unique tps.flatten
  have hlen : (l ++ T.points).length = l.length + 3 := by simp [Triple.points]
  have := h l.length (l.length + 1) (l.length + 2) (by omega) (by omega) (by omega) (by omega) (by omega) (by omega)
  have g : ∀ j, (l ++ T.points).getD (l.length + j) 0 = T.points.getD j 0 := by
    intro j
    rw [List.getD_eq_getElem?_getD, List.getD_eq_getElem?_getD, List.getElem?_append_right (by omega), Nat.add_sub_cancel_left]
  have g0 := g 0
  rw [Nat.add_zero] at g0
  rw [g0, g 1, g 2] at this
  intro h0
  simp only [Triple.points, List.getD_cons_zero, List.getD_cons_succ] at this
  rw [h0, abs_zero] at this
  norm_num at this

theorem regions_compact (vs : List (List (Pt ℝ))) : IsCompact (regions vs) := by
  have e : regions vs = ⋃ v ∈ {v | v ∈ vs}, region v := by ext p; simp [regions]
  rw [e]
  exact (List.finite_toSet vs).isCompact_biUnion fun v _ => (List.finite_toSet v).isCompact_convexHull ℝ

theorem clusterHull_compact {cfg : StarCfg} {obs : List ConvObs} {T : Triple} {r : Option (Set (Pt ℝ))}
    (h : clusterHull cfg obs T = .ok r) : IsCompact (r.getD ∅) := by
  simp only [clusterHull] at h
  split at h
  · cases h
  · cases h
  · injection h with h
    subst h
    rename_i R _
    cases R with
    | none => exact isCompact_empty
    | some vs => exact regions_compact vs

/-- The combination `comb` is the object made for the cluster obstacle `s`: its members `mem o` have the regions `pts o` (as `R` says),
it has the reference point of `s`, and the intersections of segments with the borders of members and hull are right. -/
structure Represents (pts : ConvObs → Set (Pt ℝ)) (s : ClusterObs) (comb : Combination) (mem : ConvObs → Member)
    (R : Member → Set (Pt ℝ)) : Prop where
  members : comb.members = s.members.map mem
  xr : s.xr = some comb.xr
  region : ∀ o ∈ s.members, R (mem o) = pts o
  lines : ∀ b, Parts comb (fun m => frontier (R m)) (frontier (s.hull.getD ∅)) b

theorem represents_covered {pts : ConvObs → Set (Pt ℝ)} {s : ClusterObs} {comb : Combination} {mem : ConvObs → Member}
    {R : Member → Set (Pt ℝ)} (h : Represents pts s comb mem R) : covered comb R (s.hull.getD ∅) = clusterRegion pts s := by
  ext p
  constructor
  · rintro (⟨m, hm, hp⟩ | hp)
    · rw [h.members] at hm
      obtain ⟨o, ho, rfl⟩ := List.mem_map.1 hm
      rw [h.region o ho] at hp
      exact Or.inl ⟨o, ho, hp⟩
    · exact Or.inr hp
  · rintro (⟨o, ho, hp⟩ | hp)
    · exact Or.inl ⟨mem o, by rw [h.members]; exact List.mem_map_of_mem ho, by rw [h.region o ho]; exact hp⟩
    · exact Or.inr hp

/-- A ray does not come back into a set that is star-shaped about its start. -/
theorem star_stays_out {S : Set (Pt ℝ)} {c x : Pt ℝ} (hc : StarConvex ℝ c S) (hx : x ∉ S) : c + (10 : ℝ) • (x - c) ∉ S := by
  intro h
  apply hx
  have := hc h (a := 9 / 10) (b := 1 / 10) (by norm_num) (by norm_num) (by norm_num)
  rwa [show (9 / 10 : ℝ) • c + (1 / 10 : ℝ) • (c + (10 : ℝ) • (x - c)) = x by module] at this

variable {cfg : StarCfg} {pts : ConvObs → Set (Pt ℝ)} {par : Params} {prev : Option (List (Cl ConvObs ClusterObs Triple (Set (Pt ℝ))))}
  {fuel : Nat} {obstacles : List ConvObs} {r : Res ConvObs ClusterObs Triple (Set (Pt ℝ))}

/-- C138, partial: the combinations that a call of `cluster_and_starify` for convex obstacles returns have a distance function that is
continuous, above 1 exactly at the outer points, 1 exactly on the border, and below 1 exactly inside, and it is above 1 at robot and goal.
Missing: inner points that are closer to the reference point than a tenth of the border (`C137_near_false`), `make_convex`, calls with an
iteration limit, and kernel points that are not in general position with the tangent points. -/
theorem C138_partial (hs : IsSetList cfg.setList) (hu : IsUnique cfg.unique) (hmax : par.maxIterations = none)
    (hmc : par.makeConvex = false) (hO : ∀ o ∈ obstacles, Convex ℝ (pts o)) (hcomp : ∀ o ∈ obstacles, IsCompact (pts o))
    (hsel : ∀ c ∈ r.clusters, ∀ n pr T, (∀ o ∈ c.obstacles, o ∈ obstacles) → c.kernelPoints = some T →
      cfg.select n c.obstacles pr = .ok T → SelectionOk cfg pts c.obstacles T)
    (h : clusterAndStarify (starGeo cfg) par prev fuel obstacles = some (.ok r)) (hf : r.flag ≠ .incomplete) :
    ∀ c ∈ r.clusters, ∃ s, c.star = some s ∧ ∀ comb mem R, Represents pts s comb mem R →
      ∃ (b : Pt ℝ → Pt ℝ) (D : Pt ℝ → ℝ), ContinuousOn b {x | x ≠ comb.xr} ∧ ContinuousOn D {x | x ≠ comb.xr} ∧
        (∀ x, x ≠ comb.xr → comb.xr + (10 : ℝ) • (x - comb.xr) ∉ interior (clusterRegion pts s) →
          comb.boundaryMapping x = .ok (some (b x)) ∧ b x ∈ frontier (clusterRegion pts s) ∧ OnRay comb.xr x (b x) ∧
          comb.distanceFunction x = .ok (D x) ∧ (D x < 1 ↔ x ∈ interior (clusterRegion pts s)) ∧
          (D x = 1 ↔ x ∈ frontier (clusterRegion pts s))) ∧
        (∀ x, x ∉ clusterRegion pts s → comb.distanceFunction x = .ok (D x) ∧ 1 < D x) ∧
        comb.distanceFunction cfg.x = .ok (D cfg.x) ∧ 1 < D cfg.x ∧ comb.distanceFunction cfg.xg = .ok (D cfg.xg) ∧ 1 < D cfg.xg := by
  obtain ⟨cls, hfin, hmade, _, _, hcl, _, _⟩ := clusterAndStarify_made (g := starGeo cfg) hs hmax h hf
  rw [hcl hmc] at hsel ⊢
  intro c hc
  obtain ⟨hg, _⟩ := hfin.good c hc
  obtain ⟨T, H, n, pr, h1, h2, h3, h4⟩ := made_least (hmade c hc)
  have hT := hsel c hc n pr T hg.sub h1 h2
  obtain ⟨k1, k2, k3⟩ := clusterHull_spec hu hg.nonempty (fun o ho => hO o (hg.sub o ho)) hT h3
  refine ⟨_, h4, fun comb mem R hrep => ?_⟩
  set s : ClusterObs := ⟨c.obstacles, H, some T.mean⟩
  have hxr : comb.xr = T.mean := by
    have := hrep.xr
    simp only [s, Option.some.injEq] at this
    exact this.symm
  have hreg : clusterRegion pts s = {p | ∃ o ∈ c.obstacles, p ∈ pts o} ∪ H.getD ∅ := rfl
  have hker : comb.xr ∈ interior (visKernel (clusterRegion pts s)) := by
    rw [hxr]
    refine interior_mono ?_ (mean_interior (selection_triangle hg.nonempty hT))
    intro k hk
    have e : ({T.1, T.2.1, T.2.2} : Set (Pt ℝ)) = {p | p ∈ T.points} := by ext p; simp [Triple.points]
    rw [e] at hk
    obtain ⟨m1, m2⟩ := k1 k hk
    refine ⟨m1, ?_⟩
    rintro q hq p ⟨t, h0, h1, rfl⟩
    have := m2 hq (a := 1 - t) (b := t) (by linarith) h0 (by ring)
    rwa [show (1 - t) • k + t • q = k + t • (q - k) by module] at this
  have hcov := represents_covered hrep
  have hmem : ∀ m ∈ comb.members, IsCompact (R m) := by
    intro m hm
    rw [hrep.members] at hm
    obtain ⟨o, ho, rfl⟩ := List.mem_map.1 hm
    rw [hrep.region o ho]
    exact hcomp o (hg.sub o ho)
  have hHc : IsCompact (s.hull.getD ∅) := clusterHull_compact h3
  obtain ⟨b, D, hb, hD, hall⟩ := C137_partial comb R (fun m => frontier (R m)) (s.hull.getD ∅) (frontier (s.hull.getD ∅))
    (fun m hm => ⟨hmem m hm, (hmem m hm).isClosed.frontier_subset, subset_rfl⟩) ⟨hHc, hHc.isClosed.frontier_subset, subset_rfl⟩
    (by rw [hcov]; exact hker)
  have hclosed : IsClosed (clusterRegion pts s) := by rw [← hcov]; exact (covered_compact hmem hHc).isClosed
  rw [hcov] at hall
  have hstar : StarConvex ℝ comb.xr (clusterRegion pts s) := by
    rw [hxr]
    exact (k1 _ (mean_mem T)).2
  have hxin : comb.xr ∈ clusterRegion pts s := (interior_subset hker).1
  have hout : ∀ x, x ∉ clusterRegion pts s → comb.distanceFunction x = .ok (D x) ∧ 1 < D x := by
    intro x hx
    have hne : x ≠ comb.xr := fun e => hx (e ▸ hxin)
    obtain ⟨-, -, -, -, d1, d2, d3⟩ := hall x hne (fun hi => star_stays_out hstar hx (interior_subset hi)) (hrep.lines _)
    refine ⟨d1, ?_⟩
    by_contra hle
    rcases lt_or_eq_of_le (not_lt.1 hle) with hlt | heq
    · exact hx (interior_subset (d2.1 hlt))
    · exact hx (hclosed.frontier_subset (d3.1 heq))
  refine ⟨b, D, hb, hD, ?_, hout, (hout _ k2).1, (hout _ k2).2, (hout _ k3).1, (hout _ k3).2⟩
  intro x hx hfar
  obtain ⟨d1, d2, d3, -, d5, d6, d7⟩ := hall x hx hfar (hrep.lines _)
  exact ⟨d1, d2, d3, d5, d6, d7⟩

/-- The reference point of each obstacle returned is inside of its kernel. -/
theorem result_kernel (hs : IsSetList cfg.setList) (hu : IsUnique cfg.unique) (hmax : par.maxIterations = none)
    (hO : ∀ o ∈ obstacles, Convex ℝ (pts o)) (hpoly : ∀ o ∈ obstacles, o.polygon = pts o)
    (hsel : ∀ c ∈ r.clusters, ∀ n pr T, (∀ o ∈ c.obstacles, o ∈ obstacles) → c.kernelPoints = some T →
      cfg.select n c.obstacles pr = .ok T → SelectionOk cfg pts c.obstacles T)
    (h : clusterAndStarify (starGeo cfg) par prev fuel obstacles = some (.ok r)) (hf : r.flag ≠ .incomplete) :
    ∀ c ∈ r.clusters, ∃ s x, c.star = some s ∧ s.xr = some x ∧ x ∈ interior (visKernel (clusterRegion pts s)) ∧
      cfg.x ∉ interior (clusterRegion pts s) ∧ cfg.xg ∉ interior (clusterRegion pts s) := by
  intro c hc
  obtain ⟨T, s, h1, h2, h3, h4, h5, -, h7, h8⟩ := C85_convex_partial hs hu hmax hO hpoly hsel h hf c hc
  refine ⟨s, _, h2, h3, interior_mono ?_ (mean_interior ?_), h7, h8⟩
  · intro k hk
    have hst := h4 k hk
    refine ⟨hst.mem ⟨_, h5⟩, ?_⟩
    rintro q hq p ⟨t, h0, h1, rfl⟩
    have := hst hq (a := 1 - t) (b := t) (by linarith) h0 (by ring)
    rwa [show (1 - t) • k + t • q = k + t • (q - k) by module] at this
  · obtain ⟨cls, hfin, hmade, hstrip, -⟩ := clusterAndStarify_made (g := starGeo cfg) hs hmax h hf
    obtain ⟨i, hi⟩ := List.getElem?_of_mem hc
    obtain ⟨d, hd, hds⟩ := strip_getElem hstrip.symm i hi
    have hdm := List.mem_of_getElem? hd
    obtain ⟨hg, -⟩ := hfin.good d hdm
    have hko : c.obstacles = d.obstacles := by
      have := congrArg (fun t => t.2.1) hds
      simpa [Cl.strip] using this.symm
    have hkk : c.kernelPoints = d.kernelPoints := by
      have := congrArg (fun t => t.2.2.1) hds
      simpa [Cl.strip] using this.symm
    obtain ⟨T', H, n, pr, m1, m2, -, -⟩ := made_least (hmade d hdm)
    have : T' = T := by rw [← hkk, h1] at m1; injection m1 with m1; exact m1.symm
    subst this
    rw [← hko] at m2
    exact selection_triangle (by rw [hko]; exact hg.nonempty) (hsel c hc n pr T' (by rw [hko]; exact hg.sub) h1 m2)

/-- C138, partial: obstacles that are returned as a `StarshapedPolygon`, as with `make_convex`, have a distance function that is below 1
exactly inside and 1 exactly on the border; at robot and goal it is at least 1, and 1 only if they are on the border
(`C85_border_false`). -/
theorem C138_polygon_partial (hs : IsSetList cfg.setList) (hu : IsUnique cfg.unique) (hmax : par.maxIterations = none)
    (hO : ∀ o ∈ obstacles, Convex ℝ (pts o)) (hpoly : ∀ o ∈ obstacles, o.polygon = pts o)
    (hsel : ∀ c ∈ r.clusters, ∀ n pr T, (∀ o ∈ c.obstacles, o ∈ obstacles) → c.kernelPoints = some T →
      cfg.select n c.obstacles pr = .ok T → SelectionOk cfg pts c.obstacles T)
    (h : clusterAndStarify (starGeo cfg) par prev fuel obstacles = some (.ok r)) (hf : r.flag ≠ .incomplete)
    (argsort : List ℝ → List Nat) (ha : IsArgsort argsort) (ix : Pt ℝ → Pt ℝ → Geom) :
    ∀ c ∈ r.clusters, ∃ s xr, c.star = some s ∧ s.xr = some xr ∧ ∀ v P, SimpleRing v → filled v = clusterRegion pts s →
      P = StarPoly.make argsort none (orientRing v) xr → (∀ b, GeomIs (ix xr b) (hits P.ring xr b)) →
      (∀ x, x ≠ xr → ∃ d, P.distanceFunction ix x .global = .ok d ∧ (d < 1 ↔ Inside v x) ∧ (d = 1 ↔ OnRing v x)) ∧
      ∀ x, x = cfg.x ∨ x = cfg.xg → ∃ d, P.distanceFunction ix x .global = .ok d ∧ 1 ≤ d ∧ (d = 1 ↔ OnRing v x) := by
  intro c hc
  obtain ⟨s, xr, h1, h2, h3, h4, h5⟩ := result_kernel hs hu hmax hO hpoly hsel h hf c hc
  refine ⟨s, xr, h1, h2, fun v P hv hfill hP hix => ?_⟩
  have hxr : P.xr = xr := by rw [hP]; rfl
  have hmm : P.mm = none := by rw [hP]; rfl
  have key : ∀ x, x ≠ xr → ∃ d, P.distanceFunction ix x .global = .ok d ∧ (d < 1 ↔ Inside v x) ∧ (d = 1 ↔ OnRing v x) := by
    intro x hx
    have := (C133_partial argsort ha none hv xr [] P hP (by rw [hxr, hfill]; exact h3) ix (by rw [hxr]; exact hix) .global .global
      (Or.inl rfl) (Or.inl rfl) x (by rw [hxr]; exact hx)).1
    rw [hmm] at this
    exact this
  refine ⟨key, fun x hx => ?_⟩
  have hni : x ∉ interior (clusterRegion pts s) := by rcases hx with rfl | rfl <;> assumption
  have hne : x ≠ xr := by
    rintro rfl
    exact hni (interior_mono (fun p hp => hp.1) h3)
  obtain ⟨d, d1, d2, d3⟩ := key x hne
  refine ⟨d, d1, ?_, d3⟩
  by_contra hlt
  have hin := d2.1 (not_le.1 hlt)
  rw [← hfill] at hni
  exact hni (mem_interior.2 ⟨_, fun q hq => Or.inl hq, inside_open v, hin⟩)

/-! ## There are such combinations -/

theorem crossings_exist {F : Set (Pt ℝ)} (hF : IsCompact F) (a b : Pt ℝ) : ∃ L, Crossings F a b L := by
  let g : ℝ → Pt ℝ := fun t => a + t • (b - a)
  have hg : Continuous g := by fun_prop
  have hK : IsCompact (F ∩ g '' Set.Icc 0 1) := hF.inter_right (isCompact_Icc.image hg).isClosed
  have hseg : ∀ p, OnSegment a b p ↔ p ∈ g '' Set.Icc 0 1 := by
    intro p
    constructor
    · rintro ⟨t, t0, t1, rfl⟩; exact ⟨t, ⟨t0, t1⟩, rfl⟩
    · rintro ⟨t, ⟨t0, t1⟩, rfl⟩; exact ⟨t, t0, t1, rfl⟩
  rcases (F ∩ g '' Set.Icc 0 1).eq_empty_or_nonempty with h | h
  · refine ⟨[], by simp, fun q hq hs => ?_⟩
    have : q ∈ F ∩ g '' Set.Icc 0 1 := ⟨hq, (hseg q).1 hs⟩
    rw [h] at this
    exact this.elim
  · have hlen : Continuous len := norm2_continuous
    obtain ⟨p, hp, hmax⟩ := hK.exists_isMaxOn h (f := fun p => len (p - a)) (hlen.comp (by fun_prop)).continuousOn
    refine ⟨[p], fun q hq => ?_, fun q hq hs => ⟨p, List.mem_singleton_self p, hmax ⟨hq, (hseg q).1 hs⟩⟩⟩
    rw [List.mem_singleton.1 hq]
    exact ⟨(hseg p).2 hp.2, hp.1⟩

open scoped Classical in
/-- A member with the region `S`. -/
noncomputable def setMember (S : Set (Pt ℝ)) : Member where
  pointLocation p := .ok (if p ∈ S then -1 else 1)
  lineIntersection a b := .ok (if h : ∃ L, Crossings (frontier S) a b L then h.choose else [])
  tangentPoints _ := .ok []
  vel _ := .ok 0
  normal _ := .ok 0

theorem setMember_region (S : Set (Pt ℝ)) : {p | (setMember S).pointLocation p = .ok (-1)} = S := by
  ext p
  by_cases h : p ∈ S
  · simp [setMember, h]
  · simp only [setMember, h, if_false, Set.mem_ofPred_eq, Except.ok.injEq, iff_false]
    norm_num

/-- For cluster obstacles without hull there is a combination as in `C138_partial`. -/
theorem represents_exists {s : ClusterObs} {x : Pt ℝ} (hx : s.xr = some x) (hh : s.hull = none) (hc : ∀ o ∈ s.members, IsCompact (pts o)) :
    Represents pts s ⟨s.members.map fun o => setMember (pts o), none, x⟩ (fun o => setMember (pts o))
      fun m => {p | m.pointLocation p = .ok (-1)} := by
  refine ⟨rfl, hx, fun o _ => setMember_region _, fun b => ⟨fun m hm => ?_, Or.inl ⟨rfl, ?_⟩⟩⟩
  · obtain ⟨o, ho, rfl⟩ := List.mem_map.1 hm
    have hcl := (hc o ho).isClosed
    have hex := crossings_exist ((hc o ho).of_isClosed_subset isClosed_frontier hcl.frontier_subset) x b
    refine ⟨_, rfl, ?_⟩
    simp only [setMember_region]
    rw [dif_pos hex]
    exact hex.choose_spec
  · rw [hh]; simp

theorem corner_compact : ∀ o ∈ [obsA, obsB], IsCompact o.polygon := by
  intro o ho
  simp only [List.mem_cons, List.not_mem_nil, or_false] at ho
  rcases ho with rfl | rfl
  · rw [show obsA.polygon = convexHull ℝ {p | p ∈ boxA} from polyRegion_none boxA]
    exact (List.finite_toSet boxA).isCompact_convexHull ℝ
  · rw [show obsB.polygon = convexHull ℝ {p | p ∈ boxB} from polyRegion_none boxB]
    exact (List.finite_toSet boxB).isCompact_convexHull ℝ

theorem corner_fits : ∀ n obs pr T, (∀ o ∈ obs, o ∈ [obsA, obsB]) → cornerCfg.select n obs pr = .ok T →
    SelectionOk cornerCfg (·.polygon) obs T := by
  intro n obs pr T ho hT
  have : T = cornerTriple := by
    have : cornerCfg.select n obs pr = .ok cornerTriple := rfl
    rw [this] at hT
    injection hT with hT
    exact hT.symm
  rw [this]
  exact corner_selection _ ho

/-- C138 is false close to the reference point: the two boxes are returned as one combination; however the intersections with segments are
represented, `distance_function` raises TypeError at the inner point (51/100, 11/30). -/
theorem C138_near_false : ∃ (cfg : StarCfg) (obstacles : List ConvObs) (r : Res ConvObs ClusterObs Triple (Set (Pt ℝ))) (s : ClusterObs)
    (x : Pt ℝ), (∀ o ∈ obstacles, Convex ℝ o.polygon ∧ IsCompact o.polygon) ∧
      (∀ n obs pr T, (∀ o ∈ obs, o ∈ obstacles) → cfg.select n obs pr = .ok T → SelectionOk cfg (·.polygon) obs T) ∧
      clusterAndStarify (starGeo cfg) ⟨none, false, false⟩ none 1 obstacles = some (.ok r) ∧ r.flag = .complete ∧
      (∃ c ∈ r.clusters, c.star = some s) ∧ x ∈ interior (clusterRegion (·.polygon) s) ∧
      (∃ comb mem R, Represents (·.polygon) s comb mem R) ∧
      ∀ comb mem R, Represents (·.polygon) s comb mem R → x ≠ comb.xr ∧ comb.distanceFunction x = .error .typeError := by
  have hin : ∀ t : ℝ, 0 ≤ t → t ≤ 1 → ∀ S : Set (Pt ℝ), Convex ℝ S → (∀ k ∈ cornerTriple.points, k ∈ S) →
      ((1 / 2 + t / 10, 11 / 30) : Pt ℝ) ∈ interior S := by
    intro t t0 t1 S hS hk
    refine interior_mono (convexHull_min ?_ hS) (tri_open (a := cornerTriple.1) (b := cornerTriple.2.1) (c := cornerTriple.2.2) ?_ ?_ ?_ ?_)
    · rintro p (rfl | rfl | rfl) <;> exact hk _ (by simp [Triple.points])
    all_goals norm_num [cornerTriple, cross]
    all_goals nlinarith
  have hkA : ∀ k ∈ cornerTriple.points, k ∈ obsA.polygon := fun k hk => by
    rw [show obsA.polygon = region boxA from polyRegion_none boxA]
    exact centre_mem_region (corner_inside k hk).1
  have hkB : ∀ k ∈ cornerTriple.points, k ∈ obsB.polygon := fun k hk => by
    rw [show obsB.polygon = region boxB from polyRegion_none boxB]
    exact centre_mem_region (corner_inside k hk).2
  have hmean : cornerTriple.mean = (1 / 2, 11 / 30) := by ext <;> norm_num [Triple.mean, cornerTriple]
  refine ⟨cornerCfg, [obsA, obsB], _, cornerStar, (51 / 100, 11 / 30), fun o ho => ⟨corner_obstacles o ho, corner_compact o ho⟩,
    corner_fits, corner_result false, rfl, ⟨_, List.mem_singleton_self _, rfl⟩, ?_,
    ⟨_, _, _, represents_exists (pts := (·.polygon)) (s := cornerStar) rfl rfl corner_compact⟩, ?_⟩
  · have := hin (1 / 10) (by norm_num) (by norm_num) _ (corner_obstacles obsA (by simp)) hkA
    norm_num at this
    refine interior_mono ?_ this
    intro p hp
    exact Or.inl ⟨obsA, by simp [cornerStar], hp⟩
  · intro comb mem R hrep
    have hxr : comb.xr = (1 / 2, 11 / 30) := by
      have := hrep.xr
      simp only [cornerStar, Option.some.injEq] at this
      rw [← this, hmean]
    refine ⟨by rw [hxr]; intro h; have := congrArg Prod.fst h; norm_num at this, ?_⟩
    obtain ⟨q, hq, hnone, -⟩ := C43_farthest comb _ _ (51 / 100, 11 / 30) (hrep.lines _)
    have : q = none := by
      refine hnone.2 fun p hp hs => ?_
      rw [hxr] at hs
      obtain ⟨t, t0, t1, e⟩ := hs
      have e' : p = (1 / 2 + t / 10, 11 / 30) := by
        rw [e]; ext <;> simp; ring
      rcases hp with ⟨m, hm, hp⟩ | hp
      · rw [hrep.members] at hm
        obtain ⟨o, ho, rfl⟩ := List.mem_map.1 hm
        simp only [hrep.region o ho] at hp
        refine hp.2 ?_
        rw [e']
        simp only [cornerStar, List.mem_cons, List.not_mem_nil, or_false] at ho
        rcases ho with rfl | rfl
        · exact hin t t0 t1 _ (corner_obstacles obsA (by simp)) hkA
        · exact hin t t0 t1 _ (corner_obstacles obsB (by simp)) hkB
      · simp [cornerStar] at hp
    simp only [Combination.distanceFunction, hq, this, Bind.bind, Except.bind]

/-- The two boxes are returned as one combination, whose distance function is above 1 at the robot (2, 2) in the corner between them, at
(0, 4) and at the goal. -/
example : ∃ c s, clusterAndStarify (starGeo cornerCfg) ⟨none, false, false⟩ none 1 [obsA, obsB] = some (.ok ⟨[c], .complete, 2, none⟩) ∧
    c.star = some s ∧ ∃ (comb : Combination) (mem : ConvObs → Member) (R : Member → Set (Pt ℝ)) (d d' : ℝ),
      Represents (·.polygon) s comb mem R ∧ comb.members.length = 2 ∧ comb.distanceFunction (2, 2) = .ok d ∧ 1 < d ∧
      comb.distanceFunction (0, 4) = .ok d' ∧ 1 < d' := by
  have hr := corner_result false
  obtain ⟨s, hs, h⟩ := C138_partial (pts := (·.polygon)) isSetList_dedup isUnique_dedup rfl rfl corner_obstacles corner_compact
    (fun c' _ n pr T ho _ hT => corner_fits n _ pr T ho hT) hr (by simp) _ (List.mem_singleton_self _)
  refine ⟨_, s, hr, hs, ?_⟩
  simp only [Bool.false_eq_true, if_false, Option.some.injEq] at hs
  subst hs
  have hrep := represents_exists (pts := (·.polygon)) (s := cornerStar) rfl rfl corner_compact
  obtain ⟨b, D, -, -, -, hout, h1, h2, -, -⟩ := h _ _ _ hrep
  have h04 : ((0, 4) : Pt ℝ) ∉ clusterRegion (·.polygon) cornerStar := by
    rintro (⟨o, ho, hp⟩ | hp)
    · simp only [cornerStar, List.mem_cons, List.not_mem_nil, or_false] at ho
      rcases ho with rfl | rfl
      · have := boxA_le hp; norm_num at this
      · have := boxB_le hp; norm_num at this
    · exact hp
  exact ⟨_, _, _, _, _, hrep, rfl, h1, h2, (hout _ h04).1, (hout _ h04).2⟩

/-! ## The cluster of two boxes with `make_convex` -/

/-- The corners of the convex hull of the two boxes. -/
def cornerRing : List (Pt ℚ) := [(0, 0), (3, 0), (3, 1), (1, 3), (0, 3)]

theorem cornerRing_eq : cornerRing.map toReal = [(0, 0), (3, 0), (3, 1), (1, 3), (0, 3)] := by simp [cornerRing, toReal]

/-- The polygon with these corners is the convex hull of the cluster. -/
theorem cornerRing_filled : filled (cornerRing.map toReal) = convexHull ℝ cornerStar.polygon := by
  obtain ⟨b, k1, -, k3⟩ := C36_simple_partial (cornerRing.map toReal) (simple_rat (by decide +kernel))
    (by simp [cornerRing, corner, toReal]) (band_rat (by decide +kernel))
  have e : checkConvexity (cornerRing.map toReal) = .ok true := by rw [checkConvexity_map toReal_turns]; decide +kernel
  rw [e] at k1
  injection k1 with k1
  rw [k3 k1.symm, cornerRing_eq]
  have hA : ∀ q ∈ boxA, q ∈ cornerStar.polygon := fun q h => Or.inl ⟨obsA, by simp [cornerStar], box_mem h⟩
  have hB : ∀ q ∈ boxB, q ∈ cornerStar.polygon := fun q h => Or.inl ⟨obsB, by simp [cornerStar], box_mem h⟩
  apply Set.Subset.antisymm
  · refine convexHull_min ?_ (convex_convexHull ℝ _)
    intro q hq
    apply subset_convexHull
    simp only [Set.mem_ofPred_eq, List.mem_cons, List.not_mem_nil, or_false] at hq
    rcases hq with rfl | rfl | rfl | rfl | rfl
    · exact hA _ (by simp [boxA])
    · exact hA _ (by simp [boxA])
    · exact hA _ (by simp [boxA])
    · exact hB _ (by simp [boxB])
    · exact hB _ (by simp [boxB])
  · refine convexHull_min ?_ (convex_convexHull ℝ _)
    have hs : ∀ q ∈ [((0, 0) : Pt ℝ), (3, 0), (3, 1), (1, 3), (0, 3)],
        q ∈ convexHull ℝ {p | p ∈ [((0, 0) : Pt ℝ), (3, 0), (3, 1), (1, 3), (0, 3)]} := fun q h => subset_convexHull ℝ _ h
    have h00 := hs (0, 0) (by simp)
    have h30 := hs (3, 0) (by simp)
    have h03 := hs (0, 3) (by simp)
    have h01 := (convex_convexHull ℝ {p | p ∈ [((0, 0) : Pt ℝ), (3, 0), (3, 1), (1, 3), (0, 3)]}) h00 h03
      (a := 2 / 3) (b := 1 / 3) (by norm_num) (by norm_num) (by norm_num)
    have h10 := (convex_convexHull ℝ {p | p ∈ [((0, 0) : Pt ℝ), (3, 0), (3, 1), (1, 3), (0, 3)]}) h00 h30
      (a := 2 / 3) (b := 1 / 3) (by norm_num) (by norm_num) (by norm_num)
    norm_num at h01 h10
    rintro q (⟨o, ho, hq⟩ | hq)
    · simp only [cornerStar, List.mem_cons, List.not_mem_nil, or_false] at ho
      rcases ho with rfl | rfl
      · have hq' : q ∈ polyRegion none boxA := hq
        rw [polyRegion_none] at hq'
        refine convexHull_min ?_ (convex_convexHull ℝ _) hq'
        intro p hp
        simp only [boxA, Set.mem_ofPred_eq, List.mem_cons, List.not_mem_nil, or_false] at hp
        rcases hp with rfl | rfl | rfl | rfl
        · exact h00
        · exact h30
        · exact hs _ (by simp)
        · simpa using h01
      · have hq' : q ∈ polyRegion none boxB := hq
        rw [polyRegion_none] at hq'
        refine convexHull_min ?_ (convex_convexHull ℝ _) hq'
        intro p hp
        simp only [boxB, Set.mem_ofPred_eq, List.mem_cons, List.not_mem_nil, or_false] at hp
        rcases hp with rfl | rfl | rfl | rfl
        · exact h00
        · simpa using h10
        · exact hs _ (by simp)
        · exact h03
    · simp [cornerStar] at hq

/-- C138 is false with `make_convex`: the robot at (2, 2) is outside of both boxes, but the distance function of the obstacle
returned for them is 1 there, as on a border. -/
theorem C138_border_false (argsort : List ℝ → List Nat) (ha : IsArgsort argsort) (ix : Pt ℝ → Pt ℝ → Geom) :
    ∃ c s xr, clusterAndStarify (starGeo cornerCfg) ⟨none, true, false⟩ none 1 [obsA, obsB] = some (.ok ⟨[c], .complete, 2, none⟩) ∧
      c.star = some s ∧ s.xr = some xr ∧ s.hull = some (filled (cornerRing.map toReal)) ∧ s.members = [] ∧
      (∀ o ∈ [obsA, obsB], cornerCfg.x ∉ o.polygon) ∧
      ∀ P, P = StarPoly.make argsort none (orientRing (cornerRing.map toReal)) xr → (∀ b, GeomIs (ix xr b) (hits P.ring xr b)) →
        P.distanceFunction ix cornerCfg.x .global = .ok 1 ∧ ∃ d, P.distanceFunction ix cornerCfg.xg .global = .ok d ∧ 1 < d := by
  have hr := corner_result true
  obtain ⟨s, xr, h1, h2, h⟩ := C138_polygon_partial (pts := (·.polygon)) isSetList_dedup isUnique_dedup rfl corner_obstacles
    (fun _ _ => rfl) (fun c' _ n pr T ho _ hT => corner_fits n _ pr T ho hT) hr (by simp) argsort ha ix _ (List.mem_singleton_self _)
  simp only [if_true, Option.some.injEq] at h1
  subst h1
  refine ⟨_, _, xr, hr, rfl, h2, by rw [cornerRing_filled]; rfl, rfl, ?_, fun P hP hix => ?_⟩
  · intro o ho hx
    simp only [List.mem_cons, List.not_mem_nil, or_false] at ho
    rcases ho with rfl | rfl
    · have := boxA_le hx; norm_num [cornerCfg] at this
    · have := boxB_le hx; norm_num [cornerCfg] at this
  · obtain ⟨-, k⟩ := h _ P (simple_rat (by decide +kernel)) (by rw [cornerRing_filled]; simp [clusterRegion]) hP hix
    obtain ⟨d, d1, -, d3⟩ := k _ (Or.inl rfl)
    obtain ⟨e, e1, e2, e3⟩ := k _ (Or.inr rfl)
    constructor
    · rw [d1, d3.2]
      rw [cornerRing_eq]
      refine ⟨2, by simp, 1 / 2, by norm_num, by norm_num, ?_⟩
      ext <;> norm_num [corner, cornerCfg]
    · refine ⟨e, e1, lt_of_le_of_ne e2 fun he => ?_⟩
      have hon : cornerCfg.xg ∈ filled (cornerRing.map toReal) := Or.inr (e3.1 he.symm)
      rw [cornerRing_filled] at hon
      have := corner_sum hon
      norm_num [cornerCfg] at this

end Starworlds
