import Verif.Proofs.GeoMap
import Verif.Proofs.GeoAgree
import Verif.Spec.Translate
import Verif.Model.Admissible
import Mathlib.Tactic.Ring
import Mathlib.Analysis.Convex.Hull
import Mathlib.Analysis.Normed.Group.Basic

/-! # Lemmas for C123: what moves with the scene -/

namespace Starworlds

open Spec

section Cg

variable {K : Type*} [Field K] [LinearOrder K]

omit [LinearOrder K] in
theorem orientation_moved (d a b c : Pt K) : orientationVal (a + d) (b + d) (c + d) = orientationVal a b c := by
  simp only [orientationVal, Prod.fst_add, Prod.snd_add]; ring

theorem isCcw_moved (d a b c : Pt K) : isCcw (a + d) (b + d) (c + d) = isCcw a b c := by
  simp only [isCcw, orientation_moved]

theorem isCw_moved (d a b c : Pt K) : isCw (a + d) (b + d) (c + d) = isCw a b c := by
  simp only [isCw, orientation_moved]

theorem isCollinear_moved (d a b c : Pt K) : isCollinear (a + d) (b + d) (c + d) = isCollinear a b c := by
  simp only [isCollinear, orientation_moved]

omit [LinearOrder K] in
theorem ptAt_moved (d : Pt K) {l : List (Pt K)} {i : Nat} (h : i < l.length) : ptAt (l.map (· + d)) i = ptAt l i + d := by
  simp [ptAt, List.getD, List.getElem?_map, List.getElem?_eq_getElem h]

theorem foldl_same {f f' : Nat → Nat → Nat} {n : Nat} (hf : ∀ a i, a < n → i < n → f a i = f' a i) (hlt : ∀ a i, a < n → i < n → f a i < n) :
    ∀ (l : List Nat) (a : Nat), a < n → (∀ i ∈ l, i < n) → l.foldl f a = l.foldl f' a ∧ l.foldl f a < n := by
  intro l
  induction l with
  | nil => intro a ha _; exact ⟨rfl, ha⟩
  | cons i l ih =>
    intro a ha hl
    have hi : i < n := hl i (by simp)
    simp only [List.foldl_cons, ← hf a i ha hi]
    exact ih _ (hlt a i ha hi) fun j hj => hl j (by simp [hj])

theorem leftmost_moved (d : Pt K) [IsStrictOrderedRing K] {l : List (Pt K)} (h : l ≠ []) :
    leftmost (l.map (· + d)) = leftmost l ∧ leftmost l < l.length := by
  have hn : 0 < l.length := List.length_pos_iff.2 h
  have hs : ∀ a i, a < l.length → i < l.length → leftmostStep l a i = leftmostStep (l.map (· + d)) a i := by
    intro a i ha hi
    simp only [leftmostStep, ptAt_moved d ha, ptAt_moved d hi, Prod.fst_add, Prod.snd_add, add_lt_add_iff_right, add_left_inj, gt_iff_lt]
  have hlt : ∀ a i, a < l.length → i < l.length → leftmostStep l a i < l.length := by
    intro a i ha hi
    simp only [leftmostStep]
    split_ifs <;> assumption
  have := foldl_same hs hlt (List.range' 1 (l.length - 1)) 0 hn (by intro i hi; rw [List.mem_range'_1] at hi; omega)
  rw [leftmost, leftmost, List.length_map, ← this.1]
  exact ⟨rfl, this.2⟩

theorem wrapNext_moved (d : Pt K) {l : List (Pt K)} (h : l ≠ []) {p : Nat} (hp : p < l.length) :
    wrapNext (l.map (· + d)) p = wrapNext l p ∧ wrapNext l p < l.length := by
  have hn : 0 < l.length := List.length_pos_iff.2 h
  have hs : ∀ a i, a < l.length → i < l.length → wrapStep l p a i = wrapStep (l.map (· + d)) p a i := by
    intro a i ha hi
    simp only [wrapStep, ptAt_moved d ha, ptAt_moved d hi, ptAt_moved d hp, isCcw_moved]
  have hlt : ∀ a i, a < l.length → i < l.length → wrapStep l p a i < l.length := by
    intro a i ha hi
    simp only [wrapStep]
    split_ifs <;> assumption
  have := foldl_same hs hlt (List.range l.length) ((p + 1) % l.length) (Nat.mod_lt _ hn) (by intro i hi; exact List.mem_range.1 hi)
  rw [wrapNext, wrapNext, List.length_map, ← this.1]
  exact ⟨rfl, this.2⟩

theorem wrapLoop_moved (d : Pt K) {l : List (Pt K)} (h : l ≠ []) (s : Nat) : ∀ (fuel p : Nat), p < l.length →
    wrapLoop (l.map (· + d)) s fuel p = wrapLoop l s fuel p ∧ ∀ r, wrapLoop l s fuel p = some r → ∀ i ∈ r, i < l.length := by
  intro fuel
  induction fuel with
  | zero => intro p hp; exact ⟨rfl, by simp [wrapLoop]⟩
  | succ fuel ih =>
    intro p hp
    obtain ⟨h1, h2⟩ := wrapNext_moved d h hp
    simp only [wrapLoop, h1]
    split
    · exact ⟨rfl, by rintro r hr i hi; cases hr; rw [List.mem_singleton.1 hi]; exact hp⟩
    · obtain ⟨h3, h4⟩ := ih _ h2
      rw [h3]
      refine ⟨rfl, ?_⟩
      intro r hr i hi
      rw [Option.map_eq_some_iff] at hr
      obtain ⟨r', hr', rfl⟩ := hr
      rcases List.mem_cons.1 hi with rfl | hi
      · exact hp
      · exact h4 r' hr' i hi

theorem hull_moved (d : Pt K) [IsStrictOrderedRing K] {l : List (Pt K)} (h : l ≠ []) (fuel : Nat) :
    convexHullPts (l.map (· + d)) fuel = (convexHullPts l fuel).map (List.map (· + d)) := by
  obtain ⟨h1, h2⟩ := leftmost_moved d h
  obtain ⟨h3, h4⟩ := wrapLoop_moved d h (leftmost l) fuel (leftmost l) h2
  simp only [convexHullPts, convexHullIdx, h1, h3]
  cases hr : wrapLoop l (leftmost l) fuel (leftmost l) with
  | none => rfl
  | some r =>
    simp only [Option.map_some, List.map_map, Option.some.injEq]
    exact List.map_congr_left fun i hi => ptAt_moved d (h4 r hr i hi)

end Cg

theorem mapM_moved {A B A' B' : Type} (f : A → Except PyErr B) (f' : A' → Except PyErr B') (u : A → A') (v : B → B') (l : List A)
    (h : ∀ a ∈ l, f' (u a) = (f a).map v) : (l.map u).mapM f' = (l.mapM f).map (List.map v) := by
  induction l with
  | nil => rfl
  | cons a l ih =>
    simp only [List.map_cons, List.mapM_cons, h a (by simp), ih fun b hb => h b (by simp [hb]), bind, Except.bind, pure, Except.pure]
    cases f a with
    | error e => rfl
    | ok b => cases l.mapM f <;> rfl

theorem moved_tangents (d : Pt ℝ) (o : ConvObs) (k : Pt ℝ) :
    (movedObs d o).tangentPoints (k + d) = (o.tangentPoints k).map (List.map (· + d)) := by
  simp only [movedObs, add_sub_cancel_right]
  cases o.tangentPoints k <;> rfl

theorem convexKernel_moved (d : Pt ℝ) (un un' : List (Pt ℝ) → List (Pt ℝ)) (hu : ∀ l, un' (l.map (· + d)) = (un l).map (· + d))
    (o : ConvObs) {ks : List (Pt ℝ)} (hk : ks ≠ []) (fuel : Nat) :
    convexKernelHull un' (movedObs d o).tangentPoints (ks.map (· + d)) fuel =
      (convexKernelHull un o.tangentPoints ks fuel).map (Option.map (List.map (· + d))) := by
  simp only [convexKernelHull, bind, Except.bind,
    mapM_moved o.tangentPoints (movedObs d o).tangentPoints (· + d) (List.map (· + d)) ks fun k _ => moved_tangents d o k]
  cases ks.mapM o.tangentPoints with
  | error e => rfl
  | ok tps =>
    have e : (tps.map (List.map (· + d))).flatten = tps.flatten.map (· + d) := by rw [List.map_flatten]
    simp only [Except.map, e]
    cases tps.flatten with
    | nil => rfl
    | cons t l =>
      have := hull_moved d (l := un (t :: l) ++ ks) (by simp [hk]) fuel
      rw [List.map_append, ← hu] at this
      simp only [List.map_cons] at this ⊢
      rw [this]

theorem region_moved (d : Pt ℝ) (v : List (Pt ℝ)) : region (v.map (· + d)) = (· + d) '' region v := by
  have e : {p | p ∈ v.map (· + d)} = (AffineEquiv.vaddConst ℝ d : ℝ × ℝ ≃ᵃ[ℝ] ℝ × ℝ) '' {p | p ∈ v} := by
    ext p
    exact List.mem_map
  have := (AffineEquiv.vaddConst ℝ d : ℝ × ℝ ≃ᵃ[ℝ] ℝ × ℝ).toAffineMap.image_convexHull {p | p ∈ v}
  rw [region, e]
  exact this.symm

theorem regions_moved (d : Pt ℝ) (vs : List (List (Pt ℝ))) : regions (vs.map (List.map (· + d))) = (· + d) '' regions vs := by
  ext p
  simp only [regions, List.mem_map, Set.mem_ofPred_eq, Set.mem_image]
  constructor
  · rintro ⟨_, ⟨v, hv, rfl⟩, hp⟩
    rw [region_moved] at hp
    obtain ⟨q, hq, rfl⟩ := hp
    exact ⟨q, ⟨v, hv, hq⟩, rfl⟩
  · rintro ⟨q, ⟨v, hv, hq⟩, rfl⟩
    exact ⟨_, ⟨v, hv, rfl⟩, by rw [region_moved]; exact ⟨q, hq, rfl⟩⟩

theorem clusterHull_moved (d : Pt ℝ) {cfg cfg' : StarCfg} (hu : ∀ l, cfg'.unique (l.map (· + d)) = (cfg.unique l).map (· + d))
    (hf : cfg'.hullFuel = cfg.hullFuel) (obs : List ConvObs) (T : Triple) :
    clusterHull cfg' (obs.map (movedObs d)) (movedTriple d T) = (clusterHull cfg obs T).map (Option.map fun h => (· + d) '' h) := by
  have hT : (movedTriple d T).points = T.points.map (· + d) := rfl
  have hk : T.points ≠ [] := by simp [Triple.points]
  have e1 : (obs.map (movedObs d)).map (fun o => HullObs.convex o.tangentPoints) =
      obs.map fun o => HullObs.convex (movedObs d o).tangentPoints := by rw [List.map_map]; rfl
  have e : ((obs.map (movedObs d)).map fun o => HullObs.convex o.tangentPoints).mapM (kernelHullOne cfg'.unique (T.points.map (· + d)) cfg'.hullFuel) =
      ((obs.map fun o => HullObs.convex o.tangentPoints).mapM (kernelHullOne cfg.unique T.points cfg.hullFuel)).map
        (List.map (Option.map (List.map (· + d)))) := by
    rw [hf, e1]
    induction obs with
    | nil => rfl
    | cons o l ih =>
      have h1 := convexKernel_moved d cfg.unique cfg'.unique hu o hk cfg.hullFuel
      simp only [List.map_cons, List.mapM_cons, kernelHullOne, h1, ih (by rw [List.map_map]; rfl), bind, Except.bind, pure, Except.pure]
      cases convexKernelHull cfg.unique o.tangentPoints T.points cfg.hullFuel with
      | error e => rfl
      | ok b => cases List.mapM (kernelHullOne cfg.unique T.points cfg.hullFuel) (l.map fun o => HullObs.convex o.tangentPoints) <;> rfl
  simp only [clusterHull, kernelHull, hT, e, bind, Except.bind]
  cases (obs.map fun o => HullObs.convex o.tangentPoints).mapM (kernelHullOne cfg.unique T.points cfg.hullFuel) with
  | error e => rfl
  | ok subs =>
    have h1 : (subs.map (Option.map (List.map (· + d)))).any (·.isNone) = subs.any (·.isNone) := by
      rw [List.any_map]; congr 1; funext x; cases x <;> rfl
    have h2 : (subs.map (Option.map (List.map (· + d)))).filterMap id = (subs.filterMap id).map (List.map (· + d)) := by
      induction subs with
      | nil => rfl
      | cons a l ih =>
        have := ih (by rw [List.any_map]; congr 1; funext x; cases x <;> rfl)
        cases a <;> simpa using this
    have h3 : ((subs.filterMap id).map (List.map (· + d))).all (·.isEmpty) = (subs.filterMap id).all (·.isEmpty) := by
      rw [List.all_map]; congr 1; funext x; cases x <;> rfl
    simp only [Except.map, h1, h2, h3]
    split
    · rename_i h
      split at h
      · cases h
      · split at h <;> cases h
    · rename_i h
      split at h
      · rw [if_pos (by assumption)]
      · split at h <;> cases h
    · rename_i r h
      split at h
      · cases h
      · rename_i hn
        rw [if_neg hn]
        split at h
        · rename_i ha
          rw [if_pos ha]
          cases h; rfl
        · rename_i ha
          rw [if_neg ha]
          cases h
          simp only [Option.map_some, regions_moved]

theorem mean_moved (d : Pt ℝ) (T : Triple) : (movedTriple d T).mean = T.mean + d := by
  ext <;> simp only [Triple.mean, movedTriple, Prod.smul_fst, Prod.smul_snd, Prod.fst_add, Prod.snd_add, smul_eq_mul] <;> ring

theorem admissible_moved (d : Pt ℝ) (o : ConvObs) (x : Pt ℝ) :
    admissibleKernel (movedObs d o).tangentPoints (x + d) =
      (admissibleKernel o.tangentPoints x).map (Option.map fun c => ⟨c.apex + d, c.dir1, c.dir2⟩) := by
  simp only [admissibleKernel, moved_tangents, bind, Except.bind]
  rcases o.tangentPoints x with e | _ | ⟨t, _ | ⟨s, l⟩⟩
  · rfl
  · rfl
  · rfl
  · simp only [Except.map, List.map_cons, Option.map_some, add_sub_add_right_eq_sub]

theorem starPolygon_moved (d : Pt ℝ) (s : ClusterObs) : (movedStar d s).polygon = (· + d) '' s.polygon := by
  obtain ⟨l, h, x⟩ := s
  simp only [ClusterObs.polygon, movedStar, Set.image_union]
  congr 1
  · ext p
    simp only [List.mem_map, Set.mem_ofPred_eq, Set.mem_image]
    constructor
    · rintro ⟨_, ⟨o, ho, rfl⟩, q, hq, rfl⟩
      exact ⟨q, ⟨o, ho, hq⟩, rfl⟩
    · rintro ⟨q, ⟨o, ho, hq⟩, rfl⟩
      exact ⟨_, ⟨o, ho, rfl⟩, q, hq, rfl⟩
  · cases h <;> simp

theorem meet_moved (d : Pt ℝ) (p q : Set (Pt ℝ)) : (((· + d) '' p) ∩ ((· + d) '' q)).Nonempty ↔ (p ∩ q).Nonempty := by
  rw [← Set.image_inter (add_left_injective d), Set.image_nonempty]

theorem convexHull_moved (d : Pt ℝ) (p : Set (Pt ℝ)) : convexHull ℝ ((· + d) '' p) = (· + d) '' convexHull ℝ p :=
  ((AffineEquiv.vaddConst ℝ d : ℝ × ℝ ≃ᵃ[ℝ] ℝ × ℝ).toAffineMap.image_convexHull p).symm

theorem interior_moved (d : Pt ℝ) (p : Set (Pt ℝ)) : interior ((· + d) '' p) = (· + d) '' interior p :=
  ((Homeomorph.addRight d).image_interior p).symm

theorem mem_moved (d x : Pt ℝ) (p : Set (Pt ℝ)) : x + d ∈ (· + d) '' p ↔ x ∈ p := by
  simp

/-- How a scene corresponds to the scene moved by `d`. -/
def moves (d : Pt ℝ) : Maps ConvObs ClusterObs Triple (Set (Pt ℝ)) ConvObs ClusterObs Triple (Set (Pt ℝ)) :=
  ⟨movedObs d, movedStar d, movedTriple d, fun h => (· + d) '' h⟩

theorem moves_cl (d : Pt ℝ) : (moves d).cl = movedCluster d := rfl

theorem moves_res (d : Pt ℝ) : (moves d).res = movedResult d := by
  funext r
  simp only [Maps.res, movedResult, moves_cl, Res.mk.injEq, true_and]
  rcases r.history with _ | l | l <;> rfl

theorem moves_geo {d : Pt ℝ} {cfg cfg' : StarCfg} (hx : cfg'.x = cfg.x + d) (hg : cfg'.xg = cfg.xg + d)
    (hu : ∀ l, cfg'.unique (l.map (· + d)) = (cfg.unique l).map (· + d)) (hf : cfg'.hullFuel = cfg.hullFuel)
    (hs : cfg'.setList = cfg.setList)
    (ht : cfg'.timeoutInit = cfg.timeoutInit ∧ cfg'.timeoutIter = cfg.timeoutIter ∧ cfg'.timeoutConvex = cfg.timeoutConvex)
    (ha : ∀ n l, cfg'.admEmpty n (l.map (movedObs d)) = cfg.admEmpty n l)
    (hsel : ∀ n l k, cfg'.select n (l.map (movedObs d)) (k.map (movedTriple d)) = (cfg.select n l k).map (movedTriple d))
    (hc : ∀ s, cfg'.isConvex (movedStar d s) = cfg.isConvex s) : Commutes (moves d) (starGeo cfg) (starGeo cfg') where
  id _ := rfl
  prim _ := rfl
  starPoly s := starPolygon_moved d s
  inter p q := decide_eq_decide.2 (meet_moved d p q)
  setList := hs
  timeoutInit := ht.1
  timeoutIter := ht.2.1
  timeoutConvex := ht.2.2
  robotFree o := by
    simp only [starGeo, moves, hx, admissible_moved]
    rcases admissibleKernel o.tangentPoints cfg.x with e | _ | _ <;> rfl
  goalFree o := by
    simp only [starGeo, moves, hg, admissible_moved]
    rcases admissibleKernel o.tangentPoints cfg.xg with e | _ | _ <;> rfl
  exclude _ := rfl
  admEmpty := ha
  kernelSel n l k := by
    have e : (l.map (movedObs d)).all (·.hasKernel) = l.all (·.hasKernel) := by rw [List.all_map]; rfl
    simp only [starGeo, moves, e, hsel]
    split <;> rfl
  firstStar o k := by
    have := clusterHull_moved d hu hf [o] k
    simp only [List.map_singleton] at this
    simp only [starGeo, moves, this, bind, Except.bind]
    rcases clusterHull cfg [o] k with e | _ | h
    · rfl
    · have e : (movedObs d o).hasKernel = o.hasKernel := rfl
      simp only [Except.map, Option.map_none, e]
      split
      · simp [movedStar, mean_moved]
      · rfl
    · simp [Except.map, movedStar, mean_moved]
  loopStar n l k := by
    simp only [starGeo, moves, clusterHull_moved d hu hf, bind, Except.bind]
    cases clusterHull cfg l k with
    | error e => rfl
    | ok h => simp [Except.map, movedStar, mean_moved]
  isConvex := hc
  hullOf p := congrArg Except.ok (convexHull_moved d p)
  blocked p := by
    refine decide_eq_decide.2 ?_
    rw [show (moves d).pl p = (· + d) '' p from rfl, interior_moved, hx, hg, mem_moved, mem_moved]
  hullStar p s := rfl

theorem moved_back (d : Pt ℝ) (o : ConvObs) : movedObs (-d) (movedObs d o) = o := by
  obtain ⟨i, k, tp, P⟩ := o
  simp only [movedObs, ConvObs.mk.injEq, true_and, Set.image_image, sub_neg_eq_add, add_sub_cancel_right]
  constructor
  · funext x
    cases tp x with
    | error e => rfl
    | ok l => simp
  · simp

theorem movedObs_injective (d : Pt ℝ) : Function.Injective (movedObs d) := fun a b h => by
  rw [← moved_back d a, ← moved_back d b, h]

theorem part_moved (d : Pt ℝ) (obstacles l : List ConvObs) : Part (obstacles.map (movedObs d)) (l.map (movedObs d)) ↔ Part obstacles l := by
  have e : (l.map (movedObs d)).map (·.id) = l.map (·.id) := by rw [List.map_map]; rfl
  constructor
  · rintro ⟨h1, h2, h3⟩
    refine ⟨by simpa using h1, e ▸ h2, fun o ho => ?_⟩
    obtain ⟨o', ho', he⟩ := List.mem_map.1 (h3 _ (List.mem_map.2 ⟨o, ho, rfl⟩))
    exact movedObs_injective d he ▸ ho'
  · rintro ⟨h1, h2, h3⟩
    refine ⟨by simpa using h1, e ▸ h2, fun o ho => ?_⟩
    obtain ⟨o', ho', rfl⟩ := List.mem_map.1 ho
    exact List.mem_map.2 ⟨o', h3 o' ho', rfl⟩

open Classical in
/-- The call with routines that fail for other lists of obstacles. -/
noncomputable def partCfg (obstacles : List ConvObs) (cfg : StarCfg) : StarCfg :=
  { cfg with
    admEmpty := fun n l => if Part obstacles l then cfg.admEmpty n l else .error .runtimeError
    select := fun n l k => if Part obstacles l ∧ ((n = 0 ∧ ∃ o, l = [o]) ∨ cfg.admEmpty n l = .ok false) then cfg.select n l k
      else .error .runtimeError }

theorem partCfg_result (cfg : StarCfg) (hs : IsSetList cfg.setList) (obstacles : List ConvObs) (hid : (obstacles.map (·.id)).Nodup) (par : Params)
    (prev : Option (List (Cl ConvObs ClusterObs Triple (Set (Pt ℝ))))) (fuel : Nat) :
    clusterAndStarify (starGeo (partCfg obstacles cfg)) par prev fuel obstacles = clusterAndStarify (starGeo cfg) par prev fuel obstacles := by
  refine result_agree (g := starGeo cfg) (adm := (starGeo (partCfg obstacles cfg)).admEmpty) (sel := (starGeo (partCfg obstacles cfg)).kernelSel)
    hs hid ?_ ?_ par fuel
  · intro n l h
    exact (if_pos (⟨h.nonempty, h.nodup, h.sub⟩ : Part obstacles l)).symm
  · intro n l k h hq _
    have hp : Part obstacles l := ⟨h.nonempty, h.nodup, h.sub⟩
    have : (partCfg obstacles cfg).select n l k = cfg.select n l k := if_pos ⟨hp, hq⟩
    simp only [starGeo, this]

/-- The call in the moved scene. -/
theorem moved_call {d : Pt ℝ} {cfg cfg' : StarCfg} (hset : IsSetList cfg.setList) (hx : cfg'.x = cfg.x + d) (hg : cfg'.xg = cfg.xg + d)
    (hu : ∀ l, cfg'.unique (l.map (· + d)) = (cfg.unique l).map (· + d)) (hf : cfg'.hullFuel = cfg.hullFuel)
    (hs : cfg'.setList = cfg.setList)
    (ht : cfg'.timeoutInit = cfg.timeoutInit ∧ cfg'.timeoutIter = cfg.timeoutIter ∧ cfg'.timeoutConvex = cfg.timeoutConvex)
    (obstacles : List ConvObs) (hid : (obstacles.map (·.id)).Nodup)
    (ha : ∀ n l, Part obstacles l → cfg'.admEmpty n (l.map (movedObs d)) = cfg.admEmpty n l)
    (hsel : ∀ n l k, Part obstacles l → (n = 0 ∧ (∃ o, l = [o]) ∨ cfg.admEmpty n l = .ok false) →
      cfg'.select n (l.map (movedObs d)) (k.map (movedTriple d)) = (cfg.select n l k).map (movedTriple d))
    (hc : ∀ s, cfg'.isConvex (movedStar d s) = cfg.isConvex s)
    (par : Params) (prev : Option (List (Cl ConvObs ClusterObs Triple (Set (Pt ℝ))))) (fuel : Nat) :
    clusterAndStarify (starGeo cfg') par (prev.map (List.map (movedCluster d))) fuel (obstacles.map (movedObs d)) =
      (clusterAndStarify (starGeo cfg) par prev fuel obstacles).map (Except.map (movedResult d)) := by
  have hid' : ((obstacles.map (movedObs d)).map (·.id)).Nodup := by rw [List.map_map]; exact hid
  rw [← partCfg_result cfg hset obstacles hid, ← partCfg_result cfg' (hs ▸ hset) _ hid']
  have ha' : ∀ n l, (partCfg (obstacles.map (movedObs d)) cfg').admEmpty n (l.map (movedObs d)) = (partCfg obstacles cfg).admEmpty n l := by
    intro n l
    by_cases h : Part obstacles l
    · exact (if_pos ((part_moved d _ _).2 h)).trans ((ha n l h).trans (if_pos h).symm)
    · exact (if_neg fun h' => h ((part_moved d _ _).1 h')).trans (if_neg h).symm
  have hl : ∀ l : List ConvObs, (∃ o, l.map (movedObs d) = [o]) ↔ ∃ o, l = [o] := by
    intro l
    rcases l with _ | ⟨a, _ | ⟨b, l⟩⟩ <;> simp
  have hsel' : ∀ n l k, (partCfg (obstacles.map (movedObs d)) cfg').select n (l.map (movedObs d)) (k.map (movedTriple d)) =
      ((partCfg obstacles cfg).select n l k).map (movedTriple d) := by
    intro n l k
    by_cases h : Part obstacles l ∧ (n = 0 ∧ (∃ o, l = [o]) ∨ cfg.admEmpty n l = .ok false)
    · have e1 : (partCfg obstacles cfg).select n l k = cfg.select n l k := if_pos h
      have e2 : (partCfg (obstacles.map (movedObs d)) cfg').select n (l.map (movedObs d)) (k.map (movedTriple d)) = _ :=
        if_pos ⟨(part_moved d _ _).2 h.1, by rw [hl, ha n l h.1]; exact h.2⟩
      rw [e1, e2, hsel n l k h.1 h.2]
    · have e1 : (partCfg obstacles cfg).select n l k = .error .runtimeError := if_neg h
      have e2 : (partCfg (obstacles.map (movedObs d)) cfg').select n (l.map (movedObs d)) (k.map (movedTriple d)) = .error .runtimeError := by
        refine if_neg fun h' => h ?_
        have h1 := (part_moved d _ _).1 h'.1
        exact ⟨h1, by rw [← hl, ← ha n l h1]; exact h'.2⟩
      rw [e1, e2]
      rfl
  have key := (moves_geo (cfg := partCfg obstacles cfg) (cfg' := partCfg (obstacles.map (movedObs d)) cfg') hx hg hu hf hs ht ha' hsel' hc).result par prev fuel
    obstacles
  rw [moves_res] at key
  exact key

/-! ## The kernel points -/

section Points

variable {d : Pt ℝ} {geo : PolyOps (Set (Pt ℝ))} {A A' W : Set (Pt ℝ)}

theorem cut_moved (h : ∀ p ∈ W, p + d ∈ A' ↔ p ∈ A) {S : Set (Pt ℝ)} (hS : S ⊆ W) : A' ∩ (· + d) '' S = (· + d) '' (A ∩ S) := by
  ext p
  constructor
  · rintro ⟨h1, q, hq, rfl⟩
    exact ⟨q, ⟨(h q (hS hq)).1 h1, hq⟩, rfl⟩
  · rintro ⟨q, ⟨h1, h2⟩, rfl⟩
    exact ⟨(h q (hS h2)).2 h1, q, h2, rfl⟩

theorem foldl_cut (ks : List (Set (Pt ℝ))) (B : Set (Pt ℝ)) : ks.foldl (· ∩ ·) B = {p | p ∈ B ∧ ∀ k ∈ ks, p ∈ k} := by
  induction ks generalizing B with
  | nil => simp
  | cons k ks ih =>
    rw [List.foldl_cons, ih]
    ext p
    simp only [Set.mem_ofPred_eq, Set.mem_inter_iff, List.mem_cons, forall_eq_or_imp]
    tauto

theorem limit_moved (hg : MovesWith d geo) (h : ∀ p ∈ W, p + d ∈ A' ↔ p ∈ A) {poly ws : Set (Pt ℝ)} (hp : poly ⊆ W) :
    ∀ p ∈ W, p + d ∈ limitToExterior geo A' ((· + d) '' poly) ((· + d) '' ws) ↔ p ∈ limitToExterior geo A poly ws := by
  have e : (A' \ (· + d) '' ws) ∩ (· + d) '' poly = (· + d) '' ((A \ ws) ∩ poly) :=
    cut_moved (A := A \ ws) (A' := A' \ (· + d) '' ws) (W := W) (fun p hp => by rw [Set.mem_sdiff, Set.mem_sdiff, h p hp, mem_moved]) hp
  simp only [limitToExterior, hg.within, hg.intersection, hg.difference, e, hg.area]
  split
  · split
    · intro p _; exact mem_moved d p _
    · exact h
  · exact h

theorem selection_moved (hg : MovesWith d geo) (h : ∀ p ∈ W, p + d ∈ A' ↔ p ∈ A) {poly ws : Set (Pt ℝ)} (hp : poly ⊆ W) {ks : List (Set (Pt ℝ))}
    (hk : ks ≠ []) (hks : ∀ k ∈ ks, k ⊆ W) (hc : CutOut geo.area (limitToExterior geo A poly ws) poly ks) :
    selectionSet geo A' ((· + d) '' poly) ((· + d) '' ws) (some (ks.map fun h => (· + d) '' h)) =
      (· + d) '' selectionSet geo A poly ws (some ks) := by
  have hB := limit_moved hg h (ws := ws) hp
  have hi : geo.intersection = fun a b => a ∩ b := by funext a b; exact hg.intersection a b
  simp only [selectionSet, hi]
  generalize limitToExterior geo A' ((· + d) '' poly) ((· + d) '' ws) = B' at *
  generalize limitToExterior geo A poly ws = B at *
  have hfold : (ks.map fun h => (· + d) '' h).foldl (· ∩ ·) B' = (· + d) '' ks.foldl (· ∩ ·) B := by
    obtain ⟨k, ks, rfl⟩ := List.exists_cons_of_ne_nil hk
    rw [List.map_cons, List.foldl_cons, List.foldl_cons, cut_moved hB (hks k (by simp))]
    generalize B ∩ k = C
    clear hk hks hc
    induction ks generalizing C with
    | nil => rfl
    | cons k ks ih =>
      rw [List.map_cons, List.foldl_cons, List.foldl_cons, ← Set.image_inter (add_left_injective d), ih]
  have hpoly : B' ∩ (· + d) '' poly = (· + d) '' (B ∩ poly) := cut_moved hB hp
  rw [CutOut, ← foldl_cut] at hc
  rw [hfold, hpoly, hg.area]
  rcases hc with hc | ⟨h1, h2⟩
  · rw [if_neg (not_lt.2 hc.le), if_neg (not_lt.2 hc.le), hg.area, if_pos hc, if_pos hc]
  · rw [if_pos h1, if_pos h1, hg.area, if_pos h2, if_pos h2]

theorem perturb_moved (d x xg tc : Pt ℝ) (ds : List (Pt ℝ)) : perturb (x + d) (xg + d) (tc + d) ds = (perturb x xg tc ds).map (· + d) := by
  induction ds generalizing tc with
  | nil => simp only [perturb, isCollinear_moved]; split <;> rfl
  | cons e ds ih =>
    simp only [perturb, isCollinear_moved]
    split
    · rw [show tc + d + e = tc + e + d by abel, ih]
    · rfl

theorem sameSide_moved (hg : MovesWith d geo) (x xg prev : Pt ℝ) (first : Set (Pt ℝ)) (gs : List (Set (Pt ℝ))) :
    sameSide geo (x + d) (xg + d) (prev + d) ((· + d) '' first) (gs.map fun h => (· + d) '' h) =
      (sameSide geo x xg prev first gs).map fun h => (· + d) '' h := by
  induction gs with
  | nil => rfl
  | cons g gs ih =>
    simp only [List.map_cons, sameSide, hg.centroid, bind, Except.bind]
    cases geo.centroid g with
    | error e => rfl
    | ok c =>
      simp only [Except.map, isCcw_moved]
      split
      · rfl
      · exact ih

theorem sameSide_mem {x xg prev : Pt ℝ} {first g : Set (Pt ℝ)} {gs : List (Set (Pt ℝ))} (h : sameSide geo x xg prev first gs = .ok g) :
    g ∈ first :: gs := by
  induction gs with
  | nil => simp only [sameSide, Except.ok.injEq] at h; simp [h]
  | cons a gs ih =>
    simp only [sameSide, bind, Except.bind] at h
    split at h
    · cases h
    · split at h
      · simp only [Except.ok.injEq] at h; simp [h]
      · have := ih h
        simp only [List.mem_cons] at this ⊢
        tauto

theorem nearest_moved (hg : MovesWith d geo) (h : ∀ p ∈ W, p + d ∈ A' ↔ p ∈ A) {S : Set (Pt ℝ)} {c : Pt ℝ} (hc : geo.centroid S = .ok c) (h1 : c ∈ A)
    (h2 : c ∈ W) : geo.nearestToCentroid A S = .ok c ∧ geo.nearestToCentroid A' ((· + d) '' S) = .ok (c + d) := by
  refine ⟨hg.nearest _ _ _ hc h1, hg.nearest _ _ _ ?_ ((h c h2).2 h1)⟩
  rw [hg.centroid, hc]
  rfl

theorem centre_moved (hg : MovesWith d geo) (h : ∀ p ∈ W, p + d ∈ A' ↔ p ∈ A) (S : Set (Pt ℝ)) (x xg : Pt ℝ) (prev : Option (Pt ℝ)) (draws : List (Pt ℝ))
    (hc : ∀ g, (g = S ∨ ∃ gs, geo.split S x xg = .ok gs ∧ g ∈ gs) → ∃ c, geo.centroid g = .ok c ∧ c ∈ A ∧ c ∈ W) :
    triangleCentre geo A' ((· + d) '' S) (x + d) (xg + d) (prev.map (· + d)) draws =
      (triangleCentre geo A S x xg prev draws).map (Option.map (· + d)) := by
  cases prev with
  | none =>
    obtain ⟨c, h1, h2, h3⟩ := hc S (Or.inl rfl)
    obtain ⟨h4, h5⟩ := nearest_moved hg h h1 h2 h3
    simp only [triangleCentre, Option.map_none, h4, h5, bind, Except.bind, Except.map, perturb_moved]
  | some pr =>
    simp only [triangleCentre, Option.map_some, hg.contains, isCollinear_moved]
    split
    · rfl
    · simp only [hg.split, bind, Except.bind]
      cases hsp : geo.split S x xg with
      | error e => rfl
      | ok gs =>
        cases gs with
        | nil => rfl
        | cons first rest =>
          simp only [Except.map, List.map_cons, sameSide_moved hg]
          cases hss : sameSide geo x xg pr first rest with
          | error e => rfl
          | ok g =>
            obtain ⟨c, h1, h2, h3⟩ := hc g (Or.inr ⟨_, hsp, sameSide_mem hss⟩)
            obtain ⟨h4, h5⟩ := nearest_moved hg h h1 h2 h3
            simp only [h4, h5, Option.map_some]

theorem triangle_moved (d c : Pt ℝ) (L : ℝ) : equilateralTriangle (c + d) L 0 = movedTriple d (equilateralTriangle c L 0) := by
  simp only [equilateralTriangle, movedTriple, if_true, Prod.fst_add, Prod.snd_add]
  refine Prod.ext ?_ (Prod.ext ?_ ?_) <;> ext <;> simp only [Prod.fst_add, Prod.snd_add] <;> ring

theorem kernelTriangle_moved (hg : MovesWith d geo) (S : Set (Pt ℝ)) (c : Pt ℝ) (eps : ℝ) :
    kernelTriangle geo ((· + d) '' S) (c + d) eps = (kernelTriangle geo S c eps).map (movedTriple d) := by
  have e : borderDistance geo ((· + d) '' S) (c + d) = borderDistance geo S c := by
    simp only [borderDistance, hg.isPolygon, hg.exteriorDistance, hg.geoms, List.mapM_map, Function.comp_def]
  simp only [kernelTriangle, e, bind, Except.bind]
  cases borderDistance geo S c with
  | error e => rfl
  | ok r => simp only [Except.map, triangle_moved]

theorem kernelPoints_moved (hg : MovesWith d geo) (h : ∀ p ∈ W, p + d ∈ A' ↔ p ∈ A) {poly ws : Set (Pt ℝ)} (hp : poly ⊆ W) {ks : List (Set (Pt ℝ))}
    (hk : ks ≠ []) (hks : ∀ k ∈ ks, k ⊆ W) (hc : CutOut geo.area (limitToExterior geo A poly ws) poly ks) (x xg : Pt ℝ) (eps : ℝ)
    (prev : Option (Pt ℝ)) (draws : List (Pt ℝ)) (clock : Clock)
    (hcen : ∀ g, (g = selectionSet geo A poly ws (some ks) ∨ ∃ gs, geo.split (selectionSet geo A poly ws (some ks)) x xg = .ok gs ∧ g ∈ gs) →
      ∃ c, geo.centroid g = .ok c ∧ c ∈ A ∧ c ∈ W) :
    kernelPoints geo A' ((· + d) '' poly) ((· + d) '' ws) (some (ks.map fun h => (· + d) '' h)) (x + d) (xg + d) eps (prev.map (· + d)) draws clock =
      (kernelPoints geo A poly ws (some ks) x xg eps prev draws clock).map (Option.map (movedTriple d)) := by
  simp only [kernelPoints, selection_moved hg h hp hk hks hc, centre_moved hg h _ x xg prev draws hcen, bind, Except.bind]
  rcases triangleCentre geo A (selectionSet geo A poly ws (some ks)) x xg prev draws with e | _ | tc
  · rfl
  · rfl
  · simp only [Except.map, Option.map_some, kernelTriangle_moved hg]
    cases kernelTriangle geo (selectionSet geo A poly ws (some ks)) tc eps with
    | error e => rfl
    | ok T =>
      dsimp only
      cases timings clock <;> rfl

theorem union_moved (d : Pt ℝ) (l : List ConvObs) : unionOf (l.map (movedObs d)) = (· + d) '' unionOf l := by
  ext p
  simp only [unionOf, List.mem_map, Set.mem_ofPred_eq, Set.mem_image]
  constructor
  · rintro ⟨_, ⟨o, ho, rfl⟩, q, hq, rfl⟩
    exact ⟨q, ⟨o, ho, hq⟩, rfl⟩
  · rintro ⟨q, ⟨o, ho, hq⟩, rfl⟩
    exact ⟨_, ⟨o, ho, rfl⟩, q, hq, rfl⟩

end Points

end Starworlds
