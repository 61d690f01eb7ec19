import Verif.Proofs.Translate
import Verif.Props.Admissible

/-! # C123: a scene that is moved as a whole -/

namespace Starworlds

open Spec

/-- The whole call, when kernel points and the test for empty kernels move with the scene. -/
theorem C123_call_partial {d : Pt ℝ} {cfg cfg' : StarCfg} (hset : IsSetList cfg.setList) (hx : cfg'.x = cfg.x + d) (hg : cfg'.xg = cfg.xg + d)
    (hu : ∀ l, cfg'.unique (l.map (· + d)) = (cfg.unique l).map (· + d)) (hf : cfg'.hullFuel = cfg.hullFuel)
    (hs : cfg'.setList = cfg.setList)
    (ht : cfg'.timeoutInit = cfg.timeoutInit ∧ cfg'.timeoutIter = cfg.timeoutIter ∧ cfg'.timeoutConvex = cfg.timeoutConvex)
    (obstacles : List ConvObs) (hid : (obstacles.map (·.id)).Nodup)
    (ha : ∀ n l, Part obstacles l → cfg'.admEmpty n (l.map (movedObs d)) = cfg.admEmpty n l)
    (hsel : ∀ n l k, Part obstacles l → (n = 0 ∧ (∃ o, l = [o]) ∨ cfg.admEmpty n l = .ok false) →
      cfg'.select n (l.map (movedObs d)) (k.map (movedTriple d)) = (cfg.select n l k).map (movedTriple d))
    (hc : ∀ s, cfg'.isConvex (movedStar d s) = cfg.isConvex s)
    (par : Params) (prev : Option (List (Cl ConvObs ClusterObs Triple (Set (Pt ℝ))))) (fuel : Nat) :
    clusterAndStarify (starGeo cfg') par (prev.map (List.map (movedCluster d))) fuel (obstacles.map (movedObs d)) =
      (clusterAndStarify (starGeo cfg) par prev fuel obstacles).map (Except.map (movedResult d)) :=
  moved_call hset hx hg hu hf hs ht obstacles hid ha hsel hc par prev fuel

/-! ## The kernels -/

theorem free_moved (d : Pt ℝ) (O : Set (Pt ℝ)) (y : Pt ℝ) : freeFrom ((· + d) '' O) (y + d) = (· + d) '' freeFrom O y := by
  ext p
  have e : p = p - d + d := by abel
  rw [e, mem_moved]
  simp only [freeFrom, Set.mem_ofPred_eq, Set.forall_mem_image, OnSegment]
  refine forall₂_congr fun q _ => not_congr (exists_congr fun a => and_congr_right fun _ => and_congr_right fun _ => ?_)
  constructor
  · intro h
    apply add_right_cancel (b := d)
    rw [h]
    ext <;> simp only [Prod.fst_add, Prod.snd_add, Prod.smul_fst, Prod.smul_snd, Prod.fst_sub, Prod.snd_sub, smul_eq_mul] <;> ring
  · intro h
    rw [h]
    ext <;> simp only [Prod.fst_add, Prod.snd_add, Prod.smul_fst, Prod.smul_snd, Prod.fst_sub, Prod.snd_sub, smul_eq_mul] <;> ring

theorem closure_moved (d : Pt ℝ) (O : Set (Pt ℝ)) (y p : Pt ℝ) :
    p + d ∈ closure (freeFrom ((· + d) '' O) (y + d)) ↔ p ∈ closure (freeFrom O y) := by
  rw [free_moved, show closure ((· + d) '' freeFrom O y) = (· + d) '' closure (freeFrom O y) from
    ((Homeomorph.addRight d).image_closure _).symm, mem_moved]

theorem view_moved {d : Pt ℝ} {o : ConvObs} {y t s : Pt ℝ} (h : ViewOk o.polygon o.tangentPoints y t s) :
    ViewOk (movedObs d o).polygon (movedObs d o).tangentPoints (y + d) (t + d) (s + d) := by
  refine ⟨?_, ?_, ?_, ?_, ⟨?_, ?_, ?_, ?_⟩, ?_, ?_⟩
  · change Convex ℝ ((· + d) '' o.polygon)
    have := h.convex.translate d
    simpa only [add_comm d] using this
  · change (interior ((· + d) '' o.polygon)).Nonempty
    rw [interior_moved]
    exact h.inner.image _
  · exact fun h' => h.outside ((mem_moved d y _).1 h')
  · simp only [movedObs, add_sub_cancel_right, h.tangents, List.map_cons, List.map_nil]
  · exact (mem_moved d t _).2 h.seen.left_mem
  · exact (mem_moved d s _).2 h.seen.right_mem
  · rintro _ ⟨q, hq, rfl⟩
    simpa only [add_sub_add_right_eq_sub] using h.seen.right q hq
  · rintro _ ⟨q, hq, rfl⟩
    simpa only [add_sub_add_right_eq_sub] using h.seen.left q hq
  · simpa only [add_sub_add_right_eq_sub] using h.left
  · simpa only [add_sub_add_right_eq_sub] using h.right

theorem part_pairwise {obstacles l : List ConvObs} (h : Part obstacles l) {f : ConvObs → List (Pt ℝ)}
    (hp : List.Pairwise (fun u v => 1 / 10 ^ 10 < |cross u v|) (obstacles.flatMap f)) :
    List.Pairwise (fun u v => 1 / 10 ^ 10 < |cross u v|) (l.flatMap f) := by
  obtain ⟨l', h1, h2⟩ := (h.nodup.of_map _).subperm h.sub
  have e : List.Pairwise (fun u v => 1 / 10 ^ 10 < |cross u v|) (l'.flatMap f) := hp.sublist (h2.flatMap f)
  refine ((h1.flatMap_right f).pairwise_iff ?_).1 e
  intro u v h
  have : cross v u = -cross u v := by simp only [cross]; ring
  rw [this, abs_neg]
  exact h

/-- Robot and goal at `x` and `xg` are outside of the obstacles, and their tangents are in general
position. -/
structure CallSceneOk (cones : ConeGeo (Set (Pt ℝ))) (x xg : Pt ℝ) (obstacles : List ConvObs) (t s t' s' : ConvObs → Pt ℝ)
    (valid : List (Pt ℝ) → Prop) : Prop where
  cones : ConeGeoOk cones id valid
  robot : ∀ o ∈ obstacles, ViewOk o.polygon o.tangentPoints x (t o) (s o)
  goal : ∀ o ∈ obstacles, ViewOk o.polygon o.tangentPoints xg (t' o) (s' o)
  pairs : List.Pairwise (fun u v => 1 / 10 ^ 10 < |cross u v|) (obstacles.flatMap fun o => [x - t o, x - s o])
  pairs' : List.Pairwise (fun u v => 1 / 10 ^ 10 < |cross u v|) (obstacles.flatMap fun o => [xg - t' o, xg - s' o])

/-- Shapely accepts the rings of the cones of the obstacles, and of those that are made of them, when they are moved by `e`. -/
def ValidCones (x xg : Pt ℝ) (obstacles : List ConvObs) (t s t' s' : ConvObs → Pt ℝ) (valid : List (Pt ℝ) → Prop) (e : Pt ℝ) : Prop :=
  ∀ c, (c ∈ viewCones x t s obstacles ∨ c ∈ viewCones xg t' s' obstacles ∨ madeOf (viewCones x t s obstacles) c ∨
    madeOf (viewCones xg t' s' obstacles) c) → ∀ v, conePolygon ⟨c.apex + e, c.dir1, c.dir2⟩ 4 = .ok (some v) → valid v

/-- At least 1 from the border of the box. -/
def WellInBox (p : Pt ℝ) : Prop := |p.1| ≤ 10 ^ 6 - 1 ∧ |p.2| ≤ 10 ^ 6 - 1

theorem kernel_points_of {cones : ConeGeo (Set (Pt ℝ))} {x xg : Pt ℝ} {obstacles : List ConvObs} {t s t' s' : ConvObs → Pt ℝ}
    {valid : List (Pt ℝ) → Prop} (h : CallSceneOk cones x xg obstacles t s t' s' valid) (hx : WellInBox x) (hg : WellInBox xg)
    (hv : ValidCones x xg obstacles t s t' s' valid 0) {l : List ConvObs} (hl : Part obstacles l) (n : Nat) :
    ∃ A, admissibleKernels cones x xg n l = .ok A ∧ ∀ p, InBox p → p ≠ x → p ≠ xg →
      (p ∈ A ↔ ∀ o ∈ l, p ∈ closure (freeFrom o.polygon x) ∧ p ∈ closure (freeFrom o.polygon xg)) := by
  have mono : ∀ (y : Pt ℝ) (t s : ConvObs → Pt ℝ) c, madeOf (l.map fun o => ⟨y, y - t o, y - s o⟩) c → madeOf (viewCones y t s obstacles) c := by
    have sub : ∀ (y : Pt ℝ) (t s : ConvObs → Pt ℝ), ∀ d ∈ l.map fun o => (⟨y, y - t o, y - s o⟩ : Cone ℝ), d ∈ viewCones y t s obstacles := by
      intro y t s d hd
      obtain ⟨o, ho, rfl⟩ := List.mem_map.1 hd
      exact List.mem_map.2 ⟨o, hl.sub o ho, rfl⟩
    rintro y t s c ⟨⟨d0, m0, e0⟩, ⟨d1, m1, e1⟩, ⟨d2, m2, e2⟩, e3⟩
    exact ⟨⟨d0, sub y t s d0 m0, e0⟩, ⟨d1, sub y t s d1 m1, e1⟩, ⟨d2, sub y t s d2 m2, e2⟩, e3⟩
  have hv' : ∀ c, (c ∈ viewCones x t s obstacles ∨ c ∈ viewCones xg t' s' obstacles ∨ madeOf (viewCones x t s obstacles) c ∨
      madeOf (viewCones xg t' s' obstacles) c) → ∀ v, conePolygon c 4 = .ok (some v) → valid v := by
    intro c hc v h
    refine hv c hc v ?_
    rw [add_zero]
    exact h
  have loop : ∃ A, admissibleLoop cones x xg [] l = .ok A ∧ ∀ p, InBox p → p ≠ x → p ≠ xg →
      (p ∈ A ↔ ∀ o ∈ l, p ∈ closure (freeFrom o.polygon x) ∧ p ∈ closure (freeFrom o.polygon xg)) := by
    obtain ⟨A, h1, h2⟩ := C93_loop_partial h.cones hl.nonempty hx.1 hx.2 hg.1 hg.2 (fun o ho => h.robot o (hl.sub o ho))
      (fun o ho => h.goal o (hl.sub o ho)) (part_pairwise hl h.pairs) (part_pairwise hl h.pairs')
      (fun c hc => hv' c (hc.elim (fun h => Or.inr (Or.inr (Or.inl (mono _ _ _ _ h)))) (fun h => Or.inr (Or.inr (Or.inr (mono _ _ _ _ h)))))) []
    exact ⟨A, h1, fun p hp hpx hpg => ⟨(h2 p hp).1, (h2 p hp).2 rfl hpx hpg⟩⟩
  unfold admissibleKernels
  split
  · rename_i o
    have ho := hl.sub o (by simp)
    obtain ⟨A, h1, h2⟩ := C93_first_partial h.cones hx.1 hx.2 hg.1 hg.2 (h.robot o ho) (h.goal o ho) (by
      intro c hc
      simp only [List.mem_cons, List.not_mem_nil, or_false] at hc
      rcases hc with rfl | rfl
      · exact hv' _ (Or.inl (List.mem_map.2 ⟨o, ho, rfl⟩))
      · exact hv' _ (Or.inr (Or.inl (List.mem_map.2 ⟨o, ho, rfl⟩))))
    refine ⟨A, h1, fun p hp _ _ => ?_⟩
    rw [show p ∈ A ↔ _ from h2 p hp]
    simp
  · exact loop

theorem scene_moved {cones : ConeGeo (Set (Pt ℝ))} {x xg : Pt ℝ} {obstacles : List ConvObs} {t s t' s' : ConvObs → Pt ℝ}
    {valid : List (Pt ℝ) → Prop} (h : CallSceneOk cones x xg obstacles t s t' s' valid) (d : Pt ℝ)
    (hv : ValidCones x xg obstacles t s t' s' valid d) :
    CallSceneOk cones (x + d) (xg + d) (obstacles.map (movedObs d)) (fun o => t (movedObs (-d) o) + d) (fun o => s (movedObs (-d) o) + d)
      (fun o => t' (movedObs (-d) o) + d) (fun o => s' (movedObs (-d) o) + d) valid ∧
    ValidCones (x + d) (xg + d) (obstacles.map (movedObs d)) (fun o => t (movedObs (-d) o) + d) (fun o => s (movedObs (-d) o) + d)
      (fun o => t' (movedObs (-d) o) + d) (fun o => s' (movedObs (-d) o) + d) valid 0 := by
  have ev : ∀ (y : Pt ℝ) (t s : ConvObs → Pt ℝ), viewCones (y + d) (fun o => t (movedObs (-d) o) + d) (fun o => s (movedObs (-d) o) + d)
      (obstacles.map (movedObs d)) = (viewCones y t s obstacles).map fun c => ⟨c.apex + d, c.dir1, c.dir2⟩ := by
    intro y t s
    simp only [viewCones, List.map_map, Function.comp_def, moved_back, add_sub_add_right_eq_sub]
  have em : ∀ (cs : List (Cone ℝ)) c, madeOf (cs.map fun c => ⟨c.apex + d, c.dir1, c.dir2⟩) c →
      madeOf cs ⟨c.apex - d, c.dir1, c.dir2⟩ := by
    rintro cs c ⟨⟨d0, m0, e0⟩, ⟨d1, m1, e1⟩, ⟨d2, m2, e2⟩, e3⟩
    obtain ⟨d0, n0, rfl⟩ := List.mem_map.1 m0
    obtain ⟨d1, n1, rfl⟩ := List.mem_map.1 m1
    obtain ⟨d2, n2, rfl⟩ := List.mem_map.1 m2
    exact ⟨⟨d0, n0, by rw [e0]; exact add_sub_cancel_right _ _⟩, ⟨d1, n1, e1⟩, ⟨d2, n2, e2⟩, e3⟩
  refine ⟨⟨h.cones, ?_, ?_, ?_, ?_⟩, ?_⟩
  · intro o ho
    obtain ⟨o, ho', rfl⟩ := List.mem_map.1 ho
    rw [moved_back]
    exact view_moved (h.robot o ho')
  · intro o ho
    obtain ⟨o, ho', rfl⟩ := List.mem_map.1 ho
    rw [moved_back]
    exact view_moved (h.goal o ho')
  · simpa only [List.flatMap_map, moved_back, add_sub_add_right_eq_sub] using h.pairs
  · simpa only [List.flatMap_map, moved_back, add_sub_add_right_eq_sub] using h.pairs'
  · intro c hc v hcv
    rw [ev, ev] at hc
    rw [add_zero] at hcv
    refine hv ⟨c.apex - d, c.dir1, c.dir2⟩ ?_ v (by rw [sub_add_cancel]; exact hcv)
    rcases hc with hc | hc | hc | hc
    · obtain ⟨c, hc, rfl⟩ := List.mem_map.1 hc
      exact Or.inl (by rwa [show (⟨(c.apex + d) - d, c.dir1, c.dir2⟩ : Cone ℝ) = c by rw [add_sub_cancel_right]])
    · obtain ⟨c, hc, rfl⟩ := List.mem_map.1 hc
      exact Or.inr (Or.inl (by rwa [show (⟨(c.apex + d) - d, c.dir1, c.dir2⟩ : Cone ℝ) = c by rw [add_sub_cancel_right]]))
    · exact Or.inr (Or.inr (Or.inl (em _ _ hc)))
    · exact Or.inr (Or.inr (Or.inr (em _ _ hc)))

/-- In the box, the admissible kernel of the moved obstacles is the moved admissible kernel. -/
theorem C123_kernel_partial {cones : ConeGeo (Set (Pt ℝ))} {x xg d : Pt ℝ} {obstacles : List ConvObs} {t s t' s' : ConvObs → Pt ℝ}
    {valid : List (Pt ℝ) → Prop} (h : CallSceneOk cones x xg obstacles t s t' s' valid)
    (hx : WellInBox x) (hg : WellInBox xg) (hx' : WellInBox (x + d)) (hg' : WellInBox (xg + d))
    (hv : ValidCones x xg obstacles t s t' s' valid 0) (hv' : ValidCones x xg obstacles t s t' s' valid d)
    {l : List ConvObs} (hl : Part obstacles l) (n : Nat) :
    ∃ A A', admissibleKernels cones x xg n l = .ok A ∧ admissibleKernels cones (x + d) (xg + d) n (l.map (movedObs d)) = .ok A' ∧
      ∀ p, InBox p → InBox (p + d) → p ≠ x → p ≠ xg → (p + d ∈ A' ↔ p ∈ A) := by
  obtain ⟨A, h1, h2⟩ := kernel_points_of h hx hg hv hl n
  obtain ⟨hm, hm'⟩ := scene_moved h d hv'
  obtain ⟨A', h3, h4⟩ := kernel_points_of hm hx' hg' hm' ((part_moved d _ _).2 hl) n
  refine ⟨A, A', h1, h3, fun p hp hp' hpx hpg => ?_⟩
  rw [h2 p hp hpx hpg, h4 (p + d) hp' (by simpa using hpx) (by simpa using hpg)]
  simp only [List.forall_mem_map]
  refine forall₂_congr fun o _ => ?_
  exact and_congr (closure_moved d _ x p) (closure_moved d _ xg p)

/-- The whole call with the kernels and the kernel points that are computed. -/
theorem C123_program_partial {d : Pt ℝ} {cfg cfg' : StarCfg} (hset : IsSetList cfg.setList) (hx : cfg'.x = cfg.x + d) (hg : cfg'.xg = cfg.xg + d)
    (hu : ∀ l, cfg'.unique (l.map (· + d)) = (cfg.unique l).map (· + d)) (hf : cfg'.hullFuel = cfg.hullFuel)
    (hs : cfg'.setList = cfg.setList)
    (ht : cfg'.timeoutInit = cfg.timeoutInit ∧ cfg'.timeoutIter = cfg.timeoutIter ∧ cfg'.timeoutConvex = cfg.timeoutConvex)
    (hc : ∀ s, cfg'.isConvex (movedStar d s) = cfg.isConvex s)
    (obstacles : List ConvObs) (hid : (obstacles.map (·.id)).Nodup)
    (ha : ∀ n l, Part obstacles l → cfg'.admEmpty n (l.map (movedObs d)) = cfg.admEmpty n l)
    {cones : ConeGeo (Set (Pt ℝ))} {t s t' s' : ConvObs → Pt ℝ} {valid : List (Pt ℝ) → Prop}
    (h : CallSceneOk cones cfg.x cfg.xg obstacles t s t' s' valid)
    (hx1 : WellInBox cfg.x) (hg1 : WellInBox cfg.xg) (hx2 : WellInBox (cfg.x + d)) (hg2 : WellInBox (cfg.xg + d))
    (hv : ValidCones cfg.x cfg.xg obstacles t s t' s' valid 0) (hv' : ValidCones cfg.x cfg.xg obstacles t s t' s' valid d)
    (hbox : ∀ o ∈ obstacles, ∀ p ∈ o.polygon, InBox p ∧ InBox (p + d))
    (geo : PolyOps (Set (Pt ℝ))) (hgeo : MovesWith d geo) (ws : Set (Pt ℝ)) (eps : ℝ)
    (draws draws' : Nat → List ConvObs → List (Pt ℝ)) (clock clock' : Nat → List ConvObs → Clock)
    (hd : ∀ n l, draws' n (l.map (movedObs d)) = draws n l) (hcl : ∀ n l, clock' n (l.map (movedObs d)) = clock n l)
    (hsel : cfg.select = selectPoints geo (admissibleKernels cones cfg.x cfg.xg) unionOf ws (·.polygon) cfg.x cfg.xg eps draws clock)
    (hsel' : cfg'.select = selectPoints geo (admissibleKernels cones cfg'.x cfg'.xg) unionOf ((· + d) '' ws) (·.polygon) cfg'.x cfg'.xg eps
      draws' clock')
    (hin : ∀ n l A, Part obstacles l → (n = 0 ∧ (∃ o, l = [o]) ∨ cfg.admEmpty n l = .ok false) →
      admissibleKernels cones cfg.x cfg.xg n l = .ok A →
      CutOut geo.area (limitToExterior geo A (unionOf l) ws) (unionOf l) (l.map (·.polygon)) ∧
      ∀ g, (g = selectionSet geo A (unionOf l) ws (some (l.map (·.polygon))) ∨
          ∃ gs, geo.split (selectionSet geo A (unionOf l) ws (some (l.map (·.polygon)))) cfg.x cfg.xg = .ok gs ∧ g ∈ gs) →
        ∃ c, geo.centroid g = .ok c ∧ c ∈ A ∧ InBox c ∧ InBox (c + d) ∧ c ≠ cfg.x ∧ c ≠ cfg.xg)
    (par : Params) (prev : Option (List (Cl ConvObs ClusterObs Triple (Set (Pt ℝ))))) (fuel : Nat) :
    clusterAndStarify (starGeo cfg') par (prev.map (List.map (movedCluster d))) fuel (obstacles.map (movedObs d)) =
      (clusterAndStarify (starGeo cfg) par prev fuel obstacles).map (Except.map (movedResult d)) := by
  refine moved_call hset hx hg hu hf hs ht obstacles hid ha ?_ hc par prev fuel
  intro n l k hl hasked
  obtain ⟨A, A', h1, h2, h3⟩ := C123_kernel_partial h hx1 hg1 hx2 hg2 hv hv' hl n
  obtain ⟨hcut, hcen⟩ := hin n l A hl hasked h1
  rw [hsel, hsel', hx, hg]
  simp only [selectPoints, h1, h2, bind, Except.bind, hd, hcl]
  let W : Set (Pt ℝ) := {p | InBox p ∧ InBox (p + d) ∧ p ≠ cfg.x ∧ p ≠ cfg.xg}
  have hpoly : ∀ o ∈ l, o.polygon ⊆ W := by
    intro o ho p hp
    obtain ⟨b1, b2⟩ := hbox o (hl.sub o ho) p hp
    exact ⟨b1, b2, fun e => (h.robot o (hl.sub o ho)).outside (e ▸ hp), fun e => (h.goal o (hl.sub o ho)).outside (e ▸ hp)⟩
  have key := kernelPoints_moved (W := W) hgeo (fun p hp => h3 p hp.1 hp.2.1 hp.2.2.1 hp.2.2.2) (poly := unionOf l) (ws := ws)
    (fun p hp => by obtain ⟨o, ho, hp⟩ := hp; exact hpoly o ho hp) (ks := l.map (·.polygon)) (by simpa using hl.nonempty)
    (by intro P hP; obtain ⟨o, ho, rfl⟩ := List.mem_map.1 hP; exact hpoly o ho) hcut cfg.x cfg.xg eps (k.map Triple.mean) (draws n l) (clock n l)
    (fun g hg => by obtain ⟨c, c1, c2, c3⟩ := hcen g hg; exact ⟨c, c1, c2, c3⟩)
  have e1 : (l.map (movedObs d)).map (·.polygon) = (l.map (·.polygon)).map fun h => (· + d) '' h := by
    simp only [List.map_map]; rfl
  have e2 : (k.map (movedTriple d)).map Triple.mean = (k.map Triple.mean).map (· + d) := by
    cases k with
    | none => rfl
    | some T => simp only [Option.map_some, mean_moved]
  rw [union_moved, e1, e2, key]
  generalize kernelPoints geo A (unionOf l) ws (some (l.map (·.polygon))) cfg.x cfg.xg eps (k.map Triple.mean) (draws n l) (clock n l) = r
  rcases r with e | _ | T <;> rfl

end Starworlds
