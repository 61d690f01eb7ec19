import Verif.Props.StarHull

/-! # C73: kernel_starshaped_hull of the kinds of obstacles -/

namespace Starworlds

open Spec

/-- The results of a list of computations that all succeed. -/
theorem mapM_results {α β : Type} {f : α → Except PyErr (Option β)} {h : α → β} : ∀ {l : List α},
    (∀ a ∈ l, f a = .ok (some (h a))) → l.mapM f = .ok (l.map fun a => some (h a))
  | [], _ => rfl
  | a :: l, hl => by
    simp [List.mapM_cons, hl a List.mem_cons_self, mapM_results (l := l) fun b hb => hl b (List.mem_cons_of_mem _ hb), bind,
      Except.bind, pure, Except.pure]

/-- C73, partial: if the hull of each obstacle of the list can be computed, so can that of the list: it consists of exactly
these polygons, in order, and is None if all are empty. Missing: obstacles that are neither convex nor polygons. -/
theorem C73_list_partial (unique : List (Pt ℝ) → List (Pt ℝ)) (obs : List (HullObs ℝ)) (ks : List (Pt ℝ)) (fuel : Nat)
    (hull : HullObs ℝ → List (Pt ℝ)) (h : ∀ o ∈ obs, kernelHullOne unique ks fuel o = .ok (some (hull o))) :
    (∀ o ∈ obs, o ≠ .other) ∧
    ((∀ o ∈ obs, hull o = []) → kernelHull unique obs ks fuel = .ok (some none)) ∧
    ((∃ o ∈ obs, hull o ≠ []) → kernelHull unique obs ks fuel = .ok (some (some (obs.map hull)))) := by
  have hany : ((obs.map fun o => some (hull o)).any fun x => x.isNone) = false := by
    rw [List.any_eq_false]
    intro x hx
    obtain ⟨o, _, rfl⟩ := List.mem_map.1 hx
    simp
  have hfm : (obs.map fun o => some (hull o)).filterMap id = obs.map hull := by
    rw [List.filterMap_map]
    exact List.filterMap_eq_map' ▸ rfl
  refine ⟨?_, ?_, ?_⟩
  · rintro o ho rfl
    have := h _ ho
    simp [kernelHullOne] at this
  · intro he
    have hall : (obs.map hull).all (fun v => v.isEmpty) = true := by
      rw [List.all_eq_true]
      intro v hv
      obtain ⟨o, ho, rfl⟩ := List.mem_map.1 hv
      rw [he o ho]; rfl
    simp only [kernelHull, mapM_results h, bind, Except.bind, hany, Bool.false_eq_true, if_false, hfm, hall, if_true]
  · rintro ⟨o, ho, hne⟩
    have hall : (obs.map hull).all (fun v => v.isEmpty) = false := by
      rw [← Bool.not_eq_true, List.all_eq_true]
      intro hc
      exact hne (List.isEmpty_iff.1 (hc _ (List.mem_map.2 ⟨o, ho, rfl⟩)))
    simp only [kernelHull, mapM_results h, bind, Except.bind, hany, Bool.false_eq_true, if_false, hfm, hall]

/-- C73, partial: for a list of polygons the hulls are those of `polygon_kernel_starshaped_hull` for all of the kernel points. -/
theorem C73_polygons_partial (unique : List (Pt ℝ) → List (Pt ℝ))
    (hulls : List (List (Pt ℝ) → Except PyErr (Option (List (Pt ℝ))))) (ks : List (Pt ℝ)) (fuel : Nat)
    (P : (List (Pt ℝ) → Except PyErr (Option (List (Pt ℝ)))) → List (Pt ℝ)) (h : ∀ f ∈ hulls, f ks = .ok (some (P f)))
    (hne : ∃ f ∈ hulls, P f ≠ []) :
    kernelHull unique (hulls.map .polygon) ks fuel = .ok (some (some (hulls.map P))) := by
  have := (C73_list_partial unique (hulls.map .polygon) ks fuel (fun o => match o with
    | .polygon f => P f
    | _ => []) (by
      intro o ho
      obtain ⟨f, hf, rfl⟩ := List.mem_map.1 ho
      exact h f hf)).2.2 (by
      obtain ⟨f, hf, hn⟩ := hne
      exact ⟨_, List.mem_map.2 ⟨f, hf, rfl⟩, hn⟩)
  rw [this, List.map_map]
  rfl

/-- The hull function is applied to the kernel points. -/
example : kernelHull (K := ℝ) id [.polygon fun ks => .ok (some ((0, 0) :: ks))] [(1, 0), (0, 1)] 0 =
    .ok (some (some [[(0, 0), (1, 0), (0, 1)]])) :=
  C73_polygons_partial id [fun ks => .ok (some ((0, 0) :: ks))] [(1, 0), (0, 1)] 0 (fun _ => [(0, 0), (1, 0), (0, 1)])
    (by simp) (by simp)

/-- C73 is false: for an obstacle that is neither convex nor a polygon, such as a combination, alone or in a list after
obstacles whose hull can be computed, TypeError is raised. -/
theorem C73_other_false (unique : List (Pt ℝ) → List (Pt ℝ)) (ks : List (Pt ℝ)) (fuel : Nat) :
    kernelHullOne unique ks fuel (.other : HullObs ℝ) = .error .typeError ∧
    ∀ (obs rest : List (HullObs ℝ)) (hull : HullObs ℝ → List (Pt ℝ)),
      (∀ o ∈ obs, kernelHullOne unique ks fuel o = .ok (some (hull o))) →
      kernelHull unique (obs ++ .other :: rest) ks fuel = .error .typeError := by
  refine ⟨rfl, fun obs rest hull h => ?_⟩
  have : (obs ++ .other :: rest).mapM (kernelHullOne unique ks fuel) = .error .typeError := by
    rw [List.mapM_append, mapM_results h]
    rfl
  simp only [kernelHull, this, bind, Except.bind]

/-- Two polygons with known hulls, the first empty. -/
example : kernelHull (K := ℝ) id [.polygon fun _ => .ok (some []), .polygon fun _ => .ok (some [(0, 0), (1, 0), (0, 1)])] [] 0 =
    .ok (some (some [[], [(0, 0), (1, 0), (0, 1)]])) := by
  simp [kernelHull, kernelHullOne, List.mapM_cons, bind, Except.bind, pure, Except.pure]

/-- The hypotheses of `C73_list_partial` hold for the same polygon twice. -/
example : kernelHull (K := ℝ) id [.polygon fun _ => .ok (some [(0, 0), (1, 0), (0, 1)]),
    .polygon fun _ => .ok (some [(0, 0), (1, 0), (0, 1)])] [] 0 =
    .ok (some (some [[(0, 0), (1, 0), (0, 1)], [(0, 0), (1, 0), (0, 1)]])) :=
  (C73_list_partial id _ [] 0 (fun _ => [(0, 0), (1, 0), (0, 1)]) (by
    intro o ho
    simp only [List.mem_cons, List.not_mem_nil, or_false, or_self] at ho
    rw [ho]; rfl)).2.2 ⟨_, List.mem_cons_self, by simp⟩

end Starworlds
