import Verif.Spec.Repeat
import Verif.Proofs.Repeat
import Verif.Proofs.ClusterMade
import Verif.Props.StarifyHull
import Verif.Props.ConesExample

/-! # C122: repeating a call in an unchanged scene -/

namespace Starworlds

open Real Spec

section Program

variable {Ob Star KP P : Type}

/-- C122 (partial): a call that completes without iteration limit, for obstacles with different ids, is repeated with its
clusters as previous clusters and another clock. If `compute_kernel_points` chooses the kernel points of each of these
clusters again, in the iteration in which it has chosen them, the result is the same in every respect: clusters, kernel points, cluster obstacles, polygons,
iterations and history. The first call may have had previous clusters itself, as long as each has a namesake in the
result. Missing: that the kernel points are chosen again, see below. -/
theorem C122_partial (g : Geo Ob Star KP P) (hs : IsSetList g.setList) (par : Params) (hmax : par.maxIterations = none)
    (prev : Option (List (Cl Ob Star KP P))) (fuel : Nat) (obstacles : List Ob) (hid : (obstacles.map g.id).Nodup)
    (r : Res Ob Star KP P) (h : clusterAndStarify g par prev fuel obstacles = some (.ok r)) (hf : r.flag = .complete)
    (hold : ∀ l, prev = some l → ∀ d ∈ l, ∃ f ∈ r.clusters, f.name = d.name)
    (again : ∀ f ∈ r.clusters, ∀ kp, f.kernelPoints = some kp → ∀ n old,
      g.kernelSel n f.obstacles old = .ok kp → g.kernelSel n f.obstacles (some kp) = .ok kp)
    (a b c : Nat → Bool) (ha : ∀ i, a i = false) (hb : ∀ i, b i = false) (hc : ∀ i, c i = false) :
    clusterAndStarify { g with timeoutInit := a, timeoutIter := b, timeoutConvex := c } par (some r.clusters) fuel obstacles =
      some (.ok r) :=
  withClock_complete ha hb hc (clusterAndStarify_again hs hid hmax h (by rw [hf]; simp) again hold) hf

/-- C122 (partial): and so does every further call. -/
theorem C122_forever_partial (g : Geo Ob Star KP P) (hs : IsSetList g.setList) (par : Params) (hmax : par.maxIterations = none)
    (fuel : Nat) (obstacles : List Ob) (hid : (obstacles.map g.id).Nodup) (r : Nat → Res Ob Star KP P)
    (h0 : clusterAndStarify g par none fuel obstacles = some (.ok (r 0))) (hf : (r 0).flag = .complete)
    (again : ∀ f ∈ (r 0).clusters, ∀ kp, f.kernelPoints = some kp → ∀ n old,
      g.kernelSel n f.obstacles old = .ok kp → g.kernelSel n f.obstacles (some kp) = .ok kp)
    (clock : Nat → Nat → Nat → Bool) (hc : ∀ k m i, clock k m i = false)
    (h : ∀ k, clusterAndStarify { g with timeoutInit := clock k 0, timeoutIter := clock k 1, timeoutConvex := clock k 2 } par
      (some (r k).clusters) fuel obstacles = some (.ok (r (k + 1)))) : ∀ k, r k = r 0 := by
  intro k
  induction k with
  | zero => rfl
  | succ k ih =>
    have e := C122_partial g hs par hmax none fuel obstacles hid (r 0) h0 hf (by simp) again _ _ _ (hc k 0) (hc k 1) (hc k 2)
    have e' := h k
    rw [ih] at e'
    rw [e] at e'
    injection e' with e'
    injection e' with e'
    exact e'.symm

/-- As `demoGeo`, with numbers for the kernel points: new ones are the number of the iteration, previous ones are taken
again. -/
def repeatGeo : Geo Nat (List Nat) Nat (List Nat) where
  id := some
  prim o := [o]
  starPoly := id
  inter := demoMeet
  setList := List.dedup
  timeoutInit _ := false
  timeoutIter _ := false
  timeoutConvex _ := false
  robotFree _ := .ok true
  goalFree _ := .ok true
  exclude _ := .ok ()
  admEmpty _ _ := .ok false
  kernelSel n _ prev := .ok (prev.getD n)
  firstStar o _ := .ok [o]
  loopStar _ l _ := .ok l
  isConvex _ := false
  hullOf p := .ok p
  blocked _ := false
  hullStar p _ := p

set_option maxRecDepth 4000 in
/-- The clusters are {0, 1, 2} and {3}, found in the third iteration, with kernel points 2 and 0; the repeated calls return the
same. -/
example : ∃ r, clusterAndStarify repeatGeo demoPar none 4 [0, 1, 2, 3] = some (.ok r) ∧
    r.clusters.map (fun c => (c.obstacles, c.kernelPoints)) = [([0, 1, 2], some 2), ([3], some 0)] ∧
    clusterAndStarify repeatGeo demoPar (some r.clusters) 4 [0, 1, 2, 3] = some (.ok r) := by
  have hd : (match clusterAndStarify repeatGeo demoPar none 4 [0, 1, 2, 3] with
      | some (.ok r) => decide (r.clusters.map (fun c => (c.obstacles, c.kernelPoints)) =
          [([0, 1, 2], some 2), ([3], some 0)] ∧ r.flag = .complete)
      | _ => false) = true := by decide +kernel
  split at hd
  · rename_i r hr
    obtain ⟨h1, h2⟩ := of_decide_eq_true hd
    refine ⟨r, hr, h1, ?_⟩
    exact C122_partial repeatGeo (fun l => by simp [repeatGeo, List.nodup_dedup]) demoPar rfl none 4 [0, 1, 2, 3]
      (by decide) r hr h2 (by simp) (fun _ _ _ _ _ _ _ => rfl) _ _ _ (fun _ => rfl) (fun _ => rfl) (fun _ => rfl)
  · cases hd

end Program

section Points

variable {G : Type}

/-- What the kernel points are made of. -/
theorem kernel_centre {geo : PolyOps G} {adm poly ws : G} {kernels : Option (List G)} {x xg : Pt ℝ} {eps : ℝ}
    {prev : Option (Pt ℝ)} {draws : List (Pt ℝ)} {clock : Clock} {T : Pt ℝ × Pt ℝ × Pt ℝ}
    (h : kernelPoints geo adm poly ws kernels x xg eps prev draws clock = .ok (some T)) :
    triangleCentre geo adm (selectionSet geo adm poly ws kernels) x xg prev draws = .ok (some (centreOf T)) ∧
      kernelTriangle geo (selectionSet geo adm poly ws kernels) (centreOf T) eps = .ok T := by
  obtain ⟨tc, h1, h2⟩ := compute_steps h
  have e : centreOf T = tc := by
    simp only [kernelTriangle, bind, Except.bind] at h2
    split at h2
    · cases h2
    · injection h2 with h2
      rw [centreOf, ← h2]
      exact (C10_centroid_partial _ _ 0 (Or.inl rfl)).1
  rw [e]
  exact ⟨h1, h2⟩

variable (geo : PolyOps G) (adm poly ws : G) (kernels : Option (List G)) (x xg : Pt ℝ) (eps : ℝ) (draws : Nat → List (Pt ℝ))
  (clock : Nat → Clock) (T : Nat → Pt ℝ × Pt ℝ × Pt ℝ)

/-- Calls of `compute_kernel_points` in an unchanged scene, each with the kernel points of the call before. -/
def Spec.Calls : Prop := ∀ k, kernelPoints geo adm poly ws kernels x xg eps (some (centreOf (T k))) (draws k) (clock k) =
  .ok (some (T (k + 1)))

/-- The centre is inside of the selection set and not near the line through robot and goal. -/
def Spec.Keeps (c : Pt ℝ) : Prop := geo.contains (selectionSet geo adm poly ws kernels) c = true ∧ ¬ NearLine x xg c

variable {geo adm poly ws kernels x xg eps draws clock T}

theorem calls_keep (h : Calls geo adm poly ws kernels x xg eps draws clock T) (k : Nat)
    (hk : Keeps geo adm poly ws kernels x xg (centreOf (T k))) : centreOf (T (k + 1)) = centreOf (T k) := by
  have h1 := (kernel_centre (h k)).1
  rw [C74_kept geo adm _ x xg _ _ hk.1 hk.2] at h1
  injection h1 with h1
  injection h1 with h1
  exact h1.symm

theorem sameSide_congr (p q : Pt ℝ) (hpq : isCcw x xg p = isCcw x xg q) (first : G) (gs : List G) :
    sameSide geo x xg p first gs = sameSide geo x xg q first gs := by
  induction gs with
  | nil => rfl
  | cons g gs ih => simp only [sameSide, hpq, ih]

/-- A centre that is not kept matters only by its side. -/
theorem triangleCentre_congr {S : G} {p q : Pt ℝ} {d d' : List (Pt ℝ)} (hpq : isCcw x xg p = isCcw x xg q)
    (hp : ¬ (geo.contains S p = true ∧ ¬ NearLine x xg p)) (hq : ¬ (geo.contains S q = true ∧ ¬ NearLine x xg q)) :
    triangleCentre geo adm S x xg (some p) d = triangleCentre geo adm S x xg (some q) d' := by
  have hc : ∀ p, ¬ (geo.contains S p = true ∧ ¬ NearLine x xg p) → (geo.contains S p && !isCollinear x xg p) = false := by
    intro p hp
    rw [← isCollinear_near] at hp
    cases h1 : geo.contains S p <;> cases h2 : isCollinear x xg p <;> simp_all
  simp only [triangleCentre, hc p hp, hc q hq, Bool.false_eq_true, if_false, bind, Except.bind]
  cases geo.split S x xg with
  | error e => rfl
  | ok parts =>
    cases parts with
    | nil => rfl
    | cons first rest => simp only [sameSide_congr p q hpq]

theorem calls_side (h : Calls geo adm poly ws kernels x xg eps draws clock T) (k j : Nat)
    (hk : ¬ Keeps geo adm poly ws kernels x xg (centreOf (T k))) (hj : ¬ Keeps geo adm poly ws kernels x xg (centreOf (T j)))
    (hs : isCcw x xg (centreOf (T k)) = isCcw x xg (centreOf (T j))) : centreOf (T (k + 1)) = centreOf (T (j + 1)) := by
  have h1 := (kernel_centre (h k)).1
  rw [triangleCentre_congr (d' := draws j) hs hk hj, (kernel_centre (h j)).1] at h1
  injection h1 with h1
  injection h1 with h1
  exact h1.symm

/-- The kernel points of a call are determined by their centre. -/
theorem calls_eq (h : Calls geo adm poly ws kernels x xg eps draws clock T) {k j : Nat}
    (hc : centreOf (T (k + 1)) = centreOf (T (j + 1))) : T (k + 1) = T (j + 1) := by
  have h1 := (kernel_centre (h k)).2
  rw [hc, (kernel_centre (h j)).2] at h1
  injection h1 with h1
  exact h1.symm

/-- C122 (partial): once the centre of the kernel points is inside of the selection set and not near the line through robot
and goal, it stays where it is in all further calls, and from the next call on the kernel points stay the same; if they
are from a call in this scene, they stay the same at once. Missing: centres that are outside of the selection set. -/
theorem C122_kept_partial (h : Calls geo adm poly ws kernels x xg eps draws clock T) (k : Nat)
    (hk : Keeps geo adm poly ws kernels x xg (centreOf (T k))) (j : Nat) :
    centreOf (T (k + j)) = centreOf (T k) ∧ T (k + 1 + j) = T (k + 1) ∧ (0 < k → T (k + j) = T k) := by
  have hc : ∀ j, centreOf (T (k + j)) = centreOf (T k) := by
    intro j
    induction j with
    | zero => rfl
    | succ j ih => exact (calls_keep h (k + j) (by rw [ih]; exact hk)).trans ih
  refine ⟨hc j, ?_, ?_⟩
  · have e : k + 1 + j = k + j + 1 := by omega
    rw [e]
    exact calls_eq h ((hc (j + 1)).trans (hc 1).symm)
  · intro h0
    obtain ⟨i, rfl⟩ : ∃ i, k = i + 1 := ⟨k - 1, by omega⟩
    have e : i + 1 + j = i + j + 1 := by omega
    rw [e]
    refine calls_eq h ?_
    rw [← e]
    exact hc j

/-- C122 (partial): the centre stays where it is through calls in changing scenes as well, as long as it is inside of the
selection set of the call and not near the line through the robot and the goal of the call. -/
theorem C122_moving_partial (geo : PolyOps G) (adm poly ws : Nat → G) (kernels : Nat → Option (List G)) (x xg : Nat → Pt ℝ)
    (eps : Nat → ℝ) (draws : Nat → List (Pt ℝ)) (clock : Nat → Clock) (T : Nat → Pt ℝ × Pt ℝ × Pt ℝ)
    (h : ∀ k, kernelPoints geo (adm k) (poly k) (ws k) (kernels k) (x k) (xg k) (eps k) (some (centreOf (T k))) (draws k)
      (clock k) = .ok (some (T (k + 1))))
    (hk : ∀ k, geo.contains (selectionSet geo (adm k) (poly k) (ws k) (kernels k)) (centreOf (T 0)) = true ∧
      ¬ NearLine (x k) (xg k) (centreOf (T 0))) : ∀ k, centreOf (T k) = centreOf (T 0) := by
  intro k
  induction k with
  | zero => rfl
  | succ k ih =>
    have h1 := (kernel_centre (h k)).1
    rw [ih, C74_kept geo _ _ _ _ _ _ (hk k).1 (hk k).2] at h1
    injection h1 with h1
    injection h1 with h1
    exact h1.symm

/-- C122: in every unchanged scene the kernel points are, from the second call with previous kernel points on, those of
the call before the last: there are at most two triangles, and they alternate or stay the same. -/
theorem C122_two (h : Calls geo adm poly ws kernels x xg eps draws clock T) (k : Nat) : T (k + 4) = T (k + 2) := by
  refine calls_eq (k := k + 3) (j := k + 1) h ?_
  have keep := fun i => calls_keep h i
  have side := fun i j => calls_side h i j
  by_cases k2 : Keeps geo adm poly ws kernels x xg (centreOf (T (k + 2)))
  · have e3 := keep _ k2
    exact (keep (k + 3) (by rw [e3]; exact k2)).trans e3
  have k1 : ¬ Keeps geo adm poly ws kernels x xg (centreOf (T (k + 1))) := fun hh => k2 (by rw [keep _ hh]; exact hh)
  have k0 : ¬ Keeps geo adm poly ws kernels x xg (centreOf (T k)) := fun hh => k1 (by rw [keep _ hh]; exact hh)
  by_cases s12 : isCcw x xg (centreOf (T (k + 1))) = isCcw x xg (centreOf (T (k + 2)))
  · have e : centreOf (T (k + 2)) = centreOf (T (k + 3)) := side _ _ k1 k2 s12
    exact (side (k + 3) (k + 1) (by rw [← e]; exact k2) k1 (by rw [← e, s12]))
  by_cases s01 : isCcw x xg (centreOf (T k)) = isCcw x xg (centreOf (T (k + 1)))
  · exact absurd (by rw [side _ _ k0 k1 s01]) s12
  have s02 : isCcw x xg (centreOf (T k)) = isCcw x xg (centreOf (T (k + 2))) := by
    revert s12 s01
    cases isCcw x xg (centreOf (T k)) <;> cases isCcw x xg (centreOf (T (k + 1))) <;>
      cases isCcw x xg (centreOf (T (k + 2))) <;> simp
  have e : centreOf (T (k + 1)) = centreOf (T (k + 3)) := side _ _ k0 k2 s02
  exact side (k + 3) (k + 1) (by rw [← e]; exact k1) k1 (by rw [← e])

/-- C122 (partial): if the segment from robot to goal does not split the selection set, the kernel points stay the same from
the first call with previous kernel points on. -/
theorem C122_whole_partial (h : Calls geo adm poly ws kernels x xg eps draws clock T) (g : G)
    (hs : geo.split (selectionSet geo adm poly ws kernels) x xg = .ok [g]) (k : Nat) : T (k + 2) = T (k + 1) := by
  refine calls_eq (k := k + 1) (j := k) h ?_
  by_cases k1 : Keeps geo adm poly ws kernels x xg (centreOf (T (k + 1)))
  · exact calls_keep h _ k1
  have k0 : ¬ Keeps geo adm poly ws kernels x xg (centreOf (T k)) := fun hh => k1 (by rw [calls_keep h _ hh]; exact hh)
  have hc : ∀ i, ¬ Keeps geo adm poly ws kernels x xg (centreOf (T i)) →
      geo.nearestToCentroid adm g = .ok (centreOf (T (i + 1))) := by
    intro i hi
    have h1 := (kernel_centre (h i)).1
    have hcond : (geo.contains (selectionSet geo adm poly ws kernels) (centreOf (T i)) &&
        !isCollinear x xg (centreOf (T i))) = false := by
      rw [Keeps, ← isCollinear_near] at hi
      cases h1 : geo.contains (selectionSet geo adm poly ws kernels) (centreOf (T i)) <;>
        cases h2 : isCollinear x xg (centreOf (T i)) <;> simp_all
    simp only [triangleCentre, hcond, Bool.false_eq_true, if_false, bind, Except.bind, hs, sameSide] at h1
    cases hn : geo.nearestToCentroid adm g with
    | error e => rw [hn] at h1; simp at h1
    | ok c =>
      rw [hn] at h1
      simp only [Except.ok.injEq, Option.some.injEq] at h1
      rw [h1]
  have e := (hc k k0).symm.trans (hc (k + 1) k1)
  injection e with e
  exact e.symm

/-- C122 (partial): if the admissible kernel is convex, the kernel points stay the same from the second call with previous
kernel points on. Missing: admissible kernels that are not convex (`C122_false`). -/
theorem C122_convex_partial (pts : G → Set (Pt ℝ)) (hg : OpsOk geo pts)
    (h : Calls geo adm poly ws kernels x xg eps draws clock T) (hconv : Convex ℝ (pts adm)) (parts : List G) (cen : G → Pt ℝ)
    (hs : geo.split (selectionSet geo adm poly ws kernels) x xg = .ok parts)
    (hp : PartsOk geo pts adm (selectionSet geo adm poly ws kernels) parts cen) (k : Nat) : T (k + 3) = T (k + 2) := by
  refine calls_eq (k := k + 2) (j := k + 1) h ?_
  by_cases k2 : Keeps geo adm poly ws kernels x xg (centreOf (T (k + 2)))
  · exact calls_keep h _ k2
  have k1 : ¬ Keeps geo adm poly ws kernels x xg (centreOf (T (k + 1))) := fun hh => k2 (by rw [calls_keep h _ hh]; exact hh)
  have k0 : ¬ Keeps geo adm poly ws kernels x xg (centreOf (T k)) := fun hh => k1 (by rw [calls_keep h _ hh]; exact hh)
  have hne : parts ≠ [] := by
    rintro rfl
    have h1 := (kernel_centre (h k)).1
    have hcond : (geo.contains (selectionSet geo adm poly ws kernels) (centreOf (T k)) &&
        !isCollinear x xg (centreOf (T k))) = false := by
      rw [Keeps, ← isCollinear_near] at k0
      cases h1 : geo.contains (selectionSet geo adm poly ws kernels) (centreOf (T k)) <;>
        cases h2 : isCollinear x xg (centreOf (T k)) <;> simp_all
    simp [triangleCentre, hcond, bind, Except.bind, hs] at h1
  have key : ∀ i, ¬ Keeps geo adm poly ws kernels x xg (centreOf (T i)) →
      (∃ g ∈ parts, centreOf (T (i + 1)) = cen g) ∧
      ((∃ g ∈ parts, FarLeft x xg (cen g) ↔ FarLeft x xg (centreOf (T i))) →
        (FarLeft x xg (centreOf (T (i + 1))) ↔ FarLeft x xg (centreOf (T i)))) := by
    intro i hi
    have hi' : geo.contains (selectionSet geo adm poly ws kernels) (centreOf (T i)) = false ∨ NearLine x xg (centreOf (T i)) := by
      by_contra hh
      push Not at hh
      exact hi ⟨by simpa using hh.1, hh.2⟩
    obtain ⟨g, hgp, e, hside⟩ := C74_part_partial geo adm _ x xg _ (draws i) hi' parts hne hs cen hp.centroid
    have hmem : cen g ∈ pts adm := convexHull_min ((hp.sub g hgp).trans (selection_subset hg adm poly ws kernels)) hconv (hp.hull g hgp)
    rw [hp.nearest g hgp hmem, (kernel_centre (h i)).1] at e
    simp only [Except.map, Except.ok.injEq, Option.some.injEq] at e
    rw [e]
    exact ⟨⟨g, hgp, rfl⟩, hside⟩
  obtain ⟨⟨g1, m1, e1⟩, -⟩ := key k k0
  obtain ⟨⟨g2, m2, e2⟩, s2⟩ := key (k + 1) k1
  have s2' := s2 ⟨g1, m1, by rw [e1]⟩
  refine calls_side h (k + 2) (k + 1) k2 k1 ?_
  rw [Bool.eq_iff_iff, isCcw_left, isCcw_left]
  exact s2'

/-- The previous kernel points are around (0, 7), above the square from -4 to 4; robot and goal are at (-9, 1) and (-6, 1),
and the kernel points around (0, 0) are chosen and kept. -/
theorem square4_calls : ∃ T, Calls square4Ops () () () (some [()]) (-9, 1) (-6, 1) 1 (fun _ => []) (fun _ => ⟨0, 1, 2, 3, 4, 5⟩) T ∧
    centreOf (T 0) = (0, 7) ∧ centreOf (T 1) = (0, 0) := by
  let c : Nat → Pt ℝ := fun k => if k = 0 then (0, 7) else (0, 0)
  have hc : ∀ k, centreOf (equilateralTriangle (c k) 1 0) = c k := fun k => (C10_centroid_partial _ _ 0 (Or.inl rfl)).1
  refine ⟨fun k => equilateralTriangle (c k) 1 0, ?_, hc 0, hc 1⟩
  intro k
  have ht : timings ⟨0, 1, 2, 3, 4, 5⟩ = .ok () := by norm_num [timings]
  have hS : ∀ a b c d, selectionSet square4Ops a b c d = () := fun _ _ _ _ => rfl
  have e : triangleCentre square4Ops () () (-9, 1) (-6, 1) (some (c k)) [] = .ok (some (0, 0)) := by
    cases k with
    | zero => exact C74_side_false.2.1
    | succ k => norm_num [c, triangleCentre, square4Ops, isCollinear, orientationVal, collinearThreshold]
  have hd : borderDistance square4Ops () (0, 0) = .ok 4 := by norm_num [borderDistance, square4Ops]
  have hT : kernelTriangle square4Ops () (0, 0) 1 = .ok (equilateralTriangle (0, 0) 1 0) := by
    simp only [kernelTriangle, hd, bind, Except.bind]
    rw [min_eq_left (by norm_num)]
  simp only [kernelPoints, hc, hS, e, hT, ht, bind, Except.bind]
  rfl

example : ∃ T, Calls square4Ops () () () (some [()]) (-9, 1) (-6, 1) 1 (fun _ => []) (fun _ => ⟨0, 1, 2, 3, 4, 5⟩) T ∧
    T 1 ≠ T 0 ∧ (∀ k, T (k + 1) = T 1) ∧ Keeps square4Ops () () () (some [()]) (-9, 1) (-6, 1) (centreOf (T 1)) ∧
    ¬ Keeps square4Ops () () () (some [()]) (-9, 1) (-6, 1) (centreOf (T 0)) := by
  obtain ⟨T, h, h0, h1⟩ := square4_calls
  have hk : Keeps square4Ops () () () (some [()]) (-9, 1) (-6, 1) (centreOf (T 1)) := by
    rw [h1]; norm_num [Keeps, square4Ops, NearLine, cross]
  refine ⟨T, h, fun e => ?_, fun k => ?_, hk, ?_⟩
  · rw [e, h0] at h1; norm_num at h1
  · have := (C122_kept_partial h 1 hk k).2.2 one_pos
    rwa [add_comm] at this
  · rw [h0]; norm_num [Keeps, square4Ops]

/-- The hypotheses of `C122_whole_partial` and `C122_convex_partial` hold there. -/
example : ∃ T, Calls square4Ops () () () (some [()]) (-9, 1) (-6, 1) 1 (fun _ => []) (fun _ => ⟨0, 1, 2, 3, 4, 5⟩) T ∧
    (∀ k, T (k + 2) = T (k + 1)) ∧ ∀ k, T (k + 3) = T (k + 2) := by
  obtain ⟨T, h, -⟩ := square4_calls
  have h0 : ((0, 0) : Pt ℝ) ∈ square4 := by norm_num [square4]
  have hconv : Convex ℝ square4 := by
    intro p hp q hq a b ha hb hab
    simp only [square4, Set.mem_ofPred_eq, max_le_iff, abs_le] at hp hq ⊢
    simp only [Prod.fst_add, Prod.snd_add, Prod.smul_fst, Prod.smul_snd, smul_eq_mul]
    obtain ⟨⟨p1, p2⟩, p3, p4⟩ := hp
    obtain ⟨⟨q1, q2⟩, q3, q4⟩ := hq
    refine ⟨⟨?_, ?_⟩, ?_, ?_⟩ <;> nlinarith
  refine ⟨T, h, C122_whole_partial h () rfl, C122_convex_partial (fun _ => square4) square4_world.1 h hconv [()] (fun _ => (0, 0)) rfl
    ⟨fun _ _ => subset_rfl, fun _ _ => rfl, fun _ _ => subset_convexHull ℝ _ h0, fun _ _ _ => rfl⟩⟩

end Points

/-- C122 (partial): for convex obstacles with different ids, a call that completes without iteration limit, and in which the
centre of the kernel points of every returned cluster is inside of its selection set and not near the line through
robot and goal, gives the same result when it is repeated with its clusters as previous clusters, without time-out.
The draws for a cluster without previous cluster are the same in both calls. Missing: centres that are outside of the
selection set or near the line. -/
theorem C122_program_partial {G : Type} (cfg : StarCfg) (hs : IsSetList cfg.setList) (par : Params) (hmax : par.maxIterations = none)
    (fuel : Nat) (obstacles : List ConvObs) (hid : (obstacles.map (·.id)).Nodup)
    (geo : PolyOps G) (adm : Nat → List ConvObs → Except PyErr G) (poly : List ConvObs → G) (ws : G) (kernelOf : ConvObs → G) (eps : ℝ)
    (draws : Nat → List ConvObs → List (Pt ℝ)) (clock : Nat → List ConvObs → Clock)
    (hsel : cfg.select = selectPoints geo adm poly ws kernelOf cfg.x cfg.xg eps draws clock)
    (r : Res ConvObs ClusterObs Triple (Set (Pt ℝ))) (h : clusterAndStarify (starGeo cfg) par none fuel obstacles = some (.ok r))
    (hf : r.flag = .complete)
    (hc : ∀ f ∈ r.clusters, ∀ T, f.kernelPoints = some T → ∀ n A, adm n f.obstacles = .ok A →
      Keeps geo A (poly f.obstacles) ws (some (f.obstacles.map kernelOf)) cfg.x cfg.xg (centreOf T))
    (a b c : Nat → Bool) (ha : ∀ i, a i = false) (hb : ∀ i, b i = false) (hc' : ∀ i, c i = false) :
    clusterAndStarify (starGeo { cfg with timeoutInit := a, timeoutIter := b, timeoutConvex := c }) par (some r.clusters) fuel
      obstacles = some (.ok r) := by
  refine C122_partial (starGeo cfg) hs par hmax none fuel obstacles hid r h hf (by simp) ?_ a b c ha hb hc'
  intro f hfm T hT n old h1
  simp only [starGeo, hsel] at h1 ⊢
  split at h1
  · rename_i hk
    rw [if_pos hk]
    simp only [selectPoints, bind, Except.bind] at h1 ⊢
    cases hA : adm n f.obstacles with
    | error e => rw [hA] at h1; simp at h1
    | ok A =>
      rw [hA] at h1
      simp only at h1 ⊢
      cases hres : kernelPoints geo A (poly f.obstacles) ws (some (f.obstacles.map kernelOf)) cfg.x cfg.xg eps
          (old.map Triple.mean) (draws n f.obstacles) (clock n f.obstacles) with
      | error e => rw [hres] at h1; simp at h1
      | ok res =>
        rw [hres] at h1
        cases res with
        | none => simp at h1
        | some T' =>
          simp only [Except.ok.injEq] at h1
          subst h1
          have htime : timings (clock n f.obstacles) = .ok () := by
            simp only [kernelPoints, bind, Except.bind] at hres
            repeat' split at hres
            all_goals first | (cases hres; done) | assumption
          obtain ⟨h2, h3⟩ := kernel_centre hres
          obtain ⟨h4, h5⟩ := hc f hfm _ hT n A hA
          have e : Triple.mean T' = centreOf T' := rfl
          simp only [kernelPoints, bind, Except.bind, Option.map_some, e, C74_kept geo A _ cfg.x cfg.xg _ _ h4 h5, h3, htime]
  · cases h1

/-- The centroid (3/2, 0) of a box, between the robot at (-1, 0) and the goal at (5, 1/2), is the centre of its kernel points, in
the first call and in the second. -/
example : ∃ r, clusterAndStarify (starGeo (nearCfg (1 / 2))) ⟨none, false, false⟩ none 2 [obsNear] = some (.ok r) ∧
    r.clusters.map (fun c => c.kernelPoints.map centreOf) = [some (3 / 2, 0)] ∧
    clusterAndStarify (starGeo (nearCfg (1 / 2))) ⟨none, false, false⟩ (some r.clusters) 2 [obsNear] = some (.ok r) := by
  have hr := one_alone (nearCfg (1 / 2)) obsNear (nearTriple 0) 2 rfl (admissible_some (by simp [nearBox]) near_robot.outside)
    (admissible_some (by simp [nearBox]) (near_goal (by norm_num) le_rfl).outside) near_select
    (clusterHull_none _ _ _ fun o ho k hk => by rw [List.mem_singleton.1 ho]; exact (near_none le_rfl (by norm_num) k hk).1) (fun _ => rfl)
  have hmean : centreOf (nearTriple 0) = (3 / 2, 0) := near_mean 0
  refine ⟨_, hr, by simp [hmean], ?_⟩
  refine C122_program_partial (nearCfg (1 / 2)) isSetList_dedup _ rfl 2 [obsNear] (by simp) planeOps _ (fun _ => polyRegion none nearBox) Set.univ
    (·.polygon) (1 / 10) _ _ rfl _ hr rfl ?_ _ _ _ (fun _ => rfl) (fun _ => rfl) (fun _ => rfl)
  intro f hf T hT n A hA
  rw [List.mem_singleton.1 hf] at hT hA ⊢
  simp only [Option.some.injEq] at hT
  subst hT
  obtain ⟨A', h1, h2⟩ := near_kernel (g := 1 / 2) (by norm_num) le_rfl n
  have : A' = A := by simpa using h1.symm.trans hA
  subst this
  have hS : selectionSet planeOps A' (polyRegion none nearBox) Set.univ (some ([obsNear].map (·.polygon))) = polyRegion none nearBox :=
    near_selection h2
  rw [hmean, Keeps, hS]
  constructor
  · simp only [planeOps, decide_eq_true_eq]
    rw [nearBox_region, interior_prod_eq, interior_Icc, interior_Icc]
    constructor <;> norm_num
  · norm_num [nearCfg, NearLine, cross, abs_of_neg, abs_of_pos]

/-! ## A scene in which the kernel points alternate -/

namespace Spec

/-- The rectangle with this centre and these half sides. -/
def rect (c : Pt ℝ) (a b : ℝ) : Set (Pt ℝ) := {p | |p.1 - c.1| ≤ a ∧ |p.2 - c.2| ≤ b}

/-- Four walls around a square room with this centre. -/
def walls (c : Pt ℝ) : List (Set (Pt ℝ)) :=
  [rect (c.1 - 9 / 2, c.2) (1 / 2) 5, rect (c.1 + 9 / 2, c.2) (1 / 2) 5, rect (c.1, c.2 - 9 / 2) 5 (1 / 2),
   rect (c.1, c.2 + 9 / 2) 5 (1 / 2)]

/-- The points of the walls. -/
def room (c : Pt ℝ) : Set (Pt ℝ) := {p | ∃ w ∈ walls c, p ∈ w}

/-- The walls of two rooms. -/
def rooms : Set (Pt ℝ) := room (-10, 1) ∪ room (10, -1)

/-- The admissible kernel of the scene: the walls, and three squares more. -/
def roomsKernel : Set (Pt ℝ) := rooms ∪ (rect (-10, -3 / 2) (1 / 2) (1 / 2) ∪ rect (10, 3 / 2) (1 / 2) (1 / 2) ∪ rect (0, 0) 1 1)

/-- The geometry library in the scene; `ws` is the workspace. The centroids are points of symmetry (`room_symmetric`), and
the parts are not met by the segment from the robot at (-11, -1/4) to the goal at (-9, -1/4) (`rooms_segment`). -/
structure RoomsOps (geo : PolyOps (Set (Pt ℝ))) (ws : Set (Pt ℝ)) : Prop where
  inter : ∀ a b, geo.intersection a b = a ∩ b
  within : geo.within rooms ws = true
  empty : geo.area ∅ = 0
  area : geo.area rooms = 72
  left : geo.centroid (room (-10, 1)) = .ok (-10, 1)
  right : geo.centroid (room (10, -1)) = .ok (10, -1)
  both : geo.centroid rooms = .ok (0, 0)
  nearest : ∀ g c, geo.centroid g = .ok c → ∃ q, geo.nearestToCentroid roomsKernel g = .ok q ∧ NearestIn roomsKernel c q
  contains : ∀ S p, geo.contains S p = true → p ∈ S
  split : geo.split rooms (-11, -1 / 4) (-9, -1 / 4) = .ok [room (-10, 1), room (10, -1)]
  multi : geo.isPolygon rooms = false
  geoms : geo.geoms rooms = [room (-10, 1), room (10, -1)]
  distance : ∀ g ∈ [room (-10, 1), room (10, -1)], ∀ p, ∃ d, geo.exteriorDistance g p = .ok d

end Spec

theorem mem_room (c p : Pt ℝ) : p ∈ room c ↔ (|p.1 - c.1| ≤ 5 ∧ |p.2 - c.2| ≤ 5) ∧ (4 ≤ |p.1 - c.1| ∨ 4 ≤ |p.2 - c.2|) := by
  simp only [room, walls, List.mem_cons, List.not_mem_nil, or_false, exists_eq_or_imp, exists_eq_left, rect, Set.mem_ofPred_eq,
    abs_le, le_abs]
  constructor
  · rintro (⟨⟨h1, h2⟩, h3, h4⟩ | ⟨⟨h1, h2⟩, h3, h4⟩ | ⟨⟨h1, h2⟩, h3, h4⟩ | ⟨⟨h1, h2⟩, h3, h4⟩)
    · exact ⟨⟨⟨by linarith, by linarith⟩, h3, h4⟩, Or.inl (Or.inr (by linarith))⟩
    · exact ⟨⟨⟨by linarith, by linarith⟩, h3, h4⟩, Or.inl (Or.inl (by linarith))⟩
    · exact ⟨⟨⟨h1, h2⟩, by linarith, by linarith⟩, Or.inr (Or.inr (by linarith))⟩
    · exact ⟨⟨⟨h1, h2⟩, by linarith, by linarith⟩, Or.inr (Or.inl (by linarith))⟩
  · rintro ⟨⟨⟨h1, h2⟩, h3, h4⟩, (h | h) | h | h⟩
    · exact Or.inr (Or.inl ⟨⟨by linarith, by linarith⟩, h3, h4⟩)
    · exact Or.inl ⟨⟨by linarith, by linarith⟩, h3, h4⟩
    · exact Or.inr (Or.inr (Or.inr ⟨⟨h1, h2⟩, by linarith, by linarith⟩))
    · exact Or.inr (Or.inr (Or.inl ⟨⟨h1, h2⟩, by linarith, by linarith⟩))

/-- The centroids in the scene are points of symmetry. -/
theorem room_symmetric : Symmetric (room (-10, 1)) (-10, 1) ∧ Symmetric (room (10, -1)) (10, -1) ∧ Symmetric rooms (0, 0) := by
  have key : ∀ c d : Pt ℝ, ∀ p ∈ room d, (2 : ℝ) • c - p ∈ room ((2 : ℝ) • c - d) := by
    intro c d p hp
    rw [mem_room] at hp ⊢
    have e1 : ((2 : ℝ) • c - p).1 - ((2 : ℝ) • c - d).1 = -(p.1 - d.1) := by simp
    have e2 : ((2 : ℝ) • c - p).2 - ((2 : ℝ) • c - d).2 = -(p.2 - d.2) := by simp
    rw [e1, e2, abs_neg, abs_neg]
    exact hp
  refine ⟨?_, ?_, ?_⟩
  · intro p hp
    have := key (-10, 1) _ p hp
    have e : (2 : ℝ) • ((-10, 1) : Pt ℝ) - (-10, 1) = (-10, 1) := by norm_num
    rwa [e] at this
  · intro p hp
    have := key (10, -1) _ p hp
    have e : (2 : ℝ) • ((10, -1) : Pt ℝ) - (10, -1) = (10, -1) := by norm_num
    rwa [e] at this
  · rintro p (hp | hp)
    · have := key (0, 0) _ p hp
      have e : (2 : ℝ) • ((0, 0) : Pt ℝ) - (-10, 1) = (10, -1) := by norm_num
      rw [e] at this
      exact Or.inr this
    · have := key (0, 0) _ p hp
      have e : (2 : ℝ) • ((0, 0) : Pt ℝ) - (10, -1) = (-10, 1) := by norm_num
      rw [e] at this
      exact Or.inl this

/-- The segment from robot to goal does not meet the walls. -/
theorem rooms_segment : ∀ p, OnSegment ((-11, -1 / 4) : Pt ℝ) (-9, -1 / 4) p → p ∉ rooms := by
  rintro p ⟨t, h0, h1, rfl⟩ (hp | hp)
  · rw [mem_room] at hp
    have := hp.2
    simp only [le_abs] at this
    norm_num at this
    rcases this with h | h <;> linarith
  · rw [mem_room] at hp
    have := (abs_le.1 hp.1.1).1
    norm_num at this
    linarith

/-- The points of the admissible kernel. -/
theorem roomsKernel_cases {p : Pt ℝ} (hp : p ∈ roomsKernel) :
    (4 ≤ |p.1 - -10| ∨ 4 ≤ |p.2 - 1|) ∧ p.1 ≤ -5 ∨ (4 ≤ |p.1 - 10| ∨ 4 ≤ |p.2 - -1|) ∧ 5 ≤ p.1 ∨
    p.1 ≤ -9 ∧ p.2 ≤ -1 ∨ 9 ≤ p.1 ∧ 1 ≤ p.2 ∨ -1 ≤ p.1 ∧ p.1 ≤ 1 := by
  rcases hp with (hp | hp) | (⟨h1, h2⟩ | ⟨h1, h2⟩) | ⟨h1, -⟩
  · rw [mem_room] at hp
    have := (abs_le.1 hp.1.1).2
    exact Or.inl ⟨hp.2, by simp only at this; linarith⟩
  · rw [mem_room] at hp
    have := (abs_le.1 hp.1.1).1
    exact Or.inr (Or.inl ⟨hp.2, by simp only at this; linarith⟩)
  · have e1 := (abs_le.1 h1).2
    have e2 := (abs_le.1 h2).2
    simp only at e1 e2
    exact Or.inr (Or.inr (Or.inl ⟨by linarith, by linarith⟩))
  · have e1 := (abs_le.1 h1).1
    have e2 := (abs_le.1 h2).1
    simp only at e1 e2
    exact Or.inr (Or.inr (Or.inr (Or.inl ⟨by linarith, by linarith⟩)))
  · have e1 := abs_le.1 h1
    simp only at e1
    exact Or.inr (Or.inr (Or.inr (Or.inr ⟨by linarith, by linarith⟩)))

theorem four_sq {u : ℝ} (h : 4 ≤ |u|) : 16 ≤ u ^ 2 := by
  rw [← sq_abs]; nlinarith

/-- The points of the admissible kernel nearest to the centroids. -/
theorem nearest_left {q : Pt ℝ} (h : NearestIn roomsKernel (-10, 1) q) : q = (-10, -1) := by
  have hm : ((-10, -1) : Pt ℝ) ∈ roomsKernel := Or.inr (Or.inl (Or.inl (by norm_num [rect])))
  have h1 := h.2 _ hm
  norm_num [normSq] at h1
  rcases roomsKernel_cases h.1 with ⟨h2 | h2, -⟩ | ⟨-, h2⟩ | ⟨-, h2⟩ | ⟨h2, -⟩ | ⟨h2, -⟩
  · have := four_sq h2
    nlinarith [sq_nonneg (q.2 - 1)]
  · have := four_sq h2
    nlinarith [sq_nonneg (q.1 + 10)]
  · nlinarith [sq_nonneg (q.2 - 1)]
  · have e2 : q.2 = -1 := by nlinarith [sq_nonneg (q.1 + 10)]
    have e1 : q.1 + 10 = 0 := by
      rw [e2] at h1
      exact pow_eq_zero_iff (two_ne_zero) |>.1 (le_antisymm (by linarith) (sq_nonneg _))
    exact Prod.ext (by simp only; linarith) e2
  · nlinarith [sq_nonneg (q.2 - 1)]
  · nlinarith [sq_nonneg (q.2 - 1)]

theorem nearest_right {q : Pt ℝ} (h : NearestIn roomsKernel (10, -1) q) : q = (10, 1) := by
  have hm : ((10, 1) : Pt ℝ) ∈ roomsKernel := Or.inr (Or.inl (Or.inr (by norm_num [rect])))
  have h1 := h.2 _ hm
  norm_num [normSq] at h1
  rcases roomsKernel_cases h.1 with ⟨-, h2⟩ | ⟨h2 | h2, -⟩ | ⟨h2, -⟩ | ⟨-, h2⟩ | ⟨-, h2⟩
  · nlinarith [sq_nonneg (q.2 + 1)]
  · have := four_sq h2
    nlinarith [sq_nonneg (q.2 + 1)]
  · have := four_sq h2
    nlinarith [sq_nonneg (q.1 - 10)]
  · nlinarith [sq_nonneg (q.2 + 1)]
  · have e2 : q.2 = 1 := by nlinarith [sq_nonneg (q.1 - 10)]
    have e1 : q.1 - 10 = 0 := by
      rw [e2] at h1
      exact pow_eq_zero_iff (two_ne_zero) |>.1 (le_antisymm (by linarith) (sq_nonneg _))
    exact Prod.ext (by simp only; linarith) e2
  · nlinarith [sq_nonneg (q.2 + 1)]

theorem nearest_self {S : Set (Pt ℝ)} {c q : Pt ℝ} (h : NearestIn S c q) (hc : c ∈ S) : q = c := by
  have h1 := h.2 c hc
  simp only [normSq, sub_self, Prod.fst_zero, Prod.snd_zero, Prod.fst_sub, Prod.snd_sub] at h1
  have e1 : (q.1 - c.1) ^ 2 = 0 := le_antisymm (by nlinarith [sq_nonneg (q.2 - c.2)]) (sq_nonneg _)
  have e2 : (q.2 - c.2) ^ 2 = 0 := le_antisymm (by nlinarith [sq_nonneg (q.1 - c.1)]) (sq_nonneg _)
  exact Prod.ext (by nlinarith [pow_eq_zero_iff (two_ne_zero) |>.1 e1]) (by nlinarith [pow_eq_zero_iff (two_ne_zero) |>.1 e2])

/-- The centres of the calls. -/
noncomputable def roomsCentre : Nat → Pt ℝ
  | 0 => (0, 0)
  | k + 1 => if k % 2 = 0 then (-10, -1) else (10, 1)

theorem rooms_outside (k : Nat) : roomsCentre k ∉ rooms := by
  have h : ∀ c : Pt ℝ, c = (0, 0) ∨ c = (-10, -1) ∨ c = (10, 1) → c ∉ rooms := by
    rintro c (rfl | rfl | rfl) (h | h) <;>
      · rw [mem_room] at h
        obtain ⟨⟨h1, h2⟩, h3⟩ := h
        simp only [abs_le, le_abs] at h1 h2 h3
        first | (norm_num at h1; done) | norm_num at h3
  refine h _ ?_
  cases k with
  | zero => exact Or.inl rfl
  | succ k =>
    simp only [roomsCentre]
    split
    · exact Or.inr (Or.inl rfl)
    · exact Or.inr (Or.inr rfl)

variable {geo : PolyOps (Set (Pt ℝ))} {ws : Set (Pt ℝ)}

/-- The walls have no common point, and so the selection set is what the walls have in common with the admissible kernel. -/
theorem rooms_set (hg : RoomsOps geo ws) :
    selectionSet geo roomsKernel rooms ws (some (walls (-10, 1) ++ walls (10, -1))) = rooms := by
  have e : (walls (-10, 1) ++ walls (10, -1)).foldl geo.intersection roomsKernel = ∅ := by
    have h0 : ∀ l : List (Set (Pt ℝ)), l.foldl geo.intersection ∅ = ∅ := by
      intro l
      induction l with
      | nil => rfl
      | cons a l ih => rw [List.foldl_cons, hg.inter, Set.empty_inter, ih]
    have h1 : geo.intersection (geo.intersection roomsKernel (rect (-10 - 9 / 2, 1) (1 / 2) 5)) (rect (-10 + 9 / 2, 1) (1 / 2) 5) = ∅ := by
      rw [hg.inter, hg.inter]
      ext p
      simp only [Set.mem_inter_iff, Set.mem_empty_iff_false, iff_false]
      rintro ⟨⟨-, h1, -⟩, h2, -⟩
      have e1 := (abs_le.1 h1).2
      have e2 := (abs_le.1 h2).1
      simp only at e1 e2
      linarith
    simp only [walls, List.cons_append, List.nil_append, List.foldl_cons, h1]
    have := h0 [rect (-10, 1 - 9 / 2) 5 (1 / 2), rect (-10, 1 + 9 / 2) 5 (1 / 2), rect (10 - 9 / 2, -1) (1 / 2) 5,
      rect (10 + 9 / 2, -1) (1 / 2) 5, rect (10, -1 - 9 / 2) 5 (1 / 2), rect (10, -1 + 9 / 2) 5 (1 / 2)]
    simpa only [List.foldl_cons] using this
  have e2 : geo.intersection roomsKernel rooms = rooms := by
    rw [hg.inter]; exact Set.inter_eq_right.2 Set.subset_union_left
  simp only [selectionSet, limitToExterior, hg.within, Bool.not_true, Bool.false_eq_true, if_false, e, hg.empty, e2]
  norm_num [hg.area]

theorem rooms_step (hg : RoomsOps geo ws) (k : Nat) (d : List (Pt ℝ)) :
    triangleCentre geo roomsKernel rooms (-11, -1 / 4) (-9, -1 / 4) (some (roomsCentre k)) d = .ok (some (roomsCentre (k + 1))) := by
  have hc : geo.contains rooms (roomsCentre k) = false := by
    rw [← Bool.not_eq_true]
    exact fun h => rooms_outside k (hg.contains _ _ h)
  have hr : isCcw ((-11, -1 / 4) : Pt ℝ) (-9, -1 / 4) (10, -1) = false := by
    rw [← Bool.not_eq_true, isCcw_left]; norm_num [FarLeft, cross]
  have hl : isCcw ((-11, -1 / 4) : Pt ℝ) (-9, -1 / 4) (-10, -1) = false := by
    rw [← Bool.not_eq_true, isCcw_left]; norm_num [FarLeft, cross]
  have hu : isCcw ((-11, -1 / 4) : Pt ℝ) (-9, -1 / 4) (10, 1) = true := by
    rw [isCcw_left]; norm_num [FarLeft, cross]
  have h0 : isCcw ((-11, -1 / 4) : Pt ℝ) (-9, -1 / 4) (0, 0) = true := by
    rw [isCcw_left]; norm_num [FarLeft, cross]
  have hn1 : geo.nearestToCentroid roomsKernel (room (-10, 1)) = .ok (-10, -1) := by
    obtain ⟨q, h, hq⟩ := hg.nearest _ _ hg.left
    rw [h, nearest_left hq]
  have hn2 : geo.nearestToCentroid roomsKernel (room (10, -1)) = .ok (10, 1) := by
    obtain ⟨q, h, hq⟩ := hg.nearest _ _ hg.right
    rw [h, nearest_right hq]
  simp only [triangleCentre, hc, Bool.false_and, Bool.false_eq_true, if_false, bind, Except.bind, hg.split, sameSide, hg.right, hr]
  cases k with
  | zero => simp [roomsCentre, h0, hn1]
  | succ k =>
    by_cases hk : k % 2 = 0
    · have hk' : (k + 1) % 2 ≠ 0 := by omega
      simp [roomsCentre, hk, hk', hl, hn2]
    · have hk' : (k + 1) % 2 = 0 := by omega
      simp [roomsCentre, hk, hk', hu, hn1]

theorem rooms_triangle (hg : RoomsOps geo ws) (c : Pt ℝ) (eps : ℝ) : ∃ T, kernelTriangle geo rooms c eps = .ok T ∧
    centreOf T = c := by
  obtain ⟨d1, h1⟩ := hg.distance _ (List.mem_cons_self) c
  obtain ⟨d2, h2⟩ := hg.distance _ (List.mem_cons_of_mem _ List.mem_cons_self) c
  refine ⟨equilateralTriangle c (min eps (0.9 * [d2].foldl min d1)) 0, ?_, ?_⟩
  · simp [kernelTriangle, borderDistance, hg.multi, hg.geoms, List.mapM_cons, h1, h2, bind, Except.bind, pure, Except.pure]
  · exact (C10_centroid_partial _ _ 0 (Or.inl rfl)).1

/-- C122 is false: the eight walls of two rooms, about (-10, 1) and (10, -1), are the obstacles of a cluster, the robot is at
(-11, -1/4) and the goal at (-9, -1/4), both in the left room, and the admissible kernel contains the walls and three
squares more. Nothing changes, and yet the centre of the kernel points alternates between (-10, -1) and (10, 1) from
call to call. -/
theorem C122_false (hg : RoomsOps geo ws) (eps : ℝ) (draws : Nat → List (Pt ℝ)) (clock : Nat → Clock)
    (hclock : ∀ k, timings (clock k) = .ok ()) : ∃ T : Nat → Pt ℝ × Pt ℝ × Pt ℝ,
    kernelPoints geo roomsKernel rooms ws (some (walls (-10, 1) ++ walls (10, -1))) (-11, -1 / 4) (-9, -1 / 4) eps none (draws 0)
      (clock 0) = .ok (some (T 0)) ∧
    Calls geo roomsKernel rooms ws (some (walls (-10, 1) ++ walls (10, -1))) (-11, -1 / 4) (-9, -1 / 4) eps
      (fun k => draws (k + 1)) (fun k => clock (k + 1)) T ∧
    ∀ k, centreOf (T (2 * k + 1)) = (-10, -1) ∧ centreOf (T (2 * k + 2)) = (10, 1) := by
  choose T hT using fun k => rooms_triangle hg (roomsCentre k) eps
  refine ⟨T, ?_, ?_, ?_⟩
  · have e : triangleCentre geo roomsKernel rooms (-11, -1 / 4) (-9, -1 / 4) none (draws 0) = .ok (some (roomsCentre 0)) := by
      have hn : geo.nearestToCentroid roomsKernel rooms = .ok (0, 0) := by
        obtain ⟨q, h, hq⟩ := hg.nearest _ _ hg.both
        rw [h, nearest_self hq (Or.inr (Or.inr (by norm_num [rect])))]
      have hl : isCollinear ((-11, -1 / 4) : Pt ℝ) (-9, -1 / 4) (0, 0) = false := by
        rw [← Bool.not_eq_true, isCollinear_near]; norm_num [NearLine, cross]
      simp only [triangleCentre, bind, Except.bind, hn]
      cases draws 0 <;> simp [perturb, hl, roomsCentre]
    simp only [kernelPoints, rooms_set hg, bind, Except.bind, e, (hT 0).1, hclock]
  · intro k
    simp only [kernelPoints, rooms_set hg, bind, Except.bind, (hT k).2, rooms_step hg, (hT (k + 1)).1, hclock]
  · intro k
    rw [(hT _).2, (hT _).2]
    have h2 : ¬ (2 * k + 1) % 2 = 0 := by omega
    exact ⟨by simp [roomsCentre], by simp only [roomsCentre, h2, if_false]⟩

/-! ### The operations exist -/

theorem room_ne : room (-10, 1) ≠ room (10, -1) ∧ room (-10, 1) ≠ rooms ∧ room (10, -1) ≠ rooms ∧ rooms ≠ ∅ := by
  have l : ((-15, 1) : Pt ℝ) ∈ room (-10, 1) := by rw [mem_room]; norm_num
  have l' : ((-15, 1) : Pt ℝ) ∉ room (10, -1) := by rw [mem_room]; norm_num
  have r : ((15, -1) : Pt ℝ) ∈ room (10, -1) := by rw [mem_room]; norm_num
  have r' : ((15, -1) : Pt ℝ) ∉ room (-10, 1) := by rw [mem_room]; norm_num
  refine ⟨fun h => l' (h ▸ l), fun h => r' ?_, fun h => l' ?_, ?_⟩
  · rw [h]; exact Or.inr r
  · rw [h]; exact Or.inl l
  · exact Set.nonempty_iff_ne_empty.1 ⟨_, Or.inl l⟩

theorem roomsKernel_left : NearestIn roomsKernel (-10, 1) (-10, -1) := by
  refine ⟨Or.inr (Or.inl (Or.inl (by norm_num [rect]))), fun p hp => ?_⟩
  norm_num [normSq]
  rcases roomsKernel_cases hp with ⟨h2 | h2, -⟩ | ⟨-, h2⟩ | ⟨-, h2⟩ | ⟨h2, -⟩ | ⟨h2, -⟩
  · have := four_sq h2
    nlinarith [sq_nonneg (p.2 - 1)]
  · have := four_sq h2
    nlinarith [sq_nonneg (p.1 + 10)]
  all_goals nlinarith [sq_nonneg (p.2 - 1), sq_nonneg (p.1 + 10)]

theorem roomsKernel_right : NearestIn roomsKernel (10, -1) (10, 1) := by
  refine ⟨Or.inr (Or.inl (Or.inr (by norm_num [rect]))), fun p hp => ?_⟩
  norm_num [normSq]
  rcases roomsKernel_cases hp with ⟨-, h2⟩ | ⟨h2 | h2, -⟩ | ⟨h2, -⟩ | ⟨-, h2⟩ | ⟨-, h2⟩
  · nlinarith [sq_nonneg (p.2 + 1), sq_nonneg (p.1 - 10)]
  · have := four_sq h2
    nlinarith [sq_nonneg (p.2 + 1)]
  · have := four_sq h2
    nlinarith [sq_nonneg (p.1 - 10)]
  all_goals nlinarith [sq_nonneg (p.2 + 1), sq_nonneg (p.1 - 10)]

open scoped Classical in
/-- Operations as in `RoomsOps`; the centroids are given for the walls only. -/
noncomputable def roomsGeo : PolyOps (Set (Pt ℝ)) where
  difference a b := a \ b
  intersection a b := a ∩ b
  within a b := decide (a ⊆ b)
  area a := if a = ∅ then 0 else 72
  centroid g := if g = room (-10, 1) then .ok (-10, 1) else if g = room (10, -1) then .ok (10, -1) else
    if g = rooms then .ok (0, 0) else .error .valueError
  nearestToCentroid _ g := if g = room (-10, 1) then .ok (-10, -1) else if g = room (10, -1) then .ok (10, 1) else .ok (0, 0)
  contains a p := decide (p ∈ a)
  split _ _ _ := .ok [room (-10, 1), room (10, -1)]
  isPolygon _ := false
  geoms _ := [room (-10, 1), room (10, -1)]
  exteriorDistance _ _ := .ok 1

theorem roomsGeo_ok : RoomsOps roomsGeo Set.univ := by
  obtain ⟨n1, n2, n3, n4⟩ := room_ne
  refine ⟨fun _ _ => rfl, by simp [roomsGeo], by simp [roomsGeo], by simp [roomsGeo, n4], by simp [roomsGeo],
    by simp [roomsGeo, n1.symm], by simp [roomsGeo, n2.symm, n3.symm], ?_, fun S p h => by simpa [roomsGeo] using h, rfl, rfl, rfl,
    fun _ _ _ => ⟨1, rfl⟩⟩
  intro g c h
  simp only [roomsGeo] at h ⊢
  split at h
  · injection h with h
    exact ⟨_, by rw [if_pos ‹_›], h ▸ roomsKernel_left⟩
  · split at h
    · injection h with h
      exact ⟨_, by rw [if_neg ‹_›, if_pos ‹_›], h ▸ roomsKernel_right⟩
    · split at h
      · injection h with h
        refine ⟨(0, 0), by rw [if_neg ‹_›, if_neg ‹_›], ?_⟩
        subst h
        exact ⟨Or.inr (Or.inr (by norm_num [rect])), fun p _ => by norm_num [normSq]; nlinarith [sq_nonneg p.1, sq_nonneg p.2]⟩
      · cases h

/-- So the kernel points do alternate, and by `C122_two` that is all they can do. -/
example : ∃ T : Nat → Pt ℝ × Pt ℝ × Pt ℝ, (∀ k, T (2 * k + 1) ≠ T (2 * k + 2)) ∧ ∀ k, T (k + 4) = T (k + 2) := by
  obtain ⟨T, -, h, h'⟩ := C122_false roomsGeo_ok 1 (fun _ => []) (fun _ => ⟨0, 1, 2, 3, 4, 5⟩) (fun _ => by norm_num [timings])
  refine ⟨T, fun k e => ?_, C122_two h⟩
  have := (h' k).1
  rw [e, (h' k).2] at this
  norm_num at this

end Starworlds
