import Verif.Props.Obstacle
import Verif.Props.EllipseShape
import Verif.Props.StarifyDisjoint
import Verif.Proofs.EllipsePolygon
import Verif.Proofs.KernelCertificate

/-! # C111: `Obstacle.intersects` and common points of obstacles -/

namespace Starworlds

open Real Spec

theorem affMatrix_world (p : Pose) (v : Shape) : affMatrix p v = v.map (worldOf (some p)) := by
  unfold affMatrix worldOf
  refine List.map_congr_left fun v _ => ?_
  ext
  · simp only []; ring
  · rfl

theorem polygonCall_global {base : Shape} {s : ObState} (h : PolCacheOk base s) :
    (polygonCall s .global).1 = .ok (base.map (worldOf s.mm)) := by
  rw [polygonCall_value h]
  cases s.mm with
  | none => rw [show worldOf none = id from rfl, List.map_id]
  | some p => simp only []; rw [affMatrix_world]

/-- The caches of all obstacles and their poses. -/
def PairOk (base : Nat → Shape) (mm : Nat → Option Pose) (w : Nat → ObState) : Prop :=
  ∀ i, PolCacheOk (base i) (w i) ∧ (w i).mm = mm i

theorem pairOk_update {base : Nat → Shape} {mm : Nat → Option Pose} {w : Nat → ObState} (h : PairOk base mm w) (i : Nat)
    {s : ObState} (hs : PolCacheOk (base i) s) (hm : s.mm = mm i) : PairOk base mm (Function.update w i s) := by
  intro k
  by_cases hk : k = i
  · subst hk; rw [Function.update_self]; exact ⟨hs, hm⟩
  · rw [Function.update_of_ne hk]; exact h k

theorem intersectsCall_ok (inter : Shape → Shape → Bool) {base : Nat → Shape} {mm : Nat → Option Pose} {w : Nat → ObState}
    (h : PairOk base mm w) (i j : Nat) :
    (intersectsCall inter w i j).1 = .ok (inter ((base i).map (worldOf (mm i))) ((base j).map (worldOf (mm j)))) ∧
      PairOk base mm (intersectsCall inter w i j).2 := by
  obtain ⟨h1, h2⟩ := h i
  have e1 := polygonCall_global h1
  have u1 := pairOk_update h i (polCacheOk_polygonCall h1 .global) ((polygonCall_mm (w i) .global).1.trans h2)
  obtain ⟨h3, h4⟩ := u1 j
  have e2 := polygonCall_global h3
  have u2 := pairOk_update u1 j (polCacheOk_polygonCall h3 .global) ((polygonCall_mm _ .global).1.trans h4)
  unfold intersectsCall
  simp only [e1, e2]
  rw [h2, h4]
  exact ⟨rfl, u2⟩

theorem pairRun_ok (inter : Shape → Shape → Bool) (src : Nat → KernelSrc) (nr : Bool) (base : Nat → Shape) (ops : List PairOp) :
    ∀ (mm : Nat → Option Pose) (w : Nat → ObState), PairOk base mm w →
      PairOk base (fun i => lastPose i (mm i) ops) (pairRun inter src nr w ops) := by
  induction ops with
  | nil => intro mm w h; exact h
  | cons op ops ih =>
    intro mm w h
    have go : ∀ mm', PairOk base mm' (pairStep inter src nr w op) → (∀ i, lastPose i (mm i) (op :: ops) = lastPose i (mm' i) ops) →
        PairOk base (fun i => lastPose i (mm i) (op :: ops)) (pairRun inter src nr w (op :: ops)) := by
      intro mm' h' he
      have := ih mm' _ h'
      simp only [he]
      exact this
    cases op with
    | intersects i j => exact go mm (intersectsCall_ok inter h i j).2 fun _ => rfl
    | on k op =>
      obtain ⟨h1, h2⟩ := polCacheOk_run (src k) nr [op] (w k) (h k).1
      change PolCacheOk (base k) (stepOp (src k) nr (w k) op) at h1
      change (stepOp (src k) nr (w k) op).mm = _ at h2
      rw [(h k).2] at h2
      refine go (fun i => if k = i then poseAfter (mm k) [op] else mm i) ?_ ?_
      · intro i
        show PolCacheOk _ (Function.update w k (stepOp (src k) nr (w k) op) i) ∧ (Function.update w k (stepOp (src k) nr (w k) op) i).mm = _
        by_cases hk : k = i
        · subst hk; rw [Function.update_self]; simp only [if_true]; exact ⟨h1, h2⟩
        · rw [Function.update_of_ne (Ne.symm hk)]; simp only [if_neg hk]; exact h i
      · intro i
        by_cases hk : k = i
        · subst hk
          cases op <;> simp [lastPose, poseAfter]
        · cases op <;> simp [lastPose, hk]

/-- What a program starts with: obstacles that have just been made. -/
noncomputable def fresh (base : Nat → Shape) (mm : Nat → Option Pose) (xr : Nat → Pt ℝ) (eager static : Nat → Bool) : Nat → ObState :=
  fun i => construct (base i) (mm i) (xr i) (eager i) (static i)

theorem fresh_ok (base : Nat → Shape) (mm : Nat → Option Pose) (xr : Nat → Pt ℝ) (eager static : Nat → Bool) :
    PairOk base mm (fresh base mm xr eager static) :=
  fun i => polCacheOk_construct (base i) (mm i) (xr i) (eager i) (static i)

theorem placed_filled (mm : Option Pose) (v : List (Pt ℝ)) : filled (v.map (worldOf mm)) = placed mm (filled v) := by
  rw [filled_world]
  ext x
  simp only [Set.mem_image, placed, Set.mem_ofPred_eq, eq_comm]

/-- C111 (partial): for obstacles with the points of a simple polygon, `intersects` never fails, and it returns `True` exactly
if some point of the world is in both obstacles at their current poses, after any history of moves, changes of the motion
model, queries and calls of `intersects` on any of the obstacles. Missing: ellipses, for which it is false
(`C111_missed_false`, `C111_alarm_false`). -/
theorem C111_partial (inter : Shape → Shape → Bool) (hin : InterOk inter) (src : Nat → KernelSrc) (nr : Bool)
    (base : Nat → Shape) (mm : Nat → Option Pose) (xr : Nat → Pt ℝ) (eager static : Nat → Bool) (ops : List PairOp) (i j : Nat)
    (hi : SimpleRing (base i)) (hj : SimpleRing (base j)) :
    ∃ b, (intersectsCall inter (pairRun inter src nr (fresh base mm xr eager static) ops) i j).1 = .ok b ∧
      (b = true ↔ ∃ x, x ∈ placed (lastPose i (mm i) ops) (filled (base i)) ∧ x ∈ placed (lastPose j (mm j) ops) (filled (base j))) := by
  refine ⟨_, (intersectsCall_ok inter (pairRun_ok inter src nr base ops mm _ (fresh_ok base mm xr eager static)) i j).1, ?_⟩
  rw [hin _ _ (simple_world _ hi) (simple_world _ hj), placed_filled, placed_filled]

/-- C111: the order of the two obstacles does not matter. -/
theorem C111_symm_partial (inter : Shape → Shape → Bool) (hin : InterOk inter) (src : Nat → KernelSrc) (nr : Bool)
    (base : Nat → Shape) (mm : Nat → Option Pose) (xr : Nat → Pt ℝ) (eager static : Nat → Bool) (ops : List PairOp) (i j : Nat)
    (hi : SimpleRing (base i)) (hj : SimpleRing (base j)) :
    (intersectsCall inter (pairRun inter src nr (fresh base mm xr eager static) ops) i j).1 =
      (intersectsCall inter (pairRun inter src nr (fresh base mm xr eager static) ops) j i).1 := by
  obtain ⟨b, h1, h2⟩ := C111_partial inter hin src nr base mm xr eager static ops i j hi hj
  obtain ⟨d, h3, h4⟩ := C111_partial inter hin src nr base mm xr eager static ops j i hj hi
  rw [h1, h3]
  have : b = true ↔ d = true := by
    rw [h2, h4]
    exact ⟨fun ⟨x, a, b⟩ => ⟨x, b, a⟩, fun ⟨x, a, b⟩ => ⟨x, b, a⟩⟩
  rw [Bool.eq_iff_iff.2 this]

/-! ## Ellipses -/

/-- C35: the region enclosed by the polygon of an ellipse, by the even-odd rule, is the convex hull of its vertices. -/
theorem C35_region (e : Ell) (h0 : 0 < e.a.1) (h1 : 0 < e.a.2) (hn : 3 ≤ e.nPol) :
    filled e.polygonVertices = convexHull ℝ {p | p ∈ e.polygonVertices} := ellPolygon_filled e h0 h1 hn

/-- The centre is inside of the polygon of the unit circle. -/
example : ((0, 0) : Pt ℝ) ∈ filled unitEll.polygonVertices := by
  rw [C35_region unitEll (by norm_num [unitEll]) (by norm_num [unitEll]) (by norm_num [unitEll])]
  have m : ∀ k : ℕ, k < 20 → ((1 + 1 / 10 ^ 3) * cos (k * (2 * π / (20 : ℕ))), (1 + 1 / 10 ^ 3) * sin (k * (2 * π / (20 : ℕ)))) ∈
      convexHull ℝ {p | p ∈ unitEll.polygonVertices} := by
    intro k hk
    refine subset_convexHull ℝ _ ?_
    simp only [Set.mem_ofPred_eq, Ell.polygonVertices, unitEll, List.mem_map, List.mem_range]
    exact ⟨k, hk, rfl⟩
  have := convex_convexHull ℝ {p | p ∈ unitEll.polygonVertices} (m 0 (by norm_num)) (m 10 (by norm_num))
    (a := 1 / 2) (b := 1 / 2) (by norm_num) (by norm_num) (by norm_num)
  convert this using 1
  have e : ((10 : ℕ) : ℝ) * (2 * π / (20 : ℕ)) = π := by push_cast; ring
  rw [e]
  ext
  · simp; ring
  · simp

/-- C111 (partial) for ellipses: if `intersects` returns `True`, the ellipses with axes longer by `10⁻³` have a common
point; if the polygons contain the ellipses (`C35_contains_partial`) and the ellipses have a common point, it returns
`True`. -/
theorem C111_ellipse_partial (inter : Shape → Shape → Bool) (hin : InterOk inter) (src : Nat → KernelSrc) (nr : Bool)
    (ell : Nat → Ell) (mm : Nat → Option Pose) (xr : Nat → Pt ℝ) (eager static : Nat → Bool) (ops : List PairOp) (i j : Nat)
    (hpos : ∀ k, 0 < (ell k).a.1 ∧ 0 < (ell k).a.2 ∧ 3 ≤ (ell k).nPol) :
    ∃ b, (intersectsCall inter (pairRun inter src nr (fresh (fun k => (ell k).polygonVertices) mm xr eager static) ops) i j).1 = .ok b ∧
      (b = true → ∃ x, x ∈ placed (lastPose i (mm i) ops) {p | ellForm ((ell i).a.1 + 1 / 10 ^ 3, (ell i).a.2 + 1 / 10 ^ 3) p ≤ 1} ∧
        x ∈ placed (lastPose j (mm j) ops) {p | ellForm ((ell j).a.1 + 1 / 10 ^ 3, (ell j).a.2 + 1 / 10 ^ 3) p ≤ 1}) ∧
      ((∀ k, (ell k).a.1 ≤ ((ell k).a.1 + 1 / 10 ^ 3) * cos (π / (ell k).nPol) ∧
          (ell k).a.2 ≤ ((ell k).a.2 + 1 / 10 ^ 3) * cos (π / (ell k).nPol)) →
        (∃ x, x ∈ placed (lastPose i (mm i) ops) {p | ellForm (ell i).a p ≤ 1} ∧ x ∈ placed (lastPose j (mm j) ops) {p | ellForm (ell j).a p ≤ 1}) →
        b = true) := by
  have hs : ∀ k, SimpleRing (ell k).polygonVertices := fun k => ellPolygon_simple _ (hpos k).1 (hpos k).2.1 (hpos k).2.2
  have hf : ∀ k, filled (ell k).polygonVertices = convexHull ℝ {p | p ∈ (ell k).polygonVertices} := fun k =>
    ellPolygon_filled _ (hpos k).1 (hpos k).2.1 (hpos k).2.2
  obtain ⟨b, h1, h2⟩ := C111_partial inter hin src nr (fun k => (ell k).polygonVertices) mm xr eager static ops i j (hs i) (hs j)
  refine ⟨b, h1, ?_, ?_⟩
  · intro hb
    obtain ⟨x, ⟨p, hp, e⟩, q, hq, e'⟩ := h2.1 hb
    rw [hf] at hp hq
    exact ⟨x, ⟨p, C35_inside _ (hpos i).1 (hpos i).2.1 p hp, e⟩, q, C35_inside _ (hpos j).1 (hpos j).2.1 q hq, e'⟩
  · rintro hc ⟨x, ⟨p, hp, e⟩, q, hq, e'⟩
    refine h2.2 ⟨x, ⟨p, ?_, e⟩, q, ?_, e'⟩
    · rw [hf]
      exact C35_contains_partial _ (hpos i).1 (hpos i).2.1 (by have := (hpos i).2.2; omega) (hc i).1 (hc i).2 p hp
    · rw [hf]
      exact C35_contains_partial _ (hpos j).1 (hpos j).2.1 (by have := (hpos j).2.2; omega) (hc j).1 (hc j).2 q hq

/-- C111 is false: two circles of radius 1 with 20 polygon corners and centres at the distance 1.995 overlap, but `intersects`
returns `False`. -/
theorem C111_missed_false (inter : Shape → Shape → Bool) (hin : InterOk inter) (xr : Nat → Pt ℝ) (eager static : Nat → Bool) :
    ∃ ell : Nat → Ell, (∀ k, (ell k).a = (1, 1) ∧ (ell k).nPol = 20) ∧
      (intersectsCall inter (fresh (fun k => (ell k).polygonVertices) (fun k => (ell k).mm) xr eager static) 0 1).1 = .ok false ∧
      ∃ x, x ∈ placed (ell 0).mm {p | ellForm (ell 0).a p < 1} ∧ x ∈ placed (ell 1).mm {p | ellForm (ell 1).a p < 1} := by
  obtain ⟨ell, hell⟩ : ∃ ell : Nat → Ell, ell = fun k => turnedCircle (if k = 0 then 0 else 1995 / 1000) := ⟨_, rfl⟩
  have ha : ∀ k, (ell k).a = (1, 1) ∧ (ell k).nPol = 20 := by rw [hell]; exact fun k => ⟨rfl, rfl⟩
  have hs : ∀ k, SimpleRing (ell k).polygonVertices := fun k =>
    ellPolygon_simple _ (by rw [(ha k).1]; norm_num) (by rw [(ha k).1]; norm_num) (by rw [(ha k).2]; norm_num)
  have hf : ∀ k, filled (ell k).polygonVertices = convexHull ℝ {p | p ∈ (ell k).polygonVertices} := fun k =>
    ellPolygon_filled _ (by rw [(ha k).1]; norm_num) (by rw [(ha k).1]; norm_num) (by rw [(ha k).2]; norm_num)
  refine ⟨ell, ha, ?_, ?_⟩
  · obtain ⟨b, h1, h2⟩ := C111_partial inter hin (fun _ => .fromPolygon) true (fun k => (ell k).polygonVertices) (fun k => (ell k).mm)
      xr eager static [] 0 1 (hs 0) (hs 1)
    change (intersectsCall inter (fresh _ _ xr eager static) 0 1).1 = .ok b at h1
    rw [h1]
    cases b with
    | false => rfl
    | true =>
      exfalso
      obtain ⟨x, ⟨p, hp, e⟩, q, hq, e'⟩ := h2.1 rfl
      rw [hf] at hp hq
      have m0 : x ∈ polyRegion (ell 0).mm (ell 0).polygonVertices := ⟨p, hp, e⟩
      have m1 : x ∈ polyRegion (ell 1).mm (ell 1).polygonVertices := ⟨q, hq, e'⟩
      simp only [hell] at m0 m1
      have b0 := abs_le.1 (turned_polygon _ m0)
      have b1 := abs_le.1 (turned_polygon _ m1)
      norm_num at b0 b1
      linarith [b0.2, b1.1]
  · have e0 : ell 0 = turnedCircle 0 := by rw [hell]; rfl
    have e1 : ell 1 = turnedCircle (1995 / 1000) := by rw [hell]; rfl
    refine ⟨(9975 / 10000, 0), ?_, ?_⟩
    · rw [e0]
      exact ⟨_, by simp only [Set.mem_ofPred_eq]; rw [turned_form]; norm_num, (turned_world 0 (9975 / 10000)).symm⟩
    · rw [e1]
      exact ⟨_, by simp only [Set.mem_ofPred_eq]; rw [turned_form]; norm_num, (turned_world (1995 / 1000) (9975 / 10000)).symm⟩

/-- C111 is false: two circles of radius 1 with 20 polygon corners and centres at the distance 2.0015 have no common point,
but `intersects` returns `True`. -/
theorem C111_alarm_false (inter : Shape → Shape → Bool) (hin : InterOk inter) (xr : Nat → Pt ℝ) (eager static : Nat → Bool) :
    ∃ ell : Nat → Ell, (∀ k, (ell k).a = (1, 1) ∧ (ell k).nPol = 20) ∧
      (intersectsCall inter (fresh (fun k => (ell k).polygonVertices) (fun k => (ell k).mm) xr eager static) 0 1).1 = .ok true ∧
      ¬ ∃ x, x ∈ placed (ell 0).mm {p | ellForm (ell 0).a p ≤ 1} ∧ x ∈ placed (ell 1).mm {p | ellForm (ell 1).a p ≤ 1} := by
  obtain ⟨ell, hell⟩ : ∃ ell : Nat → Ell, ell = fun k => ⟨(1, 1), (0, 0), 20, some ⟨(if k = 0 then 0 else 20015 / 10000, 0), 0⟩⟩ := ⟨_, rfl⟩
  have ha : ∀ k, (ell k).a = (1, 1) ∧ (ell k).nPol = 20 := by rw [hell]; exact fun k => ⟨rfl, rfl⟩
  have hs : ∀ k, SimpleRing (ell k).polygonVertices := fun k =>
    ellPolygon_simple _ (by rw [(ha k).1]; norm_num) (by rw [(ha k).1]; norm_num) (by rw [(ha k).2]; norm_num)
  have hf : ∀ k, filled (ell k).polygonVertices = convexHull ℝ {p | p ∈ (ell k).polygonVertices} := fun k =>
    ellPolygon_filled _ (by rw [(ha k).1]; norm_num) (by rw [(ha k).1]; norm_num) (by rw [(ha k).2]; norm_num)
  -- the corners on the x axis
  have right : ∀ k, ((1001 / 1000, 0) : Pt ℝ) ∈ (ell k).polygonVertices := by
    intro k
    rw [hell]
    simp only [Ell.polygonVertices, List.mem_map, List.mem_range]
    exact ⟨0, by norm_num, by simp; norm_num⟩
  have left : ∀ k, ((-(1001 / 1000), 0) : Pt ℝ) ∈ (ell k).polygonVertices := by
    intro k
    rw [hell]
    simp only [Ell.polygonVertices, List.mem_map, List.mem_range]
    refine ⟨10, by norm_num, ?_⟩
    have : ((10 : ℕ) : ℝ) * (2 * π / (20 : ℕ)) = π := by push_cast; ring
    rw [this, cos_pi, sin_pi]
    norm_num
  have mid : ∀ k (x : ℝ), |x| ≤ 1001 / 1000 → ((x, 0) : Pt ℝ) ∈ filled (ell k).polygonVertices := by
    intro k x hx
    rw [abs_le] at hx
    rw [hf]
    have := convex_convexHull ℝ {p | p ∈ (ell k).polygonVertices} (subset_convexHull ℝ _ (left k)) (subset_convexHull ℝ _ (right k))
      (a := 1 / 2 - x * (500 / 1001)) (b := 1 / 2 + x * (500 / 1001)) (by linarith) (by linarith) (by ring)
    convert this using 1
    ext
    · simp; ring
    · simp
  have world : ∀ k (p : Pt ℝ), worldOf (ell k).mm p = (p.1 + (if k = 0 then 0 else 20015 / 10000), p.2) := by
    intro k p
    rw [hell]
    simp [worldOf]
  refine ⟨ell, ha, ?_, ?_⟩
  · obtain ⟨b, h1, h2⟩ := C111_partial inter hin (fun _ => .fromPolygon) true (fun k => (ell k).polygonVertices) (fun k => (ell k).mm)
      xr eager static [] 0 1 (hs 0) (hs 1)
    change (intersectsCall inter (fresh _ _ xr eager static) 0 1).1 = .ok b at h1
    rw [h1, h2.2 ⟨(1001 / 1000, 0), ⟨(1001 / 1000, 0), mid 0 _ (by rw [abs_le]; norm_num), ?_⟩, ⟨(1001 / 1000 - 20015 / 10000, 0), mid 1 _ (by rw [abs_le]; norm_num), ?_⟩⟩]
    · show _ = worldOf (ell 0).mm _
      rw [world]; norm_num
    · show _ = worldOf (ell 1).mm _
      rw [world]; norm_num
  · rintro ⟨x, ⟨p, hp, e⟩, q, hq, e'⟩
    rw [world] at e e'
    simp only [Set.mem_ofPred_eq, ellForm, (ha 0).1, (ha 1).1] at hp hq
    norm_num at hp hq
    have e1 : p.1 + 0 = q.1 + 20015 / 10000 := by
      have := congrArg Prod.fst (e.symm.trans e')
      simpa using this
    have hp1 : p.1 ≤ 1 := by nlinarith [sq_nonneg p.2, sq_nonneg (p.1 - 1)]
    have hq1 : -1 ≤ q.1 := by nlinarith [sq_nonneg q.2, sq_nonneg (q.1 + 1)]
    linarith

/-! ## In use -/

/-- There is an `intersects` with the law. -/
theorem interOk_exists : ∃ inter, InterOk inter := by
  classical
  exact ⟨fun v w => decide (∃ p, p ∈ filled v ∧ p ∈ filled w), fun v w _ _ => decide_eq_true_iff⟩

/-- A square with side 2. -/
def boxRing : List (Pt ℚ) := [(-1, -1), (1, -1), (1, 1), (-1, 1)]

theorem boxRing_star : StarAbout (0, 0) (boxRing.map toReal) := by
  have h := starAbout_rat (c := (0, 0)) (v := boxRing) (by decide +kernel)
  convert h using 1
  simp [toReal]

/-- Two boxes; the second one comes from (5, 0), where there is no common point, to (2, 1). -/
example (inter : Shape → Shape → Bool) (hin : InterOk inter) :
    let w := fresh (fun _ => boxRing.map toReal) (fun k => some ⟨(5 * k, 0), 0⟩) (fun _ => 0) (fun _ => true) fun _ => false
    (intersectsCall inter w 0 1).1 = .ok false ∧
      (intersectsCall inter (pairRun inter (fun _ => .fromPolygon) true w [.intersects 0 1, .on 1 (.setPose ⟨(2, 1), 0⟩)]) 0 1).1 = .ok true := by
  have hs := star_simple boxRing_star
  have hb : ∀ p : Pt ℝ, p ∈ filled (boxRing.map toReal) → |p.1| ≤ 1 := by
    intro p hp
    have := filled_subset_region boxRing_star hp
    have hc : Convex ℝ {p : Pt ℝ | |p.1| ≤ 1} := by
      intro a ha b hb r w hr hw hrw
      simp only [Set.mem_ofPred_eq, Prod.fst_add, Prod.smul_fst, smul_eq_mul, abs_le] at *
      have : r = 1 - w := by linarith
      subst this
      constructor <;> nlinarith
    refine convexHull_min ?_ hc this
    intro q hq
    simp [boxRing, toReal] at hq
    rcases hq with rfl | rfl | rfl | rfl <;> simp
  intro w
  constructor
  · obtain ⟨b, h1, h2⟩ := C111_partial inter hin (fun _ => .fromPolygon) true (fun _ => boxRing.map toReal) (fun k => some ⟨(5 * k, 0), 0⟩)
      (fun _ => 0) (fun _ => true) (fun _ => false) [] 0 1 hs hs
    change (intersectsCall inter w 0 1).1 = .ok b at h1
    rw [h1]
    cases b with
    | false => rfl
    | true =>
      exfalso
      obtain ⟨x, ⟨p, hp, e⟩, q, hq, e'⟩ := h2.1 rfl
      have := congrArg Prod.fst (e.symm.trans e')
      simp [worldOf, lastPose] at this
      have b0 := abs_le.1 (hb p hp)
      have b1 := abs_le.1 (hb q hq)
      linarith [b0.2, b1.1]
  · obtain ⟨b, h1, h2⟩ := C111_partial inter hin (fun _ => .fromPolygon) true (fun _ => boxRing.map toReal) (fun k => some ⟨(5 * k, 0), 0⟩)
      (fun _ => 0) (fun _ => true) (fun _ => false) [.intersects 0 1, .on 1 (.setPose ⟨(2, 1), 0⟩)] 0 1 hs hs
    rw [h1, h2.2 ⟨(1, 1), ⟨(1, 1), Or.inr ⟨1, by simp [boxRing], 1, zero_le_one, le_rfl, ?_⟩, ?_⟩, ⟨(-1, 0), Or.inr ⟨3, by simp [boxRing], 1 / 2, by norm_num, by norm_num, ?_⟩, ?_⟩⟩]
    · ext <;> simp [corner, boxRing, toReal]
    · simp [worldOf, lastPose]
    · ext <;> simp [corner, boxRing, toReal] <;> norm_num
    · simp [worldOf, lastPose]; norm_num

end Starworlds
