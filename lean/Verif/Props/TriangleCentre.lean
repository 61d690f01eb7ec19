import Verif.Props.KernelPoints
import Verif.Props.EllipseTangent

/-! # C74: the side of the triangle centre -/

namespace Starworlds

open Real Spec

variable {G : Type}

namespace Spec

/-- `c` is on the left of the line from `x` to `xg`, by more than the tolerance. -/
def FarLeft (x xg c : Pt ℝ) : Prop := 1 / 10 ^ 10 < cross (xg - x) (c - x)

/-- `c` is near the line through `x` and `xg`. -/
def NearLine (x xg c : Pt ℝ) : Prop := |cross (xg - x) (c - x)| < 1 / 10 ^ 10

end Spec

theorem isCcw_left (x xg c : Pt ℝ) : isCcw x xg c = true ↔ FarLeft x xg c := isCcw_cross x xg c

theorem isCollinear_near (x xg c : Pt ℝ) : isCollinear x xg c = true ↔ NearLine x xg c := by
  rw [isCollinear_iff, NearLine, collinearThreshold]

theorem perturb_spec (x xg : Pt ℝ) : ∀ (draws : List (Pt ℝ)) (c0 c : Pt ℝ), perturb x xg c0 draws = some c →
    ¬ NearLine x xg c ∧ ∃ n ≤ draws.length, c = c0 + (draws.take n).sum ∧
      ∀ m < n, NearLine x xg (c0 + (draws.take m).sum)
  | [], c0, c, h => by
    simp only [perturb] at h
    split at h
    · simp at h
    · rename_i hc
      injection h with h
      subst h
      rw [isCollinear_near] at hc
      exact ⟨hc, 0, le_rfl, by simp, by simp⟩
  | d :: ds, c0, c, h => by
    simp only [perturb] at h
    split at h
    · rename_i hc
      obtain ⟨h1, n, hn, e, hm⟩ := perturb_spec x xg ds (c0 + d) c h
      refine ⟨h1, n + 1, by simpa using hn, ?_, ?_⟩
      · rw [e, List.take_succ_cons, List.sum_cons, add_assoc]
      · intro m hmn
        cases m with
        | zero => simpa using (isCollinear_near _ _ _).1 hc
        | succ m =>
          have := hm m (by omega)
          rwa [List.take_succ_cons, List.sum_cons, ← add_assoc]
    · rename_i hc
      injection h with h
      subst h
      rw [isCollinear_near] at hc
      exact ⟨hc, 0, by simp, by simp, by simp⟩

/-- C74: without a previous centre, the centre is the point of the admissible kernel nearest to the centroid of the
selection set, moved by the first so many draws; it is not near the line through robot and goal, and no more draws are
used than necessary. -/
theorem C74_fresh (geo : PolyOps G) (adm tcss : G) (x xg : Pt ℝ) (draws : List (Pt ℝ)) (c : Pt ℝ)
    (h : triangleCentre geo adm tcss x xg none draws = .ok (some c)) :
    ¬ NearLine x xg c ∧ ∃ c0, geo.nearestToCentroid adm tcss = .ok c0 ∧ ∃ n ≤ draws.length,
      c = c0 + (draws.take n).sum ∧ ∀ m < n, NearLine x xg (c0 + (draws.take m).sum) := by
  simp only [triangleCentre, bind, Except.bind] at h
  cases h0 : geo.nearestToCentroid adm tcss with
  | error e => rw [h0] at h; simp at h
  | ok c0 =>
    rw [h0] at h
    simp only [Except.ok.injEq] at h
    obtain ⟨h1, h2⟩ := perturb_spec x xg draws c0 c h
    exact ⟨h1, c0, rfl, h2⟩

/-- C74: a previous centre that is inside of the selection set and not near the line is kept. -/
theorem C74_kept (geo : PolyOps G) (adm tcss : G) (x xg prev : Pt ℝ) (draws : List (Pt ℝ))
    (h1 : geo.contains tcss prev = true) (h2 : ¬ NearLine x xg prev) :
    triangleCentre geo adm tcss x xg (some prev) draws = .ok (some prev) := by
  rw [← isCollinear_near] at h2
  simp [triangleCentre, h1, h2]

theorem sameSide_spec (geo : PolyOps G) (x xg prev : Pt ℝ) (first : G) (cen : G → Pt ℝ) : ∀ gs : List G,
    (∀ g ∈ gs, geo.centroid g = .ok (cen g)) →
    ∃ g, sameSide geo x xg prev first gs = .ok g ∧
      ((g ∈ gs ∧ (FarLeft x xg (cen g) ↔ FarLeft x xg prev)) ∨
       (g = first ∧ ∀ k ∈ gs, ¬ (FarLeft x xg (cen k) ↔ FarLeft x xg prev)))
  | [], _ => ⟨first, rfl, Or.inr ⟨rfl, by simp⟩⟩
  | g :: gs, h => by
    have hiff : isCcw x xg (cen g) = isCcw x xg prev ↔ (FarLeft x xg (cen g) ↔ FarLeft x xg prev) := by
      rw [← isCcw_left, ← isCcw_left]
      cases isCcw x xg (cen g) <;> cases isCcw x xg prev <;> simp
    simp only [sameSide, h g List.mem_cons_self, bind, Except.bind]
    split
    · rename_i hc
      exact ⟨g, rfl, Or.inl ⟨List.mem_cons_self, hiff.1 hc⟩⟩
    · rename_i hc
      obtain ⟨k, hk, hk'⟩ := sameSide_spec geo x xg prev first cen gs fun k hk => h k (List.mem_cons_of_mem _ hk)
      refine ⟨k, hk, ?_⟩
      rcases hk' with ⟨h1, h2⟩ | ⟨h1, h2⟩
      · exact Or.inl ⟨List.mem_cons_of_mem _ h1, h2⟩
      · refine Or.inr ⟨h1, fun j hj => ?_⟩
        rcases List.mem_cons.1 hj with rfl | hj
        · exact fun hh => hc (hiff.2 hh)
        · exact h2 j hj

/-- C74, partial: a previous centre that cannot be kept is replaced by the point of the admissible kernel nearest to the
centroid of a part of the selection set, and if some part has its centroid on the side of the previous centre, so has
this part. Missing: that the new centre is off the line and on the side of the centroid; for both it is false. -/
theorem C74_part_partial (geo : PolyOps G) (adm tcss : G) (x xg prev : Pt ℝ) (draws : List (Pt ℝ))
    (hprev : geo.contains tcss prev = false ∨ NearLine x xg prev) (parts : List G) (hne : parts ≠ [])
    (hs : geo.split tcss x xg = .ok parts) (cen : G → Pt ℝ) (hc : ∀ g ∈ parts, geo.centroid g = .ok (cen g)) :
    ∃ g ∈ parts, triangleCentre geo adm tcss x xg (some prev) draws = (geo.nearestToCentroid adm g).map some ∧
      ((∃ k ∈ parts, FarLeft x xg (cen k) ↔ FarLeft x xg prev) → (FarLeft x xg (cen g) ↔ FarLeft x xg prev)) := by
  have hcond : (geo.contains tcss prev && !isCollinear x xg prev) = false := by
    rcases hprev with h | h
    · simp [h]
    · simp [(isCollinear_near _ _ _).2 h]
  cases parts with
  | nil => exact absurd rfl hne
  | cons first rest =>
    obtain ⟨g, hg, hg'⟩ := sameSide_spec geo x xg prev first cen rest fun k hk => hc k (List.mem_cons_of_mem _ hk)
    refine ⟨g, ?_, ?_, ?_⟩
    · rcases hg' with ⟨h1, _⟩ | ⟨h1, _⟩
      · exact List.mem_cons_of_mem _ h1
      · rw [h1]; exact List.mem_cons_self
    · simp only [triangleCentre, hcond, Bool.false_eq_true, if_false, bind, Except.bind, hs, hg]
      cases geo.nearestToCentroid adm g <;> rfl
    · rintro ⟨k, hk, hk'⟩
      rcases hg' with ⟨_, h2⟩ | ⟨h1, h2⟩
      · exact h2
      · rcases List.mem_cons.1 hk with rfl | hk
        · rw [h1]; exact hk'
        · exact absurd hk' (h2 k hk)

/-- A world whose only geometry is the square from -4 to 4, for a robot and a goal on the same side of it: the segment
between them does not split it. -/
theorem square4_world : OpsOk square4Ops (fun _ => square4) ∧ Simple square4Ops (fun _ => square4) () :=
  ⟨⟨fun _ _ => (Set.inter_self _).symm, fun _ _ => subset_rfl⟩, square4_simple⟩

/-- C74 is false for the line: robot (-9, 0) and goal (-6, 0) are to the left of the square, the previous centre (0, 7) is
not in it any more, and the new centre is (0, 0), on the line through robot and goal. -/
theorem C74_line_false : (∀ p, OnSegment ((-9, 0) : Pt ℝ) (-6, 0) p → p ∉ square4) ∧
    triangleCentre square4Ops () () (-9, 0) (-6, 0) (some (0, 7)) [] = .ok (some (0, 0)) ∧
    NearLine (-9, 0) (-6, 0) (0, 0) ∧ ¬ NearLine (-9, 0) (-6, 0) (0, 7) := by
  refine ⟨?_, ?_, ?_, ?_⟩
  · rintro p ⟨t, h0, h1, rfl⟩ hp
    have h2 := (le_max_left _ _).trans (show max _ _ ≤ (4 : ℝ) from hp)
    have h3 := (abs_le.1 h2).1
    norm_num at h3
    linarith
  · norm_num [triangleCentre, square4Ops, sameSide, bind, Except.bind]
  · norm_num [NearLine, cross]
  · norm_num [NearLine, cross]

/-- C74 is false for the side: with the robot at (-9, 1) and the goal at (-6, 1) the previous centre (0, 7) is on the left,
the new centre (0, 0) is on the right, although the square has points on the left, such as (0, 3). -/
theorem C74_side_false : (∀ p, OnSegment ((-9, 1) : Pt ℝ) (-6, 1) p → p ∉ square4) ∧
    triangleCentre square4Ops () () (-9, 1) (-6, 1) (some (0, 7)) [] = .ok (some (0, 0)) ∧
    FarLeft (-9, 1) (-6, 1) (0, 7) ∧ ¬ FarLeft (-9, 1) (-6, 1) (0, 0) ∧ FarLeft (-9, 1) (-6, 1) (0, 3) ∧ (0, 3) ∈ square4 := by
  refine ⟨?_, ?_, ?_, ?_, ?_, ?_⟩
  · rintro p ⟨t, h0, h1, rfl⟩ hp
    have h2 := (le_max_left _ _).trans (show max _ _ ≤ (4 : ℝ) from hp)
    have h3 := (abs_le.1 h2).1
    norm_num at h3
    linarith
  · norm_num [triangleCentre, square4Ops, sameSide, bind, Except.bind]
  · norm_num [FarLeft, cross]
  · norm_num [FarLeft, cross]
  · norm_num [FarLeft, cross]
  · norm_num [square4]

/-- Without a previous centre and with robot and goal on the axis, the draws move the centre off the axis. -/
example : triangleCentre square4Ops () () (-9, 0) (-6, 0) none [(1, 0), (0, 1), (1, 1)] = .ok (some (1, 1)) := by
  norm_num [triangleCentre, square4Ops, perturb, isCollinear, orientationVal, collinearThreshold, bind, Except.bind]

/-- A world with two halves of a selection set: the upper half `true`, the lower half `false`. -/
noncomputable def halvesOps : PolyOps Bool where
  difference a _ := a
  intersection a _ := a
  within _ _ := true
  area _ := 32
  centroid b := .ok (if b then (0, 2) else (0, -2))
  nearestToCentroid _ b := .ok (if b then (0, 2) else (0, -2))
  contains _ _ := false
  split _ _ _ := .ok [false, true]
  isPolygon _ := true
  geoms _ := []
  exteriorDistance _ _ := .ok 1

/-- The previous centre is above the axis, and the upper half is chosen. -/
example : triangleCentre halvesOps true true (-9, 0) (9, 0) (some (0, 7)) [] = .ok (some (0, 2)) := by
  obtain ⟨g, _, h1, h2⟩ := C74_part_partial halvesOps true true (-9, 0) (9, 0) (0, 7) [] (Or.inl rfl) [false, true] (by simp)
    rfl (fun b => if b then (0, 2) else (0, -2)) (fun _ _ => rfl)
  have h3 := h2 ⟨true, by simp, by norm_num [FarLeft, cross]⟩
  cases g with
  | true => rw [h1]; simp [halvesOps, Except.map]
  | false => norm_num [FarLeft, cross] at h3

end Starworlds
