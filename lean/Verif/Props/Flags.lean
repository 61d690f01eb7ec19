import Verif.Spec.Flags
import Verif.Props.PolygonConvex
import Verif.Props.PolygonLocation
import Verif.Props.Combination
import Verif.Props.Ellipse
import Verif.Proofs.NotchShape
import Verif.Proofs.KernelCorner

/-! # C88, C89, C90: is_convex, is_starshaped over call histories; interior, exterior and boundary points -/

namespace Starworlds

open Real Spec

section History

variable {K : Type*} [Field K] [LinearOrder K]

theorem run_cons (s : Flags K) (op : FlagOp K) (ops : List (FlagOp K)) : s.run (op :: ops) = (s.step op).run ops := rfl

theorem run_append (s : Flags K) (a b : List (FlagOp K)) : s.run (a ++ b) = (s.run a).run b := by
  simp [Flags.run, List.foldl_append]

/-- The cached answer, if there is one, is the answer for the current polygon. -/
def Flags.Fresh (s : Flags K) : Prop := ∀ b, s.isConvex = some b → s.check = .ok b

theorem isConvexCall_fields (s : Flags K) : s.isConvexCall.2.cls = s.cls ∧ s.isConvexCall.2.verts = s.verts ∧
    s.isConvexCall.2.isStarshaped = s.isStarshaped := by
  unfold Flags.isConvexCall
  split
  · simp
  · split <;> simp

theorem isConvexCall_fresh {s : Flags K} (h : s.Fresh) : s.isConvexCall.1 = s.check ∧ s.isConvexCall.2.Fresh := by
  unfold Flags.isConvexCall
  split
  · rename_i b hb
    exact ⟨(h b hb).symm, h⟩
  · split
    · rename_i e he
      exact ⟨he.symm, h⟩
    · rename_i b hb
      refine ⟨hb.symm, fun c hc => ?_⟩
      simp only [Option.some.injEq] at hc
      subst hc
      exact hb

theorem isStarshapedCall_state (s : Flags K) : s.isStarshapedCall.2.cls = s.cls ∧ s.isStarshapedCall.2.verts = s.verts ∧
    (s.isStarshapedCall.2.isConvex = s.isConvex ∨ s.isStarshapedCall.2.isConvex = s.isConvexCall.2.isConvex) := by
  obtain ⟨h1, h2, -⟩ := isConvexCall_fields s
  unfold Flags.isStarshapedCall
  split
  · simp
  · split
    · rename_i e s' he
      rw [he] at h1 h2
      simp only at h1 h2
      simp [h1, h2, he]
    · rename_i b s' hb
      rw [hb] at h1 h2
      simp only at h1 h2
      split <;> simp [h1, h2, hb]

theorem check_congr {s t : Flags K} (h1 : s.cls = t.cls) (h2 : s.verts = t.verts) : s.check = t.check := by
  simp only [Flags.check, h1, h2]

theorem isStarshapedCall_fresh {s : Flags K} (h : s.Fresh) : s.isStarshapedCall.2.Fresh := by
  obtain ⟨h1, h2, h3⟩ := isStarshapedCall_state s
  intro b hb
  rw [check_congr h1 h2]
  rcases h3 with h3 | h3
  · exact h b (h3 ▸ hb)
  · obtain ⟨g1, g2, -⟩ := isConvexCall_fields s
    rw [← check_congr g1 g2]
    exact (isConvexCall_fresh h).2 b (h3 ▸ hb)

theorem run_star {s : Flags K} (hs : s.cls.isStar = true) (h : s.Fresh) (ops : List (FlagOp K)) :
    (s.run ops).cls = s.cls ∧ (s.run ops).verts = lastShape s.verts ops ∧ (s.run ops).Fresh := by
  induction ops generalizing s with
  | nil => exact ⟨rfl, rfl, h⟩
  | cons op ops ih =>
    rw [run_cons]
    cases op with
    | isConvex =>
      obtain ⟨g1, g2, -⟩ := isConvexCall_fields s
      have := ih (s := s.isConvexCall.2) (by rw [g1]; exact hs) (isConvexCall_fresh h).2
      rw [g1, g2] at this
      exact this
    | isStarshaped =>
      obtain ⟨g1, g2, -⟩ := isStarshapedCall_state s
      have := ih (s := s.isStarshapedCall.2) (by rw [g1]; exact hs) (isStarshapedCall_fresh h)
      rw [g1, g2] at this
      exact this
    | copy =>
      have e : s.copy = ⟨s.cls, s.verts, none, some true⟩ := by simp [Flags.copy, hs]
      have := ih (s := s.copy) (by rw [e]; exact hs) (by rw [e]; intro b hb; simp at hb)
      rw [e] at this
      simp only [Flags.step, e]
      exact this
    | dilate b =>
      have e : s.dilated b = ⟨s.cls, b, none, some true⟩ := by simp [Flags.dilated, Flags.copy, hs]
      have := ih (s := s.dilated b) (by rw [e]; exact hs) (by rw [e]; intro b hb; simp at hb)
      rw [e] at this
      simp only [Flags.step, e]
      exact this

/-- C88: for a StarshapedPolygon `is_convex()` is, after any history of calls, `_check_convexity` of the current polygon. -/
theorem C88_star (v : List (Pt K)) (s : Flags K) (hs : Flags.make .starPolygon v none none = .ok s) (ops : List (FlagOp K)) :
    (s.run ops).isConvexCall.1 = checkConvexity (lastShape v ops) := by
  simp only [Flags.make, FlagClass.isStar, if_true] at hs
  injection hs with hs
  subst hs
  obtain ⟨h1, h2, h3⟩ := run_star (s := (⟨.starPolygon, v, none, some true⟩ : Flags K)) rfl (by intro b hb; simp at hb) ops
  rw [(isConvexCall_fresh h3).1]
  simp only [Flags.check, h1, h2]

/-- C88: for an Ellipse `is_convex()` is True after any history of calls. -/
theorem C88_ellipse (v : List (Pt K)) (s : Flags K) (hs : Flags.make .ellipse v none none = .ok s) (ops : List (FlagOp K)) :
    (s.run ops).isConvexCall.1 = .ok true := by
  simp only [Flags.make, FlagClass.isStar, if_true] at hs
  injection hs with hs
  subst hs
  obtain ⟨h1, -, h3⟩ := run_star (s := (⟨.ellipse, v, none, some true⟩ : Flags K)) rfl (by intro b hb; simp at hb) ops
  rw [(isConvexCall_fresh h3).1]
  simp only [Flags.check, h1]

omit [Field K] [LinearOrder K] in
theorem lastShape_append (v : List (Pt K)) (a b : List (FlagOp K)) : lastShape v (a ++ b) = lastShape (lastShape v a) b := by
  induction a generalizing v with
  | nil => rfl
  | cons op a ih => cases op <;> simp [lastShape, ih]

/-- C88 (partial): for a Polygon `is_convex()` is `_check_convexity` of the current polygon if no dilation comes after
`is_convex()` or `is_starshaped()`. Missing: dilations after them (`C88_stale_false`). -/
theorem C88_polygon_partial (v : List (Pt K)) (s : Flags K) (hs : Flags.make .polygon v none none = .ok s)
    (pre post : List (FlagOp K)) (hpre : ∀ op ∈ pre, op ≠ .isConvex ∧ op ≠ .isStarshaped)
    (hpost : ∀ op ∈ post, ∀ b, op ≠ .dilate b) :
    (s.run (pre ++ post)).isConvexCall.1 = checkConvexity (lastShape v (pre ++ post)) := by
  simp only [Flags.make, FlagClass.isStar, Bool.false_eq_true, if_false] at hs
  injection hs with hs
  subst hs
  have h1 : ∀ (ops : List (FlagOp K)) (v : List (Pt K)), (∀ op ∈ ops, op ≠ .isConvex ∧ op ≠ .isStarshaped) →
      Flags.run (⟨.polygon, v, none, none⟩ : Flags K) ops = ⟨.polygon, lastShape v ops, none, none⟩ := by
    intro ops
    induction ops with
    | nil => intro v _; rfl
    | cons op ops ih =>
      intro v h
      have hop := h op List.mem_cons_self
      have ht := fun v => ih v fun o ho => h o (List.mem_cons_of_mem _ ho)
      rw [run_cons]
      cases op with
      | isConvex => exact absurd rfl hop.1
      | isStarshaped => exact absurd rfl hop.2
      | copy => exact ht v
      | dilate b => exact ht b
  have h2 : ∀ (ops : List (FlagOp K)) (s : Flags K), s.cls = .polygon → s.Fresh → (∀ op ∈ ops, ∀ b, op ≠ .dilate b) →
      (s.run ops).cls = .polygon ∧ (s.run ops).verts = lastShape s.verts ops ∧ (s.run ops).Fresh := by
    intro ops
    induction ops with
    | nil => intro s hc hf _; exact ⟨hc, rfl, hf⟩
    | cons op ops ih =>
      intro s hc hf h
      have ht := fun s hc hf => ih s hc hf fun o ho => h o (List.mem_cons_of_mem _ ho)
      rw [run_cons]
      cases op with
      | isConvex =>
        obtain ⟨g1, g2, -⟩ := isConvexCall_fields s
        have := ht s.isConvexCall.2 (g1.trans hc) (isConvexCall_fresh hf).2
        rw [g2] at this
        exact this
      | isStarshaped =>
        obtain ⟨g1, g2, -⟩ := isStarshapedCall_state s
        have := ht s.isStarshapedCall.2 (g1.trans hc) (isStarshapedCall_fresh hf)
        rw [g2] at this
        exact this
      | copy =>
        have e : s.copy = s := by simp [Flags.copy, hc, FlagClass.isStar]
        simp only [Flags.step, e]
        exact ht s hc hf
      | dilate b => exact absurd rfl (h _ List.mem_cons_self b)
  rw [run_append, h1 pre v hpre]
  obtain ⟨g1, g2, g3⟩ := h2 post ⟨.polygon, lastShape v pre, none, none⟩ rfl (by intro b hb; simp at hb) hpost
  rw [(isConvexCall_fresh g3).1, lastShape_append]
  simp only [Flags.check, g1, g2]

/-- C88: a Polygon for which `is_convex` was given keeps that answer through all calls, whatever its polygon becomes. -/
theorem C88_given (v : List (Pt K)) (b : Bool) (starArg : Option Bool) (s : Flags K)
    (hs : Flags.make .polygon v (some b) starArg = .ok s) (ops : List (FlagOp K)) : (s.run ops).isConvexCall.1 = .ok b := by
  simp only [Flags.make, FlagClass.isStar, Bool.false_eq_true, if_false] at hs
  injection hs with hs
  have key : ∀ (ops : List (FlagOp K)) (s : Flags K), s.cls = .polygon → s.isConvex = some b →
      (s.run ops).isConvex = some b := by
    intro ops
    induction ops with
    | nil => intro s _ h; exact h
    | cons op ops ih =>
      intro s hc h
      have hcall : s.isConvexCall.2 = s := by simp [Flags.isConvexCall, h]
      rw [run_cons]
      cases op with
      | isConvex => simp only [Flags.step, hcall]; exact ih s hc h
      | isStarshaped =>
        obtain ⟨g1, -, g3⟩ := isStarshapedCall_state s
        refine ih _ (g1.trans hc) ?_
        rw [hcall, or_self] at g3
        exact g3.trans h
      | copy =>
        have e : s.copy = s := by simp [Flags.copy, hc, FlagClass.isStar]
        simp only [Flags.step, e]
        exact ih s hc h
      | dilate d =>
        have e : s.copy = s := by simp [Flags.copy, hc, FlagClass.isStar]
        refine ih _ ?_ ?_ <;> simp [Flags.step, Flags.dilated, e, hc, h]
  have := key ops s (by rw [← hs]) (by rw [← hs])
  simp [Flags.isConvexCall, this]

/-- C88: a StarshapedPolygon for which `is_convex` was given forgets it when it is copied or dilated. -/
theorem C88_given_star (v : List (Pt K)) (b : Bool) (s : Flags K) (hs : Flags.make .starPolygon v (some b) none = .ok s)
    (ops : List (FlagOp K)) :
    ((∀ op ∈ ops, op = .isConvex ∨ op = .isStarshaped) → (s.run ops).isConvexCall.1 = .ok b) ∧
    ∀ post d, (s.run (ops ++ .copy :: post)).isConvexCall.1 = checkConvexity (lastShape v (ops ++ post)) ∧
      (s.run (ops ++ .dilate d :: post)).isConvexCall.1 = checkConvexity (lastShape d post) := by
  simp only [Flags.make, FlagClass.isStar, if_true] at hs
  injection hs with hs
  have hcls : ∀ (ops : List (FlagOp K)) (s : Flags K), s.cls = .starPolygon →
      (s.run ops).cls = .starPolygon ∧ (s.run ops).verts = lastShape s.verts ops := by
    intro ops
    induction ops with
    | nil => intro s h; exact ⟨h, rfl⟩
    | cons op ops ih =>
      intro s h
      have hk : s.cls.isStar = true := by rw [h]; rfl
      rw [run_cons]
      cases op with
      | isConvex =>
        obtain ⟨g1, g2, -⟩ := isConvexCall_fields s
        have := ih s.isConvexCall.2 (g1.trans h)
        rw [g2] at this
        exact this
      | isStarshaped =>
        obtain ⟨g1, g2, -⟩ := isStarshapedCall_state s
        have := ih s.isStarshapedCall.2 (g1.trans h)
        rw [g2] at this
        exact this
      | copy =>
        have := ih s.copy (by simp [Flags.copy, FlagClass.isStar, h])
        rw [show s.copy.verts = s.verts by simp [Flags.copy, hk]] at this
        exact this
      | dilate d => exact ih (s.dilated d) (by simp [Flags.dilated, Flags.copy, FlagClass.isStar, h])
  have hfresh : ∀ (v : List (Pt K)) (ops : List (FlagOp K)),
      (Flags.run (⟨.starPolygon, v, none, some true⟩ : Flags K) ops).isConvexCall.1 = checkConvexity (lastShape v ops) :=
    fun v ops => C88_star v _ rfl ops
  have hrun := hcls ops s (by rw [← hs])
  have hv : s.verts = v := by rw [← hs]
  refine ⟨fun h => ?_, fun post d => ⟨?_, ?_⟩⟩
  · have : s.run ops = s := by
      clear hrun
      induction ops with
      | nil => rfl
      | cons op ops ih =>
        rw [run_cons]
        have hst : s.step op = s := by
          rcases h op List.mem_cons_self with rfl | rfl <;> rw [← hs] <;>
            simp [Flags.step, Flags.isConvexCall, Flags.isStarshapedCall]
        rw [hst]
        exact ih fun o ho => h o (List.mem_cons_of_mem _ ho)
    rw [this, ← hs]
    simp [Flags.isConvexCall]
  · rw [run_append, run_cons]
    have e : (s.run ops).step .copy = ⟨.starPolygon, lastShape v ops, none, some true⟩ := by
      simp [Flags.step, Flags.copy, FlagClass.isStar, hrun.1, hrun.2, hv]
    rw [e, hfresh, lastShape_append]
  · rw [run_append, run_cons]
    have e : (s.run ops).step (.dilate d) = ⟨.starPolygon, d, none, some true⟩ := by
      simp [Flags.step, Flags.dilated, Flags.copy, FlagClass.isStar, hrun.1]
    rw [e, hfresh]

/-! ## C89 -/

/-- C89: the star-shaped classes report `is_starshaped()` after any history of calls; giving `is_starshaped` to their
constructors raises TypeError. -/
theorem C89_star_classes (cls : FlagClass) (hc : cls ≠ .polygon) (v : List (Pt K)) (arg : Option Bool) :
    (∀ b, Flags.make cls v arg (some b) = .error .typeError) ∧
    ∃ s, Flags.make cls v arg none = .ok s ∧ ∀ ops, (s.run ops).isStarshapedCall.1 = .ok true := by
  have hst : cls.isStar = true := by cases cls <;> first | rfl | exact absurd rfl hc
  refine ⟨fun b => by simp [Flags.make, hst], ⟨cls, v, arg, some true⟩, by simp [Flags.make, hst], ?_⟩
  have key : ∀ (ops : List (FlagOp K)) (s : Flags K), s.cls.isStar = true → s.isStarshaped = some true →
      (s.run ops).isStarshaped = some true := by
    intro ops
    induction ops with
    | nil => intro s _ h; exact h
    | cons op ops ih =>
      intro s hk h
      rw [run_cons]
      cases op with
      | isConvex =>
        obtain ⟨g1, -, g3⟩ := isConvexCall_fields s
        exact ih _ (by rw [Flags.step, g1]; exact hk) (g3.trans h)
      | isStarshaped =>
        have e : s.isStarshapedCall.2 = s := by simp [Flags.isStarshapedCall, h]
        simp only [Flags.step, e]
        exact ih s hk h
      | copy => exact ih _ (by simp [Flags.step, Flags.copy, hk]) (by simp [Flags.step, Flags.copy, hk])
      | dilate d =>
        exact ih _ (by simp [Flags.step, Flags.dilated, Flags.copy, hk]) (by simp [Flags.step, Flags.dilated, Flags.copy, hk])
  intro ops
  have := key ops ⟨cls, v, arg, some true⟩ hst rfl
  simp [Flags.isStarshapedCall, this]

/-- C89: a new Polygon answers `is_starshaped()` with the answer of `is_convex()`. -/
theorem C89_polygon (v : List (Pt K)) (s : Flags K) (hs : Flags.make .polygon v none none = .ok s) :
    s.isStarshapedCall.1 = checkConvexity v := by
  simp only [Flags.make, FlagClass.isStar, Bool.false_eq_true, if_false] at hs
  injection hs with hs
  subst hs
  simp only [Flags.isStarshapedCall, Flags.isConvexCall, Flags.check]
  cases h : checkConvexity v with
  | error e => rfl
  | ok b => cases b <;> rfl

end History

/-- C89 (partial): if the polygon goes once around and every corner is straight or bends by more than the threshold, then a
Polygon that answers `is_starshaped()` with True is star-shaped: all of its region is visible from all of its points.
Missing: corners that bend by less (`C89_band_false`), and that False means that it is not (`C89_corner_false`). -/
theorem C89_sound_partial (v : List (Pt ℝ)) (h : OnceAround v)
    (hband : ∀ j < v.length, turn v j = 0 ∨ 1 / 10 ^ 10 < |turn v j|) (s : Flags ℝ)
    (hs : Flags.make .polygon v none none = .ok s) (hb : s.isStarshapedCall.1 = .ok true) :
    visKernel (filled v) = filled v ∧ (filled v).Nonempty := by
  rw [C89_polygon v s hs] at hb
  obtain ⟨b, h1, h2, -, -⟩ := C36_region_partial v h hband
  rw [h1] at hb
  injection hb with hb
  obtain ⟨-, he, hk⟩ := onceAround_convex h (h2.1 hb)
  refine ⟨hk, ?_⟩
  obtain ⟨j, hj, -⟩ := onceAround_left h
  exact ⟨corner v j, Or.inr ⟨j, hj, 0, le_rfl, zero_le_one, by simp⟩⟩

/-- C89 is false for Polygon: the L-shape is star-shaped, its kernel is a square, and the answer is False. -/
theorem C89_corner_false : ∃ s, Flags.make .polygon (cornerShape 2 2 1 1) none none = .ok s ∧ s.isStarshapedCall.1 = .ok false ∧
    visKernel (filled (cornerShape 2 2 1 1)) = {p | 0 ≤ p.1 ∧ p.1 ≤ 1 ∧ 0 ≤ p.2 ∧ p.2 ≤ 1} := by
  refine ⟨_, rfl, ?_, corner_visible (by norm_num) (by norm_num) (by norm_num) (by norm_num)⟩
  rw [C89_polygon _ _ rfl]
  exact corner_nonconvex ⟨by norm_num, by norm_num, by norm_num, by norm_num, by norm_num, by norm_num⟩

/-- A notch of width and depth 1/1000000 in the upper side of the unit square. -/
def slitShape : List (Pt ℚ) :=
  [(0, 0), (1, 0), (1, 1), (1 / 2 + 1 / 1000000, 1), (1 / 2 + 1 / 1000000, 1 - 1 / 1000000), (1 / 2, 1 - 1 / 1000000), (1 / 2, 1), (0, 1)]

theorem slit_notch : slitShape.map toReal = notchShape 1 1 (1 / 2) (1 / 1000000) (1 / 1000000) := by
  simp only [slitShape, notchShape, toReal, List.map_cons, List.map_nil]
  norm_num

/-- C89 is false for Polygon in the other direction as well: a square with a small rectangular notch is reported convex and
hence star-shaped, but no point of it sees all of it. -/
theorem C89_band_false : ∃ s, Flags.make .polygon (slitShape.map toReal) none none = .ok s ∧ s.isStarshapedCall.1 = .ok true ∧
    visKernel (filled (slitShape.map toReal)) = ∅ := by
  refine ⟨_, rfl, ?_, ?_⟩
  · rw [C89_polygon _ _ rfl, checkConvexity_map toReal_turns]
    decide +kernel
  · rw [slit_notch]
    exact notch_visible (by norm_num) (by norm_num) (by norm_num) (by norm_num) (by norm_num)

/-- C89 is false for StarshapedPolygon: it answers True for a square with a notch as well, from which no point sees all. -/
theorem C89_unchecked_false : ∃ s, Flags.make .starPolygon (notchShape 3 2 1 1 1) none none = .ok s ∧
    (∀ ops, (s.run ops).isStarshapedCall.1 = .ok true) ∧ visKernel (filled (notchShape 3 2 1 1 1)) = ∅ := by
  obtain ⟨s, h1, h2⟩ := (C89_star_classes .starPolygon (by simp) (notchShape 3 2 1 1 1) none).2
  exact ⟨s, h1, h2, notch_visible (by norm_num) (by norm_num) (by norm_num) (by norm_num) (by norm_num)⟩

/-! ## C88: an erosion after the first query -/

/-- The L-shape with arms of width 3 and 1, eroded by 6/5: the narrow arm disappears and a rectangle is left. -/
theorem erosion_rectangle : eroded (cornerShape 5 5 3 1) (6 / 5) =
    {p | 6 / 5 ≤ p.1 ∧ p.1 ≤ 9 / 5 ∧ 6 / 5 ≤ p.2 ∧ p.2 ≤ 19 / 5} := by
  ext p
  obtain ⟨px, py⟩ := p
  simp only [eroded, corner_filled (show (0 : ℝ) < 3 by norm_num) (show (0 : ℝ) < 1 by norm_num) (show (3 : ℝ) < 5 by norm_num)
    (show (1 : ℝ) < 5 by norm_num), Set.mem_ofPred_eq, normSq, Prod.fst_sub, Prod.snd_sub]
  have hr := corner_ring (show (0 : ℝ) < 3 by norm_num) (show (0 : ℝ) < 1 by norm_num) (show (3 : ℝ) < 5 by norm_num)
    (show (1 : ℝ) < 5 by norm_num)
  constructor
  · rintro ⟨⟨h1, h2, h3⟩, h⟩
    have hy : 6 / 5 ≤ py := by
      have hx5 : px ≤ 5 := by rcases h3 with h3 | h3 <;> linarith [h3.1]
      have := h (px, 0) ((hr _).2 (Or.inl ⟨rfl, h1, hx5⟩))
      simp only at this
      nlinarith
    have h3' : px ≤ 3 ∧ py ≤ 5 := by
      rcases h3 with h3 | h3
      · linarith [h3.2]
      · exact h3
    have a1 := h (0, py) ((hr _).2 (Or.inr (Or.inr (Or.inr (Or.inr (Or.inr ⟨rfl, h2, h3'.2⟩))))))
    have a2 := h (3, py) ((hr _).2 (Or.inr (Or.inr (Or.inr (Or.inl ⟨rfl, by linarith, h3'.2⟩)))))
    have a3 := h (px, 5) ((hr _).2 (Or.inr (Or.inr (Or.inr (Or.inr (Or.inl ⟨rfl, h1, h3'.1⟩))))))
    simp only at a1 a2 a3
    refine ⟨by nlinarith, by nlinarith, hy, by nlinarith⟩
  · rintro ⟨h1, h2, h3, h4⟩
    refine ⟨⟨by linarith, by linarith, Or.inr ⟨by linarith, by linarith⟩⟩, ?_⟩
    rintro ⟨qx, qy⟩ hq
    rw [hr] at hq
    simp only at hq ⊢
    rcases hq with ⟨e, -, -⟩ | ⟨e, -, -⟩ | ⟨e, e2, -⟩ | ⟨e, -, -⟩ | ⟨e, -, -⟩ | ⟨e, -, -⟩
    · nlinarith [sq_nonneg (qx - px)]
    · nlinarith [sq_nonneg (qy - py)]
    · nlinarith [sq_nonneg (qy - py)]
    · nlinarith [sq_nonneg (qy - py)]
    · nlinarith [sq_nonneg (qx - px)]
    · nlinarith [sq_nonneg (qy - py)]

/-- The corners of that rectangle. -/
def erodedRect : List (Pt ℚ) := [(6 / 5, 6 / 5), (9 / 5, 6 / 5), (9 / 5, 19 / 5), (6 / 5, 19 / 5)]

/-- C88 is false for Polygon: if `is_convex()` is called before the obstacle is dilated by -6/5, the answer for the dilated
obstacle, a rectangle, is False; without the first call it is True. -/
theorem C88_stale_false : ∃ s, Flags.make .polygon (cornerShape 5 5 3 1) none none = .ok s ∧
    eroded (cornerShape 5 5 3 1) (6 / 5) = {p | 6 / 5 ≤ p.1 ∧ p.1 ≤ 9 / 5 ∧ 6 / 5 ≤ p.2 ∧ p.2 ≤ 19 / 5} ∧
    Convex ℝ (eroded (cornerShape 5 5 3 1) (6 / 5)) ∧
    (s.run [.isConvex, .dilate (erodedRect.map toReal)]).isConvexCall.1 = .ok false ∧
    (s.run [.dilate (erodedRect.map toReal)]).isConvexCall.1 = .ok true := by
  have hn : checkConvexity (cornerShape 5 5 3 1) = .ok false :=
    corner_nonconvex ⟨by norm_num, by norm_num, by norm_num, by norm_num, by norm_num, by norm_num⟩
  have hy : checkConvexity (erodedRect.map toReal) = .ok true := by
    rw [checkConvexity_map toReal_turns]; decide +kernel
  refine ⟨_, rfl, erosion_rectangle, ?_, ?_, ?_⟩
  · rw [erosion_rectangle]
    rintro ⟨x, y⟩ ⟨h1, h2, h3, h4⟩ ⟨x', y'⟩ ⟨h1', h2', h3', h4'⟩ a b ha hb hab
    simp only [Prod.smul_mk, Prod.mk_add_mk, smul_eq_mul, Set.mem_ofPred_eq] at *
    obtain rfl : b = 1 - a := by linarith
    refine ⟨?_, ?_, ?_, ?_⟩ <;> nlinarith
  · simp [Flags.run, Flags.step, Flags.isConvexCall, Flags.check, Flags.dilated, Flags.copy, FlagClass.isStar, hn]
  · simp [Flags.run, Flags.step, Flags.isConvexCall, Flags.check, Flags.dilated, Flags.copy, FlagClass.isStar, hy]

/-- The same history with a StarshapedPolygon: the answer is that for the rectangle. -/
example : ∃ s, Flags.make .starPolygon (cornerShape 5 5 3 1) none none = .ok s ∧
    (s.run [.isConvex, .dilate (erodedRect.map toReal)]).isConvexCall.1 = .ok true ∧ (s.run [.isConvex]).isConvexCall.1 = .ok false := by
  refine ⟨_, rfl, ?_, ?_⟩
  · rw [C88_star _ _ rfl]
    show checkConvexity (erodedRect.map toReal) = .ok true
    rw [checkConvexity_map toReal_turns]; decide +kernel
  · rw [C88_star _ _ rfl]
    exact corner_nonconvex ⟨by norm_num, by norm_num, by norm_num, by norm_num, by norm_num, by norm_num⟩

/-- A Polygon that is dilated before it is asked gives the answer for the dilated polygon, and a Polygon that was called
convex by its maker stays convex. -/
example : ∃ s t, Flags.make .polygon (cornerShape 5 5 3 1) none none = .ok s ∧
    Flags.make .polygon (cornerShape 5 5 3 1) (some true) none = .ok t ∧
    (s.run [.copy, .dilate (erodedRect.map toReal), .isStarshaped, .copy]).isConvexCall.1 = .ok true ∧
    (t.run [.isStarshaped, .copy]).isConvexCall.1 = .ok true := by
  refine ⟨_, _, rfl, rfl, ?_, C88_given _ _ _ _ rfl _⟩
  have := C88_polygon_partial (cornerShape 5 5 3 1) _ rfl [.copy, .dilate (erodedRect.map toReal)] [.isStarshaped, .copy]
    (by simp) (by simp)
  simp only [List.cons_append, List.nil_append] at this
  rw [this]
  show checkConvexity (erodedRect.map toReal) = .ok true
  rw [checkConvexity_map toReal_turns]; decide +kernel

/-! ## C90 -/

theorem boundary_int (l : Int) : isClose ((l : ℝ)) 0 (1 / 10 ^ 5) (1 / 10 ^ 8) = decide (l = 0) := by
  rw [Bool.eq_iff_iff]
  simp only [isClose, decide_eq_true_eq, sub_zero, abs_zero, mul_zero, add_zero]
  constructor
  · intro h
    by_contra h0
    have : (1 : ℝ) ≤ |(l : ℝ)| := by
      rw [← Int.cast_abs]
      exact_mod_cast Int.one_le_abs h0
    norm_num at h
    linarith
  · rintro rfl
    simp

theorem one_of_int (l : Int) : ∃ i e b, interiorPoint (.ok (l : ℝ)) = .ok i ∧ exteriorPoint (.ok (l : ℝ)) = .ok e ∧
    boundaryPoint (.ok (l : ℝ)) = .ok b ∧ ExactlyOne (i = true) (e = true) (b = true) ∧ (i = true ↔ l < 0) ∧
    (e = true ↔ 0 < l) ∧ (b = true ↔ l = 0) := by
  refine ⟨decide ((l : ℝ) < 0), decide (0 < (l : ℝ)), decide (l = 0), rfl, rfl, ?_, ?_, ?_, ?_, ?_⟩
  · simp only [boundaryPoint, bind, Except.bind, boundary_int]
  · unfold ExactlyOne
    simp only [decide_eq_true_eq, Int.cast_lt_zero, Int.cast_pos]
    omega
  · simp
  · simp
  · simp

/-- C90: for a Polygon and a point given in a valid frame, exactly one of `interior_point`, `exterior_point` and
`boundary_point` is True; `interior_point` exactly inside of the polygon, `boundary_point` on its border only, and off the
border `exterior_point` exactly outside. -/
theorem C90_polygon (mm : Option Pose) (v : List (Pt ℝ)) (f : Frame) (hf : f.Valid) (p : Pt ℝ) :
    ∃ i e b, interiorPoint (polygonLoc mm v (inFrame mm f p) f) = .ok i ∧ exteriorPoint (polygonLoc mm v (inFrame mm f p) f) = .ok e ∧
      boundaryPoint (polygonLoc mm v (inFrame mm f p) f) = .ok b ∧ ExactlyOne (i = true) (e = true) (b = true) ∧
      (i = true ↔ Inside v p) ∧ (b = true → OnRing v p) ∧ (¬ OnRing v p → (e = true ↔ ¬ Inside v p)) := by
  have : polygonLoc mm v (inFrame mm f p) f = .ok ((polyLocation v p : Int) : ℝ) := by
    simp only [polygonLoc, polygonPointLocation, transform_to_obstacle _ _ hf, bind, Except.bind]
  rw [this]
  obtain ⟨i, e, b, h1, h2, h3, h4, h5, h6, h7⟩ := one_of_int (polyLocation v p)
  have hval : polyLocation v p = -1 ∨ polyLocation v p = 0 ∨ polyLocation v p = 1 := by
    unfold polyLocation
    split
    · simp
    · simp only
      split_ifs <;> simp
  have hin := C37_interior v p
  have hout := C37_exterior v p
  refine ⟨i, e, b, h1, h2, h3, h4, ?_, ?_, ?_⟩
  · rw [h5, ← hin]; omega
  · rw [h7]
    intro h0
    by_contra hr
    by_cases hi : Inside v p
    · have := hin.2 hi; omega
    · have := hout hi hr; omega
  · intro hr
    rw [h6]
    constructor
    · intro h0 hi
      have := hin.2 hi; omega
    · intro hi
      have := hout hi hr; omega

/-- C90: for a StarshapedPrimitiveCombination all of whose obstacles can locate the point, exactly one of the three
predicates is True. -/
theorem C90_combination (c : Combination) (x : Pt ℝ) (hdef : ∀ o ∈ c.members, ∃ l, o.pointLocation x = .ok l) :
    ∃ i e b, interiorPoint (c.pointLocation x) = .ok i ∧ exteriorPoint (c.pointLocation x) = .ok e ∧
      boundaryPoint (c.pointLocation x) = .ok b ∧ ExactlyOne (i = true) (e = true) (b = true) := by
  obtain ⟨r, hr, hv, -⟩ := C42_union c x hdef
  rw [hr]
  have : ∃ l : Int, r = (l : ℝ) := by
    rcases hv with rfl | rfl | rfl
    · exact ⟨-1, by simp⟩
    · exact ⟨0, by simp⟩
    · exact ⟨1, by simp⟩
  obtain ⟨l, rfl⟩ := this
  obtain ⟨i, e, b, h1, h2, h3, h4, -⟩ := one_of_int l
  exact ⟨i, e, b, h1, h2, h3, h4⟩

/-- C90 (partial): for an Ellipse at least one of the three predicates is True, `interior_point` and `exterior_point` are not
both True, and exactly one is True for points on the ellipse and for points whose value is more than `10⁻⁸` from that of
the ellipse. Missing: the points between (`C90_ellipse_false`). -/
theorem C90_ellipse_partial (e : Ell) (h0 : e.a.1 ≠ 0) (h1 : e.a.2 ≠ 0) (f : Frame) (hf : f.Valid) (p : Pt ℝ) :
    ∃ i o b, interiorPoint (e.pointLocation (inFrame e.mm f p) f) = .ok i ∧ exteriorPoint (e.pointLocation (inFrame e.mm f p) f) = .ok o ∧
      boundaryPoint (e.pointLocation (inFrame e.mm f p) f) = .ok b ∧ (i = true ∨ o = true ∨ b = true) ∧ ¬ (i = true ∧ o = true) ∧
      (ellForm e.a p = 1 ∨ 1 / 10 ^ 8 < |ellForm e.a p - 1| → ExactlyOne (i = true) (o = true) (b = true)) := by
  obtain ⟨i, o, hi, ho, hi', ho', -⟩ := C28_sides e h0 h1 f hf p
  obtain ⟨b, hb, hb'⟩ := C28_boundary e h0 h1 f hf p
  refine ⟨i, o, b, hi, ho, hb, ?_, ?_, ?_⟩
  · rw [hi', ho', hb']
    rcases lt_trichotomy (ellForm e.a p) 1 with h | h | h
    · exact Or.inl h
    · right; right; rw [h]; norm_num
    · exact Or.inr (Or.inl h)
  · rw [hi', ho']
    rintro ⟨h, h'⟩
    exact lt_asymm h h'
  · unfold ExactlyOne
    rw [hi', ho', hb']
    rintro (h | h)
    · right; right
      rw [h]; norm_num
    · have hne : ellForm e.a p ≠ 1 := by
        intro he
        rw [he] at h
        norm_num at h
      rcases lt_or_gt_of_ne hne with h2 | h2
      · exact Or.inl ⟨h2, not_lt.2 h2.le, not_le.2 h⟩
      · exact Or.inr (Or.inl ⟨not_lt.2 h2.le, h2, not_le.2 h⟩)

/-- The unit circle. -/
def plainCircle : Ell := ⟨(1, 1), (0, 0), 20, none⟩

/-- C90 is false for ellipses: close to the unit circle there are points for which two of the predicates are True. -/
theorem C90_ellipse_false : exteriorPoint (plainCircle.pointLocation (1 + 1 / 10 ^ 9, 0) .global) = .ok true ∧
    boundaryPoint (plainCircle.pointLocation (1 + 1 / 10 ^ 9, 0) .global) = .ok true ∧
    interiorPoint (plainCircle.pointLocation (1 - 1 / 10 ^ 9, 0) .global) = .ok true ∧
    boundaryPoint (plainCircle.pointLocation (1 - 1 / 10 ^ 9, 0) .global) = .ok true := by
  have e : ∀ x : Pt ℝ, plainCircle.pointLocation x .global = .ok (x.1 ^ 2 + x.2 ^ 2 - 1) := by
    intro x
    have : transform (none : Option Pose) x .global .obstacle = .ok x := by simp [transform]
    simp [Ell.pointLocation, plainCircle, this, bind, Except.bind]
  simp only [e, interiorPoint, exteriorPoint, boundaryPoint, isClose, bind, Except.bind, Except.ok.injEq, decide_eq_true_eq]
  refine ⟨by norm_num, ?_, by norm_num, ?_⟩
  · rw [abs_of_nonneg (by norm_num)]; norm_num
  · rw [abs_of_nonpos (by norm_num)]; norm_num

/-- The centre of the circle is an interior point, (3, 4) an exterior point and (3/5, 4/5) a boundary point, and they are
nothing else. -/
example : ∀ p : Pt ℝ, p = (0, 0) ∨ p = (3, 4) ∨ p = (3 / 5, 4 / 5) → ∃ i o b,
    interiorPoint (plainCircle.pointLocation p .global) = .ok i ∧ exteriorPoint (plainCircle.pointLocation p .global) = .ok o ∧
    boundaryPoint (plainCircle.pointLocation p .global) = .ok b ∧ ExactlyOne (i = true) (o = true) (b = true) := by
  intro p hp
  have := C90_ellipse_partial plainCircle (by simp [plainCircle]) (by simp [plainCircle]) .global (Or.inl rfl) p
  obtain ⟨i, o, b, h1, h2, h3, -, -, h4⟩ := this
  have e : inFrame plainCircle.mm .global p = p := by simp [inFrame, worldOf, plainCircle]
  rw [e] at h1 h2 h3
  refine ⟨i, o, b, h1, h2, h3, h4 ?_⟩
  rcases hp with rfl | rfl | rfl
  · right; norm_num [ellForm, plainCircle]
  · right; norm_num [ellForm, plainCircle]
  · left; norm_num [ellForm, plainCircle]

/-- In the L-shape, moved by (10, 10): (10.5, 11.5) is an interior point, the reflex corner (11, 11) a boundary point. -/
example : interiorPoint (polygonLoc (some ⟨(10, 10), 0⟩) (cornerShape 2 2 1 1) (21 / 2, 23 / 2) .global) = .ok true ∧
    boundaryPoint (polygonLoc (some ⟨(10, 10), 0⟩) (cornerShape 2 2 1 1) (11, 11) .global) = .ok true := by
  have f1 : ((21 / 2, 23 / 2) : Pt ℝ) = inFrame (some ⟨(10, 10), 0⟩) .global (1 / 2, 3 / 2) := by
    simp [inFrame, worldOf]; norm_num
  have f2 : ((11, 11) : Pt ℝ) = inFrame (some ⟨(10, 10), 0⟩) .global (1, 1) := by
    simp [inFrame, worldOf]; norm_num
  have l1 : polyLocation (cornerShape 2 2 1 1) (1 / 2, 3 / 2) = -1 := by
    norm_num [cornerShape, polyLocation, boundsOf, polyContains, ringContains, onSegB, rayCrosses, edgesOf, ringOf, List.countP, List.countP.go]
  have l2 : polyLocation (cornerShape 2 2 1 1) (1, 1) = 0 := by
    norm_num [cornerShape, polyLocation, boundsOf, polyContains, ringContains, onSegB, rayCrosses, edgesOf, ringOf, List.countP, List.countP.go]
  constructor
  · obtain ⟨i, e, b, h1, -, -, -, h2, -, -⟩ := C90_polygon (some ⟨(10, 10), 0⟩) (cornerShape 2 2 1 1) .global (Or.inl rfl) (1 / 2, 3 / 2)
    rw [f1, h1, h2.2 ((C37_interior _ _).1 l1)]
  · rw [f2]
    simp only [polygonLoc, polygonPointLocation, transform_to_obstacle _ _ (show Frame.global.Valid from Or.inl rfl), bind, Except.bind, l2,
      boundaryPoint, boundary_int]
    simp

end Starworlds
