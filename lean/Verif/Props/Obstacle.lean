import Verif.Model.Obstacle
import Verif.Model.Motion
import Verif.Proofs.Motion
import Verif.Props.Transform
import Verif.Spec.Plane
import Mathlib.Tactic.Linarith
import Mathlib.Tactic.FieldSimp
import Mathlib.Tactic.Module
import Mathlib.Data.List.Forall2

/-! # C21-C26, C45: frames, caches, reference point, velocity -/

namespace Starworlds

open Real Spec

/-! ## C21 -/

/-- Both frames are members of the enumeration. -/
def Frame.Valid (f : Frame) : Prop := f = .global ∨ f = .obstacle

/-- C21: with valid frames the conversions always succeed. -/
theorem C21_total (mm : Option Pose) (x : Pt ℝ) (f g : Frame) (hf : f.Valid) (hg : g.Valid) :
    (∃ y, transform mm x f g = .ok y) ∧ (∃ y, rotate mm x f g = .ok y) := by
  rcases mm with _ | p
  · exact ⟨⟨_, rfl⟩, ⟨_, rfl⟩⟩
  · rcases hf with rfl | rfl <;> rcases hg with rfl | rfl <;> simp [transform, rotate]

/-- C21: converting there and back gives the point again, for both frame directions and both methods. -/
theorem C21_inverse (mm : Option Pose) (x y : Pt ℝ) (f g : Frame) :
    (transform mm x f g = .ok y → transform mm y g f = .ok x) ∧
    (rotate mm x f g = .ok y → rotate mm y g f = .ok x) := by
  rcases mm with _ | p
  · simp only [transform, rotate, Except.ok.injEq]; exact ⟨Eq.symm, Eq.symm⟩
  · constructor
    · intro h
      cases f <;> cases g <;> simp [transform] at h ⊢ <;>
        first | exact h.symm | (rw [← h]; first | exact C01_left_inverse _ _ _ | exact C01_right_inverse _ _ _)
    · intro h
      cases f <;> cases g <;> simp [rotate] at h ⊢ <;>
        first | exact h.symm | (rw [← h]; first | exact C01_left_inverse _ _ _ | exact C01_right_inverse _ _ _)

/-- C21: equal frames or no motion model: the input itself. -/
theorem C21_identity (mm : Option Pose) (x : Pt ℝ) (f g : Frame) (h : f = g ∨ mm = none) :
    transform mm x f g = .ok x ∧ rotate mm x f g = .ok x := by
  rcases h with rfl | rfl
  · cases mm <;> simp [transform, rotate]
  · exact ⟨rfl, rfl⟩

/-- C21: `rotate` preserves length. -/
theorem C21_rotate_length (mm : Option Pose) (x y : Pt ℝ) (f g : Frame) (h : rotate mm x f g = .ok y) :
    normSq y = normSq x := by
  rcases mm with _ | p
  · simp only [rotate, Except.ok.injEq] at h; rw [h]
  · have e := sin_sq_add_cos_sq p.rot
    cases f <;> cases g <;> simp [rotate] at h <;> rw [← h]
    · rw [(C01_formula _ _ _).2]; simp only [normSq]; linear_combination (x.1 ^ 2 + x.2 ^ 2) * e
    · rw [(C01_formula _ _ _).1]; simp only [normSq]; linear_combination (x.1 ^ 2 + x.2 ^ 2) * e

/-- C21: the difference of two transformed points is the rotated difference. -/
theorem C21_difference (mm : Option Pose) (x y x' y' : Pt ℝ) (f g : Frame)
    (hx : transform mm x f g = .ok x') (hy : transform mm y f g = .ok y') :
    rotate mm (x - y) f g = .ok (x' - y') := by
  rcases mm with _ | p
  · simp only [transform, rotate, Except.ok.injEq] at *; rw [hx, hy]
  · cases f <;> cases g <;> simp [transform, rotate] at hx hy ⊢ <;> rw [← hx, ← hy] <;>
      simp only [(C01_formula _ _ _).1, (C01_formula _ _ _).2] <;> ext <;>
      simp only [Prod.fst_sub, Prod.snd_sub] <;> ring

/-- C21: the obstacle's origin goes to its position, and the obstacle-to-global map is the rotation by
`rot` followed by the translation by `pos`. -/
theorem C21_meaning (p : Pose) (x : Pt ℝ) :
    transform (some p) (0, 0) .obstacle .global = .ok p.pos ∧
    transform (some p) x .obstacle .global =
      .ok (cos p.rot * x.1 - sin p.rot * x.2 + p.pos.1, sin p.rot * x.1 + cos p.rot * x.2 + p.pos.2) ∧
    rotate (some p) x .obstacle .global =
      .ok (cos p.rot * x.1 - sin p.rot * x.2, sin p.rot * x.1 + cos p.rot * x.2) := by
  refine ⟨?_, ?_, ?_⟩ <;> simp [transform, rotate, (C01_formula _ _ _).1]

/-- C21: any other frame value is rejected (when there is a motion model). -/
theorem C21_invalid (p : Pose) (x : Pt ℝ) (f g : Frame) (hfg : f ≠ g) (h : ¬ (f.Valid ∧ g.Valid)) :
    transform (some p) x f g = .error .invalidFrameError ∧ rotate (some p) x f g = .error .invalidFrameError := by
  cases f <;> cases g <;> simp_all [Frame.Valid, transform, rotate]

example : transform (some ⟨(1, 2), π / 2⟩) (3, 0) .obstacle .global = .ok (1, 5) := by
  rw [(C21_meaning _ _).2.1]; norm_num

/-! ## C68 -/

/-- C68: for both frames `pos` is where the conversion puts the origin of the obstacle, and the direction of `rot` is
where it puts the first axis. -/
theorem C68_pose (mm : Option Pose) (f : Frame) (hf : f.Valid) :
    ∃ p r, obstaclePos mm f = some p ∧ obstacleRot mm f = some r ∧
      transform mm (0, 0) .obstacle f = .ok p ∧ rotate mm (1, 0) .obstacle f = .ok (cos r, sin r) ∧
      ∀ x y, transform mm x .obstacle f = .ok y →
        y = (cos r * x.1 - sin r * x.2 + p.1, sin r * x.1 + cos r * x.2 + p.2) := by
  rcases mm with _ | q
  · refine ⟨(0, 0), 0, rfl, rfl, rfl, by simp [rotate], fun x y h => ?_⟩
    simp only [transform, Except.ok.injEq] at h
    rw [← h]; ext <;> simp
  · rcases hf with rfl | rfl
    · refine ⟨q.pos, q.rot, rfl, rfl, (C21_meaning q (0, 0)).1, ?_, fun x y h => ?_⟩
      · rw [(C21_meaning q (1, 0)).2.2]; simp
      · rw [(C21_meaning q x).2.1, Except.ok.injEq] at h
        exact h.symm
    · refine ⟨(0, 0), 0, rfl, rfl, by simp [transform], by simp [rotate], fun x y h => ?_⟩
      simp [transform] at h
      rw [← h]; ext <;> simp

/-- C68: the pose of a moved obstacle is that of its motion model in the global frame and zero in its own frame. -/
theorem C68_values (p : Pose) : obstaclePos (some p) .global = some p.pos ∧ obstacleRot (some p) .global = some p.rot ∧
    (∀ mm, obstaclePos mm .obstacle = some (0, 0) ∧ obstacleRot mm .obstacle = some 0) ∧
    ∀ f, obstaclePos none f = some (0, 0) ∧ obstacleRot none f = some 0 :=
  ⟨rfl, rfl, fun mm => by cases mm <;> exact ⟨rfl, rfl⟩, fun _ => ⟨rfl, rfl⟩⟩

example : obstaclePos (some ⟨(1, 2), π / 2⟩) .global = some (1, 2) ∧
    transform (some ⟨(1, 2), π / 2⟩) (0, 0) .obstacle .global = .ok (1, 2) :=
  ⟨rfl, (C21_meaning _ (0, 0)).1⟩

/-! ## C22 -/

/-- The pose after a history: the last one set (`setPose` has no effect without a motion model). -/
def poseAfter (mm : Option Pose) : List ObOp → Option Pose
  | [] => mm
  | .setMotionModel m :: ops => poseAfter m ops
  | .setPose p :: ops => poseAfter (mm.map fun _ => p) ops
  | _ :: ops => poseAfter mm ops

theorem polygonCall_mm (s : ObState) (f : Frame) : (polygonCall s f).2.mm = s.mm ∧ (polygonCall s f).2.xr = s.xr ∧
    (polygonCall s f).2.base = s.base ∧ (polygonCall s f).2.kernel = s.kernel ∧
    (polygonCall s f).2.kernelGlobal = s.kernelGlobal ∧ (polygonCall s f).2.kernelGlobalPose = s.kernelGlobalPose := by
  unfold polygonCall
  cases hm : s.mm with
  | none => simp
  | some p =>
    simp only []
    cases f <;> simp
    split <;> simp

theorem kernelCall_mm (src : KernelSrc) (nr : Bool) (s : ObState) (f : Frame) :
    (kernelCall src nr s f).2.mm = s.mm ∧ (kernelCall src nr s f).2.xr = s.xr ∧
    (kernelCall src nr s f).2.base = s.base ∧ (kernelCall src nr s f).2.polygon = s.polygon ∧
    (kernelCall src nr s f).2.polygonGlobal = s.polygonGlobal ∧
    (kernelCall src nr s f).2.polygonGlobalPose = s.polygonGlobalPose := by
  have he : (ensureKernel src s).mm = s.mm ∧ (ensureKernel src s).xr = s.xr ∧ (ensureKernel src s).base = s.base ∧
      (ensureKernel src s).polygon = s.polygon ∧ (ensureKernel src s).polygonGlobal = s.polygonGlobal ∧
      (ensureKernel src s).polygonGlobalPose = s.polygonGlobalPose := by
    unfold ensureKernel; cases s.kernel <;> simp
  unfold kernelCall
  generalize ensureKernel src s = s' at he
  simp only []
  cases hm : s'.mm with
  | none => exact he
  | some p =>
    cases f with
    | obstacle => exact he
    | other => exact he
    | global =>
      simp only []
      split
      · exact he
      · cases s'.kernel <;> cases nr <;> simp [he, ← hm]

theorem setXr_fields (src : KernelSrc) (nr : Bool) (s : ObState) (x : Pt ℝ) (f : Frame) (safe : Bool) :
    (setXr src nr s x f safe).2.mm = s.mm ∧ (setXr src nr s x f safe).2.base = s.base ∧
    (setXr src nr s x f safe).2.polygon = s.polygon ∧
    (setXr src nr s x f safe).2.polygonGlobal = s.polygonGlobal ∧
    (setXr src nr s x f safe).2.polygonGlobalPose = s.polygonGlobalPose := by
  unfold setXr
  cases transform s.mm x f .obstacle with
  | error e => simp
  | ok v =>
    cases safe with
    | false => simp
    | true =>
      obtain ⟨h1, _, h3, h4, h5, h6⟩ := kernelCall_mm src nr s .global
      simp only [if_true]
      rcases hk : kernelCall src nr s .global with ⟨r, s'⟩
      rw [hk] at h1 h3 h4 h5 h6
      cases r <;> exact ⟨h1, h3, h4, h5, h6⟩

/-- What every state of an obstacle satisfies: the global polygon belongs to the recorded pose. -/
structure PolCacheOk (base : Shape) (s : ObState) : Prop where
  base_eq : s.base = base
  pol : s.polygon = none ∨ s.polygon = some base
  glob : ∀ p, s.polygonGlobalPose = some p → s.polygonGlobal = some (affMatrix p base)

theorem polCacheOk_construct (base : Shape) (mm : Option Pose) (xr : Pt ℝ) (eager static : Bool) :
    PolCacheOk base (construct base mm xr eager static) ∧ (construct base mm xr eager static).mm = mm := by
  refine ⟨⟨?_, ?_, ?_⟩, ?_⟩ <;> cases eager <;> cases mm <;> cases static <;>
    simp [construct, computeGlobalPolygon]

theorem polCacheOk_polygonCall {base : Shape} {s : ObState} (h : PolCacheOk base s) (f : Frame) :
    PolCacheOk base (polygonCall s f).2 := by
  obtain ⟨hb, hp, hg⟩ := h
  have hpol : s.polygon.getD s.base = base := by
    rcases hp with h | h <;> simp [h, hb]
  unfold polygonCall
  rw [hpol]
  cases hm : s.mm with
  | none => exact ⟨hb, Or.inr rfl, hg⟩
  | some p =>
    simp only []
    cases f with
    | obstacle => exact ⟨hb, Or.inr rfl, hg⟩
    | other => exact ⟨hb, Or.inr rfl, hg⟩
    | global =>
      simp only []
      split
      · exact ⟨hb, Or.inr rfl, hg⟩
      · refine ⟨hb, Or.inr rfl, ?_⟩
        intro q hq
        simp only [Option.some.injEq] at hq ⊢
        rw [hq]

theorem polCacheOk_run {base : Shape} (src : KernelSrc) (nr : Bool) (ops : List ObOp) (s : ObState)
    (h : PolCacheOk base s) : PolCacheOk base (runOps src nr s ops) ∧ (runOps src nr s ops).mm = poseAfter s.mm ops := by
  induction ops generalizing s with
  | nil => exact ⟨h, rfl⟩
  | cons op ops ih =>
    have hs : PolCacheOk base (stepOp src nr s op) := by
      cases op with
      | setMotionModel m => exact ⟨h.base_eq, h.pol, h.glob⟩
      | setPose p => exact ⟨h.base_eq, h.pol, h.glob⟩
      | polygon f => exact polCacheOk_polygonCall h f
      | kernel f =>
        obtain ⟨_, _, h3, h4, h5, h6⟩ := kernelCall_mm src nr s f
        exact ⟨h3.trans h.base_eq, by simp only [stepOp]; rw [h4]; exact h.pol,
          by simp only [stepOp]; rw [h5, h6]; exact h.glob⟩
      | xr f => exact h
      | setXr x f safe =>
        obtain ⟨_, h3, h4, h5, h6⟩ := setXr_fields src nr s x f safe
        exact ⟨h3.trans h.base_eq, by simp only [stepOp]; rw [h4]; exact h.pol,
          by simp only [stepOp]; rw [h5, h6]; exact h.glob⟩
    obtain ⟨h1, h2⟩ := ih _ hs
    refine ⟨h1, h2.trans ?_⟩
    cases op with
    | setMotionModel m => rfl
    | setPose p => rfl
    | polygon f => simp only [stepOp, poseAfter]; rw [(polygonCall_mm s f).1]
    | kernel f => simp only [stepOp, poseAfter]; rw [(kernelCall_mm src nr s f).1]
    | xr f => rfl
    | setXr x f safe => simp only [stepOp, poseAfter]; rw [(setXr_fields src nr s x f safe).1]

theorem polygonCall_value {base : Shape} {s : ObState} (h : PolCacheOk base s) (f : Frame) :
    (polygonCall s f).1 = match s.mm, f with
      | none, _ => .ok base
      | some _, .obstacle => .ok base
      | some p, .global => .ok (affMatrix p base)
      | some _, .other => .error .invalidFrameError := by
  obtain ⟨hb, hp, hg⟩ := h
  have hpol : s.polygon.getD s.base = base := by
    rcases hp with h | h <;> simp [h, hb]
  unfold polygonCall
  rw [hpol]
  cases hm : s.mm with
  | none => rfl
  | some p =>
    simp only []
    cases f with
    | obstacle => rfl
    | other => rfl
    | global =>
      simp only []
      split
      · rename_i he
        simp [hg p he]
      · simp

/-- Vertex by vertex, `affMatrix` is the obstacle-to-global conversion. -/
theorem affMatrix_transform (p : Pose) (s : Shape) :
    List.Forall₂ (fun v w => transform (some p) v .obstacle .global = .ok w) s (affMatrix p s) := by
  unfold affMatrix
  rw [List.forall₂_map_right_iff]
  refine List.forall₂_same.2 fun v _ => ?_
  rw [(C21_meaning p v).2.1]
  congr 1
  ext
  · simp only []; ring
  · rfl

/-- C22: after any history of pose changes, motion model changes and queries (also failing ones) on a
newly made obstacle, `polygon(GLOBAL)` is the obstacle-frame polygon with every vertex taken through the
obstacle-to-global conversion of the current pose, and `polygon(OBSTACLE)` is the obstacle-frame
polygon. -/
theorem C22_polygon (base : Shape) (mm : Option Pose) (xr : Pt ℝ) (eager static : Bool) (src : KernelSrc)
    (nr : Bool) (ops : List ObOp) :
    let s := runOps src nr (construct base mm xr eager static) ops
    (polygonCall s .obstacle).1 = .ok base ∧
    ∃ q, (polygonCall s .global).1 = .ok q ∧
      List.Forall₂ (fun v w => transform (poseAfter mm ops) v .obstacle .global = .ok w) base q := by
  obtain ⟨h0, hm⟩ := polCacheOk_construct base mm xr eager static
  obtain ⟨h1, h2⟩ := polCacheOk_run src nr ops _ h0
  rw [hm] at h2
  refine ⟨?_, ?_⟩
  · rw [polygonCall_value h1, h2]
    cases poseAfter mm ops <;> rfl
  · rw [polygonCall_value h1, h2]
    cases poseAfter mm ops with
    | none => exact ⟨base, rfl, List.forall₂_same.2 fun v _ => rfl⟩
    | some p => exact ⟨_, rfl, affMatrix_transform p base⟩

/-- C22 in use: asked at one pose, moved, asked again. -/
example : (polygonCall (runOps .fromPolygon true (construct [(1, 0)] (some ⟨(0, 0), 0⟩) (0, 0) false true)
    [.polygon .global, .setPose ⟨(5, 5), π / 2⟩]) .global).1 = .ok [(5, 6)] := by
  obtain ⟨h0, hm⟩ := polCacheOk_construct [(1, 0)] (some ⟨(0, 0), 0⟩) (0, 0) false true
  obtain ⟨h1, h2⟩ := polCacheOk_run .fromPolygon true [.polygon .global, .setPose ⟨(5, 5), π / 2⟩] _ h0
  rw [polygonCall_value h1, h2, hm]
  simp [poseAfter, affMatrix]; norm_num

/-! ## C23 -/

/-- The kernel caches agree with the kernel `k`, and the kernel, if asked for, is `k`. -/
structure KerCacheOk (src : KernelSrc) (k : Shape) (s : ObState) : Prop where
  ker : s.kernel = some k ∨ (s.kernel = none ∧ computeKernel src s = some k)
  glob : ∀ p, s.kernelGlobalPose = some p → s.kernelGlobal = some (affMatrix p k)
  /-- for the polygon-sharing class: the polygon has been computed -/
  pol : src = .fromPolygon → s.polygon = some k

theorem kerCacheOk_kernelCall {src : KernelSrc} {k : Shape} {s : ObState} (nr : Bool)
    (h : KerCacheOk src k s) (f : Frame) : KerCacheOk src k (kernelCall src nr s f).2 ∧
      (kernelCall src nr s f).1 = match s.mm, f with
      | none, _ => .ok (some k)
      | some _, .obstacle => .ok (some k)
      | some p, .global => .ok (some (affMatrix p k))
      | some _, .other => .error .invalidFrameError := by
  -- after the lazy step the kernel is there
  have hs : ensureKernel src s = { s with kernel := some k } := by
    unfold ensureKernel
    rcases h.ker with hk | ⟨hk, hc⟩
    · rw [hk]; simp only []; rw [← hk]
    · rw [hk]; simp only []; rw [hc]
  have hpol := h.pol
  have hglob := h.glob
  unfold kernelCall
  rw [hs]
  simp only []
  cases hm : s.mm with
  | none => exact ⟨⟨Or.inl rfl, hglob, hpol⟩, rfl⟩
  | some p =>
    cases f with
    | obstacle => exact ⟨⟨Or.inl rfl, hglob, hpol⟩, rfl⟩
    | other => exact ⟨⟨Or.inl rfl, hglob, hpol⟩, rfl⟩
    | global =>
      simp only []
      split
      · rename_i he
        exact ⟨⟨Or.inl rfl, hglob, hpol⟩, by rw [hglob p he]⟩
      · refine ⟨⟨Or.inl rfl, ?_, hpol⟩, rfl⟩
        intro q hq
        simp only [Option.some.injEq] at hq ⊢
        rw [hq]

theorem kerCacheOk_run {src : KernelSrc} {k : Shape} (nr : Bool) (ops : List ObOp) (s : ObState)
    (h : KerCacheOk src k s) :
    KerCacheOk src k (runOps src nr s ops) ∧ (runOps src nr s ops).mm = poseAfter s.mm ops := by
  induction ops generalizing s with
  | nil => exact ⟨h, rfl⟩
  | cons op ops ih =>
    have hs : KerCacheOk src k (stepOp src nr s op) := by
      have hck : ∀ s' : ObState, s'.polygon = s.polygon → computeKernel src s' = computeKernel src s := by
        intro s' e; cases src <;> simp [computeKernel, e]
      cases op with
      | setMotionModel m => exact ⟨h.ker.imp id fun ⟨a, b⟩ => ⟨a, (hck _ rfl).trans b⟩, h.glob, h.pol⟩
      | setPose p => exact ⟨h.ker.imp id fun ⟨a, b⟩ => ⟨a, (hck _ rfl).trans b⟩, h.glob, h.pol⟩
      | polygon f =>
        obtain ⟨_, _, h3, h4, h5, h6⟩ := polygonCall_mm s f
        have hpf : src = .fromPolygon → (polygonCall s f).2.polygon = some k := by
          intro e
          unfold polygonCall
          rw [h.pol e]
          cases hm : s.mm with
          | none => rfl
          | some p =>
            simp only []
            cases f <;> simp
            split <;> simp
        refine ⟨?_, by simp only [stepOp]; rw [h5, h6]; exact h.glob, hpf⟩
        simp only [stepOp]; rw [h4]
        refine h.ker.imp id fun ⟨a, b⟩ => ⟨a, ?_⟩
        cases src with
        | fromPolygon => simp only [computeKernel]; exact hpf rfl
        | computed k' => exact b
      | kernel f => exact (kerCacheOk_kernelCall nr h f).1
      | xr f => exact h
      | setXr x f safe =>
        simp only [stepOp, setXr]
        cases transform s.mm x f .obstacle with
        | error e => exact h
        | ok v =>
          cases safe with
          | false => exact ⟨h.ker.imp id fun ⟨a, b⟩ => ⟨a, (hck _ rfl).trans b⟩, h.glob, h.pol⟩
          | true =>
            have h1 := (kerCacheOk_kernelCall nr h .global).1
            simp only [if_true]
            rcases hk : kernelCall src nr s .global with ⟨r, s'⟩
            rw [hk] at h1
            cases r <;> exact h1
    obtain ⟨h1, h2⟩ := ih _ hs
    refine ⟨h1, h2.trans ?_⟩
    cases op with
    | setMotionModel m => rfl
    | setPose p => rfl
    | polygon f => simp only [stepOp, poseAfter]; rw [(polygonCall_mm s f).1]
    | kernel f => simp only [stepOp, poseAfter]; rw [(kernelCall_mm src nr s f).1]
    | xr f => rfl
    | setXr x f safe => simp only [stepOp, poseAfter]; rw [(setXr_fields src nr s x f safe).1]

/-- C23, the true part: for a class that computes its kernel `k` itself (StarshapedPolygon), and for an
Ellipse constructed with `compute_polygon=True`, after any history `kernel(GLOBAL)` is the kernel with every
vertex taken through the conversion of the current pose.  (Missing: the Ellipse whose polygon has not been
computed before the first `kernel()`, see `C23_ellipse_false`.) -/
theorem C23_kernel_partial (base k : Shape) (mm : Option Pose) (xr : Pt ℝ) (eager static : Bool)
    (src : KernelSrc) (nr : Bool)
    (hsrc : src = .computed (some k) ∨ (src = .fromPolygon ∧ eager = true ∧ k = base)) (ops : List ObOp) :
    let s := runOps src nr (construct base mm xr eager static) ops
    (kernelCall src nr s .obstacle).1 = .ok (some k) ∧
    ∃ q, (kernelCall src nr s .global).1 = .ok (some q) ∧
      List.Forall₂ (fun v w => transform (poseAfter mm ops) v .obstacle .global = .ok w) k q := by
  have hm := (polCacheOk_construct base mm xr eager static).2
  have h0 : KerCacheOk src k (construct base mm xr eager static) := by
    rcases hsrc with rfl | ⟨rfl, rfl, rfl⟩
    · exact ⟨Or.inr ⟨rfl, rfl⟩, by simp [construct], by simp⟩
    · have hp : (construct k mm xr true static).polygon = some k := by
        cases mm <;> cases static <;> simp [construct, computeGlobalPolygon]
      exact ⟨Or.inr ⟨rfl, hp⟩, by simp [construct], fun _ => hp⟩
  obtain ⟨h1, h2⟩ := kerCacheOk_run nr ops _ h0
  rw [hm] at h2
  refine ⟨?_, ?_⟩
  · rw [(kerCacheOk_kernelCall nr h1 .obstacle).2, h2]
    cases poseAfter mm ops <;> rfl
  · rw [(kerCacheOk_kernelCall nr h1 .global).2, h2]
    cases poseAfter mm ops with
    | none => exact ⟨k, rfl, List.forall₂_same.2 fun v _ => rfl⟩
    | some p => exact ⟨_, rfl, affMatrix_transform p k⟩

/-- C23, the true part for an Ellipse made without `compute_polygon`: if `polygon()` is called before any
`kernel()` or safe `set_xr`, later `kernel()` calls are right for ever. -/
theorem C23_polygon_first_partial (base : Shape) (mm : Option Pose) (xr : Pt ℝ) (static nr : Bool)
    (pre ops : List ObOp) (f : Frame)
    (hpre : ∀ op ∈ pre, (∃ m, op = .setMotionModel m) ∨ (∃ p, op = .setPose p) ∨ (∃ g, op = .xr g)) :
    let s := runOps .fromPolygon nr (construct base mm xr false static) (pre ++ .polygon f :: ops)
    ∃ q, (kernelCall .fromPolygon nr s .global).1 = .ok (some q) ∧
      List.Forall₂ (fun v w => transform (poseAfter mm (pre ++ .polygon f :: ops)) v .obstacle .global = .ok w) base q := by
  -- the prefix only changes the pose
  have hp : ∀ (pre : List ObOp) (s : ObState),
      (∀ op ∈ pre, (∃ m, op = .setMotionModel m) ∨ (∃ p, op = .setPose p) ∨ (∃ g, op = .xr g)) →
      ∃ m, runOps .fromPolygon nr s pre = { s with mm := m } ∧ m = poseAfter s.mm pre := by
    intro pre
    induction pre with
    | nil => exact fun s _ => ⟨s.mm, rfl, rfl⟩
    | cons op pre ih =>
      intro s h
      rcases h op (by simp) with ⟨m, rfl⟩ | ⟨p, rfl⟩ | ⟨g, rfl⟩
      · obtain ⟨m', e, e'⟩ := ih { s with mm := m } fun op hop => h op (by simp [hop])
        exact ⟨m', e, e'⟩
      · obtain ⟨m', e, e'⟩ := ih { s with mm := s.mm.map fun _ => p } fun op hop => h op (by simp [hop])
        exact ⟨m', e, e'⟩
      · exact ih s fun op hop => h op (by simp [hop])
  have happ : ∀ (a b : List ObOp) (m : Option Pose), poseAfter m (a ++ b) = poseAfter (poseAfter m a) b := by
    intro a
    induction a with
    | nil => exact fun b m => rfl
    | cons op a ih => intro b m; cases op <;> exact ih b _
  obtain ⟨m, e, em⟩ := hp pre (construct base mm xr false static) hpre
  have hrun : runOps .fromPolygon nr (construct base mm xr false static) (pre ++ .polygon f :: ops) =
      runOps .fromPolygon nr (polygonCall { construct base mm xr false static with mm := m } f).2 ops := by
    rw [← e]; simp [runOps, List.foldl_append, stepOp]
  have hc : KerCacheOk .fromPolygon base (polygonCall { construct base mm xr false static with mm := m } f).2 := by
    have hpf : (polygonCall { construct base mm xr false static with mm := m } f).2.polygon = some base := by
      unfold polygonCall
      simp only [construct]
      cases m with
      | none => rfl
      | some p =>
        simp only [Bool.false_eq_true, if_false]
        cases f <;> simp
    obtain ⟨_, _, _, h4, h5, h6⟩ := polygonCall_mm { construct base mm xr false static with mm := m } f
    refine ⟨Or.inr ⟨?_, hpf⟩, ?_, fun _ => hpf⟩
    · rw [h4]; rfl
    · rw [h6]; simp [construct]
  obtain ⟨h1, h2⟩ := kerCacheOk_run nr ops _ hc
  rw [(polygonCall_mm _ f).1] at h2
  have hmm : (construct base mm xr false static).mm = mm := (polCacheOk_construct base mm xr false static).2
  rw [hmm] at em
  have hpose : poseAfter mm (pre ++ .polygon f :: ops) = poseAfter m ops := by
    rw [happ, em]; rfl
  simp only []
  rw [hrun, (kerCacheOk_kernelCall nr h1 .global).2, h2, hpose]
  cases poseAfter m ops with
  | none => exact ⟨base, rfl, List.forall₂_same.2 fun v _ => rfl⟩
  | some p => exact ⟨_, rfl, affMatrix_transform p base⟩

/-- C23 is false for an Ellipse: `kernel()` before `polygon()` finds `_polygon = None`. The first call
fails (or returns `None`, depending on the shapely version) and leaves its pose recorded; from then on, even
after `polygon()` has been computed, `kernel(GLOBAL)` returns `None` as long as the pose stays the same. -/
theorem C23_ellipse_false (base : Shape) (p : Pose) (xr : Pt ℝ) (static nr : Bool) :
    let s0 := construct base (some p) xr false static
    (kernelCall .fromPolygon nr s0 .global).1 = (if nr then .error .attributeError else .ok none) ∧
    (kernelCall .fromPolygon nr (runOps .fromPolygon nr s0 [.kernel .global]) .global).1 = .ok none ∧
    (kernelCall .fromPolygon nr (runOps .fromPolygon nr s0 [.kernel .global, .polygon .global]) .global).1 = .ok none ∧
    (kernelCall .fromPolygon nr (runOps .fromPolygon nr s0 [.kernel .global, .polygon .global]) .obstacle).1 =
      .ok (some base) := by
  cases nr <;> simp [construct, kernelCall, ensureKernel, polygonCall, runOps, stepOp, computeKernel]

/-! ## C24 -/

theorem runOps_xr (src : KernelSrc) (nr : Bool) (ops : List ObOp) (s : ObState)
    (h : ∀ op ∈ ops, ∀ x f b, op ≠ .setXr x f b) : (runOps src nr s ops).xr = s.xr := by
  induction ops generalizing s with
  | nil => rfl
  | cons op ops ih =>
    refine (ih _ fun o ho => h o (by simp [ho])).trans ?_
    cases op with
    | setMotionModel m => rfl
    | setPose p => rfl
    | polygon f => exact (polygonCall_mm s f).2.1
    | kernel f => exact (kernelCall_mm src nr s f).2.1
    | xr f => rfl
    | setXr x f b => exact absurd rfl (h _ (by simp) x f b)

/-- C24: `set_xr(p, f)` succeeds for both frames and `xr(f)` then returns `p`; whatever happens later to
the pose and whatever is queried (no further `set_xr`), `xr(OBSTACLE)` stays what it was. -/
theorem C24_roundtrip (src : KernelSrc) (nr : Bool) (s : ObState) (x : Pt ℝ) (f : Frame) (hf : f.Valid) :
    (setXr src nr s x f false).1 = .ok () ∧
    xrCall (setXr src nr s x f false).2 f = .ok x ∧
    ∀ ops : List ObOp, (∀ op ∈ ops, ∀ x f b, op ≠ .setXr x f b) →
      xrCall (runOps src nr (setXr src nr s x f false).2 ops) .obstacle =
        xrCall (setXr src nr s x f false).2 .obstacle := by
  obtain ⟨y, hy⟩ := (C21_total s.mm x f .obstacle hf (Or.inr rfl)).1
  have e : setXr src nr s x f false = (.ok (), { s with xr := y }) := by simp [setXr, hy]
  rw [e]
  refine ⟨rfl, (C21_inverse s.mm x y f .obstacle).1 hy, ?_⟩
  intro ops hops
  simp only [xrCall, runOps_xr src nr ops _ hops]
  rw [(C21_identity _ _ _ _ (Or.inl rfl)).1, (C21_identity _ _ _ _ (Or.inl rfl)).1]

/-- C24: the default `set_xr` takes obstacle coordinates; in the global frame `xr` follows the pose. -/
theorem C24_follows (src : KernelSrc) (nr : Bool) (s : ObState) (x : Pt ℝ) (p : Pose) :
    xrCall { (setXr src nr s x .obstacle false).2 with mm := some p } .global =
      .ok (cos p.rot * x.1 - sin p.rot * x.2 + p.pos.1, sin p.rot * x.1 + cos p.rot * x.2 + p.pos.2) := by
  have e : setXr src nr s x .obstacle false = (.ok (), { s with xr := x }) := by
    simp [setXr, (C21_identity s.mm x .obstacle .obstacle (Or.inl rfl)).1]
  rw [e]
  exact (C21_meaning p x).2.1

/-! ## C25 -/

/-- C25 is false: `set_xr(p, safe_set=True)` raises for every obstacle, point and frame; with a valid
frame and a kernel that can be evaluated the exception is AttributeError. -/
theorem C25_safe_set_false (src : KernelSrc) (nr : Bool) (s : ObState) (x : Pt ℝ) (f : Frame) :
    (∃ e, (setXr src nr s x f true).1 = .error e) ∧
    (f.Valid → (∃ k, (kernelCall src nr s .global).1 = .ok k) →
      (setXr src nr s x f true).1 = .error .attributeError) := by
  unfold setXr
  constructor
  · cases transform s.mm x f .obstacle with
    | error e => exact ⟨e, rfl⟩
    | ok y =>
      simp only [if_true]
      rcases kernelCall src nr s .global with ⟨r, s'⟩
      cases r with
      | error e => exact ⟨e, rfl⟩
      | ok k => exact ⟨_, rfl⟩
  · intro hf ⟨k, hk⟩
    obtain ⟨y, hy⟩ := (C21_total s.mm x f .obstacle hf (Or.inr rfl)).1
    rw [hy]
    simp only [if_true]
    rcases h : kernelCall src nr s .global with ⟨r, s'⟩
    rw [h] at hk
    simp only at hk
    subst hk
    rfl

/-- C25, the true part: the reference point is left unchanged in every case (also for points of the kernel,
which is what is missing). -/
theorem C25_unchanged_partial (src : KernelSrc) (nr : Bool) (s : ObState) (x : Pt ℝ) (f : Frame) :
    (setXr src nr s x f true).2.xr = s.xr := by
  unfold setXr
  cases transform s.mm x f .obstacle with
  | error e => rfl
  | ok y =>
    simp only [if_true]
    have h := (kernelCall_mm src nr s .global).2.1
    rcases hk : kernelCall src nr s .global with ⟨r, s'⟩
    rw [hk] at h
    cases r <;> exact h

/-! ## C26 -/

theorem normSq_eq_zero {v : Pt ℝ} (h : normSq v = 0) : v = 0 := by
  simp only [normSq] at h
  have h1 : v.1 = 0 := by nlinarith [sq_nonneg v.1, sq_nonneg v.2]
  have h2 : v.2 = 0 := by nlinarith [sq_nonneg v.1, sq_nonneg v.2]
  ext <;> assumption

theorem rotate_ne_zero {mm : Option Pose} {v w : Pt ℝ} {f g : Frame} (h : rotate mm v f g = .ok w) (hv : v ≠ 0) :
    w ≠ 0 := by
  intro hw
  have := C21_rotate_length mm v w f g h
  rw [hw] at this
  exact hv (normSq_eq_zero (by rw [← this]; simp [normSq]))

/-- C26: for `x` different from the reference point (compared in the output frame), the reference
direction is a unit vector and a positive multiple of `x - xr`, both expressed in the output frame. -/
theorem C26_unit (mm : Option Pose) (xr x : Pt ℝ) (f g : Frame) (a b : Pt ℝ)
    (ha : transform mm x f g = .ok a) (hb : transform mm xr .obstacle g = .ok b) (hne : a ≠ b) :
    ∃ d, referenceDirection mm xr x f g = .ok d ∧ normSq d = 1 ∧ ∃ c : ℝ, 0 < c ∧ d = c • (a - b) := by
  have hz : norm2 (a - b) ≠ 0 := by
    intro h
    rw [norm2_eq_zero] at h
    exact hne (sub_eq_zero.1 h)
  have hpos : 0 < norm2 (a - b) := lt_of_le_of_ne (norm2_nonneg _) (Ne.symm hz)
  refine ⟨_, by simp only [referenceDirection, ha, hb, bind, Except.bind, hz, if_false]; rfl, ?_, (norm2 (a - b))⁻¹,
    inv_pos.2 hpos, ?_⟩
  · have := norm2_sq (a - b)
    simp only [normSq]
    field_simp
    exact this.symm
  · ext <;> simp [div_eq_inv_mul]

/-- C26: the direction in the global frame is the direction in the obstacle frame, rotated by the
obstacle's rotation. -/
theorem C26_equivariant (mm : Option Pose) (xr x : Pt ℝ) (f : Frame) (hf : f.Valid) (d : Pt ℝ)
    (h : referenceDirection mm xr x f .obstacle = .ok d) :
    ∃ d', referenceDirection mm xr x f .global = .ok d' ∧ rotate mm d .obstacle .global = .ok d' := by
  obtain ⟨a, ha⟩ := (C21_total mm x f .obstacle hf (Or.inr rfl)).1
  obtain ⟨a', ha'⟩ := (C21_total mm x f .global hf (Or.inl rfl)).1
  obtain ⟨b', hb'⟩ := (C21_total mm xr .obstacle .global (Or.inr rfl) (Or.inl rfl)).1
  have hb := (C21_identity mm xr .obstacle .obstacle (Or.inl rfl)).1
  -- the global image of a is a'
  have haa : transform mm a .obstacle .global = .ok a' := by
    rcases hf with rfl | rfl
    · rw [(C21_identity mm x .global .global (Or.inl rfl)).1] at ha'
      rw [← Except.ok.inj ha']
      exact (C21_inverse mm x a .global .obstacle).1 ha
    · rw [(C21_identity mm x .obstacle .obstacle (Or.inl rfl)).1] at ha
      rw [← Except.ok.inj ha]; exact ha'
  have hdiff := C21_difference mm a xr a' b' .obstacle .global haa hb'
  have hlen := C21_rotate_length mm _ _ _ _ hdiff
  have hn : norm2 (a' - b') = norm2 (a - xr) := by
    unfold norm2; rw [show (a' - b').1 ^ 2 + (a' - b').2 ^ 2 = normSq (a' - b') from rfl, hlen]; rfl
  simp only [referenceDirection, ha, hb, bind, Except.bind] at h
  split at h
  · cases h
  · rename_i hz
    rw [Except.ok.injEq] at h
    refine ⟨_, by simp only [referenceDirection, ha', hb', bind, Except.bind, hn, hz, if_false]; rfl, ?_⟩
    rw [← h]
    rcases mm with _ | p
    · simp only [rotate, Except.ok.injEq] at hdiff ⊢; rw [← hdiff]
    · rw [(C21_meaning p _).2.2] at hdiff ⊢
      rw [Except.ok.injEq] at hdiff
      rw [← hdiff]
      congr 1
      ext <;> simp only [] <;> ring

/-- C26: at the reference point itself the result is not finite (0/0). -/
theorem C26_undefined (mm : Option Pose) (xr : Pt ℝ) : referenceDirection mm xr xr .obstacle .obstacle = .error .nonFinite := by
  have hb := (C21_identity mm xr .obstacle .obstacle (Or.inl rfl)).1
  simp [referenceDirection, hb, bind, Except.bind, norm2]

example : referenceDirection (some ⟨(1, 1), 0⟩) (0, 0) (4, 5) .global .global = .ok (3 / 5, 4 / 5) := by
  have h5 : norm2 ((3, 4) : Pt ℝ) = 5 := by
    rw [norm2, show ((3 : ℝ) ^ 2 + 4 ^ 2) = 5 ^ 2 by norm_num, sqrt_sq (by norm_num)]
  simp [referenceDirection, transform, affineTransform, bind, Except.bind]
  norm_num [h5]

/-! ## C45 -/

/-- The velocity of the material point at `x` of a rigid body whose frame origin is at `pos`, moves with
`v` and turns with rate `w`. -/
def rigidVelocity (pos v : Pt ℝ) (w : ℝ) (x : Pt ℝ) : Pt ℝ := v + (-w * (x - pos).2, w * (x - pos).1)

/-- C45 is false: the code uses the unit reference direction where the lever arm `x - pos` belongs. A disc
turning at rate 1 about the origin: the point (2,0) has velocity (0,2), the code returns (0,1). -/
theorem C45_rigid_false : velInertialFrame (some ⟨(0, 0), 0⟩) (0, 0) 1 (0, 0) (2, 0) = .ok (0, 1) ∧
    rigidVelocity (0, 0) (0, 0) 1 (2, 0) = (0, 2) := by
  have h2 : norm2 ((2, 0) : Pt ℝ) = 2 := by
    rw [norm2, show ((2 : ℝ) ^ 2 + 0 ^ 2) = 2 ^ 2 by norm_num, sqrt_sq (by norm_num)]
  constructor
  · simp [velInertialFrame, referenceDirection, transform, affineTransform, bind, Except.bind, h2]
  · simp [rigidVelocity]

/-- C45, the true part: the result is the rigid-body velocity for every obstacle that does not rotate, and
for a rotating one exactly when the lever arm `x - pos` equals the unit reference direction (e.g. on the
circle of radius one about a reference point that is the origin of the obstacle frame). -/
theorem C45_rigid_partial (p : Pose) (v : Pt ℝ) (w : ℝ) (xr x d : Pt ℝ)
    (hd : referenceDirection (some p) xr x .global .global = .ok d) :
    (w = 0 → velInertialFrame (some p) v w xr x = .ok (rigidVelocity p.pos v w x)) ∧
    (w ≠ 0 → (velInertialFrame (some p) v w xr x = .ok (rigidVelocity p.pos v w x) ↔ x - p.pos = d)) := by
  have e : velInertialFrame (some p) v w xr x = .ok (v + (0 * 0 - w * d.2, w * d.1 - 0 * 0)) := by
    simp only [velInertialFrame, hd, bind, Except.bind]
  rw [e]
  constructor
  · rintro rfl
    simp [rigidVelocity]
  · intro hw
    rw [Except.ok.injEq, rigidVelocity]
    constructor
    · intro h
      have h := add_left_cancel h
      have h1 := congrArg Prod.fst h
      have h2 := congrArg Prod.snd h
      simp only [] at h1 h2
      ext
      · exact mul_left_cancel₀ hw (by linarith)
      · exact mul_left_cancel₀ hw (by linarith)
    · intro h
      rw [h]; congr 1; ext <;> simp only [] <;> ring

/-- C45: without motion model the velocity is zero; at the reference point it is not finite, even when the
obstacle does not rotate. -/
theorem C45_edge (v : Pt ℝ) (w : ℝ) (p : Pose) (xr x y : Pt ℝ) (hy : transform (some p) xr .obstacle .global = .ok y) :
    velInertialFrame none v w xr x = .ok (0, 0) ∧ velInertialFrame (some p) v w xr y = .error .nonFinite := by
  refine ⟨rfl, ?_⟩
  have hb := (C21_identity (some p) y .global .global (Or.inl rfl)).1
  simp [velInertialFrame, referenceDirection, hb, hy, bind, Except.bind, norm2]

end Starworlds
