import Verif.Model.Batch
import Verif.Proofs.Motion

/-! # C102, C103: arrays of points -/

namespace Starworlds

open Real

/-! ## C102: `reference_direction` of several points, one per row -/

theorem transformRows_len {mm : Option Pose} {x a : List (Pt ℝ)} {fin fout : Frame}
    (h : transformRows mm x fin fout = .ok a) : a = x ∨ a.length = 2 := by
  unfold transformRows at h
  rcases mm with _ | p
  · simp at h; exact .inl h.symm
  · simp only at h
    split_ifs at h with h1 h2
    · simp at h; exact .inl h.symm
    · rcases x with _ | ⟨r0, _ | ⟨r1, rest⟩⟩
      · simp at h
      · simp at h
      · simp only [Except.ok.injEq] at h
        right
        rw [← h]
        unfold affineRows
        split_ifs <;> rfl

/-- C102 is false for three and more points: the call never returns one direction per point.  Either numpy cannot match the shapes, or,
when the points have to be transformed to another frame, only two rows come back. -/
theorem C102_many_false (mm : Option Pose) (xr : Pt ℝ) (x : List (Pt ℝ)) (fin fout : Frame) (hx : 3 ≤ x.length) (l : List (Pt ℝ))
    (h : referenceDirectionRows mm xr x fin fout = .ok l) : l.length = 2 ∧ l.length ≠ x.length := by
  unfold referenceDirectionRows at h
  rcases ha : transformRows mm x fin fout with e | a
  · simp [ha, Bind.bind, Except.bind] at h
  rcases hb : transform mm xr .obstacle fout with e | b
  · simp [ha, hb, Bind.bind, Except.bind] at h
  simp only [ha, hb, Bind.bind, Except.bind] at h
  have hl : l.length = a.length ∧ a.length ≤ 2 := by
    rcases a with _ | ⟨p, _ | ⟨q, _ | ⟨r, rest⟩⟩⟩
    · simp [divRows] at h
    · simp only [List.map_cons, List.map_nil, divRows] at h
      split_ifs at h
      simp only [Except.ok.injEq] at h
      rw [← h]; simp
    · simp only [List.map_cons, List.map_nil, divRows] at h
      split_ifs at h
      simp only [Except.ok.injEq] at h
      rw [← h]; simp
    · simp [divRows] at h
  rcases transformRows_len ha with rfl | h2
  · omega
  · omega

/-- In the default frames three and more points raise ValueError. -/
theorem C102_many_error_partial (mm : Option Pose) (xr : Pt ℝ) (x : List (Pt ℝ)) (hx : 3 ≤ x.length) :
    referenceDirectionRows mm xr x .global .global = .error .valueError := by
  have ha : transformRows mm x .global .global = .ok x := by rcases mm with _ | p <;> simp [transformRows]
  obtain ⟨b, hb⟩ : ∃ b, transform mm xr .obstacle .global = .ok b := by
    rcases mm with _ | p
    · exact ⟨xr, rfl⟩
    · exact ⟨_, by simp [transform]; rfl⟩
  rcases x with _ | ⟨p, _ | ⟨q, _ | ⟨r, rest⟩⟩⟩
  · simp at hx
  · simp at hx
  · simp at hx
  · simp [referenceDirectionRows, ha, hb, Bind.bind, Except.bind, divRows]

/-- C102 is false for two points: the first number of each direction is divided by the norm of the first direction, the second by the
norm of the second.  For the points (3, 4) and (0, 1) about the reference point (0, 0) the first row is (3/5, 4) instead of
(3/5, 4/5). -/
theorem C102_two_false : referenceDirectionRows none (0, 0) [(3, 4), (0, 1)] .global .global = .ok [(3 / 5, 4), (0, 1)] ∧
    referenceDirection none (0, 0) (3, 4) .global .global = .ok (3 / 5, 4 / 5) := by
  have n1 : norm2 ((3, 4) - (0, 0) : Pt ℝ) = 5 := by
    unfold norm2; rw [show ((3, 4) - (0, 0) : Pt ℝ) = (3, 4) by ext <;> simp]
    rw [show ((3 : ℝ), (4 : ℝ)).1 ^ 2 + ((3 : ℝ), (4 : ℝ)).2 ^ 2 = 5 ^ 2 by norm_num]; exact sqrt_sq (by norm_num)
  have n2 : norm2 ((0, 1) - (0, 0) : Pt ℝ) = 1 := by
    unfold norm2; rw [show ((0, 1) - (0, 0) : Pt ℝ) = (0, 1) by ext <;> simp]; simp
  constructor
  · simp only [referenceDirectionRows, transformRows, transform, Bind.bind, Except.bind, List.map_cons, List.map_nil, n1, n2, divRows]
    norm_num
  · simp only [referenceDirection, transform, Bind.bind, Except.bind, n1]
    norm_num

/-- C102 for one point as a `1 × 2` array that needs no transformation: the direction of the point.  Missing: one point that needs a
transformation (`C102_one_false`), and all larger arrays. -/
theorem C102_one_partial (mm : Option Pose) (xr p : Pt ℝ) (f : Frame) :
    referenceDirectionRows mm xr [p] f f = (referenceDirection mm xr p f f).map fun d => [d] := by
  have ha : transformRows mm [p] f f = .ok [p] := by rcases mm with _ | q <;> simp [transformRows]
  have ha' : transform mm p f f = .ok p := by rcases mm with _ | q <;> simp [transform]
  rcases hb : transform mm xr .obstacle f with e | b
  · simp [referenceDirectionRows, referenceDirection, ha, ha', hb, Bind.bind, Except.bind, Except.map]
  · simp only [referenceDirectionRows, referenceDirection, ha, ha', hb, Bind.bind, Except.bind, List.map_cons, List.map_nil, divRows]
    split_ifs <;> rfl

/-- C102 for two points at the same distance of the reference point. -/
theorem C102_two_partial (xr p q : Pt ℝ) (f : Frame) (h : norm2 (p - xr) = norm2 (q - xr)) :
    referenceDirectionRows none xr [p, q] f f = [p, q].mapM fun x => referenceDirection none xr x f f := by
  simp only [referenceDirectionRows, transformRows, transform, referenceDirection, Bind.bind, Except.bind, List.map_cons, List.map_nil,
    divRows, h, List.mapM_cons, List.mapM_nil, or_self]
  split_ifs <;> rfl

/-- C102 is false for one point that has to be transformed: there is no second row. -/
theorem C102_one_false (p : Pose) (xr x : Pt ℝ) :
    referenceDirectionRows (some p) xr [x] .global .obstacle = .error .indexError := by
  simp [referenceDirectionRows, transformRows, Bind.bind, Except.bind]

/-- C102 (partial): what `transform` makes of an array with one point per row when the frames differ: the numbers of the first two rows
are read as the coordinates of two points, which are transformed and returned in columns; further rows are dropped. Missing: the points
of the array are other ones, unless it is symmetric. -/
theorem C102_transposed_partial (m : Pose) (p q : Pt ℝ) (rest : List (Pt ℝ)) (fin fout : Frame)
    (hf : fin = .obstacle ∧ fout = .global ∨ fin = .global ∧ fout = .obstacle) :
    ∃ u v, transform (some m) (p.1, q.1) fin fout = .ok u ∧ transform (some m) (p.2, q.2) fin fout = .ok v ∧
      transformRows (some m) (p :: q :: rest) fin fout = .ok [(u.1, v.1), (u.2, v.2)] := by
  rcases hf with ⟨rfl, rfl⟩ | ⟨rfl, rfl⟩
  · refine ⟨affineTransform (p.1, q.1) m.rot m.pos false, affineTransform (p.2, q.2) m.rot m.pos false, by simp [transform], by simp [transform], ?_⟩
    by_cases h : m.rot = 0 <;> simp [transformRows, affineRows, affineTransform, addScalar, h]
  · refine ⟨affineTransform (p.1, q.1) m.rot m.pos true, affineTransform (p.2, q.2) m.rot m.pos true, by simp [transform], by simp [transform], ?_⟩
    by_cases h : m.rot = 0 <;> simp [transformRows, affineRows, affineTransform, addScalar, h, sub_eq_add_neg]

/-- Three points of the obstacle frame: two rows come back. -/
example : transformRows (some ⟨(1, 2), 0⟩) [(0, 3), (5, 7), (4, 4)] .obstacle .global = .ok [(1, 4), (7, 9)] := by
  simp [transformRows, affineRows, addScalar]
  norm_num

/-- Two points at distance 5. -/
example : referenceDirectionRows none (0, 0) [(3, 4), (5, 0)] .global .global = .ok [(3 / 5, 4 / 5), (1, 0)] := by
  have n1 : norm2 ((3, 4) - (0, 0) : Pt ℝ) = 5 := by
    unfold norm2; rw [show ((3, 4) - (0, 0) : Pt ℝ) = (3, 4) by ext <;> simp]
    rw [show ((3 : ℝ), (4 : ℝ)).1 ^ 2 + ((3 : ℝ), (4 : ℝ)).2 ^ 2 = 5 ^ 2 by norm_num]; exact sqrt_sq (by norm_num)
  have n2 : norm2 ((5, 0) - (0, 0) : Pt ℝ) = 5 := by
    unfold norm2; rw [show ((5, 0) - (0, 0) : Pt ℝ) = (5, 0) by ext <;> simp]
    rw [show ((5 : ℝ), (0 : ℝ)).1 ^ 2 + ((5 : ℝ), (0 : ℝ)).2 ^ 2 = 5 ^ 2 by norm_num]; exact sqrt_sq (by norm_num)
  rw [C102_two_partial (0, 0) (3, 4) (5, 0) .global (n1.trans n2.symm)]
  simp only [List.mapM_cons, List.mapM_nil, referenceDirection, transform, Bind.bind, Except.bind, n1, n2]
  norm_num [pure, Except.pure]

/-! ## C103: `Ellipse.point_location` of several points -/

theorem affineColumns_eq (xs : List (Pt ℝ)) (rot : ℝ) (t : Pt ℝ) (inv : Bool) :
    affineColumns (xs.map Prod.fst, xs.map Prod.snd) rot t inv =
      ((xs.map fun x => affineTransform x rot t inv).map Prod.fst, (xs.map fun x => affineTransform x rot t inv).map Prod.snd) := by
  have hz : ∀ (f : ℝ → ℝ → ℝ), List.zipWith f (xs.map Prod.fst) (xs.map Prod.snd) = xs.map fun x => f x.1 x.2 := by
    intro f
    induction xs with
    | nil => rfl
    | cons x xs ih => simp [ih]
  have hz' : ∀ (f : ℝ → ℝ → ℝ) (a b : ℝ), List.zipWith f ((xs.map Prod.fst).map (· - a)) ((xs.map Prod.snd).map (· - b)) =
      xs.map fun x => f (x.1 - a) (x.2 - b) := by
    intro f a b
    induction xs with
    | nil => rfl
    | cons x xs ih => simp
  unfold affineColumns affineTransform
  rcases inv with _ | _
  · by_cases hr : rot = 0
    · simp [hr, Function.comp_def]
    · simp [hr, hz, Function.comp_def]
  · by_cases hr : rot = 0
    · simp [hr, Function.comp_def]
    · simp only [if_true, hr, if_false, hz']
      simp [Function.comp_def]

/-- `transform` of an array with one point per column is `transform` of each point, for all pairs of frames and all poses. -/
theorem C103_transform (mm : Option Pose) (fin fout : Frame) (hin : fin = .global ∨ fin = .obstacle) (hout : fout = .global ∨ fout = .obstacle)
    (xs : List (Pt ℝ)) : ∃ ys, xs.mapM (fun x => transform mm x fin fout) = .ok ys ∧
      transformColumns mm (xs.map Prod.fst, xs.map Prod.snd) fin fout = .ok (ys.map Prod.fst, ys.map Prod.snd) := by
  obtain ⟨T, hT1, hT2⟩ : ∃ T : Pt ℝ → Pt ℝ, (∀ x, transform mm x fin fout = .ok (T x)) ∧
      transformColumns mm (xs.map Prod.fst, xs.map Prod.snd) fin fout = .ok ((xs.map T).map Prod.fst, (xs.map T).map Prod.snd) := by
    rcases mm with _ | p
    · exact ⟨id, fun _ => rfl, by simp [transformColumns]⟩
    · rcases hin with rfl | rfl <;> rcases hout with rfl | rfl
      · exact ⟨id, fun x => by simp [transform], by simp [transformColumns]⟩
      · exact ⟨fun x => affineTransform x p.rot p.pos true, fun x => by simp [transform], by
          simp [transformColumns, affineColumns_eq]⟩
      · exact ⟨fun x => affineTransform x p.rot p.pos false, fun x => by simp [transform], by
          simp [transformColumns, affineColumns_eq]⟩
      · exact ⟨id, fun x => by simp [transform], by simp [transformColumns]⟩
  refine ⟨xs.map T, ?_, hT2⟩
  clear hT2
  induction xs with
  | nil => rfl
  | cons x xs ih => simp [hT1, pure, Except.pure, bind, Except.bind] at ih ⊢; simp [ih]

/-- C103 for arrays with one point per column: the value of each point, in both frames and for all poses. -/
theorem C103_columns_partial (e : Ell) (h0 : e.a.1 ≠ 0) (h1 : e.a.2 ≠ 0) (f : Frame) (hf : f = .global ∨ f = .obstacle)
    (xs : List (Pt ℝ)) : e.pointLocationColumns (xs.map Prod.fst, xs.map Prod.snd) f = xs.mapM fun x => e.pointLocation x f := by
  have hz : ∀ (g : ℝ → ℝ → ℝ) (l : List (Pt ℝ)), List.zipWith g (l.map Prod.fst) (l.map Prod.snd) = l.map fun x => g x.1 x.2 := by
    intro g l
    induction l with
    | nil => rfl
    | cons x xs ih => simp [ih]
  obtain ⟨T, hT1, hT2⟩ : ∃ T : Pt ℝ → Pt ℝ, (∀ x, transform e.mm x f .obstacle = .ok (T x)) ∧
      transformColumns e.mm (xs.map Prod.fst, xs.map Prod.snd) f .obstacle = .ok ((xs.map T).map Prod.fst, (xs.map T).map Prod.snd) := by
    rcases hm : e.mm with _ | p
    · exact ⟨id, fun _ => rfl, by simp [transformColumns]⟩
    · rcases hf with rfl | rfl
      · exact ⟨fun x => affineTransform x p.rot p.pos true, fun x => by simp [transform], by
          simp only [transformColumns, reduceCtorEq, and_self, if_false, if_true]
          rw [affineColumns_eq]⟩
      · exact ⟨id, fun _ => by simp [transform], by simp [transformColumns]⟩
  have hr : ∀ l : List (Pt ℝ), (l.mapM fun x => e.pointLocation x f) =
      .ok (l.map fun x => ((T x).1 / e.a.1) ^ 2 + ((T x).2 / e.a.2) ^ 2 - 1) := by
    intro l
    induction l with
    | nil => rfl
    | cons x l ih =>
      rw [List.mapM_cons, ih]
      simp [Ell.pointLocation, hT1, h0, h1, Bind.bind, Except.bind, pure, Except.pure]
  rw [hr]
  simp only [Ell.pointLocationColumns, hT2, Bind.bind, Except.bind, h0, h1, or_self, if_false]
  rw [hz]
  simp

/-- C103 is false for arrays with one point per row, as `reference_direction` is written for: the points (0, 0) and (3, 0) of the unit circle
are inside (-1) and outside (8), in this order; the values returned are 8 and -1. -/
theorem C103_rows_false : (⟨(1, 1), (0, 0), 20, none⟩ : Ell).pointLocationRows [(0, 0), (3, 0)] .global = .ok [8, -1] ∧
    (⟨(1, 1), (0, 0), 20, none⟩ : Ell).pointLocation (0, 0) .global = .ok (-1) ∧
    (⟨(1, 1), (0, 0), 20, none⟩ : Ell).pointLocation (3, 0) .global = .ok 8 := by
  refine ⟨?_, ?_, ?_⟩
  · simp only [Ell.pointLocationRows, transformRows, Bind.bind, Except.bind]; norm_num
  · simp only [Ell.pointLocation, transform, Bind.bind, Except.bind]; norm_num
  · simp only [Ell.pointLocation, transform, Bind.bind, Except.bind]; norm_num

/-- C103 is false for arrays with one point per row and more than two points: only two values are returned, and only the first two rows
count. -/
theorem C103_rows_many_false (e : Ell) (h0 : e.a.1 ≠ 0) (h1 : e.a.2 ≠ 0) (p q : Pt ℝ) (rest : List (Pt ℝ)) (f : Frame)
    (hf : f = .global ∨ f = .obstacle) :
    ∃ u v, e.pointLocationRows (p :: q :: rest) f = .ok [u, v] ∧ e.pointLocationRows [p, q] f = .ok [u, v] := by
  have key : ∃ r0 r1 rest1 rest2, transformRows e.mm (p :: q :: rest) f .obstacle = .ok (r0 :: r1 :: rest1) ∧
      transformRows e.mm [p, q] f .obstacle = .ok (r0 :: r1 :: rest2) := by
    rcases hm : e.mm with _ | s
    · exact ⟨p, q, rest, [], rfl, rfl⟩
    · rcases hf with rfl | rfl
      · obtain ⟨r0, r1, hr⟩ : ∃ r0 r1, affineRows p q s.rot s.pos true = [r0, r1] := by
          unfold affineRows
          by_cases h : s.rot = 0
          · exact ⟨_, _, by rw [if_pos rfl, if_pos h]⟩
          · exact ⟨_, _, by rw [if_pos rfl, if_neg h]⟩
        exact ⟨r0, r1, [], [], by simp [transformRows, hr], by simp [transformRows, hr]⟩
      · exact ⟨p, q, rest, [], by simp [transformRows], by simp [transformRows]⟩
  obtain ⟨r0, r1, rest1, rest2, e1, e2⟩ := key
  refine ⟨(r0.1 / e.a.1) ^ 2 + (r1.1 / e.a.2) ^ 2 - 1, (r0.2 / e.a.1) ^ 2 + (r1.2 / e.a.2) ^ 2 - 1, ?_, ?_⟩
  · simp only [Ell.pointLocationRows, e1, Bind.bind, Except.bind, h0, h1, or_self, if_false]
  · simp only [Ell.pointLocationRows, e2, Bind.bind, Except.bind, h0, h1, or_self, if_false]

/-- C103 (partial): for points in rows the values are those of the two points that the first two rows give when read as columns, for all
poses and both frames. Missing: these are other points than those of the array, unless it is symmetric. -/
theorem C103_transposed_partial (e : Ell) (p q : Pt ℝ) (rest : List (Pt ℝ)) (f : Frame) (hf : f = .global ∨ f = .obstacle) :
    e.pointLocationRows (p :: q :: rest) f = [(p.1, q.1), (p.2, q.2)].mapM fun x => e.pointLocation x f := by
  obtain ⟨u, v, rest', h1, h2, h3⟩ : ∃ u v rest', transform e.mm (p.1, q.1) f .obstacle = .ok u ∧
      transform e.mm (p.2, q.2) f .obstacle = .ok v ∧
      transformRows e.mm (p :: q :: rest) f .obstacle = .ok ((u.1, v.1) :: (u.2, v.2) :: rest') := by
    rcases hm : e.mm with _ | m
    · exact ⟨(p.1, q.1), (p.2, q.2), rest, rfl, rfl, rfl⟩
    · rcases hf with rfl | rfl
      · obtain ⟨u, v, h1, h2, h3⟩ := C102_transposed_partial m p q rest .global .obstacle (Or.inr ⟨rfl, rfl⟩)
        exact ⟨u, v, [], h1, h2, h3⟩
      · exact ⟨(p.1, q.1), (p.2, q.2), rest, by simp [transform], by simp [transform], by simp [transformRows]⟩
  simp only [Ell.pointLocationRows, Ell.pointLocation, h1, h2, h3, List.mapM_cons, List.mapM_nil, Bind.bind, Except.bind]
  split_ifs <;> rfl

/-- Three points in columns, for a circle of radius 2 at (1, 1): inside, boundary, outside. -/
example : (⟨(2, 2), (0, 0), 20, some ⟨(1, 1), 0⟩⟩ : Ell).pointLocationColumns ([1, 3, 5], [1, 1, 1]) .global = .ok [-1, 0, 3] := by
  simp only [Ell.pointLocationColumns, transformColumns, affineColumns, Bind.bind, Except.bind, reduceCtorEq, and_self,
    if_false, if_true]
  norm_num

/-- A concrete case of `C103_transform`: two points of the obstacle frame in the global frame. -/
example : transformColumns (some ⟨(1, 2), 0⟩) ([0, 3], [0, 5]) .obstacle .global = .ok ([1, 4], [2, 7]) := by
  simp only [transformColumns, affineColumns, reduceCtorEq, and_self, if_false, if_true, Bool.false_eq_true]
  norm_num

end Starworlds
