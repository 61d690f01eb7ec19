import Verif.Model.CombinationKernel
import Verif.Props.CombinationState
import Verif.Props.DefaultReference
import Verif.Props.KernelPolygon
import Verif.Props.KernelStar
import Verif.Props.Flags

/-! # C142: kernel() and is_convex() of a combination -/

namespace Starworlds

open Real Spec

/-- The union of the parts at the time of a call that may need it. -/
def CombCall.union : CombCall → Option (Option (List (Pt ℝ)))
  | .base (.polygon u) => some u
  | .base (.setXr _ _ u) => some u
  | .base _ => none
  | .kernel u => some u
  | .isConvex u => some u

/-- All that is stored belongs to the union `ring`. -/
structure StoredFrom (ops : KernelOps (Pt ℝ)) (ring : List (Pt ℝ)) (s : CombKernel) : Prop where
  polygon : s.state.polygon = none ∨ s.state.polygon = some (some ring)
  kernel : ∀ k, s.kernel = some k → polygonKernel ops false (orientRing ring) = .ok (some k)
  convex : ∀ b, s.isConvex = some b → checkConvexity (orientRing ring) = .ok b

theorem computePolygon_ring {s : CombState} {ring : List (Pt ℝ)} (h : s.polygon = none ∨ s.polygon = some (some ring)) :
    (s.computePolygon (some ring)).polygon = some (some ring) := by
  rcases h with h | h <;> simp [CombState.computePolygon, h]

theorem kernelCall_ring {ops : KernelOps (Pt ℝ)} {ring : List (Pt ℝ)} {s : CombKernel} (h : StoredFrom ops ring s) :
    (s.kernelCall ops (some ring)).1 = polygonKernel ops false (orientRing ring) ∧ StoredFrom ops ring (s.kernelCall ops (some ring)).2 := by
  unfold CombKernel.kernelCall
  rcases hk : s.kernel with _ | k
  · have hp := computePolygon_ring h.polygon
    have ht : CombKernel.temp (s.state.computePolygon (some ring)) >>= polygonKernel ops false =
        polygonKernel ops false (orientRing ring) := by
      simp only [CombKernel.temp, hp]; rfl
    dsimp only
    rw [ht]
    rcases hr : polygonKernel ops false (orientRing ring) with e | k
    · exact ⟨rfl, ⟨Or.inr hp, fun k hk' => by simp at hk', h.convex⟩⟩
    · exact ⟨rfl, ⟨Or.inr hp, fun k' hk' => by rw [hr]; exact congrArg _ hk', h.convex⟩⟩
  · exact ⟨(h.kernel k hk).symm, h⟩

theorem isConvexCall_ring {ops : KernelOps (Pt ℝ)} {ring : List (Pt ℝ)} {s : CombKernel} (h : StoredFrom ops ring s) :
    (s.isConvexCall (some ring)).1 = checkConvexity (orientRing ring) ∧ StoredFrom ops ring (s.isConvexCall (some ring)).2 := by
  unfold CombKernel.isConvexCall
  rcases hk : s.isConvex with _ | b
  · have hp := computePolygon_ring h.polygon
    have ht : CombKernel.temp (s.state.computePolygon (some ring)) >>= checkConvexity = checkConvexity (orientRing ring) := by
      simp only [CombKernel.temp, hp]; rfl
    dsimp only
    rw [ht]
    rcases hr : checkConvexity (orientRing ring) with e | b
    · exact ⟨rfl, ⟨Or.inr hp, h.kernel, fun b hb => by simp at hb⟩⟩
    · exact ⟨rfl, ⟨Or.inr hp, h.kernel, fun b' hb => by rw [hr]; exact congrArg _ (Option.some.inj hb)⟩⟩
  · exact ⟨(h.convex b hk).symm, h⟩

theorem step_polygon_ring {argsort : List ℝ → List Nat} {s : CombState} {ring : List (Pt ℝ)}
    (h : s.polygon = none ∨ s.polygon = some (some ring)) {op : CombOp} (hu : ∀ u, (CombCall.base op).union = some u → u = some ring) :
    (s.step argsort op).polygon = none ∨ (s.step argsort op).polygon = some (some ring) := by
  have hup : ∀ t : CombState, (t.polygon = none ∨ t.polygon = some (some ring)) →
      ((t.update argsort).2.polygon = none ∨ (t.update argsort).2.polygon = some (some ring)) := by
    intro t ht
    unfold CombState.update
    split <;> exact ht
  cases op with
  | moved ms => exact h
  | polygon u =>
    obtain rfl := hu u rfl
    exact Or.inr (computePolygon_ring h)
  | setXr x safe u =>
    obtain rfl := hu u rfl
    cases safe with
    | true => exact Or.inr (computePolygon_ring h)
    | false => exact hup _ h
  | normal x t =>
    simp only [CombState.step, CombState.approxNormal]
    split
    · exact h
    · split <;> exact hup _ h

theorem run_stored {ops : KernelOps (Pt ℝ)} {argsort : List ℝ → List Nat} {ring : List (Pt ℝ)} (calls : List CombCall) :
    ∀ {s : CombKernel}, StoredFrom ops ring s → (∀ c ∈ calls, ∀ u, c.union = some u → u = some ring) →
      StoredFrom ops ring (s.run ops argsort calls) := by
  induction calls with
  | nil => intro s h _; exact h
  | cons c calls ih =>
    intro s h hu
    refine ih (s := s.step ops argsort c) ?_ fun c' hc' => hu c' (List.mem_cons_of_mem _ hc')
    have hc := hu c List.mem_cons_self
    cases c with
    | kernel u => obtain rfl := hc u rfl; exact (kernelCall_ring h).2
    | isConvex u => obtain rfl := hc u rfl; exact (isConvexCall_ring h).2
    | base op =>
      have key : StoredFrom ops ring { s with state := s.state.step argsort op } :=
        ⟨step_polygon_ring h.polygon hc, h.kernel, h.convex⟩
      cases op with
      | setXr x safe u =>
        cases safe with
        | true => obtain rfl := hc u rfl; exact (kernelCall_ring h).2
        | false => exact key
      | _ => exact key

/-- The two answers after a history in which the union of the parts is always the same. -/
theorem combination_answers (ops : KernelOps (Pt ℝ)) (argsort : List ℝ → List Nat) (c : Combination) (hull : Option (List (Pt ℝ)))
    (ring : List (Pt ℝ)) (calls : List CombCall) (hu : ∀ c ∈ calls, ∀ u, c.union = some u → u = some ring) (s : CombKernel)
    (hs : s = (CombKernel.make c hull).run ops argsort calls) :
    (s.kernelCall ops (some ring)).1 = polygonKernel ops false (orientRing ring) ∧
      (s.isConvexCall (some ring)).1 = checkConvexity (orientRing ring) := by
  have h0 : StoredFrom ops ring (CombKernel.make c hull) :=
    ⟨Or.inl rfl, fun k hk => by simp [CombKernel.make] at hk, fun b hb => by simp [CombKernel.make] at hb⟩
  have h := run_stored (argsort := argsort) calls h0 hu
  rw [← hs] at h
  exact ⟨(kernelCall_ring h).1, (isConvexCall_ring h).1⟩

/-- `constructKernel` returns what `polygonKernel` does. -/
theorem polygonKernel_of_construct {v k : List (Pt ℝ)} (h : constructKernel realOps v = .ok k) : polygonKernel realOps false v = .ok (some k) := by
  unfold constructKernel at h
  rcases hr : polygonKernel realOps false v with e | r
  · rw [hr] at h; cases h
  · rw [hr, ok_then] at h
    cases r with
    | none => cases h
    | some k' => injection h with h; rw [h]

theorem simple_rotated {v : List (Pt ℝ)} (h : SimpleRing v) (k : ℕ) : SimpleRing (v.rotate k) := by
  have hn : 0 < v.length := by have := h.1; omega
  have e : ∀ i m, corner v ((i + k) % v.length + m) = corner v (i + k + m) := fun i m => by simp [corner]
  have hnx : ∀ i j, i < v.length → j < v.length → Nx v.length ((i + k) % v.length) ((j + k) % v.length) → Nx v.length i j := by
    intro i j hi hj hx
    have key : (i + 1) % v.length = j := by
      have h1 : ((i + k) % v.length + 1) % v.length = (j + k) % v.length := by
        rcases hx with hx | ⟨hx, hx'⟩
        · rw [← hx, Nat.mod_mod]
        · rw [hx', hx, Nat.mod_self]
      have h2 : (i + 1 + k) ≡ (j + k) [MOD v.length] := by
        show (i + 1 + k) % v.length = (j + k) % v.length
        rw [← h1, Nat.mod_add_mod]; congr 1; omega
      have h3 := Nat.ModEq.add_right_cancel' k h2
      rw [show (i + 1) % v.length = j % v.length from h3, Nat.mod_eq_of_lt hj]
    rcases Nat.lt_or_ge (i + 1) v.length with hlt | hge
    · exact Or.inl (by rw [Nat.mod_eq_of_lt hlt] at key; exact key.symm)
    · have : i + 1 = v.length := by omega
      exact Or.inr ⟨by rw [this, Nat.mod_self] at key; exact key.symm, this⟩
  refine simple_of_cyclic (by simpa using h.1) fun i hi j hj hij p h1 h2 => ?_
  rw [List.length_rotate] at *
  rw [corner_rotate, corner_rotate] at h1 h2
  have g1 : OnSegment (corner v ((i + k) % v.length)) (corner v ((i + k) % v.length + 1)) p := by
    rw [e i 1, show corner v ((i + k) % v.length) = corner v (i + k) by simpa using e i 0]
    convert h1 using 2; omega
  have g2 : OnSegment (corner v ((j + k) % v.length)) (corner v ((j + k) % v.length + 1)) p := by
    rw [e j 1, show corner v ((j + k) % v.length) = corner v (j + k) by simpa using e j 0]
    convert h2 using 2; omega
  have hne : (i + k) % v.length ≠ (j + k) % v.length := by
    intro he
    have := Nat.ModEq.add_right_cancel' k (show i + k ≡ j + k [MOD v.length] from he)
    exact hij (by rw [← Nat.mod_eq_of_lt hi, ← Nat.mod_eq_of_lt hj]; exact this)
  rw [corner_rotate, corner_rotate]
  rcases simple_cyclic h (Nat.mod_lt _ hn) (Nat.mod_lt _ hn) hne g1 g2 with ⟨a, b⟩ | ⟨a, b⟩
  · exact Or.inl ⟨hnx i j hi hj a, by rw [b]; simpa using e j 0⟩
  · exact Or.inr ⟨hnx j i hj hi a, by rw [b]; simpa using e i 0⟩

theorem simple_orient {v : List (Pt ℝ)} (h : SimpleRing v) : SimpleRing (orientRing v) := by
  rcases orient_cases v with ⟨-, e⟩ | ⟨-, k, e⟩
  · rwa [e]
  · rw [e]; exact simple_rotated (simple_reverse h) k

/-- The first two corners differ, unless the ring is a single point. -/
theorem simple_first {v : List (Pt ℝ)} (h : SimpleRing v) (hall : ¬ ∀ p ∈ v, ∀ q ∈ v, p = q) : corner v 0 ≠ corner v 1 := by
  intro he
  have h3 := h.1
  have hlast : corner v (v.length - 1 + 1) = corner v 0 := by
    rw [show v.length - 1 + 1 = v.length by omega]; simp [corner]
  have h1 : OnSegment (corner v 1) (corner v (1 + 1)) (corner v 0) := ⟨0, le_rfl, zero_le_one, by simp [he]⟩
  have h2 : OnSegment (corner v (v.length - 1)) (corner v (v.length - 1 + 1)) (corner v 0) := ⟨1, zero_le_one, le_rfl, by rw [hlast]; simp⟩
  rcases h.2 1 (v.length - 1) (by omega) (by omega) _ h1 h2 with ⟨a, b⟩ | ⟨a, -⟩
  · match v, a with
    | [p, q, r], _ =>
      simp [corner] at he b
      subst he b
      exact hall (by simp)
    | _ :: _ :: _ :: _ :: _, a => simp at a
    | [], _ => simp at h3
    | [_], _ => simp at h3
    | [_, _], _ => simp at h3
  · omega

theorem star_first {c : Pt ℝ} {v : List (Pt ℝ)} (h : StarAbout c v) : corner v 0 ≠ corner v 1 := by
  intro e
  have := (star_sectors h).pos 0 (by have := (star_simple h).1; omega)
  rw [zero_add, ← e] at this
  simp [cross, mul_comm] at this

/-- C142 (partial): if the union of the parts is a polygon that does not cross itself, given in either order, and stays the same, then
after any history of calls `is_convex()` says if it is convex. If it is, `kernel()` is the set of the points from where all of it is visible.
Missing: unions that change, see `C142_stale_false`; bends smaller than the threshold; kernels of other unions that are not convex, see
`C142_corner_partial`, `C142_shapes_partial` and `C142_none_false`. -/
theorem C142_convex_partial (argsort : List ℝ → List Nat) (c : Combination) (hull : Option (List (Pt ℝ))) (ring : List (Pt ℝ))
    (h : SimpleRing ring) (h01 : corner ring 0 ≠ corner ring 1)
    (hband : ∀ j < ring.length, turn ring j = 0 ∨ 1 / 10 ^ 10 < |turn ring j|) (calls : List CombCall)
    (hu : ∀ c ∈ calls, ∀ u, c.union = some u → u = some ring) (s : CombKernel)
    (hs : s = (CombKernel.make c hull).run realOps argsort calls) :
    (∃ b, (s.isConvexCall (some ring)).1 = .ok b ∧ (b = true ↔ Convex ℝ (filled ring))) ∧
      (Convex ℝ (filled ring) → ∃ k, (s.kernelCall realOps (some ring)).1 = .ok (some k) ∧ region k = visKernel (filled ring)) := by
  obtain ⟨a1, a2⟩ := combination_answers realOps argsort c hull ring calls hu s hs
  have hsimple := simple_orient h
  have h01' : corner (orientRing ring) 0 ≠ corner (orientRing ring) 1 := by
    refine simple_first hsimple fun hall => h01 ?_
    have hne : ring ≠ [] := by rintro rfl; exact absurd h.1 (by simp)
    have hm : ∀ i, corner ring i ∈ orientRing ring := fun i => by
      rcases orient_cases ring with ⟨-, e⟩ | ⟨-, k, e⟩ <;> rw [e] <;> simpa using corner_mem hne i
    exact hall _ (hm 0) _ (hm 1)
  have hb := band_orient h.1 hband
  obtain ⟨b, h1, h2, -⟩ := C36_simple_partial (orientRing ring) hsimple h01' hb
  rw [filled_orient] at h2
  refine ⟨⟨b, a2.trans h1, h2⟩, fun hc => ?_⟩
  obtain ⟨k1, k2⟩ := C75_simple_partial (orientRing ring) hsimple h01' hb (by rwa [filled_orient])
  rw [filled_orient] at k2
  exact ⟨_, a1.trans (polygonKernel_of_construct k1), k2⟩

/-- A pentagon given clockwise, after two other calls: True, and it is its own kernel. -/
example (argsort : List ℝ → List Nat) (ring : List (Pt ℝ)) (hr : ring = clockwiseShape.map toReal) (s : CombKernel)
    (hs : s = (CombKernel.make ⟨[], none, 0⟩ none).run realOps argsort [.base (.normal (3, 3) .weighted), .kernel (some ring)]) :
    (s.isConvexCall (some ring)).1 = .ok true ∧
      ∃ k, (s.kernelCall realOps (some ring)).1 = .ok (some k) ∧ region k = visKernel (filled ring) := by
  subst hr
  have hsr : SimpleRing (clockwiseShape.map toReal) := simple_rat (by decide +kernel)
  have h01 : corner (clockwiseShape.map toReal) 0 ≠ corner (clockwiseShape.map toReal) 1 := by simp [clockwiseShape, corner, toReal]
  have hb := band_rat (v := clockwiseShape) (by decide +kernel)
  have e2 : checkConvexity (clockwiseShape.map toReal) = .ok true := by rw [checkConvexity_map toReal_turns]; decide +kernel
  obtain ⟨b, h1, h2, -⟩ := C36_simple_partial _ hsr h01 hb
  rw [e2] at h1
  injection h1 with h1
  have hc := h2.1 h1.symm
  obtain ⟨⟨b', a1, a2⟩, h3⟩ := C142_convex_partial argsort ⟨[], none, 0⟩ none _ hsr h01 hb _ (by
    intro c hc u hu
    simp only [List.mem_cons, List.not_mem_nil, or_false] at hc
    rcases hc with rfl | rfl
    · cases hu
    · exact (Option.some.inj hu).symm) s hs
  exact ⟨by rw [a1, a2.2 hc], h3 hc⟩

/-- C142 (partial): the union is a corner made of two rectangles. The kernel is then the set of the points from where all of it is
visible, after any history of calls during which the union stays the same. -/
theorem C142_corner_partial (argsort : List ℝ → List Nat) (cb : Combination) (hull : Option (List (Pt ℝ))) (a b c d : ℝ)
    (hc : 1 / 1000 ≤ c) (hd : 1 / 1000 ≤ d) (hca : c + 1 / 1000 ≤ a) (hdb : d + 1 / 1000 ≤ b) (ha : a ≤ 299) (hb : b ≤ 299)
    (ring : List (Pt ℝ)) (hring : ring = [(0, 0), (a, 0), (a, d), (c, d), (c, b), (0, b)]) (calls : List CombCall)
    (hu : ∀ c ∈ calls, ∀ u, c.union = some u → u = some ring) (s : CombKernel)
    (hs : s = (CombKernel.make cb hull).run realOps argsort calls) :
    (s.isConvexCall (some ring)).1 = .ok false ∧
      ∃ k, (s.kernelCall realOps (some ring)).1 = .ok (some k) ∧ region k = visKernel (filled ring) := by
  obtain ⟨a1, a2⟩ := combination_answers realOps argsort cb hull ring calls hu s hs
  have hr : CornerRange a b c d := ⟨hc, hd, hca, hdb, ha, hb⟩
  have ho : orientRing ring = ring := by rw [hring]; exact corner_orient hr
  rw [ho] at a1 a2
  obtain ⟨k, k1, k2⟩ := C75_corner_partial a b c d hc hd hca hdb ha hb
  rw [← hring] at k1 k2
  refine ⟨a2.trans ?_, k, a1.trans (polygonKernel_of_construct k1), k2⟩
  rw [hring]
  exact corner_nonconvex hr

/-- A corner whose reference point was changed and whose kernel was asked for before: kernel() is the square at the corner. -/
example (argsort : List ℝ → List Nat) : ∃ ring k : List (Pt ℝ), ring = [(0, 0), (2, 0), (2, 1), (1, 1), (1, 2), (0, 2)] ∧
    (((CombKernel.make ⟨[], none, 0⟩ none).run realOps argsort [.kernel (some ring), .base (.setXr (1 / 2, 1 / 2) false (some ring)),
      .isConvex (some ring), .base (.setXr 0 true (some ring))]).kernelCall realOps (some ring)).1 = .ok (some k) ∧
    region k = visKernel (filled ring) := by
  obtain ⟨-, k, h1, h2⟩ := C142_corner_partial argsort ⟨[], none, 0⟩ none 2 2 1 1 (by norm_num) (by norm_num) (by norm_num) (by norm_num)
    (by norm_num) (by norm_num) _ rfl [.kernel (some [(0, 0), (2, 0), (2, 1), (1, 1), (1, 2), (0, 2)]),
      .base (.setXr (1 / 2, 1 / 2) false (some [(0, 0), (2, 0), (2, 1), (1, 1), (1, 2), (0, 2)])),
      .isConvex (some [(0, 0), (2, 0), (2, 1), (1, 1), (1, 2), (0, 2)]), .base (.setXr 0 true (some [(0, 0), (2, 0), (2, 1), (1, 1), (1, 2), (0, 2)]))]
    (by
      intro c hc u hu
      simp only [List.mem_cons, List.not_mem_nil, or_false] at hc
      rcases hc with rfl | rfl | rfl | rfl <;> exact (Option.some.inj hu).symm) _ rfl
  exact ⟨_, k, rfl, h1, h2⟩

/-- C142 (partial): the same for the unions in `kernelShapes`. -/
theorem C142_shapes_partial (argsort : List ℝ → List Nat) (c : Combination) (hull : Option (List (Pt ℝ))) :
    ∀ ring ∈ kernelShapes, ∀ calls : List CombCall, (∀ c ∈ calls, ∀ u, c.union = some u → u = some ring) →
      ∃ k, (((CombKernel.make c hull).run realOps argsort calls).kernelCall realOps (some ring)).1 = .ok (some k) ∧
        region k = visKernel (filled ring) := by
  intro ring hr calls hu
  obtain ⟨k, x, -, h1, h2, -, h3⟩ := kernel_shapes ring hr
  have ho : orientRing ring = ring := by
    have hs := star_simple h2
    obtain ⟨p, hp⟩ := simple_inside hs (corners_differ hs (star_first h2))
    have := star_area_pos h2 ⟨p, mem_interior.2 ⟨_, fun _ hp => Or.inl hp, inside_open ring, hp⟩⟩
    rw [orientRing, if_pos this.le]
  refine ⟨k, ?_, h3⟩
  rw [(combination_answers realOps argsort c hull ring calls hu _ rfl).1, ho]
  exact polygonKernel_of_construct h1

/-- A run over `ℚ` is a run of the code over `ℝ`. -/
theorem polygonKernel_rat {v : List (Pt ℚ)} {r : Except PyErr (Option (List (Pt ℚ)))} (h : polygonKernel ratOps false v = r)
    (hr : r ≠ .error .keyError) : polygonKernel realOps false (v.map toReal) = r.map (Option.map (List.map toReal)) := by
  have := polygonKernel_tracks toReal_hom toReal_injective toReal_turns false (v := v)
    (by rw [signedArea2_toReal]; exact_mod_cast Iff.rfl)
  rcases this with ⟨_, h'⟩ | h'
  · exact absurd (h ▸ h') hr
  · rw [h', h]

/-- C142 is false also if nothing moves: all of the union is visible from (0, 1/2), but after any history `kernel()` returns
None. -/
theorem C142_none_false : ∃ ring : List (Pt ℝ), ring = [(0, 0), (3, -4), (7, -4), (3, -1), (3, 2), (-1, 2), (-1, 0)] ∧
    (0, 1 / 2) ∈ visKernel (filled ring) ∧
    ∀ (argsort : List ℝ → List Nat) (c : Combination) (hull : Option (List (Pt ℝ))) (calls : List CombCall),
      (∀ c ∈ calls, ∀ u, c.union = some u → u = some ring) →
      (((CombKernel.make c hull).run realOps argsort calls).kernelCall realOps (some ring)).1 = .ok none := by
  have hv : hookShape = ([(0, 0), (3, -4), (7, -4), (3, -1), (3, 2), (-1, 2), (-1, 0)] : List (Pt ℚ)).map toReal := by
    simp [hookShape, toReal]
  refine ⟨hookShape, rfl, hook_star, fun argsort c hull calls hu => ?_⟩
  rw [(combination_answers realOps argsort c hull hookShape calls hu _ rfl).1]
  have ho : orientRing hookShape = hookShape := by
    norm_num [orientRing, hookShape, signedArea2, edgesOf, ringOf]
  rw [ho, hv, polygonKernel_rat (r := .ok none) (by decide +kernel) (by decide)]
  rfl

/-- C142 (partial): whatever the caller does after a call of `kernel()` that found a kernel, further calls return the same, and so for
`is_convex()`; each is thus the answer for the union at the time of the first call. -/
theorem C142_first_partial (ops : KernelOps (Pt ℝ)) (argsort : List ℝ → List Nat) (s : CombKernel) (first later : Option (List (Pt ℝ)))
    (calls : List CombCall) :
    (∀ k, (s.kernelCall ops first).1 = .ok (some k) →
      (((s.kernelCall ops first).2.run ops argsort calls).kernelCall ops later).1 = .ok (some k)) ∧
    ∀ b, (s.isConvexCall first).1 = .ok b → (((s.isConvexCall first).2.run ops argsort calls).isConvexCall later).1 = .ok b := by
  have hkk : ∀ (t : CombKernel) k u, t.kernel = some k → t.kernelCall ops u = (.ok (some k), t) := by
    intro t k u h; simp only [CombKernel.kernelCall, h]
  have hbb : ∀ (t : CombKernel) b u, t.isConvex = some b → t.isConvexCall u = (.ok b, t) := by
    intro t b u h; simp only [CombKernel.isConvexCall, h]
  have hkb : ∀ (t : CombKernel) u, (t.kernelCall ops u).2.isConvex = t.isConvex := by
    intro t u; unfold CombKernel.kernelCall; split
    · rfl
    · dsimp only; split <;> rfl
  have hbk : ∀ (t : CombKernel) u, (t.isConvexCall u).2.kernel = t.kernel := by
    intro t u; unfold CombKernel.isConvexCall; split
    · rfl
    · dsimp only; split <;> rfl
  have step : ∀ (t : CombKernel) c, (∀ k, t.kernel = some k → (t.step ops argsort c).kernel = some k) ∧
      ∀ b, t.isConvex = some b → (t.step ops argsort c).isConvex = some b := by
    intro t c
    have hk : ∀ u, (∀ k, t.kernel = some k → (t.kernelCall ops u).2.kernel = some k) ∧
        ∀ b, t.isConvex = some b → (t.kernelCall ops u).2.isConvex = some b :=
      fun u => ⟨fun k h => by rw [hkk t k u h]; exact h, fun b h => by rw [hkb]; exact h⟩
    cases c with
    | kernel u => exact hk u
    | isConvex u => exact ⟨fun k h => (hbk t u).trans h, fun b h => by
        show (t.isConvexCall u).2.isConvex = _
        rw [hbb t b u h]; exact h⟩
    | base op =>
      cases op with
      | setXr x safe u =>
        cases safe with
        | true => exact hk u
        | false => exact ⟨fun _ h => h, fun _ h => h⟩
      | _ => exact ⟨fun _ h => h, fun _ h => h⟩
  have run : ∀ (calls : List CombCall) (t : CombKernel), (∀ k, t.kernel = some k → (t.run ops argsort calls).kernel = some k) ∧
      ∀ b, t.isConvex = some b → (t.run ops argsort calls).isConvex = some b := by
    intro calls
    induction calls with
    | nil => intro t; exact ⟨fun _ h => h, fun _ h => h⟩
    | cons c calls ih =>
      intro t
      exact ⟨fun k h => (ih _).1 k ((step t c).1 k h), fun b h => (ih _).2 b ((step t c).2 b h)⟩
  constructor
  · intro k h
    have h' : (s.kernelCall ops first).2.kernel = some k := by
      unfold CombKernel.kernelCall at h ⊢
      split at h
      · rename_i k' hk'
        simp only [Except.ok.injEq, Option.some.injEq] at h
        rw [← h]
        simp [hk']
      · rename_i hn
        simp only [hn] at h ⊢
        split at h
        · simp only [Except.ok.injEq] at h
          simp [*]
        · cases h
    rw [hkk _ k later ((run calls _).1 k h')]
  · intro b h
    have h' : (s.isConvexCall first).2.isConvex = some b := by
      unfold CombKernel.isConvexCall at h ⊢
      split at h
      · rename_i b' hb'
        simp only [Except.ok.injEq] at h
        rw [← h]
        simp [hb']
      · rename_i hn
        simp only [hn] at h ⊢
        split at h
        · simp only [Except.ok.injEq] at h
          simp [*]
        · cases h
    rw [hbb _ b later ((run calls _).2 b h')]

theorem bigSquare_convexity : checkConvexity bigSquare = .ok true := by
  have : bigSquare = ([(1, -1), (1, 1), (-1, 1), (-1, -1)] : List (Pt ℚ)).map toReal := by simp [bigSquare, toReal]
  rw [this, checkConvexity_map toReal_turns]; decide +kernel

/-- Two rectangles that cover the corner `cornerShape 2 2 1 1`. -/
def wideRect : List (Pt ℝ) := [(2, 1), (0, 1), (0, 0), (2, 0)]

def tallRect : List (Pt ℝ) := [(1, 2), (0, 2), (0, 0), (1, 0)]

theorem corner_union : regions [wideRect, tallRect] = filled (cornerShape 2 2 1 1) := by
  rw [corner_filled (by norm_num) (by norm_num) (by norm_num) (by norm_num)]
  ext p
  have h1 := Set.ext_iff.1 (rectangle_region (c := 2) (d := 1) (by norm_num) (by norm_num)) p
  have h2 := Set.ext_iff.1 (rectangle_region (c := 1) (d := 2) (by norm_num) (by norm_num)) p
  simp only [Set.mem_ofPred_eq] at h1 h2
  simp only [regions, wideRect, tallRect, List.mem_cons, List.not_mem_nil, or_false, Set.mem_ofPred_eq, exists_eq_or_imp, exists_eq_left, h1, h2]
  tauto

/-- C142 is false: a combination of one square is asked for its kernel, and then the caller moves the member by (10, 0). `kernel()` is
still that of the old square: it contains its centre, which is now an exterior point. -/
theorem C142_stale_false (argsort : List ℝ → List Nat) :
    ∃ s k, s = (CombKernel.make ⟨[starMember bigSquare], none, 0⟩ none).run realOps argsort
      [.kernel (some bigSquare), .base (.moved [starMember farSquare])] ∧
      (s.kernelCall realOps (some farSquare)).1 = .ok (some k) ∧ 0 ∈ region k ∧ s.state.comb.pointLocation 0 = .ok 1 ∧
        0 ∉ filled farSquare := by
  have ho : orientRing bigSquare = bigSquare := by
    norm_num [orientRing, bigSquare, signedArea2, edgesOf, ringOf]
  have hk : polygonKernel realOps false bigSquare = .ok (some bigSquare) := by
    simp only [polygonKernel, bigSquare_convexity, ok_then, if_true]
  have h2 : polyLocation farSquare 0 = 1 := by
    norm_num [farSquare, polyLocation, boundsOf, polyContains, ringContains, onSegB, rayCrosses, edgesOf, ringOf, List.countP, List.countP.go]
  have hfirst : (CombKernel.make ⟨[starMember bigSquare], none, 0⟩ none).kernelCall realOps (some bigSquare) =
      (.ok (some bigSquare), ⟨(CombState.make ⟨[starMember bigSquare], none, 0⟩ none).computePolygon (some bigSquare), some bigSquare, none⟩) := by
    have ht : CombKernel.temp ((CombState.make ⟨[starMember bigSquare], none, 0⟩ none).computePolygon (some bigSquare)) >>=
        polygonKernel realOps false = .ok (some bigSquare) := by
      change polygonKernel realOps false (orientRing bigSquare) = _
      rw [ho, hk]
    simp only [CombKernel.kernelCall, CombKernel.make]
    rw [ht]
  refine ⟨_, bigSquare, rfl, ?_, ?_, ?_, ?_⟩
  · simp only [CombKernel.run, List.foldl, CombKernel.step, hfirst]; rfl
  · exact centre_mem_region bigSquare_star
  · simp only [CombKernel.run, List.foldl, CombKernel.step, hfirst]
    change Combination.pointLocation ⟨[starMember farSquare], none, 0⟩ 0 = _
    simp [Combination.pointLocation, Combination.hullLocation, starMember, h2, pure, Except.pure, bind, Except.bind]
  · rintro (h | h)
    · rw [← C37_interior, h2] at h; norm_num at h
    · obtain ⟨i, hi, t, t0, t1, he⟩ := h
      have hi' : i < 4 := by simpa [farSquare] using hi
      have := congrArg Prod.fst he
      interval_cases i <;> simp [corner, farSquare] at this <;> linarith

/-- C142 is false also for `is_convex()`: two equal rectangles lie on each other, and then one is turned by a quarter, so that they
form a corner, which is not convex. The answer is still True. -/
theorem C142_convex_false (argsort : List ℝ → List Nat) :
    ∃ s, s = (CombKernel.make ⟨[starMember tallRect, starMember tallRect], none, (1 / 2, 1 / 2)⟩ none).run realOps argsort
      [.isConvex (some tallRect), .base (.moved [starMember wideRect, starMember tallRect])] ∧
      (s.isConvexCall (some (cornerShape 2 2 1 1))).1 = .ok true ∧ regions [wideRect, tallRect] = filled (cornerShape 2 2 1 1) ∧
      ¬ Convex ℝ (filled (cornerShape 2 2 1 1)) := by
  have ho : orientRing tallRect = tallRect := by
    norm_num [orientRing, tallRect, signedArea2, edgesOf, ringOf]
  have hc : checkConvexity tallRect = .ok true := by
    have : tallRect = ([(1, 2), (0, 2), (0, 0), (1, 0)] : List (Pt ℚ)).map toReal := by simp [tallRect, toReal]
    rw [this, checkConvexity_map toReal_turns]; decide +kernel
  refine ⟨_, rfl, ?_, corner_union, fun hconv => ?_⟩
  · have ht : CombKernel.temp ((CombState.make ⟨[starMember tallRect, starMember tallRect], none, (1 / 2, 1 / 2)⟩ none).computePolygon
        (some tallRect)) >>= checkConvexity = .ok true := by
      change checkConvexity (orientRing tallRect) = _
      rw [ho, hc]
    have hfirst : (CombKernel.make ⟨[starMember tallRect, starMember tallRect], none, (1 / 2, 1 / 2)⟩ none).isConvexCall (some tallRect) =
        (.ok true, ⟨(CombState.make ⟨[starMember tallRect, starMember tallRect], none, (1 / 2, 1 / 2)⟩ none).computePolygon (some tallRect),
          none, some true⟩) := by
      simp only [CombKernel.isConvexCall, CombKernel.make]
      rw [ht]
    simp only [CombKernel.run, List.foldl, CombKernel.step, hfirst]; rfl
  · rw [corner_filled (by norm_num) (by norm_num) (by norm_num) (by norm_num)] at hconv
    have := hconv (x := (2, 1)) (by simp [Set.mem_ofPred_eq]) (y := (1, 2)) (by simp [Set.mem_ofPred_eq]) (a := 1 / 2) (b := 1 / 2) (by norm_num) (by norm_num) (by norm_num)
    simp only [Set.mem_ofPred_eq] at this
    norm_num at this

end Starworlds
