import Verif.Proofs.HullRun

/-! # The run on rational points is the run of the model -/

namespace Starworlds

open Spec

/-- The local variables on rational points. -/
structure HullStateQ where
  star : List (Pt ℚ)
  vBar : Pt ℚ
  e1 : Int
  e2 : Int
  included : List Bool

/-- The same variables with real points. -/
noncomputable def HullStateQ.real (st : HullStateQ) : HullState := ⟨st.star.map toReal, toReal st.vBar, st.e1, st.e2, st.included⟩

theorem toReal_zero : toReal (0, 0) = (0, 0) := by simp [toReal]

theorem getD_real (l : List (Pt ℚ)) (i : ℕ) : (l.map toReal).getD i (0, 0) = toReal (l.getD i (0, 0)) := by
  rw [← toReal_zero, List.getD_map]

theorem ptAt_real (l : List (Pt ℚ)) (i : ℕ) : ptAt (l.map toReal) i = toReal (ptAt l i) := getD_real l i

theorem getLastD_real (l : List (Pt ℚ)) : (l.map toReal).getLastD (0, 0) = toReal (l.getLastD (0, 0)) := by
  rw [List.getLastD_eq_getLast?, List.getLastD_eq_getLast?, List.getLast?_map]
  cases l.getLast? <;> simp [toReal]

theorem orientation_real (a b c : Pt ℚ) : orientationVal (toReal a) (toReal b) (toReal c) = ((orientationVal a b c : ℚ) : ℝ) := by
  simp [orientationVal, toReal]

theorem isCw_real (a b c : Pt ℚ) : isCw (toReal a) (toReal b) (toReal c) = isCw a b c := by
  unfold isCw
  rw [orientation_real]
  have : (collinearThreshold : ℝ) = ((collinearThreshold : ℚ) : ℝ) := by simp [collinearThreshold]
  rw [this]
  simp only [gt_iff_lt, Rat.cast_lt]

theorem isCcw_real (a b c : Pt ℚ) : isCcw (toReal a) (toReal b) (toReal c) = isCcw a b c := by
  unfold isCcw
  rw [orientation_real]
  have : -(collinearThreshold : ℝ) = ((-collinearThreshold : ℚ) : ℝ) := by simp [collinearThreshold]
  rw [this]
  simp only [Rat.cast_lt]

/-- `l[i]`. -/
def pyGetQ (l : List (Pt ℚ)) (i : Int) : Option (Pt ℚ) :=
  let j := if i < 0 then i + l.length else i
  if 0 ≤ j ∧ j < l.length then some (l.getD j.toNat (0, 0)) else none

/-- `l[i] = p`. -/
def pySetQ (l : List (Pt ℚ)) (i : Int) (p : Pt ℚ) : List (Pt ℚ) :=
  l.set (if i < 0 then i + l.length else i).toNat p

theorem pyGetQ_sound {l : List (Pt ℚ)} {i : Int} {p : Pt ℚ} (h : pyGetQ l i = some p) : pyGet (l.map toReal) i = .ok (toReal p) := by
  unfold pyGetQ at h
  unfold pyGet
  simp only [List.length_map] at *
  obtain ⟨j, hj⟩ : ∃ j : Int, (if i < 0 then i + l.length else i) = j := ⟨_, rfl⟩
  rw [hj] at h ⊢
  split at h
  · rename_i hc
    rw [if_pos hc, getD_real]
    simp only [Option.some.injEq] at h
    rw [h]
  · simp at h

theorem pySetQ_real (l : List (Pt ℚ)) (i : Int) (p : Pt ℚ) : (pySetQ l i p).map toReal = pySet (l.map toReal) i (toReal p) := by
  unfold pySetQ pySet
  rw [List.map_set, List.length_map]

/-- Lines 68-73. -/
def orderVerticesQ (vertices : List (Pt ℚ)) : List (Pt ℚ) :=
  let xs := vertices.map Prod.fst
  let start := (List.range xs.length).foldl (fun m i => if xs.getD m 0 < xs.getD i 0 then i else m) 0
  let vs := vertices.rotate start
  if isCw (vs.getLastD (0, 0)) (ptAt vs 0) (ptAt vs 1) then
    let fl := vs.reverse
    fl.rotate (fl.length - 1)
  else vs

theorem orderVerticesQ_real (vs : List (Pt ℚ)) : orderVertices (vs.map toReal) = (orderVerticesQ vs).map toReal := by
  have harg : argmaxIdx ((vs.map toReal).map Prod.fst) =
      (List.range (vs.map Prod.fst).length).foldl (fun m i => if (vs.map Prod.fst).getD m 0 < (vs.map Prod.fst).getD i 0 then i else m) 0 := by
    unfold argmaxIdx
    have e : (vs.map toReal).map Prod.fst = (vs.map Prod.fst).map (fun q : ℚ => (q : ℝ)) := by
      rw [List.map_map, List.map_map]; rfl
    rw [e, List.length_map]
    have g : ∀ i, ((vs.map Prod.fst).map (fun q : ℚ => (q : ℝ))).getD i 0 = (((vs.map Prod.fst).getD i 0 : ℚ) : ℝ) := by
      intro i
      rw [← Rat.cast_zero (α := ℝ), List.getD_map (f := fun q : ℚ => (q : ℝ))]
    simp only [g, Rat.cast_lt]
  unfold orderVertices orderVerticesQ
  simp only [harg]
  rw [← List.map_rotate, getLastD_real, ptAt_real, ptAt_real, isCw_real]
  split
  · simp only [← List.map_reverse, ← List.map_rotate, List.length_map]
  · rfl

/-- The squared length. -/
def sqQ (v : Pt ℚ) : ℚ := v.1 ^ 2 + v.2 ^ 2

theorem norm2_toReal_lt_iff (u v : Pt ℚ) : norm2 (toReal u) < norm2 (toReal v) ↔ sqQ u < sqQ v := by
  unfold norm2 sqQ
  rw [Real.sqrt_lt_sqrt_iff (by positivity)]
  simp only [toReal]
  norm_cast

/-- Lines 89-96. -/
def adjustOneQ (v e1p e2p : Pt ℚ) (e1 : Int) (st : List (Pt ℚ) × Bool) (k : Pt ℚ) : Option (List (Pt ℚ) × Bool) :=
  match meetLineQ (openLineQ k v) (openLineQ e1p e2p) with
  | none => none
  | some none => some st
  | some (some p) =>
    match pyGetQ st.1 e1 with
    | none => none
    | some cur => if sqQ (e2p - p) < sqQ (e2p - cur) then some (pySetQ st.1 e1 p, true) else some (st.1, true)

section
variable {Ts : List TriQ} {S : Set (Pt ℝ)} {ops : HullOps} {ks : List (Pt ℚ)}

theorem meetLineQ_empty {kr : List (Pt ℝ)} (ho : HullMeaning ops S kr) {s t : Pt ℚ × Pt ℚ} (h : meetLineQ s t = some none) :
    (ops.meetLine (segR s) (segR t)).isEmpty = true := by
  rw [meetIs_empty (ho.line _ _)]
  exact meetLineQ_none h

theorem meetLineQ_point {kr : List (Pt ℝ)} (ho : HullMeaning ops S kr) (hp : HullPlain ops S) {s t : Pt ℚ × Pt ℚ} {p : Pt ℚ}
    (h : meetLineQ s t = some (some p)) : ops.meetLine (segR s) (segR t) = .point (toReal p) := by
  have h1 := ho.line (segR s) (segR t)
  have h2 := hp.line (segR s) (segR t)
  rw [meetLineQ_some h] at h1 h2
  exact meet_single h1 h2

theorem adjustOneQ_sound {kr : List (Pt ℝ)} (ho : HullMeaning ops S kr) (hp : HullPlain ops S) {v e1p e2p k : Pt ℚ} {e1 : Int}
    {st r : List (Pt ℚ) × Bool} (h : adjustOneQ v e1p e2p e1 st k = some r) :
    adjustOne ops (toReal v) (toReal e1p) (toReal e2p) e1 (st.1.map toReal, st.2) (toReal k) = .ok (r.1.map toReal, r.2) := by
  unfold adjustOneQ at h
  unfold adjustOne
  simp only [openLineQ_real]
  split at h
  · simp at h
  · rename_i hm
    rw [if_pos (meetLineQ_empty ho hm)]
    simp only [Option.some.injEq] at h
    rw [h]
  · rename_i p hm
    rw [meetLineQ_point ho hp hm]
    simp only [Meet.isEmpty, Meet.xy, bind, Except.bind]
    split at h
    · simp at h
    · rename_i cur hcur
      rw [pyGetQ_sound hcur]
      simp only [← toReal_sub, norm2_toReal_lt_iff]
      split at h
      · rename_i hlt
        simp only [Option.some.injEq] at h
        rw [if_pos hlt, ← h, pySetQ_real]
        rfl
      · rename_i hlt
        simp only [Option.some.injEq] at h
        rw [if_neg hlt, ← h]
        rfl

/-- Folding the rational step. -/
theorem foldlM_sound {α β γ δ : Type} {f : α → β → Option α} {g : γ → δ → Except PyErr γ} (ra : α → γ) (rb : β → δ)
    (h : ∀ a b r, f a b = some r → g (ra a) (rb b) = .ok (ra r)) (l : List β) (a r : α) (hl : l.foldlM f a = some r) :
    (l.map rb).foldlM g (ra a) = .ok (ra r) := by
  induction l generalizing a with
  | nil =>
    simp only [List.foldlM_nil] at hl
    have : a = r := by simpa using hl
    rw [this]; rfl
  | cons b l ih =>
    rw [List.foldlM_cons] at hl
    rw [List.map_cons, List.foldlM_cons]
    cases hb : f a b with
    | none => rw [hb] at hl; simp at hl
    | some c =>
      rw [hb] at hl
      rw [h a b c hb]
      exact ih c (by simpa using hl)

/-- Lines 82-96. -/
def adjustEdgeQ (ks star : List (Pt ℚ)) (e1 e2 : Int) (v : Pt ℚ) : Option (List (Pt ℚ) × Bool) :=
  if star.isEmpty then some (star, false)
  else match pyGetQ star e1, pyGetQ star e2 with
    | some e1p, some e2p => ks.foldlM (adjustOneQ v e1p e2p e1) (star, false)
    | _, _ => none

theorem adjustEdgeQ_sound {kr : List (Pt ℝ)} (ho : HullMeaning ops S kr) (hp : HullPlain ops S) {star : List (Pt ℚ)} {e1 e2 : Int} {v : Pt ℚ}
    {r : List (Pt ℚ) × Bool} (h : adjustEdgeQ ks star e1 e2 v = some r) :
    adjustEdge ops (ks.map toReal) (star.map toReal) e1 e2 (toReal v) = .ok (r.1.map toReal, r.2) := by
  unfold adjustEdgeQ at h
  unfold adjustEdge
  rw [List.isEmpty_map]
  split at h
  · rename_i hc
    rw [if_pos hc]
    simp only [Option.some.injEq] at h
    rw [← h]
  · rename_i hc
    rw [if_neg hc]
    split at h
    · rename_i e1p e2p h1 h2
      rw [pyGetQ_sound h1, pyGetQ_sound h2]
      exact foldlM_sound (fun a : List (Pt ℚ) × Bool => (a.1.map toReal, a.2)) toReal
        (fun a b r hr => adjustOneQ_sound ho hp hr) ks _ r h
    · simp at h

/-- Lines 139-148. -/
def appendPointQ (st : HullStateQ) (u v vPrev : Pt ℚ) : Option HullStateQ :=
  let star := st.star ++ [u]
  let n : Int := star.length
  if isCcw u v vPrev then
    if star.length < 2 then none
    else
      let l := star.length
      some { st with star := (star.set (l - 2) u).set (l - 1) (ptAt star (l - 2)), e1 := n - 2, e2 := n - 1 }
  else some { st with star := star, e1 := n - 1, e2 := n - 2 }

theorem appendPointQ_sound {st r : HullStateQ} {u v vPrev : Pt ℚ} (h : appendPointQ st u v vPrev = some r) :
    appendPoint st.real (toReal u) (toReal v) (toReal vPrev) = .ok r.real := by
  unfold appendPointQ at h
  unfold appendPoint
  have e : st.real.star ++ [toReal u] = (st.star ++ [u]).map toReal := by simp [HullStateQ.real]
  simp only [e, isCcw_real, List.length_map] at *
  split at h
  · rename_i hc
    rw [if_pos hc]
    split at h
    · simp at h
    · rename_i hl
      rw [if_neg hl]
      simp only [Option.some.injEq] at h
      rw [← h]
      simp [HullStateQ.real, List.map_set, ← ptAt_real]
  · rename_i hc
    rw [if_neg hc]
    simp only [Option.some.injEq] at h
    rw [← h]
    simp [HullStateQ.real]

/-- Lines 134-137. -/
def moveUQ (vBar : Pt ℚ) (uv : Pt ℚ × Pt ℚ) (u : Pt ℚ) : List (Pt ℚ) → Option (Pt ℚ)
  | [] => some u
  | kp :: kps =>
    match meetLineQ (openLineQ kp vBar) uv with
    | none => none
    | some none => moveUQ vBar uv u kps
    | some (some p) => moveUQ vBar uv p kps

theorem moveUQ_sound {kr : List (Pt ℝ)} (ho : HullMeaning ops S kr) (hp : HullPlain ops S) {vBar : Pt ℚ} {uv : Pt ℚ × Pt ℚ} (l : List (Pt ℚ))
    {u r : Pt ℚ} (h : moveUQ vBar uv u l = some r) : moveU ops (toReal vBar) (segR uv) (toReal u) (l.map toReal) = .ok (toReal r) := by
  induction l generalizing u with
  | nil =>
    simp only [moveUQ, Option.some.injEq] at h
    simp [moveU, h]
  | cons kp l ih =>
    unfold moveUQ at h
    rw [List.map_cons]
    unfold moveU
    simp only [openLineQ_real]
    split at h
    · simp at h
    · rename_i hm
      rw [if_pos (meetLineQ_empty ho hm)]
      exact ih h
    · rename_i p hm
      rw [meetLineQ_point ho hp hm]
      simp only [Meet.isEmpty, Meet.xy, bind, Except.bind]
      exact ih h

/-- Lines 100-164. -/
def augmentOneQ (Ts : List TriQ) (ks : List (Pt ℚ)) (v vPrev : Pt ℚ) (st : HullStateQ) (i : Nat) : Option HullStateQ :=
  let k := ptAt ks i
  let kps := ks.filter fun kp => decide (kp ≠ k)
  if !apartQ Ts (openLineQ k v) then
    match findU Ts (openLineQ k v) v with
    | none => none
    | some none => some st
    | some (some u) =>
      if kps.any fun kp => !apartQ Ts (openRayQ u kp v) then some st
      else match moveUQ st.vBar (openLineQ u v) u kps with
        | none => none
        | some u' => appendPointQ st u' v vPrev
  else if !(st.included.getD i false) && !(kps.any fun kp => !apartQ Ts (openRayQ k kp v)) then
    appendPointQ { st with included := st.included.set i true } k v vPrev
  else some st

theorem disjoint_real (hS : UnionOf Ts S) {kr : List (Pt ℝ)} (ho : HullMeaning ops S kr) (s : Pt ℚ × Pt ℚ) :
    ops.disjoint (segR s).1 (segR s).2 = apartQ Ts s := by
  rw [Bool.eq_iff_iff, ho.disjoint, apartQ_iff hS]
  rfl

theorem filter_real (k : Pt ℚ) (l : List (Pt ℚ)) :
    (l.map toReal).filter (fun kp => decide (kp ≠ toReal k)) = (l.filter fun kp => decide (kp ≠ k)).map toReal := by
  rw [List.filter_map]
  congr 1
  apply List.filter_congr
  intro p _
  simp [toReal_injective.eq_iff]

theorem augmentOneQ_sound (hS : UnionOf Ts S) {kr : List (Pt ℝ)} (ho : HullMeaning ops S kr) (hp : HullPlain ops S) {v vPrev : Pt ℚ}
    {st r : HullStateQ} {i : ℕ} (h : augmentOneQ Ts ks v vPrev st i = some r) :
    augmentOne ops (ks.map toReal) (toReal v) (toReal vPrev) st.real i = .ok r.real := by
  unfold augmentOneQ at h
  unfold augmentOne
  simp only [ptAt_real, openLineQ_real, filter_real, List.any_map, Function.comp_def] at *
  have hany : ∀ (u : Pt ℚ) (l : List (Pt ℚ)), (l.any fun kp => !ops.disjoint (openRay (toReal u) (toReal kp) (toReal v)).1
      (openRay (toReal u) (toReal kp) (toReal v)).2) = l.any fun kp => !apartQ Ts (openRayQ u kp v) := by
    intro u l
    simp only [openRayQ_real, disjoint_real hS ho]
  have hem : (ops.meetPolygon (segR (openLineQ (ptAt ks i) v)).1 (segR (openLineQ (ptAt ks i) v)).2).isEmpty = apartQ Ts (openLineQ (ptAt ks i) v) := by
    rw [Bool.eq_iff_iff, meetIs_empty (ho.polygon _ _), apartQ_iff hS, Set.eq_empty_iff_forall_notMem]
    constructor
    · intro h x hx hxS; exact h x ⟨hx, hxS⟩
    · rintro h x ⟨hx, hxS⟩; exact h x hx hxS
  rw [hem]
  simp only [hany]
  split at h
  · rename_i hc
    rw [if_pos hc]
    have hne : piecesQ Ts (openLineQ (ptAt ks i) v).1 (openLineQ (ptAt ks i) v).2 ≠ [] := by
      intro e
      simp [apartQ, e] at hc
    split at h
    · simp at h
    · rename_i hf
      rw [findU_sound hS ho hp hne hf]
      simp only [Option.some.injEq] at h
      rw [h]; rfl
    · rename_i u hf
      rw [findU_sound hS ho hp hne hf]
      simp only [Option.map_some]
      rw [hany]
      split at h
      · rename_i ha
        rw [if_pos ha]
        simp only [Option.some.injEq] at h
        rw [h]
      · rename_i ha
        rw [if_neg ha]
        split at h
        · simp at h
        · rename_i u' hu'
          rw [openLineQ_real, show st.real.vBar = toReal st.vBar from rfl, moveUQ_sound ho hp _ hu']
          exact appendPointQ_sound h
  · rename_i hc
    rw [if_neg hc]
    split at h
    · rename_i ha
      rw [show st.real.included = st.included from rfl, if_pos ha]
      exact appendPointQ_sound h
    · rename_i ha
      rw [show st.real.included = st.included from rfl, if_neg ha]
      simp only [Option.some.injEq] at h
      rw [h]

/-- Outside of the kernel points: on the other side of one of their edges. -/
def outsideQ (ks : List (Pt ℚ)) (v : Pt ℚ) : Bool :=
  ks.any fun p => ks.any fun q => decide (cross (q - p) (v - p) < 0) && ks.all fun k => decide (0 ≤ cross (q - p) (k - p))

theorem outsideQ_sound {v : Pt ℚ} (h : outsideQ ks v = true) : toReal v ∉ interior (convexHull ℝ {k | k ∈ ks.map toReal}) := by
  intro hv
  have hv := interior_subset hv
  unfold outsideQ at h
  obtain ⟨p, _, h⟩ := List.any_eq_true.1 h
  obtain ⟨q, _, h⟩ := List.any_eq_true.1 h
  rw [Bool.and_eq_true, decide_eq_true_eq] at h
  have half : Convex ℝ {x : Pt ℝ | 0 ≤ cross (toReal q - toReal p) (x - toReal p)} := by
    intro x hx y hy s t hs ht hst
    simp only [Set.mem_ofPred_eq] at *
    have : cross (toReal q - toReal p) (s • x + t • y - toReal p) =
        s * cross (toReal q - toReal p) (x - toReal p) + t * cross (toReal q - toReal p) (y - toReal p) := by
      have ht' : t = 1 - s := by linarith
      subst ht'
      simp [cross]; ring
    rw [this]; positivity
  have := convexHull_min (t := {x : Pt ℝ | 0 ≤ cross (toReal q - toReal p) (x - toReal p)}) (by
    intro x hx
    obtain ⟨k, hk, rfl⟩ := List.mem_map.1 (show x ∈ ks.map toReal from hx)
    have := List.all_eq_true.1 h.2 k hk
    rw [decide_eq_true_eq] at this
    simp only [Set.mem_ofPred_eq, ← toReal_sub, cross_toReal]
    exact_mod_cast this) half hv
  simp only [Set.mem_ofPred_eq, ← toReal_sub, cross_toReal] at this
  have h' : ((cross (q - p) (v - p) : ℚ) : ℝ) < 0 := by exact_mod_cast h.1
  linarith

/-- Lines 80-81. -/
def addVertexQ (ks star : List (Pt ℚ)) (v : Pt ℚ) : Option (List (Pt ℚ)) :=
  if ks.length < 3 ∨ outsideQ ks v = true then some (star ++ [v]) else none

theorem addVertexQ_sound (ho : HullMeaning ops S (ks.map toReal)) {star r : List (Pt ℚ)} {v : Pt ℚ} (h : addVertexQ ks star v = some r) :
    addVertex ops (ks.map toReal) (star.map toReal) (toReal v) = r.map toReal := by
  unfold addVertexQ at h
  unfold addVertex
  split at h
  · rename_i hc
    simp only [Option.some.injEq] at h
    rw [if_pos, ← h]
    · simp
    · rw [List.length_map, Bool.or_eq_true, decide_eq_true_eq]
      rcases hc with hc | hc
      · exact Or.inl hc
      · right
        have := outsideQ_sound hc
        rw [← ho.kernel] at this
        simpa using this
  · simp at h

/-- Lines 76-166. -/
def visitVertexQ (Ts : List TriQ) (ks : List (Pt ℚ)) (st : HullStateQ) (v vPrev : Pt ℚ) : Option HullStateQ :=
  if ks.all fun k => apartQ Ts (openRayQ v k v) then
    match addVertexQ ks st.star v with
    | none => none
    | some star =>
      match adjustEdgeQ ks star st.e1 st.e2 v with
      | none => none
      | some r =>
        match (if r.2 then some { st with star := r.1 } else
          (List.range ks.length).foldlM (augmentOneQ Ts ks v vPrev) { st with star := r.1 }) with
        | none => none
        | some st' =>
          match pyGetQ st'.star (-1) with
          | none => none
          | some last => some { st' with vBar := last }
  else some st

theorem visitVertexQ_sound (hS : UnionOf Ts S) (ho : HullMeaning ops S (ks.map toReal)) (hp : HullPlain ops S) {v vPrev : Pt ℚ}
    {st r : HullStateQ} (h : visitVertexQ Ts ks st v vPrev = some r) :
    visitVertex ops (ks.map toReal) st.real (toReal v) (toReal vPrev) = .ok r.real := by
  unfold visitVertexQ at h
  unfold visitVertex
  have hall : ((ks.map toReal).all fun k => ops.disjoint (openRay (toReal v) k (toReal v)).1 (openRay (toReal v) k (toReal v)).2) =
      ks.all fun k => apartQ Ts (openRayQ v k v) := by
    rw [List.all_map]
    simp only [Function.comp_def, openRayQ_real, disjoint_real hS ho]
  rw [hall]
  split at h
  · rename_i hc
    rw [if_pos hc]
    split at h
    · simp at h
    · rename_i star hstar
      rw [show st.real.star = st.star.map toReal from rfl, addVertexQ_sound ho hstar]
      split at h
      · simp at h
      · rename_i q hq
        rw [show st.real.e1 = st.e1 from rfl, show st.real.e2 = st.e2 from rfl, adjustEdgeQ_sound ho hp hq]
        simp only [bind, Except.bind]
        have haug : ∀ st', (if q.2 then some { st with star := q.1 } else
            (List.range ks.length).foldlM (augmentOneQ Ts ks v vPrev) { st with star := q.1 }) = some st' →
            augment ops (ks.map toReal) (toReal v) (toReal vPrev) q.2 ⟨q.1.map toReal, st.real.vBar, st.e1, st.e2, st.real.included⟩ = .ok st'.real := by
          intro st' hst
          unfold augment
          split at hst
          · rename_i hb
            rw [if_pos hb]
            simp only [Option.some.injEq] at hst
            rw [← hst]; rfl
          · rename_i hb
            rw [if_neg hb, List.length_map]
            have := foldlM_sound HullStateQ.real id (fun a b r hr => augmentOneQ_sound hS ho hp hr) _ _ _ hst
            rw [List.map_id] at this
            exact this
        split at h
        · simp at h
        · rename_i st' hst
          rw [haug st' hst]
          split at h
          · simp at h
          · rename_i last hlast
            simp only [show st'.real.star = st'.star.map toReal from rfl, pyGetQ_sound hlast]
            simp only [Option.some.injEq] at h
            rw [← h]; rfl
  · rename_i hc
    rw [if_neg hc]
    simp only [Option.some.injEq] at h
    rw [h]

/-- Lines 181-186. -/
def insertKernelQ (ks : List (Pt ℚ)) (v vp : Pt ℚ) (j : Nat) (st : List (Pt ℚ) × List Bool) (i : Nat) : List (Pt ℚ) × List Bool :=
  if !(st.2.getD i false) && isCw (ptAt ks i) v vp then
    (st.1.take j ++ [ptAt ks i] ++ st.1.drop j, st.2.set i true)
  else st

/-- Lines 179-186. -/
def insertKernelsQ (ks : List (Pt ℚ)) (star : List (Pt ℚ)) (included : List Bool) : List (Pt ℚ) :=
  ((List.range star.length).foldl (fun st j =>
    let v := if j = 0 then st.1.getLastD (0, 0) else ptAt st.1 (j - 1)
    (List.range ks.length).foldl (insertKernelQ ks v (ptAt st.1 j) j) st) (star, included)).1

theorem foldl_sound {α β γ : Type} {f : α → β → α} {g : γ → β → γ} (ra : α → γ) (h : ∀ a b, g (ra a) b = ra (f a b)) (l : List β) (a : α) :
    l.foldl g (ra a) = ra (l.foldl f a) := by
  induction l generalizing a with
  | nil => rfl
  | cons b l ih => rw [List.foldl_cons, List.foldl_cons, h, ih]

theorem insertKernelsQ_real (star : List (Pt ℚ)) (included : List Bool) :
    insertKernels (ks.map toReal) (star.map toReal) included = (insertKernelsQ ks star included).map toReal := by
  unfold insertKernels insertKernelsQ
  have one : ∀ (v vp : Pt ℚ) (j : ℕ) (st : List (Pt ℚ) × List Bool) (i : ℕ),
      insertKernel (ks.map toReal) (toReal v) (toReal vp) j (st.1.map toReal, st.2) i =
      ((insertKernelQ ks v vp j st i).1.map toReal, (insertKernelQ ks v vp j st i).2) := by
    intro v vp j st i
    unfold insertKernel insertKernelQ
    simp only [ptAt_real, isCw_real]
    split
    · simp
    · rfl
  rw [List.length_map, List.length_map]
  have := foldl_sound (γ := List (Pt ℝ) × List Bool) (f := fun (st : List (Pt ℚ) × List Bool) (j : ℕ) =>
      let v := if j = 0 then st.1.getLastD (0, 0) else ptAt st.1 (j - 1)
      (List.range ks.length).foldl (insertKernelQ ks v (ptAt st.1 j) j) st)
    (g := fun st j =>
      let v := if j = 0 then st.1.getLastD (0, 0) else ptAt st.1 (j - 1)
      (List.range ks.length).foldl (insertKernel (ks.map toReal) v (ptAt st.1 j) j) st)
    (fun a : List (Pt ℚ) × List Bool => (a.1.map toReal, a.2)) ?_ (List.range star.length) (star, included)
  · rw [this]
  · intro a j
    simp only
    have hv : (if j = 0 then (a.1.map toReal).getLastD (0, 0) else ptAt (a.1.map toReal) (j - 1)) =
        toReal (if j = 0 then a.1.getLastD (0, 0) else ptAt a.1 (j - 1)) := by
      split
      · exact getLastD_real _
      · exact ptAt_real _ _
    rw [hv, ptAt_real]
    exact foldl_sound (fun a : List (Pt ℚ) × List Bool => (a.1.map toReal, a.2)) (fun a i => one _ _ j a i) _ a

/-- starshaped_hull/starshaped_hull.py:49-206 on rational points. -/
def hullQ (Ts : List TriQ) (vertices ks : List (Pt ℚ)) : Option (List (Pt ℚ)) :=
  let vs := orderVerticesQ vertices
  match (List.range vs.length).foldlM (fun st i =>
      visitVertexQ Ts ks st (ptAt vs i) (if i = 0 then vs.getLastD (0, 0) else ptAt vs (i - 1)))
      (⟨[], ptAt ks 0, 0, 0, ks.map fun _ => false⟩ : HullStateQ) with
  | none => none
  | some st =>
    let star := insertKernelsQ ks st.star st.included
    if star.length = 1 ∨ star.length = 2 then none else some star

theorem hullQ_sound (hS : UnionOf Ts S) (hks : ks ≠ []) (ho : HullMeaning ops S (ks.map toReal)) (hp : HullPlain ops S)
    {vertices star : List (Pt ℚ)} (h : hullQ Ts vertices ks = some star) :
    polygonKernelHull ops (vertices.map toReal) (ks.map toReal) = .ok (star.map toReal) := by
  unfold hullQ at h
  unfold polygonKernelHull
  rcases ks with _ | ⟨k0, ks'⟩
  · exact absurd rfl hks
  rw [List.map_cons]
  simp only [orderVerticesQ_real, List.length_map] at *
  split at h
  · simp at h
  · rename_i st hst
    have hloop := foldlM_sound (g := fun st i => visitVertex ops ((k0 :: ks').map toReal) st (ptAt ((orderVerticesQ vertices).map toReal) i)
        (if i = 0 then ((orderVerticesQ vertices).map toReal).getLastD (0, 0) else ptAt ((orderVerticesQ vertices).map toReal) (i - 1)))
      HullStateQ.real id (by
        intro a i r hr
        simp only [id]
        have hv : (if i = 0 then ((orderVerticesQ vertices).map toReal).getLastD (0, 0) else ptAt ((orderVerticesQ vertices).map toReal) (i - 1)) =
            toReal (if i = 0 then (orderVerticesQ vertices).getLastD (0, 0) else ptAt (orderVerticesQ vertices) (i - 1)) := by
          split
          · exact getLastD_real _
          · exact ptAt_real _ _
        rw [hv, ptAt_real]
        exact visitVertexQ_sound hS ho hp hr) _ _ _ hst
    rw [List.map_id] at hloop
    have hini : HullStateQ.real ⟨[], ptAt (k0 :: ks') 0, 0, 0, (k0 :: ks').map fun _ => false⟩ =
        ⟨[], toReal k0, 0, 0, (toReal k0 :: ks'.map toReal).map fun _ => false⟩ := by
      simp [HullStateQ.real, ptAt]
    rw [hini, List.map_cons] at hloop
    rw [hloop]
    simp only [bind, Except.bind]
    rw [show st.real.star = st.star.map toReal from rfl, show st.real.included = st.included from rfl, ← List.map_cons, insertKernelsQ_real]
    split at h
    · simp at h
    · rename_i hl
      rw [List.length_map, if_neg hl]
      simp only [Option.some.injEq] at h
      rw [h]

end

end Starworlds
