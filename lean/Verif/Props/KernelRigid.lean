import Verif.Proofs.KernelRational

/-!
# The kernel computation under rigid motions, and the debug flag (C76, C77)
-/

namespace Starworlds

open Spec

/-! ## C76: the kernel moves with the polygon -/

/-- The rotation by the angle with cosine `c` and sine `s`, followed by a translation. -/
def rigid (c s : ℝ) (t p : Pt ℝ) : Pt ℝ := (c * p.1 - s * p.2 + t.1, s * p.1 + c * p.2 + t.2)

theorem rigid_injective {c s : ℝ} (h : c ^ 2 + s ^ 2 = 1) (t : Pt ℝ) : Function.Injective (rigid c s t) := by
  intro a b e
  simp only [rigid, Prod.mk.injEq] at e
  have h1 : a.1 = b.1 := by linear_combination c * e.1 + s * e.2 - (a.1 - b.1) * h
  have h2 : a.2 = b.2 := by linear_combination c * e.2 - s * e.1 - (a.2 - b.2) * h
  exact Prod.ext h1 h2

theorem rigid_orient {c s : ℝ} (h : c ^ 2 + s ^ 2 = 1) (t x y z : Pt ℝ) :
    orientationVal (rigid c s t x) (rigid c s t y) (rigid c s t z) = orientationVal x y z := by
  simp only [orientationVal, rigid]
  linear_combination ((y.2 - x.2) * (z.1 - y.1) - (y.1 - x.1) * (z.2 - y.2)) * h

theorem rigid_norm {c s : ℝ} (h : c ^ 2 + s ^ 2 = 1) (t x y : Pt ℝ) :
    norm2 (rigid c s t x - rigid c s t y) = norm2 (x - y) := by
  unfold norm2
  congr 1
  simp only [rigid, Prod.fst_sub, Prod.snd_sub]
  linear_combination ((x.1 - y.1) ^ 2 + (x.2 - y.2) ^ 2) * h

theorem rigid_between {c s : ℝ} (h : c ^ 2 + s ^ 2 = 1) (t x y z : Pt ℝ) :
    isBetween (rigid c s t x) (rigid c s t y) (rigid c s t z) = isBetween x y z := by
  unfold isBetween
  rw [rigid_norm h, rigid_norm h, rigid_norm h]

theorem rigid_along {c s : ℝ} (t a b d : Pt ℝ) (k : ℝ) :
    rigid c s t a + k • (rigid c s t b - rigid c s t d) = rigid c s t (a + k • (b - d)) := by
  ext <;> simp only [rigid, Prod.fst_add, Prod.snd_add, Prod.smul_fst, Prod.smul_snd, Prod.fst_sub, Prod.snd_sub,
    smul_eq_mul] <;> ring

theorem rigid_hom {c s : ℝ} (h : c ^ 2 + s ^ 2 = 1) (t : Pt ℝ) :
    KernelOps.Hom False realOps realOps (rigid c s t) where
  meet x y z w := by
    right
    have hi : intersect (rigid c s t x) (rigid c s t y) (rigid c s t z) (rigid c s t w) = intersect x y z w := by
      simp only [intersect, (keepsTurns_of_orient (rigid_orient h t)).ccw]
    simp only [realOps, kernelOps, hi, rigid_between h]
    by_cases hx : intersect x y z w = true
    · simp only [hx, Bool.not_true, Bool.false_eq_true, if_false]
      have e : ∀ a b d f : Pt ℝ, -(rigid c s t a - rigid c s t b).2 * (rigid c s t d - rigid c s t f).1 +
          (rigid c s t a - rigid c s t b).1 * (rigid c s t d - rigid c s t f).2 =
          -(a - b).2 * (d - f).1 + (a - b).1 * (d - f).2 := by
        intro a b d f
        simp only [rigid, Prod.fst_sub, Prod.snd_sub]
        linear_combination (-(a.2 - b.2) * (d.1 - f.1) + (a.1 - b.1) * (d.2 - f.2)) * h
      rw [e, e]
      split
      · rfl
      · simp only [Except.map, Option.map_some, Except.ok.injEq, Option.some.injEq]
        rw [add_comm, rigid_along, add_comm z]
    · simp only [Bool.not_eq_true] at hx
      simp only [hx, Bool.not_false, if_true]
      repeat' split
      all_goals rfl
  collinear := (keepsTurns_of_orient (rigid_orient h t)).collinear
  cw := (keepsTurns_of_orient (rigid_orient h t)).cw
  ccw := (keepsTurns_of_orient (rigid_orient h t)).ccw
  between := rigid_between h t
  agree a b d e f g := by simp only [realOps, kernelOps, rigid_orient h]
  before a b := by
    right
    simp only [realOps, kernelOps, rigid_norm h]
    split
    · rfl
    · simp only [Except.map, Except.ok.injEq]
      rw [sub_eq_add_neg, ← neg_smul, rigid_along, neg_smul, ← sub_eq_add_neg]
  beyond a b := by
    right
    simp only [realOps, kernelOps, rigid_norm h]
    split
    · rfl
    · simp only [Except.map, Except.ok.injEq]
      rw [rigid_along]
  stretch a b := by
    simp only [realOps, kernelOps]
    rw [rigid_along]

/-- The sum over the edges of a path of the differences of a linear function is the difference at the ends. -/
theorem telescope (f : Pt ℝ → ℝ) : ∀ (a : Pt ℝ) (l : List (Pt ℝ)) (z : Pt ℝ),
    ((edgesOf (a :: l ++ [z])).map fun e => f e.2 - f e.1).sum = f z - f a
  | a, [], z => by simp [edgesOf]
  | a, b :: l, z => by
    have := telescope f b l z
    simp only [List.cons_append] at this ⊢
    rw [edgesOf, List.map_cons, List.sum_cons, this]
    ring

theorem signedArea2_rigid {c s : ℝ} (h : c ^ 2 + s ^ 2 = 1) (t : Pt ℝ) (v : List (Pt ℝ)) :
    signedArea2 (v.map (rigid c s t)) = signedArea2 v := by
  unfold signedArea2
  rw [ringOf_map, edgesOf_map, List.map_map]
  cases v with
  | nil => rfl
  | cons a l =>
    have hf := telescope (fun p => t.1 * (s * p.1 + c * p.2) - t.2 * (c * p.1 - s * p.2)) a l a
    rw [sub_self] at hf
    simp only [ringOf]
    rw [show (fun e : Pt ℝ × Pt ℝ => e.1.1 * e.2.2 - e.2.1 * e.1.2) ∘ Prod.map (rigid c s t) (rigid c s t) =
      fun e => (e.1.1 * e.2.2 - e.2.1 * e.1.2) + ((t.1 * (s * e.2.1 + c * e.2.2) - t.2 * (c * e.2.1 - s * e.2.2)) -
        (t.1 * (s * e.1.1 + c * e.1.2) - t.2 * (c * e.1.1 - s * e.1.2))) from ?_]
    · rw [List.sum_map_add, hf, add_zero]
    · funext e
      simp only [Function.comp, Prod.map, rigid]
      linear_combination (e.1.1 * e.2.2 - e.2.1 * e.1.2) * h

/-- C76: the kernel found for a rotated and translated polygon is the rotated and translated kernel (and the same
exception is raised), with or without `debug`. -/
theorem C76_moves (r : ℝ) (t : Pt ℝ) (debug : Bool) (v : List (Pt ℝ)) :
    polygonKernel realOps debug (v.map fun p => affineTransform p r t false) =
      (polygonKernel realOps debug v).map (Option.map (List.map fun p => affineTransform p r t false)) := by
  have e : (fun p => affineTransform p r t false) = rigid (Real.cos r) (Real.sin r) t := by
    funext p; exact (C01_formula p r t).1
  rw [e]
  have h := Real.cos_sq_add_sin_sq r
  rcases polygonKernel_tracks (rigid_hom h t) (rigid_injective h t) (keepsTurns_of_orient (rigid_orient h t)) debug (v := v)
    (by rw [signedArea2_rigid h]) with ⟨hf, _⟩ | h'
  · exact hf.elim
  · exact h'

/-- C76: the same for the constructor, which raises AttributeError if there is no kernel. -/
theorem C76_constructor (r : ℝ) (t : Pt ℝ) (v : List (Pt ℝ)) :
    constructKernel realOps (v.map fun p => affineTransform p r t false) =
      (constructKernel realOps v).map (List.map fun p => affineTransform p r t false) := by
  unfold constructKernel
  rw [C76_moves]
  cases polygonKernel realOps false v with
  | error e => rfl
  | ok k => cases k <;> rfl

/-- Not vacuous: the kernel of an L-shaped polygon, moved. -/
example : constructKernel realOps
    (([(0, 0), (2, 0), (2, 1), (1, 1), (1, 2), (0, 2)] : List (Pt ℚ)).map toReal |>.map fun p => affineTransform p 1 (3, 4) false) =
    .ok (([(1, 1), (0, 1), (0, 0), (1, 0)] : List (Pt ℚ)).map toReal |>.map fun p => affineTransform p 1 (3, 4) false) := by
  rw [C76_constructor, constructKernel_rat (r := .ok [(1, 1), (0, 1), (0, 0), (1, 0)]) (by decide +kernel) (by decide)]
  rfl

/-! ## C77: the debug flag -/

section Debug

variable {P : Type}

theorem bind_ok {A B : Type} {r : Except PyErr A} {f : A → Except PyErr B} {b : B} (h : (r >>= f) = .ok b) :
    ∃ a, r = .ok a ∧ f a = .ok b := by
  cases r with
  | error e => cases h
  | ok a => exact ⟨a, rfl, h⟩

/-- A scan that finds nothing has looked at every edge. -/
theorem scanMeet_none {o : KernelOps P} {xk : List P} {edge : Int → Int × Int} {c d : P} : ∀ {ts : List Int},
    scanMeet o xk edge c d ts = .ok none →
    ∀ t ∈ ts, ∃ a b, kGet xk (edge t).1 = .ok a ∧ kGet xk (edge t).2 = .ok b ∧ o.meet a b c d = .ok none
  | [], _, _, ht => by cases ht
  | u :: ts, h, t, ht => by
    unfold scanMeet at h
    obtain ⟨a, ha, h⟩ := bind_ok h
    obtain ⟨b, hb, h⟩ := bind_ok h
    obtain ⟨r, hr, h⟩ := bind_ok h
    cases r with
    | some w => cases h
    | none =>
      rcases List.mem_cons.mp ht with rfl | ht
      · exact ⟨a, b, ha, hb, hr⟩
      · exact scanMeet_none h t ht

/-- A scan that finds something has found it on one of the edges. -/
theorem scanMeet_some {o : KernelOps P} {xk : List P} {edge : Int → Int × Int} {c d : P} {t : Int} {w : P} :
    ∀ {ts : List Int}, scanMeet o xk edge c d ts = .ok (some (t, w)) →
    t ∈ ts ∧ ∃ a b, kGet xk (edge t).1 = .ok a ∧ kGet xk (edge t).2 = .ok b ∧ o.meet a b c d = .ok (some w)
  | [], h => by cases h
  | u :: ts, h => by
    unfold scanMeet at h
    obtain ⟨a, ha, h⟩ := bind_ok h
    obtain ⟨b, hb, h⟩ := bind_ok h
    obtain ⟨r, hr, h⟩ := bind_ok h
    cases r with
    | some w' =>
      simp only [Except.ok.injEq, Option.some.injEq, Prod.mk.injEq] at h
      obtain ⟨rfl, rfl⟩ := h
      exact ⟨List.mem_cons_self, a, b, ha, hb, hr⟩
    | none =>
      obtain ⟨h1, h2⟩ := scanMeet_some h
      exact ⟨List.mem_cons_of_mem _ h1, h2⟩

theorem mem_upTo {stop t : Int} : ∀ {l : List Int}, t ∈ upTo stop l → t ∈ l
  | [], h => h
  | u :: l, h => by
    unfold upTo at h
    split at h
    · rw [List.mem_singleton.mp h]; exact List.mem_cons_self
    · rcases List.mem_cons.mp h with rfl | h
      · exact List.mem_cons_self
      · exact List.mem_cons_of_mem _ (mem_upTo h)

theorem mem_ahead {i t : Int} {n : Nat} {b : Bool} (h : t ∈ ahead i n b) : 0 ≤ t ∧ t < n := by
  unfold ahead at h
  have h := (List.takeWhile_sublist _).subset h
  obtain ⟨k, hk, rfl⟩ := List.mem_map.mp h
  have hn : (0 : Int) < n := by have := List.mem_range.mp hk; omega
  exact ⟨Int.emod_nonneg _ hn.ne', Int.emod_lt_of_pos _ hn⟩

/-- The backward scan of a bounded `xk` visits every position. -/
theorem mem_backFrom {f t : Int} {n : Nat} (h0 : 0 ≤ t) (h1 : t < n) : t ∈ backFrom f n true := by
  unfold backFrom
  rw [if_pos rfl]
  have hn : (0 : Int) < n := by omega
  refine List.mem_map.mpr ⟨((f - t) % n).toNat, ?_, ?_⟩
  · rw [List.mem_range]
    have := Int.emod_lt_of_pos (f - t) hn
    have := Int.emod_nonneg (f - t) hn.ne'
    omega
  · have h2 := Int.emod_nonneg (f - t) hn.ne'
    simp only [Int.ofNat_eq_natCast, Int.toNat_of_nonneg h2]
    rw [Int.sub_emod, Int.emod_emod, ← Int.sub_emod]
    rw [show f - (f - t) = t by ring]
    exact Int.emod_eq_of_lt h0 h1

theorem cutReflex_debug (o : KernelOps P) (st : KernelState P) (start vi1 : P) {t : Int} {w1 : P}
    (h : scanMeet o st.xk (fun t => (t - 1, t)) start vi1 (upTo st.l (ahead st.f st.xk.length st.bounded)) =
      .ok (some (t, w1))) :
    cutReflex o true st start vi1 t w1 = cutReflex o false st start vi1 t w1 := by
  obtain ⟨hm, a, b, ha, hb, hab⟩ := scanMeet_some h
  obtain ⟨t0, t1⟩ := mem_ahead (mem_upTo hm)
  unfold cutReflex
  cases hs : scanMeet o st.xk (fun s => (s - 1, s)) start vi1 (backFrom st.f st.xk.length st.bounded) with
  | error e => rfl
  | ok r =>
    cases r with
    | some r => rfl
    | none =>
      cases hbd : st.bounded with
      | true =>
        rw [hbd] at hs
        obtain ⟨a', b', ha', hb', hn⟩ := scanMeet_none hs t (mem_backFrom t0 t1)
        rw [ha] at ha'; rw [hb] at hb'
        cases ha'; cases hb'
        rw [hab] at hn; cases hn
      | false => rfl

theorem reflexRound_debug (o : KernelOps P) (st : KernelState P) (vi vi1 : P) :
    reflexRound o true st vi vi1 = reflexRound o false st vi vi1 := by
  unfold reflexRound
  congr 1; funext f1
  congr 1; funext start
  congr 1
  unfold reflexCut
  split
  · rfl
  · cases hs : scanMeet o st.xk (fun t => (t - 1, t)) start vi1 (upTo st.l (ahead st.f st.xk.length st.bounded)) with
    | error e => rfl
    | ok r =>
      cases r with
      | none => rfl
      | some r =>
        show (cutReflex o true st start vi1 r.1 r.2 >>= _) = (cutReflex o false st start vi1 r.1 r.2 >>= _)
        rw [cutReflex_debug o st start vi1 hs]

theorem kernelRounds_debug (o : KernelOps P) (v : List P) : ∀ (is : List Nat) (st : KernelState P),
    kernelRounds o true v is st = kernelRounds o false v is st
  | [], _ => rfl
  | i :: is, st => by
    unfold kernelRounds kernelRound
    simp only [reflexRound_debug, kernelRounds_debug o v is]

end Debug

/-- C77: although `delta` is assigned inside of `if debug:` at line 464, the kernel (or the exception) is the same with
and without `debug`, whatever the geometric primitives do. -/
theorem C77_debug (o : KernelOps (Pt ℝ)) (v : List (Pt ℝ)) : polygonKernel o true v = polygonKernel o false v := by
  unfold polygonKernel kernelVertices
  simp only [kernelRounds_debug]

/-- Not vacuous: a polygon with four reflex corners. -/
example : polygonKernel ratOps true [(1, 0), (2, 0), (2, 1), (3, 1), (3, 2), (2, 2), (2, 3), (1, 3), (1, 2), (0, 2), (0, 1), (1, 1)] =
    .ok (some [(2, 1), (2, 2), (1, 2), (1, 1)]) := by decide +kernel

end Starworlds
