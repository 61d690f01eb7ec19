import Mathlib.Topology.Algebra.Monoid
import Mathlib.Topology.Order.Compact
import Mathlib.Topology.MetricSpace.Bounded
import Verif.Proofs.Dilation

/-! # C121: dilated polygons -/

namespace Starworlds

open Spec Real

/-- C121 (partial): whatever happens before and afterwards, as long as the obstacle and its dilated obstacle have the
same pose, the dilated obstacle is the obstacle with its padding. -/
theorem C121_partial (G : PadGeo) (ρ : ℝ) (hG : PadOk G ρ) (pre ops : List PadOp) (hpre : ∀ op ∈ pre, CompactOp op)
    (hops : ∀ op ∈ ops, CompactOp op) (r : ℝ) (hr : 0 ≤ r) (j : Nat) :
    let w := PadWorld.empty.run G pre
    let w' := w.run G (.dilate j r :: ops)
    j < w.obs.length → w'.pose j = w'.pose w.obs.length → IsPadded G ρ r w' j w.obs.length := by
  intro w w' hj hpose
  have hw : w.Good G := (PadWorld.empty_good G).run hG pre hpre
  have hw' : w'.Good G := hw.run hG _ (by simpa [CompactOp] using hops)
  have ho := List.getElem?_eq_getElem hj
  obtain ⟨o1, h1, _, hr1, _⟩ := PadWorld.run_get (G := G) (.dilate j r :: ops) ho
  have hk : (w.step G (.dilate j r)).obs[w.obs.length]? =
      some ((w.obs[j].copy G (copyMM w.heap w.obs[j].kind w.obs[j].ref).2).pad G r) := by
    simp [PadWorld.step, ho]
  obtain ⟨o2, h2, _, hr2, _⟩ := PadWorld.run_get (G := G) ops hk
  refine isPadded_of hG hw' hr h1 h2 ?_ ?_
  · rw [hr2, PadObj.pad_copy, hr1]
  · have e1 : w'.obs[j]? = some o1 := h1
    have e2 : w'.obs[w.obs.length]? = some o2 := h2
    simpa [PadWorld.pose, e1, e2] using hpose

/-- C121: a dilated StarshapedPolygon is the obstacle with its padding, during all movements, as long as neither gets
another motion model. -/
theorem C121_star (G : PadGeo) (ρ : ℝ) (hG : PadOk G ρ) (pre ops : List PadOp) (hpre : ∀ op ∈ pre, CompactOp op)
    (hops : ∀ op ∈ ops, CompactOp op) (r : ℝ) (hr : 0 ≤ r) (j : Nat) (o : PadObj) :
    let w := PadWorld.empty.run G pre
    w.obs[j]? = some o → o.kind = .rebuild → (∀ op ∈ ops, KeepsModels j w.obs.length op) →
      IsPadded G ρ r (w.run G (.dilate j r :: ops)) j w.obs.length := by
  intro w ho hs hk
  have hj : j < w.obs.length := (List.getElem?_eq_some_iff.1 ho).1
  refine C121_partial G ρ hG pre ops hpre hops r hr j hj ?_
  have hw : w.Good G := (PadWorld.empty_good G).run hG pre hpre
  have keep : ∀ i, i = j ∨ i = w.obs.length → ∀ op ∈ ops, KeepsModels i i op := by
    intro i hi op hop
    have := hk op hop
    cases op <;> try trivial
    rcases hi with rfl | rfl
    · exact ⟨this.1, this.1⟩
    · exact ⟨this.2, this.2⟩
  obtain ⟨o1, h1, _, _, hm1⟩ := PadWorld.run_get (G := G) (.dilate j r :: ops) ho
  have hstep : (w.step G (.dilate j r)).obs[w.obs.length]? = some ((o.copy G (copyMM w.heap o.kind o.ref).2).pad G r) := by
    simp [PadWorld.step, ho]
  obtain ⟨o2, h2, _, _, hm2⟩ := PadWorld.run_get (G := G) ops hstep
  have e1 : (w.run G (.dilate j r :: ops)).obs[j]? = some o1 := h1
  have e2 : (w.run G (.dilate j r :: ops)).obs[w.obs.length]? = some o2 := h2
  have r1 : o1.ref = o.ref := hm1 (by
    intro op hop
    rcases List.mem_cons.1 hop with rfl | hop
    · trivial
    · exact keep j (.inl rfl) op hop)
  have r2 : o2.ref = o.ref := by
    rw [hm2 (keep _ (.inr rfl)), PadObj.pad_copy]
    exact (copyMM_facts w.heap o.kind o.ref (hw o (List.mem_of_getElem? ho)).ref).2.2.2 hs
  show (w.run G (.dilate j r :: ops)).pose j = (w.run G (.dilate j r :: ops)).pose w.obs.length
  simp only [PadWorld.pose, e1, e2, Option.bind_some, PadWorld.poseOf, r1, r2]

/-- C121 (partial): a dilated Polygon is the obstacle with its padding until a motion model moves, or one of the two
gets another motion model. -/
theorem C121_still_partial (G : PadGeo) (ρ : ℝ) (hG : PadOk G ρ) (pre ops : List PadOp) (hpre : ∀ op ∈ pre, CompactOp op)
    (hops : ∀ op ∈ ops, CompactOp op) (r : ℝ) (hr : 0 ≤ r) (j : Nat) :
    let w := PadWorld.empty.run G pre
    j < w.obs.length → (∀ op ∈ ops, KeepsPoses j w.obs.length op) →
      IsPadded G ρ r (w.run G (.dilate j r :: ops)) j w.obs.length := by
  intro w hj hk
  refine C121_partial G ρ hG pre ops hpre hops r hr j hj ?_
  have hw : w.Good G := (PadWorld.empty_good G).run hG pre hpre
  have hw1 : (w.step G (.dilate j r)).Good G := hw.step hG trivial
  have ho : w.obs[j]? = some w.obs[j] := List.getElem?_eq_getElem hj
  generalize w.obs[j] = o at ho
  have keep : ∀ i, i = j ∨ i = w.obs.length → ∀ op ∈ ops, KeepsModels i i op := by
    intro i hi op hop
    have := hk op hop
    cases op <;> try trivial
    rcases hi with rfl | rfl
    · exact ⟨this.1, this.1⟩
    · exact ⟨this.2, this.2⟩
  have hgo := hw o (List.mem_of_getElem? ho)
  obtain ⟨⟨l, hl⟩, hr2, hb, _⟩ := copyMM_facts w.heap o.kind o.ref hgo.ref
  have hstep : (w.step G (.dilate j r)).obs[w.obs.length]? = some ((o.copy G (copyMM w.heap o.kind o.ref).2).pad G r) := by
    simp [PadWorld.step, ho]
  have hheap : (w.step G (.dilate j r)).heap = (copyMM w.heap o.kind o.ref).1 := by simp [PadWorld.step, ho]
  obtain ⟨o0, h0, _, _, hm0⟩ := PadWorld.step_get (G := G) (.dilate j r) ho
  obtain ⟨o1, h1, _, _, hm1⟩ := PadWorld.run_get (G := G) ops h0
  obtain ⟨o2, h2, _, _, hm2⟩ := PadWorld.run_get (G := G) ops hstep
  have e1 : (w.run G (.dilate j r :: ops)).obs[j]? = some o1 := h1
  have e2 : (w.run G (.dilate j r :: ops)).obs[w.obs.length]? = some o2 := h2
  have r1 : o1.ref = o.ref := (hm1 (keep j (.inl rfl))).trans (hm0 trivial)
  have r2 : o2.ref = (copyMM w.heap o.kind o.ref).2 := by
    rw [hm2 (keep _ (.inr rfl)), PadObj.pad_copy]
  have hh : ∀ a < (copyMM w.heap o.kind o.ref).1.length,
      (w.run G (.dilate j r :: ops)).heap[a]? = (copyMM w.heap o.kind o.ref).1[a]? := by
    intro a ha
    have := PadWorld.run_heap hG ops hw1 hops hk a (by rw [hheap]; exact ha)
    rw [hheap] at this
    exact this
  show (w.run G (.dilate j r :: ops)).pose j = (w.run G (.dilate j r :: ops)).pose w.obs.length
  simp only [PadWorld.pose, e1, e2, Option.bind_some, PadWorld.poseOf, r1, r2]
  have f1 : (o.ref.bind fun a => (w.run G (.dilate j r :: ops)).heap[a]?) = o.ref.bind fun a => w.heap[a]? := by
    rcases hor : o.ref with _ | a
    · rfl
    · have ha := hgo.ref a hor
      simp only [Option.bind_some]
      rw [hh a (by rw [hl, List.length_append]; omega), hl, List.getElem?_append_left ha]
  have f2 : ((copyMM w.heap o.kind o.ref).2.bind fun a => (w.run G (.dilate j r :: ops)).heap[a]?) =
      (copyMM w.heap o.kind o.ref).2.bind fun a => (copyMM w.heap o.kind o.ref).1[a]? := by
    rcases hor : (copyMM w.heap o.kind o.ref).2 with _ | a
    · rfl
    · exact hh a (hr2 a hor)
  rw [f1, f2, hb]

/-- C121: dilating an obstacle changes no answer of any obstacle there is. -/
theorem C121_others (G : PadGeo) (ρ : ℝ) (hG : PadOk G ρ) (pre : List PadOp) (hpre : ∀ op ∈ pre, CompactOp op) (r : ℝ)
    (j i : Nat) :
    let w := PadWorld.empty.run G pre
    let w' := w.step G (.dilate j r)
    i < w.obs.length → w'.polygonAt i = w.polygonAt i ∧ ∀ x, w'.locationAt G i x = w.locationAt G i x := by
  intro w w' hi
  have hw : w.Good G := (PadWorld.empty_good G).run hG pre hpre
  rcases hj : w.obs[j]? with _ | o
  · have : w' = w := by simp [w', PadWorld.step, hj]
    simp [this]
  · have hgo := hw o (List.mem_of_getElem? hj)
    obtain ⟨⟨l, hl⟩, _, _, _⟩ := copyMM_facts w.heap o.kind o.ref hgo.ref
    have hi' := List.getElem?_eq_getElem hi
    have e : w'.obs[i]? = some w.obs[i] := by
      simp only [w', PadWorld.step, hj]
      rw [List.getElem?_append_left hi, hi']
    have hp : w'.poseOf w.obs[i] = w.poseOf w.obs[i] := by
      have hri := (hw _ (List.getElem_mem hi)).ref
      simp only [w', PadWorld.step, hj, PadWorld.poseOf, hl]
      rcases hor : w.obs[i].ref with _ | a
      · rfl
      · simp only [Option.bind_some]
        rw [List.getElem?_append_left (hri a hor)]
    simp [PadWorld.polygonAt, PadWorld.locationAt, e, hi', hp]

/-! ## Padding of padding -/

theorem normSq_triangle {a b : Pt ℝ} {r s : ℝ} (hr : 0 ≤ r) (hs : 0 ≤ s) (ha : normSq a ≤ r ^ 2) (hb : normSq b ≤ s ^ 2) :
    normSq (a + b) ≤ (r + s) ^ 2 := by
  have hab : dot a b ≤ r * s := by
    have h1 : dot a b ^ 2 ≤ (r * s) ^ 2 := by
      have : dot a b ^ 2 ≤ normSq a * normSq b := by
        simp only [dot, normSq]
        nlinarith [sq_nonneg (a.1 * b.2 - a.2 * b.1)]
      have h0 : 0 ≤ normSq b := by simp only [normSq]; positivity
      nlinarith [mul_le_mul ha hb h0 (sq_nonneg r)]
    exact abs_le_of_sq_le_sq' h1 (mul_nonneg hr hs) |>.2
  have : normSq (a + b) = normSq a + 2 * dot a b + normSq b := by
    simp only [normSq, dot, Prod.fst_add, Prod.snd_add]; ring
  nlinarith

theorem padded_padded (s : Set (Pt ℝ)) {a b : ℝ} (ha : 0 ≤ a) (hb : 0 ≤ b) : padded (padded s a) b = padded s (a + b) := by
  ext x
  constructor
  · rintro ⟨y, ⟨z, hz, h1⟩, h2⟩
    refine ⟨z, hz, ?_⟩
    have := normSq_triangle hb ha h2 h1
    rwa [sub_add_sub_cancel, add_comm b a] at this
  · rintro ⟨z, hz, h⟩
    rcases eq_or_lt_of_le (add_nonneg ha hb) with h0 | h0
    · have ha0 : a = 0 := by linarith
      have hb0 : b = 0 := by linarith
      subst ha0 hb0
      exact ⟨z, ⟨z, hz, by simp [normSq]⟩, by simpa using h⟩
    · refine ⟨z + (a / (a + b)) • (x - z), ⟨z, hz, ?_⟩, ?_⟩
      · have e : normSq (z + (a / (a + b)) • (x - z) - z) = (a / (a + b)) ^ 2 * normSq (x - z) := by
          simp only [normSq, Prod.fst_add, Prod.snd_add, Prod.fst_sub, Prod.snd_sub, Prod.smul_fst, Prod.smul_snd,
            smul_eq_mul]
          ring
        rw [e]
        calc (a / (a + b)) ^ 2 * normSq (x - z) ≤ (a / (a + b)) ^ 2 * (a + b) ^ 2 := by gcongr
          _ = a ^ 2 := by field_simp
      · have e : normSq (x - (z + (a / (a + b)) • (x - z))) = (b / (a + b)) ^ 2 * normSq (x - z) := by
          have h1 : b / (a + b) = 1 - a / (a + b) := by field_simp; ring
          rw [h1]
          simp only [normSq, Prod.fst_add, Prod.snd_add, Prod.fst_sub, Prod.snd_sub, Prod.smul_fst, Prod.smul_snd,
            smul_eq_mul]
          ring
        rw [e]
        calc (b / (a + b)) ^ 2 * normSq (x - z) ≤ (b / (a + b)) ^ 2 * (a + b) ^ 2 := by gcongr
          _ = b ^ 2 := by field_simp

theorem padded_mono {s t : Set (Pt ℝ)} (h : s ⊆ t) (r : ℝ) : padded s r ⊆ padded t r :=
  fun _ ⟨y, hy, hd⟩ => ⟨y, h hy, hd⟩

/-- C121: the dilated obstacle of a dilated obstacle is the obstacle with both paddings. -/
theorem C121_twice {G : PadGeo} {ρ : ℝ} (hρ : 0 ≤ ρ) {r s : ℝ} (hr : 0 ≤ r) (hs : 0 ≤ s) {w : PadWorld} {j k l : Nat}
    (h1 : IsPadded G ρ r w j k) (h2 : IsPadded G ρ s w k l) :
    w.polygonAt l ⊆ padded (w.polygonAt j) (r + s) ∧ padded (w.polygonAt j) (ρ * (r + s)) ⊆ w.polygonAt l := by
  constructor
  · rw [← padded_padded _ hr hs]
    exact h2.1.trans (padded_mono h1.1 s)
  · rw [mul_add, ← padded_padded _ (mul_nonneg hρ hr) (mul_nonneg hρ hs)]
    exact (padded_mono h1.2.1 _).trans h2.2.1

/-- C121: the dilated obstacles of two obstacles have no common point if no point of the one obstacle is within the sum
of the paddings of a point of the other. -/
theorem C121_apart {G : PadGeo} {ρ : ℝ} {r s : ℝ} (hr : 0 ≤ r) (hs : 0 ≤ s) {w : PadWorld} {i j k l : Nat}
    (h1 : IsPadded G ρ r w i k) (h2 : IsPadded G ρ s w j l)
    (hd : ∀ x ∈ w.polygonAt i, ∀ y ∈ w.polygonAt j, (r + s) ^ 2 < normSq (x - y)) :
    ∀ x, ¬ (x ∈ w.polygonAt k ∧ x ∈ w.polygonAt l) := by
  rintro x ⟨hk, hl⟩
  obtain ⟨a, ha, h3⟩ := h1.1 hk
  obtain ⟨b, hb, h4⟩ := h2.1 hl
  have h3' : normSq (a - x) ≤ r ^ 2 := by
    have : normSq (a - x) = normSq (x - a) := by simp only [normSq, Prod.fst_sub, Prod.snd_sub]; ring
    rwa [this]
  have := normSq_triangle hr hs h3' h4
  rw [sub_add_sub_cancel] at this
  exact absurd (hd a ha b hb) (not_lt.2 this)

/-- C121: with exact circles, the dilated polygon is star-shaped about every point about which the polygon is. -/
theorem C121_kernel (G : PadGeo) (hG : PadOk G 1) (s : Set (Pt ℝ)) (c : Pt ℝ) (hs : StarConvex ℝ c s) (r : ℝ)
    (hr : 0 ≤ r) : StarConvex ℝ c (G.buffer s r) := by
  have he : G.buffer s r = padded s r :=
    (hG.within s r hr).antisymm (by simpa using hG.covers s r hr)
  rw [he]
  rintro x ⟨y, hy, hd⟩ a b ha hb hab
  refine ⟨a • c + b • y, hs hy ha hb hab, ?_⟩
  have e : normSq (a • c + b • x - (a • c + b • y)) = b ^ 2 * normSq (x - y) := by
    simp only [normSq, Prod.fst_add, Prod.snd_add, Prod.fst_sub, Prod.snd_sub, Prod.smul_fst, Prod.smul_snd,
      smul_eq_mul]
    ring
  rw [e]
  have hb1 : b ≤ 1 := by linarith
  have h0 : 0 ≤ normSq (x - y) := by simp only [normSq]; positivity
  nlinarith [mul_le_mul_of_nonneg_right (pow_le_one₀ hb hb1 : b ^ 2 ≤ 1) h0]

/-! ## The laws can be met -/

theorem padded_eq_add (s : Set (Pt ℝ)) (r : ℝ) : padded s r = (fun p : Pt ℝ × Pt ℝ => p.1 + p.2) '' (s ×ˢ {d | normSq d ≤ r ^ 2}) := by
  ext x
  constructor
  · rintro ⟨y, hy, hd⟩
    exact ⟨(y, x - y), ⟨hy, hd⟩, by simp⟩
  · rintro ⟨⟨y, d⟩, ⟨hy, hd⟩, rfl⟩
    exact ⟨y, hy, by simpa using hd⟩

theorem disc_compact (r : ℝ) : IsCompact {d : Pt ℝ | normSq d ≤ r ^ 2} := by
  refine Metric.isCompact_of_isClosed_isBounded (isClosed_le (by simpa using normSq_cont 0) continuous_const) ?_
  refine (Metric.isBounded_closedBall (x := (0 : Pt ℝ)) (r := |r|)).subset fun d hd => ?_
  rw [Metric.mem_closedBall, dist_zero_right, Prod.norm_def]
  have hd' : d.1 ^ 2 + d.2 ^ 2 ≤ r ^ 2 := hd
  exact max_le (sq_le_sq.1 (by nlinarith [sq_nonneg d.2])) (sq_le_sq.1 (by nlinarith [sq_nonneg d.1]))

open scoped Classical in
/-- Exact buffers: negative padding leaves the points that have all points within `-r` in the set. -/
noncomputable def exactPad : PadGeo where
  buffer s r := if 0 ≤ r then padded s r else {x | ∀ y, normSq (x - y) ≤ r ^ 2 → y ∈ s}
  bounds s := ((sInf (Prod.fst '' s), sInf (Prod.snd '' s)), (sSup (Prod.fst '' s), sSup (Prod.snd '' s)))
  contains s x := decide (x ∈ interior s)
  onExterior s x := decide (x ∈ s ∧ x ∉ interior s)

theorem exactPad_ok : PadOk exactPad 1 where
  pos := one_pos
  le_one := le_rfl
  compact s r hs := by
    by_cases hr : 0 ≤ r
    · simp only [exactPad, if_pos hr]
      rw [padded_eq_add]
      exact (hs.prod (disc_compact r)).image continuous_add
    · simp only [exactPad, if_neg hr]
      refine hs.of_isClosed_subset ?_ fun x hx => hx x (by simp [normSq, sq_nonneg])
      have : {x : Pt ℝ | ∀ y, normSq (x - y) ≤ r ^ 2 → y ∈ s} = ⋂ d ∈ {d : Pt ℝ | normSq d ≤ r ^ 2}, {x | x - d ∈ s} := by
        ext x
        simp only [Set.mem_ofPred_eq, Set.mem_iInter]
        exact ⟨fun h d hd => h _ (by simpa using hd), fun h y hy => by simpa using h _ hy⟩
      rw [this]
      exact isClosed_biInter fun d _ => hs.isClosed.preimage (continuous_id.sub continuous_const)
  within s r hr := by simp [exactPad, hr]
  covers s r hr := by simp [exactPad, hr]
  bounds s x hs hx := by
    obtain ⟨ε, hε, hb⟩ := Metric.mem_nhds_iff.1 (mem_interior_iff_mem_nhds.1 hx)
    have hmem : ∀ d : Pt ℝ, |d.1| < ε → |d.2| < ε → x + d ∈ s := fun d h1 h2 => hb (by
      rw [Metric.mem_ball, dist_eq_norm, add_sub_cancel_left, Prod.norm_def]
      exact max_lt h1 h2)
    have he : |ε / 2| < ε := by rw [abs_of_pos (by positivity)]; linarith
    have he' : |-(ε / 2)| < ε := by rwa [abs_neg]
    have b1 := (hs.image continuous_fst).isBounded
    have b2 := (hs.image continuous_snd).isBounded
    have m1 := csInf_le b1.bddBelow ⟨_, hmem (-(ε / 2), 0) he' (by simpa using hε), rfl⟩
    have m2 := le_csSup b1.bddAbove ⟨_, hmem (ε / 2, 0) he (by simpa using hε), rfl⟩
    have m3 := csInf_le b2.bddBelow ⟨_, hmem (0, -(ε / 2)) (by simpa using hε) he', rfl⟩
    have m4 := le_csSup b2.bddAbove ⟨_, hmem (0, ε / 2) (by simpa using hε) he, rfl⟩
    simp only [exactPad, Prod.fst_add, Prod.snd_add] at m1 m2 m3 m4 ⊢
    refine ⟨by linarith, by linarith, by linarith, by linarith⟩
  contains s x := by simp [exactPad]
  onExterior s x _ h := by
    simp only [exactPad, decide_eq_true_eq] at h
    exact h.1

/-- The unit square. -/
def padSquare : Set (Pt ℝ) := Set.Icc (0, 0) (1, 1)

theorem padSquare_compact : IsCompact padSquare := isCompact_Icc

/-- A star-shaped square is dilated and then moves; its polygon was asked for before and in between. The point (11.5, 0.5)
is inside of the dilated obstacle then, and (13, 0.5) is outside. -/
example : let ops : List PadOp := [.polygon 1, .setPose 0 ⟨(10, 0), 0⟩, .polygon 0, .polygon 1]
    let w := (PadWorld.empty.run exactPad [.construct .rebuild padSquare (.fresh ⟨(0, 0), 0⟩), .polygon 0]).run exactPad
      (.dilate 0 1 :: ops)
    w.polygonAt 0 = worldOf (some ⟨(10, 0), 0⟩) '' padSquare ∧ w.locationAt exactPad 1 (23/2, 1/2) = some (.ok (-1)) ∧
      w.locationAt exactPad 1 (13, 1/2) = some (.ok 1) := by
  intro ops w
  have hc : ∀ op ∈ ([.construct .rebuild padSquare (.fresh ⟨(0, 0), 0⟩), .polygon 0] : List PadOp), CompactOp op := by
    simp [CompactOp, padSquare_compact]
  have h : IsPadded exactPad 1 1 w 0 1 := by
    have := C121_star exactPad 1 exactPad_ok [.construct .rebuild padSquare (.fresh ⟨(0, 0), 0⟩), .polygon 0] ops hc
      (by simp [ops, CompactOp]) 1 zero_le_one 0
    simp only [PadWorld.run, List.foldl_cons, List.foldl_nil, PadWorld.step, PadWorld.empty, allocMM, List.nil_append,
      List.getElem?_cons_zero, List.set_cons_zero, List.length_singleton] at this
    exact this _ rfl (PadObj.polygon_snd _ _).1 (by simp [ops, KeepsModels])
  have h0 : w.polygonAt 0 = worldOf (some ⟨(10, 0), 0⟩) '' padSquare := by
    have hw : w.Good exactPad := by
      refine ((PadWorld.empty_good _).run exactPad_ok _ hc).run exactPad_ok _ (by simp [ops, CompactOp])
    obtain ⟨o, ho, _, hreg, href⟩ := PadWorld.run_get (G := exactPad) (.polygon 0 :: .dilate 0 1 :: ops)
      (w := ⟨[⟨(0, 0), 0⟩], [⟨.rebuild, padSquare, exactPad.bounds padSquare, some 0, none⟩]⟩) (i := 0) rfl
    have ho' : w.obs[0]? = some o := ho
    have hheap : w.heap = [⟨(10, 0), 0⟩] := by
      simp [w, ops, PadWorld.run, PadWorld.step, PadWorld.empty, allocMM, copyMM, PadObj.polygon_snd]
    simp only [PadWorld.polygonAt, ho', (hw o (List.mem_of_getElem? ho')).polygon_fst, hreg]
    rw [show w.poseOf o = some ⟨(10, 0), 0⟩ by
      simp [PadWorld.poseOf, href (by simp [ops, KeepsModels]), hheap]]
  refine ⟨h0, h.2.2.1 _ (11, 1/2) ?_ (by norm_num [normSq]), h.2.2.2 _ ?_⟩
  · rw [h0]
    exact ⟨(1, 1/2), ⟨⟨by norm_num, by norm_num⟩, ⟨by norm_num, by norm_num⟩⟩, by norm_num [worldOf]⟩
  · rw [h0]
    rintro _ ⟨p, ⟨⟨h1, h2⟩, h3, h4⟩, rfl⟩
    simp only [worldOf, cos_zero, sin_zero, normSq, Prod.fst_sub, Prod.snd_sub] at *
    nlinarith [sq_nonneg (1/2 - (0 * p.1 + 1 * p.2 + 0))]

/-- C121 does not hold for a Polygon that moves after it was dilated: its motion model is copied, so the dilated
obstacle stays behind. -/
theorem C121_false (G : PadGeo) (ρ : ℝ) (hG : PadOk G ρ) :
    ¬ IsPadded G ρ 1 (PadWorld.empty.run G [.construct .deep padSquare (.fresh ⟨(0, 0), 0⟩), .dilate 0 1,
      .setPose 0 ⟨(10, 0), 0⟩]) 0 1 := by
  intro h
  have h2 : ((10, 0) : Pt ℝ) ∈ moveRegion ⟨(0, 0), 0⟩ (G.buffer padSquare 1) := by
    refine h.2.1 ⟨(10, 0), ?_, by simp [normSq, sq_nonneg]⟩
    show ((10, 0) : Pt ℝ) ∈ moveRegion ⟨(10, 0), 0⟩ padSquare
    exact ⟨(0, 0), ⟨⟨le_rfl, le_rfl⟩, by norm_num, by norm_num⟩, by norm_num⟩
  rw [moveRegion_eq] at h2
  obtain ⟨p, hp, hpe⟩ := h2
  obtain ⟨q, ⟨_, h3, _⟩, hd⟩ := hG.within _ _ zero_le_one hp
  have e1 : p.1 = 10 := by simpa [worldOf] using congrArg Prod.fst hpe
  simp only [normSq, Prod.fst_sub, Prod.snd_sub, e1] at hd h3
  nlinarith [sq_nonneg (p.2 - q.2)]

/-- C121 does not hold for negative padding: the reference point can be outside of the smaller polygon, which then is
not star-shaped about it. -/
theorem C121_negative_false :
    IsCompact padSquare ∧ StarConvex ℝ (1/10, 1/2) padSquare ∧ (exactPad.buffer padSquare (-1/5)).Nonempty ∧
      ¬ StarConvex ℝ (1/10, 1/2) (exactPad.buffer padSquare (-1/5)) := by
  have hne : (exactPad.buffer padSquare (-1/5)).Nonempty := by
    refine ⟨(1/2, 1/2), ?_⟩
    simp only [exactPad]
    rw [if_neg (by norm_num)]
    intro y hy
    simp only [normSq, Prod.fst_sub, Prod.snd_sub] at hy
    refine ⟨⟨?_, ?_⟩, ?_, ?_⟩ <;> simp only <;> nlinarith [sq_nonneg (1/2 - y.1), sq_nonneg (1/2 - y.2)]
  refine ⟨padSquare_compact, ?_, hne, fun h => ?_⟩
  · rintro y ⟨⟨h1, h2⟩, h3, h4⟩ a b ha hb hab
    simp only at h1 h2 h3 h4
    refine ⟨⟨?_, ?_⟩, ?_, ?_⟩ <;>
      simp only [Prod.fst_add, Prod.snd_add, Prod.smul_fst, Prod.smul_snd, smul_eq_mul] <;> nlinarith
  have hm := h.mem hne
  simp only [exactPad] at hm
  rw [if_neg (by norm_num)] at hm
  have := hm (-1/10, 1/2) (by norm_num [normSq])
  have h1 : (0 : ℝ) ≤ -1/10 := this.1.1
  norm_num at h1

end Starworlds
