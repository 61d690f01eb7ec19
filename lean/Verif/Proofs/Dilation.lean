import Verif.Proofs.Ellipse
import Verif.Spec.Dilation

/-! # Helper lemmas about dilated polygons -/

namespace Starworlds

open Spec Real

theorem normSq_worldOf (mm : Option Pose) (a b : Pt ℝ) : normSq (worldOf mm a - worldOf mm b) = normSq (a - b) := by
  cases mm with
  | none => rfl
  | some q =>
    simp only [worldOf, normSq, Prod.fst_sub, Prod.snd_sub]
    linear_combination ((a.1 - b.1) ^ 2 + (a.2 - b.2) ^ 2) * sin_sq_add_cos_sq q.rot

theorem worldOf_surj (mm : Option Pose) (x : Pt ℝ) : ∃ p, worldOf mm p = x := by
  cases mm with
  | none => exact ⟨x, rfl⟩
  | some q =>
    refine ⟨(cos q.rot * (x.1 - q.pos.1) + sin q.rot * (x.2 - q.pos.2),
      -sin q.rot * (x.1 - q.pos.1) + cos q.rot * (x.2 - q.pos.2)), ?_⟩
    apply Prod.ext <;> simp only [worldOf]
    · linear_combination (x.1 - q.pos.1) * sin_sq_add_cos_sq q.rot
    · linear_combination (x.2 - q.pos.2) * sin_sq_add_cos_sq q.rot

theorem moveRegion_eq (p : Pose) (s : Set (Pt ℝ)) : moveRegion p s = worldOf (some p) '' s := by
  refine Set.image_congr fun x _ => ?_
  simp only [worldOf]
  apply Prod.ext <;> simp <;> ring

/-- The fields of an obstacle belong together. -/
structure PadObj.Good (G : PadGeo) (n : Nat) (o : PadObj) : Prop where
  compact : IsCompact o.region
  bounds : o.polBounds = G.bounds o.region
  ref : ∀ r ∈ o.ref, r < n
  cache : ∀ c ∈ o.cache, c.2 = moveRegion c.1 o.region

def PadWorld.Good (G : PadGeo) (w : PadWorld) : Prop := ∀ o ∈ w.obs, o.Good G w.heap.length

theorem PadWorld.empty_good (G : PadGeo) : PadWorld.empty.Good G := by simp [PadWorld.Good, PadWorld.empty]

theorem PadObj.Good.mono {G : PadGeo} {n m : Nat} (h : n ≤ m) {o : PadObj} (ho : o.Good G n) : o.Good G m :=
  ⟨ho.compact, ho.bounds, fun r hr => (ho.ref r hr).trans_le h, ho.cache⟩

theorem PadObj.Good.polygon_fst {G : PadGeo} {n : Nat} {o : PadObj} (h : o.Good G n) (mm : Option Pose) :
    (o.polygon mm).1 = worldOf mm '' o.region := by
  cases mm with
  | none => exact (Set.image_id _).symm
  | some p =>
    rw [← moveRegion_eq]
    unfold PadObj.polygon
    rcases hc : o.cache with _ | ⟨q, s⟩
    · rfl
    · have := h.cache _ hc
      simp only at this
      by_cases hq : q = p
      · simp [hq, this]
      · simp [hq]

theorem PadObj.polygon_snd (o : PadObj) (mm : Option Pose) :
    (o.polygon mm).2.kind = o.kind ∧ (o.polygon mm).2.region = o.region ∧ (o.polygon mm).2.ref = o.ref ∧
      (o.polygon mm).2.polBounds = o.polBounds ∧
      ((o.polygon mm).2.cache = o.cache ∨ ∃ p, (o.polygon mm).2.cache = some (p, moveRegion p o.region)) := by
  unfold PadObj.polygon
  cases mm with
  | none => simp
  | some p =>
    rcases hc : o.cache with _ | ⟨q, s⟩
    · simp
    · by_cases hq : q = p <;> simp [hq, hc]

theorem PadObj.Good.polygon {G : PadGeo} {n : Nat} {o : PadObj} (h : o.Good G n) (mm : Option Pose) :
    (o.polygon mm).2.Good G n := by
  obtain ⟨_, h2, h3, h4, h5⟩ := o.polygon_snd mm
  refine ⟨h2 ▸ h.compact, by rw [h4, h2, h.bounds], by rw [h3]; exact h.ref, ?_⟩
  rw [h2]
  rcases h5 with h5 | ⟨p, h5⟩
  · rw [h5]; exact h.cache
  · rw [h5]
    intro c hc
    rw [Option.mem_some_iff] at hc
    rw [← hc]

theorem allocMM_facts (heap : List Pose) (mm : MMArg Pose) :
    (∃ l, (allocMM heap mm).1 = heap ++ l) ∧ ∀ r ∈ (allocMM heap mm).2, r < (allocMM heap mm).1.length := by
  cases mm with
  | none => exact ⟨⟨[], by simp [allocMM]⟩, by simp [allocMM]⟩
  | fresh m => exact ⟨⟨[m], rfl⟩, by simp [allocMM]⟩
  | existing r =>
    by_cases h : r < heap.length
    · exact ⟨⟨[], by simp [allocMM, h]⟩, by simp [allocMM, h]⟩
    · exact ⟨⟨[], by simp [allocMM, h]⟩, by simp [allocMM, h]⟩

theorem copyMM_facts (heap : List Pose) (kind : CopyKind) (ref : Option Nat) (hr : ∀ r ∈ ref, r < heap.length) :
    (∃ l, (copyMM heap kind ref).1 = heap ++ l) ∧
      (∀ r ∈ (copyMM heap kind ref).2, r < (copyMM heap kind ref).1.length) ∧
      ((copyMM heap kind ref).2.bind fun r => (copyMM heap kind ref).1[r]?) = (ref.bind fun r => heap[r]?) ∧
      (kind = .rebuild → (copyMM heap kind ref).2 = ref) := by
  cases ref with
  | none => exact ⟨⟨[], by simp [copyMM]⟩, by simp [copyMM], by simp [copyMM], by simp [copyMM]⟩
  | some r =>
    have hlt := hr r rfl
    cases kind with
    | rebuild => exact ⟨⟨[], by simp [copyMM]⟩, by simpa [copyMM] using hlt, by simp [copyMM], by simp [copyMM]⟩
    | deep =>
      have hg : heap[r]? = some heap[r] := List.getElem?_eq_getElem hlt
      exact ⟨⟨[heap[r]], by simp [copyMM, hlt]⟩, by simp [copyMM, hlt], by simp [copyMM, hlt], by simp⟩

theorem PadObj.pad_copy (G : PadGeo) (o : PadObj) (ref : Option Nat) (r : ℝ) :
    (o.copy G ref).pad G r = ⟨o.kind, G.buffer o.region r, G.bounds (G.buffer o.region r), ref, none⟩ := by
  cases hk : o.kind <;> simp [PadObj.copy, PadObj.pad, hk]

theorem PadWorld.Good.step {G : PadGeo} {ρ : ℝ} (hG : PadOk G ρ) {w : PadWorld} (h : w.Good G) {op : PadOp}
    (hc : CompactOp op) : (w.step G op).Good G := by
  cases op with
  | construct kind s mm =>
    obtain ⟨⟨l, hl⟩, hr⟩ := allocMM_facts w.heap mm
    intro o ho
    simp only [PadWorld.step, List.mem_append, List.mem_singleton] at ho ⊢
    rcases ho with ho | rfl
    · exact (h o ho).mono (by simp [hl])
    · exact ⟨hc, rfl, hr, by simp⟩
  | polygon j =>
    simp only [PadWorld.step]
    split
    · exact h
    · rename_i o hj
      intro o' ho'
      rcases List.mem_or_eq_of_mem_set ho' with ho' | rfl
      · exact h o' ho'
      · exact (h o (List.mem_of_getElem? hj)).polygon _
  | dilate j r =>
    simp only [PadWorld.step]
    split
    · exact h
    · rename_i o hj
      have hgo := h o (List.mem_of_getElem? hj)
      obtain ⟨⟨l, hl⟩, hr, _, _⟩ := copyMM_facts w.heap o.kind o.ref hgo.ref
      intro o' ho'
      simp only [List.mem_append, List.mem_singleton] at ho' ⊢
      rcases ho' with ho' | rfl
      · exact (h o' ho').mono (by simp [hl])
      · rw [PadObj.pad_copy]
        exact ⟨hG.compact _ _ hgo.compact, rfl, hr, by simp⟩
  | setPose m p => exact fun o ho => (h o ho).mono (by simp [PadWorld.step])
  | setMotionModel j mm =>
    obtain ⟨⟨l, hl⟩, hr⟩ := allocMM_facts w.heap mm
    intro o ho
    simp only [PadWorld.step] at ho ⊢
    obtain ⟨i, hi⟩ := List.mem_iff_getElem?.1 ho
    rw [List.getElem?_modify] at hi
    rcases hli : w.obs[i]? with _ | y
    · simp [hli] at hi
    · have hy := h y (List.mem_of_getElem? hli)
      by_cases hj : j = i
      · have hx : some { y with ref := (allocMM w.heap mm).2 } = some o := by simpa [hj, hli] using hi
        rw [← Option.some.inj hx]
        exact ⟨hy.compact, hy.bounds, hr, hy.cache⟩
      · have hx : some y = some o := by simpa [hj, hli] using hi
        rw [← Option.some.inj hx]
        exact hy.mono (by simp [hl])

theorem PadWorld.Good.run {G : PadGeo} {ρ : ℝ} (hG : PadOk G ρ) (ops : List PadOp) :
    ∀ {w : PadWorld}, w.Good G → (∀ op ∈ ops, CompactOp op) → (w.run G ops).Good G := by
  induction ops with
  | nil => intro w h _; exact h
  | cons op ops ih => intro w h hc; exact ih (h.step hG (hc op (by simp))) fun o ho => hc o (by simp [ho])

/-- What a call keeps of an obstacle. -/
theorem PadWorld.step_get {G : PadGeo} {w : PadWorld} (op : PadOp) {i : Nat} {o : PadObj} (h : w.obs[i]? = some o) :
    ∃ o', (w.step G op).obs[i]? = some o' ∧ o'.kind = o.kind ∧ o'.region = o.region ∧
      (KeepsModels i i op → o'.ref = o.ref) := by
  have happ : ∀ x, (w.obs ++ [x])[i]? = some o := fun x => by
    rw [List.getElem?_append_left (List.getElem?_eq_some_iff.1 h).1, h]
  cases op with
  | construct kind s mm => exact ⟨o, happ _, rfl, rfl, fun _ => rfl⟩
  | polygon j =>
    simp only [PadWorld.step]
    split
    · exact ⟨o, h, rfl, rfl, fun _ => rfl⟩
    · rename_i o1 hj
      by_cases hji : j = i
      · subst hji
        rw [h] at hj
        cases hj
        obtain ⟨h1, h2, h3, _⟩ := o.polygon_snd (w.poseOf o)
        exact ⟨_, by simp [(List.getElem?_eq_some_iff.1 h).1], h1, h2, fun _ => h3⟩
      · exact ⟨o, by simp only [List.getElem?_set_ne hji, h], rfl, rfl, fun _ => rfl⟩
  | dilate j r =>
    simp only [PadWorld.step]
    split
    · exact ⟨o, h, rfl, rfl, fun _ => rfl⟩
    · exact ⟨o, happ _, rfl, rfl, fun _ => rfl⟩
  | setPose m p => exact ⟨o, h, rfl, rfl, fun _ => rfl⟩
  | setMotionModel j mm =>
    simp only [PadWorld.step]
    by_cases hji : j = i
    · subst hji
      exact ⟨{ o with ref := (allocMM w.heap mm).2 }, by simp [h], rfl, rfl, fun hk => absurd rfl hk.1⟩
    · exact ⟨o, by rw [List.getElem?_modify_ne _ _ hji, h], rfl, rfl, fun _ => rfl⟩

theorem PadWorld.run_get {G : PadGeo} (ops : List PadOp) : ∀ {w : PadWorld} {i : Nat} {o : PadObj}, w.obs[i]? = some o →
    ∃ o', (w.run G ops).obs[i]? = some o' ∧ o'.kind = o.kind ∧ o'.region = o.region ∧
      ((∀ op ∈ ops, KeepsModels i i op) → o'.ref = o.ref) := by
  induction ops with
  | nil => intro w i o h; exact ⟨o, h, rfl, rfl, fun _ => rfl⟩
  | cons op ops ih =>
    intro w i o h
    obtain ⟨o1, h1, hk1, hr1, hm1⟩ := PadWorld.step_get (G := G) op h
    obtain ⟨o2, h2, hk2, hr2, hm2⟩ := ih h1
    exact ⟨o2, h2, hk2.trans hk1, hr2.trans hr1, fun hk =>
      (hm2 fun q hq => hk q (by simp [hq])).trans (hm1 (hk op (by simp)))⟩

/-- Without movements the motion models stay as they are. -/
theorem PadWorld.run_heap {G : PadGeo} {ρ : ℝ} (hG : PadOk G ρ) {j k : Nat} (ops : List PadOp) : ∀ {w : PadWorld},
    w.Good G → (∀ op ∈ ops, CompactOp op) → (∀ op ∈ ops, KeepsPoses j k op) →
    ∀ r < w.heap.length, (w.run G ops).heap[r]? = w.heap[r]? := by
  induction ops with
  | nil => intros; rfl
  | cons op ops ih =>
    intro w hw hc hk r hr
    have hop := hk op (by simp)
    have key : ∃ l, (w.step G op).heap = w.heap ++ l := by
      cases op with
      | construct kind s mm => exact (allocMM_facts w.heap mm).1
      | polygon i =>
        simp only [PadWorld.step]
        split <;> exact ⟨[], by simp⟩
      | dilate i r =>
        simp only [PadWorld.step]
        split
        · exact ⟨[], by simp⟩
        · rename_i o hi
          exact (copyMM_facts w.heap o.kind o.ref (hw o (List.mem_of_getElem? hi)).ref).1
      | setPose m p => exact absurd hop (by simp [KeepsPoses])
      | setMotionModel i mm => exact (allocMM_facts w.heap mm).1
    obtain ⟨l, hl⟩ := key
    have h1 := ih (hw.step hG (hc op (by simp))) (fun q hq => hc q (by simp [hq])) (fun q hq => hk q (by simp [hq])) r
      (by rw [hl, List.length_append]; omega)
    show ((w.step G op).run G ops).heap[r]? = _
    rw [h1, hl, List.getElem?_append_left hr]

/-! ## The points -/

theorem normSq_cont (y : Pt ℝ) : Continuous fun x : Pt ℝ => normSq (x - y) := by
  unfold normSq
  fun_prop

theorem near_interior {G : PadGeo} {ρ : ℝ} (hG : PadOk G ρ) {s : Set (Pt ℝ)} {r : ℝ} (hr : 0 ≤ r) {x y : Pt ℝ}
    (hy : y ∈ s) (h : normSq (x - y) < (ρ * r) ^ 2) : x ∈ interior (G.buffer s r) := by
  refine mem_interior.2 ⟨{z | normSq (z - y) < (ρ * r) ^ 2}, ?_, isOpen_lt (normSq_cont y) continuous_const, h⟩
  exact fun z hz => hG.covers s r hr ⟨y, hy, le_of_lt hz⟩

theorem location_inside {G : PadGeo} {ρ : ℝ} (hG : PadOk G ρ) {n : Nat} {o : PadObj} (h : o.Good G n) (mm : Option Pose)
    {p : Pt ℝ} (hp : p ∈ interior o.region) : o.pointLocation G mm (worldOf mm p) = .ok (-1) := by
  have ht := transform_to_obstacle mm .global (.inl rfl) p
  have hb := hG.bounds _ _ h.compact hp
  rw [← h.bounds] at hb
  simp only [PadObj.pointLocation]
  rw [show inFrame mm .global p = worldOf mm p from rfl] at ht
  rw [ht]
  simp [Bind.bind, Except.bind, hb, (hG.contains _ _).2 hp]

theorem location_outside {G : PadGeo} {ρ : ℝ} (hG : PadOk G ρ) {n : Nat} {o : PadObj} (h : o.Good G n) (mm : Option Pose)
    {p : Pt ℝ} (hp : p ∉ o.region) : o.pointLocation G mm (worldOf mm p) = .ok 1 := by
  have ht := transform_to_obstacle mm .global (.inl rfl) p
  simp only [PadObj.pointLocation]
  rw [show inFrame mm .global p = worldOf mm p from rfl] at ht
  rw [ht]
  have h1 : G.contains o.region p = false := by
    by_contra hc
    exact hp (interior_subset ((hG.contains _ _).1 (by simpa using hc)))
  have h2 : G.onExterior o.region p = false := by
    by_contra hc
    exact hp (hG.onExterior _ _ h.compact (by simpa using hc))
  simp [Bind.bind, Except.bind, h1, h2]

theorem isPadded_of {G : PadGeo} {ρ : ℝ} (hG : PadOk G ρ) {w : PadWorld} (hw : w.Good G) {r : ℝ} (hr : 0 ≤ r) {j k : Nat}
    {o o' : PadObj} (hj : w.obs[j]? = some o) (hk : w.obs[k]? = some o') (hreg : o'.region = G.buffer o.region r)
    (hpose : w.poseOf o = w.poseOf o') : IsPadded G ρ r w j k := by
  have go := hw o (List.mem_of_getElem? hj)
  have go' := hw o' (List.mem_of_getElem? hk)
  have pj : w.polygonAt j = worldOf (w.poseOf o) '' o.region := by
    simp only [PadWorld.polygonAt, hj, go.polygon_fst]
  have pk : w.polygonAt k = worldOf (w.poseOf o) '' G.buffer o.region r := by
    simp only [PadWorld.polygonAt, hk, go'.polygon_fst, hreg, hpose]
  have lk : ∀ p, w.locationAt G k (worldOf (w.poseOf o) p) =
      some (o'.pointLocation G (w.poseOf o') (worldOf (w.poseOf o') p)) := by
    intro p
    simp only [PadWorld.locationAt, hk, Option.map_some, hpose]
  rw [IsPadded, pj, pk]
  refine ⟨?_, ?_, ?_, ?_⟩
  · rintro _ ⟨p, hp, rfl⟩
    obtain ⟨q, hq, hd⟩ := hG.within _ _ hr hp
    exact ⟨_, ⟨q, hq, rfl⟩, by rwa [normSq_worldOf]⟩
  · rintro x ⟨_, ⟨q, hq, rfl⟩, hd⟩
    obtain ⟨p, rfl⟩ := worldOf_surj (w.poseOf o) x
    rw [normSq_worldOf] at hd
    exact ⟨p, hG.covers _ _ hr ⟨q, hq, hd⟩, rfl⟩
  · rintro x _ ⟨q, hq, rfl⟩ hd
    obtain ⟨p, rfl⟩ := worldOf_surj (w.poseOf o) x
    rw [normSq_worldOf] at hd
    rw [lk, location_inside hG go']
    rw [hreg]
    exact near_interior hG hr hq hd
  · intro x hx
    obtain ⟨p, rfl⟩ := worldOf_surj (w.poseOf o) x
    rw [lk, location_outside hG go']
    rw [hreg]
    intro hp
    obtain ⟨q, hq, hd⟩ := hG.within _ _ hr hp
    have := hx _ ⟨q, hq, rfl⟩
    rw [normSq_worldOf] at this
    linarith

end Starworlds
