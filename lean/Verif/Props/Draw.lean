import Verif.Props.Intersects
import Verif.Props.CombinationState
import Verif.Spec.Draw

/-! # C112: drawings show the obstacles -/

namespace Starworlds

open Real Spec

/-! ## Handles -/

/-- The kind of an artist, with what is never changed. -/
def skel : Artist → Artist
  | .ellipse _ w h _ => .ellipse (0, 0) w h 0
  | .ring _ => .ring []
  | .marker _ => .marker (0, 0)
  | .text _ s => .text (0, 0) s

/-- A change of an artist that keeps its kind. -/
def KeepsKind (f : Artist → Except PyErr Artist) : Prop := ∀ a b, f a = .ok b → skel b = skel a

theorem setCenter_kind (p : Pt ℝ) : KeepsKind (Artist.setCenter p) := by
  intro a b h; cases a <;> simp [Artist.setCenter] at h; subst h; rfl

theorem setAngle_kind (t : ℝ) : KeepsKind (Artist.setAngle t) := by
  intro a b h; cases a <;> simp [Artist.setAngle] at h; subst h; rfl

theorem setXy_kind (v : Shape) : KeepsKind (Artist.setXy v) := by
  intro a b h; cases a <;> simp [Artist.setXy] at h; subst h; rfl

theorem setPosition_kind (p : Pt ℝ) : KeepsKind (Artist.setPosition p) := by
  intro a b h; cases a <;> simp [Artist.setPosition] at h; subst h; rfl

theorem setData_kind (ok : Bool) (p : Pt ℝ) : KeepsKind (Artist.setData ok p) := by
  intro a b h; cases a <;> cases ok <;> simp [Artist.setData] at h; subst h; rfl

theorem toXr_kind (s : ObState) (f : Frame) : KeepsKind (toXr s f) := by
  intro a b h
  unfold toXr at h
  split at h
  · exact setPosition_kind _ _ _ h
  · cases h

theorem dataXr_kind (ok : Bool) (s : ObState) (f : Frame) : KeepsKind (dataXr ok s f) := by
  intro a b h
  unfold dataXr at h
  split at h
  · exact setData_kind _ _ _ _ h
  · cases h

/-- What a call of `update_plot` leaves as it is: the kinds of all artists, and the artists without handle. -/
def Gentle (hs : List Handle) (c d : Canvas) : Prop :=
  d.map skel = c.map skel ∧ ∀ j, some j ∉ hs → d[j]? = c[j]?

theorem Gentle.refl (hs : List Handle) (c : Canvas) : Gentle hs c c := ⟨rfl, fun _ _ => rfl⟩

theorem Gentle.trans {hs : List Handle} {c d e : Canvas} (h : Gentle hs c d) (g : Gentle hs d e) : Gentle hs c e :=
  ⟨g.1.trans h.1, fun j hj => (g.2 j hj).trans (h.2 j hj)⟩

theorem touch_gentle (opt : Bool) (hs : List Handle) (i : Nat) {f : Artist → Except PyErr Artist} (hf : KeepsKind f) (c : Canvas) :
    Gentle hs c (touch opt hs i f c).2 := by
  unfold touch
  split
  · exact .refl hs c
  · exact .refl hs c
  · rename_i k hk
    split
    · exact .refl hs c
    · rename_i a ha
      split
      · exact .refl hs c
      · rename_i b hb
        refine ⟨?_, ?_⟩
        · rw [List.map_set, hf a b hb]
          apply List.ext_getElem?
          intro j
          rw [List.getElem?_set]
          split
          · rename_i e
            subst e
            split
            · simp [ha]
            · rename_i hl
              simp only [List.length_map] at hl
              rw [List.getElem?_eq_none (by simpa using Nat.le_of_not_lt hl)]
          · rfl
        · intro j hj
          have : k ≠ j := by
            rintro rfl
            exact hj (List.mem_of_getElem? hk)
          rw [List.getElem?_set_ne this]

theorem andThen_gentle {hs : List Handle} {c : Canvas} {r : Except PyErr Unit × Canvas} {g : Canvas → Except PyErr Unit × Canvas}
    (h : Gentle hs c r.2) (hg : ∀ d, Gentle hs d (g d).2) : Gentle hs c (andThen r g).2 := by
  obtain ⟨r, d⟩ := r
  cases r with
  | ok u => exact h.trans (hg d)
  | error e => exact h

theorem ellipseUpdate_gentle (ok : Bool) (s : ObState) (hs : List Handle) (f : Frame) (c : Canvas) :
    Gentle hs c (ellipseUpdate ok s hs f c).2 := by
  unfold ellipseUpdate
  split
  · exact andThen_gentle (andThen_gentle (andThen_gentle (touch_gentle _ _ _ (setCenter_kind _) _)
      fun d => touch_gentle _ _ _ (setAngle_kind _) _) fun d => touch_gentle _ _ _ (dataXr_kind _ _ _) _)
      fun d => touch_gentle _ _ _ (toXr_kind _ _) _
  · exact .refl hs c

theorem polygonUpdate_gentle (s : ObState) (ring : Shape) (hs : List Handle) (f : Frame) (c : Canvas) :
    Gentle hs c (polygonUpdate s ring hs f c).2 := by
  unfold polygonUpdate
  refine andThen_gentle (touch_gentle _ _ _ (setXy_kind _) _) fun d => touch_gentle _ _ _ ?_ _
  intro a b h
  split at h
  · exact setPosition_kind _ _ _ h
  · cases h

theorem starUpdate_gentle (ok : Bool) (s : ObState) (ring : Shape) (hs : List Handle) (f : Frame) (c : Canvas) :
    Gentle hs c (starUpdate ok s ring hs f c).2 := by
  unfold starUpdate
  exact andThen_gentle (andThen_gentle (polygonUpdate_gentle _ _ _ _ _)
    fun d => touch_gentle _ _ _ (toXr_kind _ _) _) fun d => touch_gentle _ _ _ (dataXr_kind _ _ _) _

theorem updatePlot_gentle (ok : Bool) (o : DrawObj) (s : ObState) (hs : List Handle) (f : Frame) (c : Canvas) :
    Gentle hs c (updatePlot ok o s hs f c).2.2 := by
  unfold updatePlot
  cases o.kind with
  | ellipse a => exact ellipseUpdate_gentle ok s hs f c
  | polygon =>
    simp only []
    rcases polygonCall s f with ⟨r, s⟩
    cases r with
    | ok ring => exact polygonUpdate_gentle _ _ _ _ _
    | error e => exact .refl hs c
  | star =>
    simp only []
    rcases polygonCall s f with ⟨r, s⟩
    cases r with
    | ok ring => exact starUpdate_gentle _ _ _ _ _ _
    | error e => exact .refl hs c

/-- The state of the obstacle after `update_plot`. -/
theorem updatePlot_state (ok : Bool) (o : DrawObj) (s : ObState) (hs : List Handle) (f : Frame) (c : Canvas) :
    (updatePlot ok o s hs f c).2.1 = s ∨ (updatePlot ok o s hs f c).2.1 = (polygonCall s f).2 := by
  unfold updatePlot
  cases o.kind with
  | ellipse a => exact .inl rfl
  | polygon =>
    simp only []
    rcases polygonCall s f with ⟨r, s⟩
    cases r <;> exact .inr rfl
  | star =>
    simp only []
    rcases polygonCall s f with ⟨r, s⟩
    cases r <;> exact .inr rfl

/-! ## Handles of a drawing -/

/-- The handle of an optional artist. -/
def OptHandle (c : Canvas) (b : Bool) (h : Handle) (a : Artist) : Prop :=
  (b = false ∧ h = none) ∨ (b = true ∧ ∃ k, h = some k ∧ (c[k]?).map skel = some a)

/-- The handles that `init_plot` returns. -/
def PlotOk (o : DrawObj) (sr sn : Bool) (hs : List Handle) (c : Canvas) : Prop :=
  match o.kind with
  | .ellipse a => ∃ k h1 h2, hs = [some k, h1, h2] ∧ (c[k]?).map skel = some (.ellipse (0, 0) (2 * a.1) (2 * a.2) 0) ∧
      OptHandle c sr h1 (.marker (0, 0)) ∧ OptHandle c sn h2 (.text (0, 0) o.name)
  | .polygon => ∃ k h1, hs = [some k, h1] ∧ (c[k]?).map skel = some (.ring []) ∧ OptHandle c sn h1 (.text (0, 0) o.name)
  | .star => ∃ k h1 h2, hs = [some k, h1, h2] ∧ (c[k]?).map skel = some (.ring []) ∧
      OptHandle c sn h1 (.text (0, 0) o.name) ∧ OptHandle c sr h2 (.marker (0, 0))

theorem optHandle_mono {c d : Canvas} (h : ∀ (k : Nat) a, (c[k]?).map skel = some a → (d[k]?).map skel = some a) {b : Bool} {n : Handle}
    {a : Artist} (g : OptHandle c b n a) : OptHandle d b n a := by
  rcases g with g | ⟨g1, k, g2, g3⟩
  · exact .inl g
  · exact .inr ⟨g1, k, g2, h k a g3⟩

theorem plotOk_mono {c d : Canvas} (h : ∀ (k : Nat) a, (c[k]?).map skel = some a → (d[k]?).map skel = some a) {o : DrawObj} {sr sn : Bool}
    {hs : List Handle} (g : PlotOk o sr sn hs c) : PlotOk o sr sn hs d := by
  unfold PlotOk at g ⊢
  cases ho : o.kind with
  | ellipse a =>
    rw [ho] at g
    obtain ⟨k, h1, h2, e, g1, g2, g3⟩ := g
    exact ⟨k, h1, h2, e, h _ _ g1, optHandle_mono h g2, optHandle_mono h g3⟩
  | polygon =>
    rw [ho] at g
    obtain ⟨k, h1, e, g1, g2⟩ := g
    exact ⟨k, h1, e, h _ _ g1, optHandle_mono h g2⟩
  | star =>
    rw [ho] at g
    obtain ⟨k, h1, h2, e, g1, g2, g3⟩ := g
    exact ⟨k, h1, h2, e, h _ _ g1, optHandle_mono h g2, optHandle_mono h g3⟩

theorem gentle_mono {hs : List Handle} {c d : Canvas} (h : Gentle hs c d) (k : Nat) (a : Artist)
    (g : (c[k]?).map skel = some a) : (d[k]?).map skel = some a := by
  rw [← List.getElem?_map, h.1, List.getElem?_map]; exact g

theorem append_mono {c d : Canvas} (h : ∀ k < c.length, d[k]? = c[k]?) (k : Nat) (a : Artist)
    (g : (c[k]?).map skel = some a) : (d[k]?).map skel = some a := by
  have : k < c.length := by
    by_contra hk
    rw [List.getElem?_eq_none (Nat.le_of_not_lt hk)] at g
    cases g
  rw [h k this]; exact g

/-- The handles of `init_plot` are those of new artists. -/
theorem initPlot_ok (rnd : Shape) (o : DrawObj) (xr : Pt ℝ) (sr sn : Bool) (c : Canvas) :
    PlotOk o sr sn (initPlot rnd o xr sr sn c).1 (initPlot rnd o xr sr sn c).2 ∧
      (∀ k < c.length, (initPlot rnd o xr sr sn c).2[k]? = c[k]?) ∧
      (∀ k, some k ∈ (initPlot rnd o xr sr sn c).1 → c.length ≤ k ∧ k < (initPlot rnd o xr sr sn c).2.length) ∧
      c.length ≤ (initPlot rnd o xr sr sn c).2.length := by
  obtain ⟨kind, name⟩ := o
  refine ⟨?_, ?_, ?_, ?_⟩
  · cases kind <;> cases sr <;> cases sn <;>
      simp [PlotOk, initPlot, addIf, addArtist, OptHandle, skel, List.getElem?_append]
  · intro k hk
    cases kind <;> cases sr <;> cases sn <;>
      simp [initPlot, addIf, addArtist, List.getElem?_append, hk, Nat.lt_succ_of_lt hk, Nat.lt_succ_of_lt (Nat.lt_succ_of_lt hk)]
  · intro k hk
    cases kind <;> cases sr <;> cases sn <;> simp [initPlot, addIf, addArtist] at hk ⊢ <;> omega
  · cases kind <;> cases sr <;> cases sn <;> simp [initPlot, addIf, addArtist]

/-! ## `update_plot` shows the obstacle -/

theorem touch_some {opt : Bool} {hs : List Handle} {i k : Nat} {f : Artist → Except PyErr Artist} {c : Canvas} {a b : Artist}
    (h : hs[i]? = some (some k)) (hc : c[k]? = some a) (hf : f a = .ok b) : touch opt hs i f c = (.ok (), c.set k b) := by
  simp [touch, h, hc, hf]

theorem touch_none {hs : List Handle} {i : Nat} {f : Artist → Except PyErr Artist} {c : Canvas}
    (h : hs[i]? = some none) : touch true hs i f c = (.ok (), c) := by
  simp [touch, h]

theorem skel_ellipse {a : Artist} {w h : ℝ} (e : skel a = .ellipse (0, 0) w h 0) : ∃ p t, a = .ellipse p w h t := by
  cases a <;> simp [skel] at e
  obtain ⟨rfl, rfl⟩ := e
  exact ⟨_, _, rfl⟩

theorem skel_ring {a : Artist} (e : skel a = .ring []) : ∃ v, a = .ring v := by
  cases a <;> simp [skel] at e
  exact ⟨_, rfl⟩

theorem skel_marker {a : Artist} (e : skel a = .marker (0, 0)) : ∃ v, a = .marker v := by
  cases a <;> simp [skel] at e
  exact ⟨_, rfl⟩

theorem skel_text {a : Artist} {s : String} (e : skel a = .text (0, 0) s) : ∃ v, a = .text v s := by
  cases a <;> simp [skel] at e
  subst e
  exact ⟨_, rfl⟩

theorem xrCall_frame (s : ObState) (f : Frame) (hf : f.Valid) : xrCall s f = .ok (inFrame s.mm f s.xr) := by
  unfold xrCall transform
  cases hm : s.mm with
  | none => rcases hf with rfl | rfl <;> rfl
  | some p =>
    rcases hf with rfl | rfl
    · simp only [reduceCtorEq, if_false, and_self, if_true, inFrame, worldOf]
      have := (C21_meaning p s.xr).2.1
      simp only [transform, reduceCtorEq, if_false, and_self, if_true] at this
      exact this
    · simp [inFrame]

theorem pos_frame (mm : Option Pose) (f : Frame) (hf : f.Valid) : obstaclePos mm f = some (inFrame mm f (0, 0)) := by
  cases mm with
  | none => rcases hf with rfl | rfl <;> rfl
  | some p => rcases hf with rfl | rfl <;> simp [obstaclePos, inFrame, worldOf]

theorem polygonCall_frame {base : Shape} {s : ObState} (h : PolCacheOk base s) (f : Frame) (hf : f.Valid) :
    (polygonCall s f).1 = .ok (base.map (inFrame s.mm f)) := by
  rcases hf with rfl | rfl
  · rw [polygonCall_global h]; rfl
  · rw [polygonCall_value h]
    have e : inFrame s.mm .obstacle = id := rfl
    rw [e, List.map_id]
    cases s.mm <;> rfl

theorem opt_get {c : Canvas} {k : Nat} {a : Artist} (h : (c[k]?).map skel = some a) : ∃ b, c[k]? = some b ∧ skel b = a := by
  cases hc : c[k]? with
  | none => rw [hc] at h; cases h
  | some b => rw [hc] at h; exact ⟨b, rfl, by simpa using h⟩

theorem get_lt {c : Canvas} {k : Nat} {a : Artist} (h : c[k]? = some a) : k < c.length := by
  by_contra hk
  rw [List.getElem?_eq_none (Nat.le_of_not_lt hk)] at h
  cases h

/-- The patch of an ellipse. -/
theorem ellipse_region (a : Pt ℝ) (mm : Option Pose) (f : Frame) (hf : f.Valid) :
    ∃ rot, obstacleRot mm f = some rot ∧ artRegion (.ellipse (inFrame mm f (0, 0)) (2 * a.1) (2 * a.2) (rot * 180 / π)) =
      {x | ∃ p ∈ {p | ellForm a p ≤ 1}, x = inFrame mm f p} := by
  have ha : ((2 * a.1 / 2, 2 * a.2 / 2) : Pt ℝ) = a := by
    ext
    · simp
    · simp
  have hz : ∀ q : Pt ℝ, worldOf (some ⟨(0, 0), 0⟩) q = q := by
    intro q; ext
    · simp [worldOf]
    · simp [worldOf]
  have hp : ∀ r : ℝ, r * 180 / π * (π / 180) = r := by
    intro r
    have := Real.pi_pos.ne'
    field_simp
  have key : ∀ (c : Pt ℝ) (r : ℝ), (∀ q, inFrame mm f q = worldOf (some ⟨c, r⟩) q) →
      artRegion (.ellipse (inFrame mm f (0, 0)) (2 * a.1) (2 * a.2) (r * 180 / π)) = {x | ∃ p ∈ {p | ellForm a p ≤ 1}, x = inFrame mm f p} := by
    intro c r h
    have h0 : inFrame mm f (0, 0) = c := by rw [h]; simp [worldOf]
    ext x
    simp only [artRegion, ha, hp, h0, Set.mem_ofPred_eq, h]
  rcases hf with rfl | rfl
  · cases mm with
    | none => exact ⟨0, rfl, key (0, 0) 0 fun q => (hz q).symm⟩
    | some p => exact ⟨p.rot, rfl, key p.pos p.rot fun q => rfl⟩
  · refine ⟨0, by cases mm <;> rfl, key (0, 0) 0 fun q => (hz q).symm⟩

theorem ring_region (base : Shape) (mm : Option Pose) (f : Frame) (hf : f.Valid) :
    artRegion (.ring (base.map (inFrame mm f))) = {x | ∃ p ∈ filled base, x = inFrame mm f p} := by
  rcases hf with rfl | rfl
  · exact placed_filled mm base
  · have e : inFrame mm .obstacle = id := rfl
    rw [e, List.map_id]
    ext x
    simp [artRegion]

/-- `update_plot` with handles of a drawing of the same obstacle. -/
theorem updatePlot_depicts (ok : Bool) (o : DrawObj) {base : Shape} {s : ObState} (h : PolCacheOk base s) (sr sn : Bool)
    (hok : marked o.kind sr = true → ok = true) (hs : List Handle) (f : Frame) (hf : f.Valid) (c : Canvas) (hp : PlotOk o sr sn hs c) :
    (updatePlot ok o s hs f c).1 = .ok () ∧
      Depicts o base s.mm s.xr f sr sn hs (updatePlot ok o s hs f c).2.2 := by
  have hx := xrCall_frame s f hf
  have hpos := pos_frame s.mm f hf
  obtain ⟨kind, name⟩ := o
  cases kind with
  | ellipse a =>
    obtain ⟨k, h1, h2, rfl, g1, g2, g3⟩ := hp
    obtain ⟨p, hk, e⟩ := opt_get g1
    obtain ⟨p0, t0, rfl⟩ := skel_ellipse e
    obtain ⟨rot, hr, hreg⟩ := ellipse_region a s.mm f hf
    have lk := get_lt hk
    have hd : ∀ v, (Artist.marker v).setData ok (inFrame s.mm f s.xr) = if ok then .ok (.marker (inFrame s.mm f s.xr)) else .error .runtimeError :=
      fun _ => rfl
    rcases g2 with ⟨rfl, rfl⟩ | ⟨rfl, k1, rfl, g2⟩ <;> rcases g3 with ⟨rfl, rfl⟩ | ⟨rfl, k2, rfl, g3⟩
    · refine ⟨?_, _, hreg, ?_⟩ <;>
        simp [-getElem?_pos, List.getElem?_cons_zero, List.getElem?_cons_succ, updatePlot, ellipseUpdate, hpos, hr, touch, hk, Artist.setCenter, Artist.setAngle, andThen, lk, artistsOf, marked, List.getElem?_set]
    · obtain ⟨p2, hk2, e2⟩ := opt_get g3
      obtain ⟨v2, rfl⟩ := skel_text e2
      have n2 : k ≠ k2 := by rintro rfl; rw [hk] at hk2; cases hk2
      have l2 := get_lt hk2
      refine ⟨?_, _, hreg, ?_⟩ <;>
        simp [-getElem?_pos, List.getElem?_cons_zero, List.getElem?_cons_succ, updatePlot, ellipseUpdate, hpos, hr, touch, hk, Artist.setCenter, Artist.setAngle, andThen, lk, artistsOf, marked,
          List.getElem?_set, n2, n2.symm, hk2, l2, toXr, hx, Artist.setPosition, namePoint]
    · obtain ⟨p1, hk1, e1⟩ := opt_get g2
      obtain ⟨v1, rfl⟩ := skel_marker e1
      have n1 : k ≠ k1 := by rintro rfl; rw [hk] at hk1; cases hk1
      have l1 := get_lt hk1
      have hok := hok rfl
      subst hok
      refine ⟨?_, _, hreg, ?_⟩ <;>
        simp [-getElem?_pos, List.getElem?_cons_zero, List.getElem?_cons_succ, updatePlot, ellipseUpdate, hpos, hr, touch, hk, Artist.setCenter, Artist.setAngle, andThen, lk, artistsOf, marked,
          List.getElem?_set, n1, n1.symm, hk1, l1, dataXr, hx, Artist.setData]
    · obtain ⟨p1, hk1, e1⟩ := opt_get g2
      obtain ⟨v1, rfl⟩ := skel_marker e1
      obtain ⟨p2, hk2, e2⟩ := opt_get g3
      obtain ⟨v2, rfl⟩ := skel_text e2
      have n1 : k ≠ k1 := by rintro rfl; rw [hk] at hk1; cases hk1
      have n2 : k ≠ k2 := by rintro rfl; rw [hk] at hk2; cases hk2
      have n3 : k1 ≠ k2 := by rintro rfl; rw [hk1] at hk2; cases hk2
      have l1 := get_lt hk1
      have l2 := get_lt hk2
      have hok := hok rfl
      subst hok
      refine ⟨?_, _, hreg, ?_⟩ <;>
        simp [-getElem?_pos, List.getElem?_cons_zero, List.getElem?_cons_succ, updatePlot, ellipseUpdate, hpos, hr, touch, hk, Artist.setCenter, Artist.setAngle, andThen, lk, artistsOf, marked,
          List.getElem?_set, n1, n1.symm, hk1, l1, dataXr, hx, Artist.setData, n2, n2.symm, n3, n3.symm, hk2, l2, toXr,
          Artist.setPosition, namePoint]
  | polygon =>
    obtain ⟨k, h1, rfl, g1, g2⟩ := hp
    obtain ⟨p, hk, e⟩ := opt_get g1
    obtain ⟨v0, rfl⟩ := skel_ring e
    have lk := get_lt hk
    have hreg := ring_region base s.mm f hf
    have hq := polygonCall_frame h f hf
    have hm := (polygonCall_mm s f).1
    rcases hpc : polygonCall s f with ⟨r, s'⟩
    rw [hpc] at hq hm
    simp only [] at hq hm
    subst hq
    have hpos' := hpos
    rw [← hm] at hpos'
    rcases g2 with ⟨rfl, rfl⟩ | ⟨rfl, k1, rfl, g2⟩
    · refine ⟨?_, _, hreg, ?_⟩ <;>
        simp [-getElem?_pos, List.getElem?_cons_zero, List.getElem?_cons_succ, updatePlot, hpc, polygonUpdate, touch, hk, Artist.setXy, andThen, lk, artistsOf, marked, List.getElem?_set]
    · obtain ⟨p1, hk1, e1⟩ := opt_get g2
      obtain ⟨v1, rfl⟩ := skel_text e1
      have n1 : k ≠ k1 := by rintro rfl; rw [hk] at hk1; cases hk1
      have l1 := get_lt hk1
      refine ⟨?_, _, hreg, ?_⟩ <;>
        simp [-getElem?_pos, List.getElem?_cons_zero, List.getElem?_cons_succ, updatePlot, hpc, polygonUpdate, touch, hk, Artist.setXy, andThen, lk, artistsOf, marked, List.getElem?_set, n1, n1.symm, hk1, l1,
          hm, hpos, Artist.setPosition, namePoint]
  | star =>
    obtain ⟨k, h1, h2, rfl, g1, g2, g3⟩ := hp
    obtain ⟨p, hk, e⟩ := opt_get g1
    obtain ⟨v0, rfl⟩ := skel_ring e
    have lk := get_lt hk
    have hreg := ring_region base s.mm f hf
    have hq := polygonCall_frame h f hf
    have hm := (polygonCall_mm s f).1
    have hxs := (polygonCall_mm s f).2.1
    rcases hpc : polygonCall s f with ⟨r, s'⟩
    rw [hpc] at hq hm hxs
    simp only [] at hq hm hxs
    subst hq
    have hpos' := hpos
    rw [← hm] at hpos'
    have hx' : xrCall s' f = _ := xrCall_frame s' f hf
    rw [hm, hxs] at hx'
    rcases g2 with ⟨rfl, rfl⟩ | ⟨rfl, k1, rfl, g2⟩ <;> rcases g3 with ⟨rfl, rfl⟩ | ⟨rfl, k2, rfl, g3⟩
    · refine ⟨?_, _, hreg, ?_⟩ <;>
        simp [-getElem?_pos, List.getElem?_cons_zero, List.getElem?_cons_succ, updatePlot, hpc, starUpdate, polygonUpdate, touch, hk, Artist.setXy, andThen, lk, artistsOf, marked, List.getElem?_set]
    · obtain ⟨p2, hk2, e2⟩ := opt_get g3
      obtain ⟨v2, rfl⟩ := skel_marker e2
      have n2 : k ≠ k2 := by rintro rfl; rw [hk] at hk2; cases hk2
      have l2 := get_lt hk2
      have hok := hok rfl
      subst hok
      refine ⟨?_, _, hreg, ?_⟩ <;>
        simp [-getElem?_pos, List.getElem?_cons_zero, List.getElem?_cons_succ, updatePlot, hpc, starUpdate, polygonUpdate, touch, hk, Artist.setXy, andThen, lk, artistsOf, marked, List.getElem?_set, n2, n2.symm,
          hk2, l2, dataXr, hx', Artist.setData]
    · obtain ⟨p1, hk1, e1⟩ := opt_get g2
      obtain ⟨v1, rfl⟩ := skel_text e1
      have n1 : k ≠ k1 := by rintro rfl; rw [hk] at hk1; cases hk1
      have l1 := get_lt hk1
      refine ⟨?_, _, hreg, ?_⟩ <;>
        simp [-getElem?_pos, List.getElem?_cons_zero, List.getElem?_cons_succ, updatePlot, hpc, starUpdate, polygonUpdate, touch, hk, Artist.setXy, andThen, lk, artistsOf, marked, List.getElem?_set, n1, n1.symm,
          hk1, l1, toXr, hx', hpos', Artist.setPosition, namePoint]
    · obtain ⟨p1, hk1, e1⟩ := opt_get g2
      obtain ⟨v1, rfl⟩ := skel_text e1
      obtain ⟨p2, hk2, e2⟩ := opt_get g3
      obtain ⟨v2, rfl⟩ := skel_marker e2
      have n1 : k ≠ k1 := by rintro rfl; rw [hk] at hk1; cases hk1
      have n2 : k ≠ k2 := by rintro rfl; rw [hk] at hk2; cases hk2
      have n3 : k1 ≠ k2 := by rintro rfl; rw [hk1] at hk2; cases hk2
      have l1 := get_lt hk1
      have l2 := get_lt hk2
      have hok := hok rfl
      subst hok
      refine ⟨?_, _, hreg, ?_⟩
      · simp [-getElem?_pos, List.getElem?_cons_zero, List.getElem?_cons_succ, updatePlot, hpc, starUpdate, polygonUpdate, touch, hk, Artist.setXy, andThen, lk, artistsOf, marked, List.getElem?_set, n1, n1.symm,
          hk1, l1, toXr, hx', hpos', Artist.setPosition, namePoint, n2, n2.symm, n3, n3.symm, hk2, l2, dataXr, Artist.setData]
      · simp [-getElem?_pos, List.getElem?_cons_zero, List.getElem?_cons_succ, updatePlot, hpc, starUpdate, polygonUpdate, touch, hk, Artist.setXy, andThen, lk, artistsOf, marked, List.getElem?_set, n1, n1.symm,
          hk1, l1, toXr, hx', hpos', Artist.setPosition, namePoint, n2, n2.symm, n3, n3.symm, hk2, l2, dataXr, Artist.setData]
        exact List.Perm.swap _ _ _

/-! ## Failing calls -/

theorem data_fails {hs : List Handle} {i k : Nat} {c : Canvas} (s : ObState) (f : Frame) (h : hs[i]? = some (some k))
    (hc : (c[k]?).map skel = some (.marker (0, 0))) : ∃ e, touch true hs i (dataXr false s f) c = (.error e, c) := by
  obtain ⟨a, ha, e⟩ := opt_get hc
  obtain ⟨v, rfl⟩ := skel_marker e
  cases hx : xrCall s f with
  | ok p => exact ⟨.runtimeError, by simp [-getElem?_pos, touch, h, ha, dataXr, hx, Artist.setData]⟩
  | error e => exact ⟨e, by simp [-getElem?_pos, touch, h, ha, dataXr, hx]⟩

theorem andThen_fails {hs : List Handle} {c : Canvas} {r : Except PyErr Unit × Canvas} {g : Canvas → Except PyErr Unit × Canvas}
    (h : Gentle hs c r.2) (hg : ∀ d, Gentle hs c d → ∃ e, (g d).1 = .error e) : ∃ e, (andThen r g).1 = .error e := by
  obtain ⟨r, d⟩ := r
  cases r with
  | ok u => exact hg d h
  | error e => exact ⟨e, rfl⟩

theorem andThen_first {r : Except PyErr Unit × Canvas} {g : Canvas → Except PyErr Unit × Canvas} (h : ∃ e, r.1 = .error e) :
    ∃ e, (andThen r g).1 = .error e := by
  obtain ⟨r, d⟩ := r
  obtain ⟨e, h⟩ := h
  simp only [] at h
  subst h
  exact ⟨e, rfl⟩

/-- With a recent matplotlib a drawing with a mark is never updated. -/
theorem updatePlot_fails (o : DrawObj) (s : ObState) (sr sn : Bool) (hm : marked o.kind sr = true) (hs : List Handle) (f : Frame)
    (c : Canvas) (hp : PlotOk o sr sn hs c) : ∃ e, (updatePlot false o s hs f c).1 = .error e := by
  obtain ⟨kind, name⟩ := o
  cases kind with
  | ellipse a =>
    obtain ⟨k, h1, h2, rfl, g1, g2, g3⟩ := hp
    simp only [marked] at hm
    subst hm
    rcases g2 with ⟨h, _⟩ | ⟨_, k1, rfl, g2⟩
    · cases h
    · simp only [updatePlot, ellipseUpdate]
      split
      · refine andThen_first (andThen_fails (andThen_gentle (touch_gentle _ _ _ (setCenter_kind _) _)
          fun d => touch_gentle _ _ _ (setAngle_kind _) _) fun d hd => ?_)
        obtain ⟨e, he⟩ := data_fails (hs := [some k, some k1, h2]) (i := 1) s f rfl (gentle_mono hd _ _ g2)
        exact ⟨e, by rw [he]⟩
      · exact ⟨_, rfl⟩
  | polygon => cases hm
  | star =>
    obtain ⟨k, h1, h2, rfl, g1, g2, g3⟩ := hp
    simp only [marked] at hm
    subst hm
    rcases g3 with ⟨h, _⟩ | ⟨_, k2, rfl, g3⟩
    · cases h
    · simp only [updatePlot]
      rcases polygonCall s f with ⟨r, s'⟩
      cases r with
      | error e => exact ⟨e, rfl⟩
      | ok ring =>
        refine andThen_fails (andThen_gentle (polygonUpdate_gentle _ _ _ _ _) fun d => touch_gentle _ _ _ (toXr_kind _ _) _) fun d hd => ?_
        obtain ⟨e, he⟩ := data_fails (hs := [some k, h1, some k2]) (i := 2) s' f rfl (gentle_mono hd _ _ g3)
        exact ⟨e, by rw [he]⟩

/-! ## Histories -/

/-- The drawings of two calls have no artist in common. -/
def SeparateArtists (p q : Nat × Bool × Bool × List Handle) : Prop := ∀ n : Nat, some n ∈ p.2.2.2 → some n ∉ q.2.2.2

/-- What holds after every history. -/
structure SceneOk (ok : Bool) (os : Nat → DrawObj) (base : Nat → Shape) (mx : Nat → Option Pose × Pt ℝ) (w : Scene) : Prop where
  cache : ∀ i, PolCacheOk (base i) (w.obs i)
  pose : ∀ i, (w.obs i).mm = (mx i).1
  ref : ∀ i, (w.obs i).xr = (mx i).2
  plot : ∀ p ∈ w.plots, PlotOk (os p.1) p.2.1 p.2.2.1 p.2.2.2 w.canvas
  mark : ∀ p ∈ w.plots, marked (os p.1).kind p.2.1 = true → ok = true
  old : ∀ p ∈ w.plots, ∀ n : Nat, some n ∈ p.2.2.2 → n < w.canvas.length
  apart : w.plots.Pairwise SeparateArtists

theorem obs_update {base : Nat → Shape} {mx : Nat → Option Pose × Pt ℝ} {w : Nat → ObState}
    (h1 : ∀ i, PolCacheOk (base i) (w i)) (h2 : ∀ i, (w i).mm = (mx i).1) (h3 : ∀ i, (w i).xr = (mx i).2) (i : Nat) (s : ObState)
    (hs : s = w i ∨ ∃ f, s = (polygonCall (w i) f).2) :
    (∀ j, PolCacheOk (base j) (Function.update w i s j)) ∧ (∀ j, (Function.update w i s j).mm = (mx j).1) ∧
      (∀ j, (Function.update w i s j).xr = (mx j).2) := by
  have key : PolCacheOk (base i) s ∧ s.mm = (mx i).1 ∧ s.xr = (mx i).2 := by
    rcases hs with rfl | ⟨f, rfl⟩
    · exact ⟨h1 i, h2 i, h3 i⟩
    · exact ⟨polCacheOk_polygonCall (h1 i) f, (polygonCall_mm _ f).1.trans (h2 i), (polygonCall_mm _ f).2.1.trans (h3 i)⟩
  refine ⟨fun j => ?_, fun j => ?_, fun j => ?_⟩ <;> by_cases hj : j = i
  · subst hj; rw [Function.update_self]; exact key.1
  · rw [Function.update_of_ne hj]; exact h1 j
  · subst hj; rw [Function.update_self]; exact key.2.1
  · rw [Function.update_of_ne hj]; exact h2 j
  · subst hj; rw [Function.update_self]; exact key.2.2
  · rw [Function.update_of_ne hj]; exact h3 j

theorem localOf_transform (mm : Option Pose) (x : Pt ℝ) (f : Frame) (xr : Pt ℝ) :
    (match transform mm x f .obstacle with | .ok y => y | .error _ => xr) = (localOf mm f x).getD xr := by
  cases mm with
  | none => cases f <;> rfl
  | some p =>
    cases f with
    | obstacle => simp [transform, localOf]
    | other => simp [transform, localOf]
    | global =>
      simp [transform, localOf, (C01_formula _ _ _).2]

theorem stepOp_xr (src : KernelSrc) (nr : Bool) (s : ObState) (op : ObOp) (i : Nat) :
    (stepOp src nr s op).mm = (nextPoint i s.mm s.xr (.on i op)).1 ∧ (stepOp src nr s op).xr = (nextPoint i s.mm s.xr (.on i op)).2 := by
  cases op with
  | setMotionModel m => simp [stepOp, nextPoint]
  | setPose p => simp [stepOp, nextPoint]
  | polygon f => exact ⟨(polygonCall_mm s f).1, (polygonCall_mm s f).2.1⟩
  | kernel f => exact ⟨(kernelCall_mm src nr s f).1, (kernelCall_mm src nr s f).2.1⟩
  | xr f => exact ⟨rfl, rfl⟩
  | setXr x f safe =>
    refine ⟨?_, ?_⟩
    · have := (setXr_fields src nr s x f safe).1
      simp only [stepOp, this]
      cases safe <;> simp [nextPoint]
    · cases safe with
      | false =>
        have := localOf_transform s.mm x f s.xr
        simp only [stepOp, setXr, nextPoint, if_true]
        rw [← this]
        cases transform s.mm x f .obstacle <;> rfl
      | true =>
        simp only [stepOp, setXr, nextPoint]
        cases transform s.mm x f .obstacle with
        | error e => rfl
        | ok y =>
          have := (kernelCall_mm src nr s .global).2.1
          simp only [if_true]
          rcases hk : kernelCall src nr s .global with ⟨r, s'⟩
          rw [hk] at this
          cases r <;> exact this

theorem nextPoint_other {i k : Nat} (h : k ≠ i) (mm : Option Pose) (xr : Pt ℝ) (op : ObOp) :
    nextPoint i mm xr (.on k op) = (mm, xr) := by
  cases op with
  | setXr x f safe => cases safe <;> simp [nextPoint, h]
  | _ => simp [nextPoint, h]

theorem drawCall_result (ok : Bool) (rnd : Shape) (o : DrawObj) (s : ObState) (f : Frame) (sr sn : Bool) (c : Canvas) :
    let i := initPlot rnd o s.xr sr sn c
    drawCall ok rnd o s f sr sn c = (match (updatePlot ok o s i.1 f i.2).1 with | .ok _ => .ok i.1 | .error e => .error e,
      (updatePlot ok o s i.1 f i.2).2.1, (updatePlot ok o s i.1 f i.2).2.2) := rfl

/-- What `draw` leaves as it is. -/
theorem drawCall_old (ok : Bool) (rnd : Shape) (o : DrawObj) (s : ObState) (f : Frame) (sr sn : Bool) (c : Canvas) :
    (∀ k < c.length, (drawCall ok rnd o s f sr sn c).2.2[k]? = c[k]?) ∧ c.length ≤ (drawCall ok rnd o s f sr sn c).2.2.length := by
  obtain ⟨_, h2, h3, h4⟩ := initPlot_ok rnd o s.xr sr sn c
  have g := updatePlot_gentle ok o s (initPlot rnd o s.xr sr sn c).1 f (initPlot rnd o s.xr sr sn c).2
  rw [drawCall_result]
  have hl : (updatePlot ok o s (initPlot rnd o s.xr sr sn c).1 f (initPlot rnd o s.xr sr sn c).2).2.2.length =
      (initPlot rnd o s.xr sr sn c).2.length := by
    have := congrArg List.length g.1
    simpa using this
  refine ⟨fun k hk => ?_, by simp only [hl]; exact h4⟩
  rw [← h2 k hk]
  refine g.2 k fun hm => ?_
  have := (h3 k hm).1
  omega

theorem sceneStep_ok {ok : Bool} {os : Nat → DrawObj} {base : Nat → Shape} {mx : Nat → Option Pose × Pt ℝ} {w : Scene}
    (src : Nat → KernelSrc) (nr : Bool) (h : SceneOk ok os base mx w) (op : SceneOp) :
    SceneOk ok os base (fun i => nextPoint i (mx i).1 (mx i).2 op) (sceneStep ok os src nr w op) := by
  cases op with
  | on k op =>
    have hs := (polCacheOk_run (src k) nr [op] (w.obs k) (h.cache k)).1
    change PolCacheOk (base k) (stepOp (src k) nr (w.obs k) op) at hs
    obtain ⟨e1, e2⟩ := stepOp_xr (src k) nr (w.obs k) op k
    rw [h.pose, h.ref] at e1 e2
    refine ⟨fun i => ?_, fun i => ?_, fun i => ?_, h.plot, h.mark, h.old, h.apart⟩ <;> simp only [sceneStep] <;> by_cases hi : i = k
    · subst hi; rw [Function.update_self]; exact hs
    · rw [Function.update_of_ne hi]; exact h.cache i
    · subst hi; rw [Function.update_self]; exact e1
    · rw [Function.update_of_ne hi, nextPoint_other (Ne.symm hi)]; exact h.pose i
    · subst hi; rw [Function.update_self]; exact e2
    · rw [Function.update_of_ne hi, nextPoint_other (Ne.symm hi)]; exact h.ref i
  | draw i f rnd sr sn =>
    obtain ⟨h1, h2, h3, h4⟩ := initPlot_ok rnd (os i) (w.obs i).xr sr sn w.canvas
    obtain ⟨o1, o2⟩ := drawCall_old ok rnd (os i) (w.obs i) f sr sn w.canvas
    have hst : (drawCall ok rnd (os i) (w.obs i) f sr sn w.canvas).2.1 = w.obs i ∨
        ∃ f', (drawCall ok rnd (os i) (w.obs i) f sr sn w.canvas).2.1 = (polygonCall (w.obs i) f').2 := by
      rcases updatePlot_state ok (os i) (w.obs i) (initPlot rnd (os i) (w.obs i).xr sr sn w.canvas).1 f
        (initPlot rnd (os i) (w.obs i).xr sr sn w.canvas).2 with e | e
      · exact .inl e
      · exact .inr ⟨f, e⟩
    obtain ⟨u1, u2, u3⟩ := obs_update h.cache h.pose h.ref i _ hst
    have g := updatePlot_gentle ok (os i) (w.obs i) (initPlot rnd (os i) (w.obs i).xr sr sn w.canvas).1 f
      (initPlot rnd (os i) (w.obs i).xr sr sn w.canvas).2
    have hplots : (sceneStep ok os src nr w (.draw i f rnd sr sn)).plots = w.plots ∨
        ((sceneStep ok os src nr w (.draw i f rnd sr sn)).plots =
          w.plots ++ [(i, sr, sn, (initPlot rnd (os i) (w.obs i).xr sr sn w.canvas).1)] ∧ (marked (os i).kind sr = true → ok = true)) := by
      simp only [sceneStep, drawCall_result]
      cases hr : (updatePlot ok (os i) (w.obs i) (initPlot rnd (os i) (w.obs i).xr sr sn w.canvas).1 f
        (initPlot rnd (os i) (w.obs i).xr sr sn w.canvas).2).1 with
      | error e => exact .inl rfl
      | ok u =>
        refine .inr ⟨rfl, fun hm => ?_⟩
        by_contra hok
        rw [Bool.not_eq_true] at hok
        subst hok
        obtain ⟨e, he⟩ := updatePlot_fails (os i) (w.obs i) sr sn hm _ f _ h1
        rw [hr] at he
        cases he
    have hold : ∀ p ∈ w.plots, PlotOk (os p.1) p.2.1 p.2.2.1 p.2.2.2 (sceneStep ok os src nr w (.draw i f rnd sr sn)).canvas :=
      fun p hp => plotOk_mono (append_mono o1) (h.plot p hp)
    have hlt : ∀ p ∈ w.plots, ∀ n : Nat, some n ∈ p.2.2.2 → n < (sceneStep ok os src nr w (.draw i f rnd sr sn)).canvas.length :=
      fun p hp n hn => lt_of_lt_of_le (h.old p hp n hn) o2
    refine ⟨u1, u2, u3, ?_, ?_, ?_, ?_⟩
    · intro p hp
      rcases hplots with e | ⟨e, hm⟩
      · rw [e] at hp; exact hold p hp
      · rw [e, List.mem_append, List.mem_singleton] at hp
        rcases hp with hp | rfl
        · exact hold p hp
        · exact plotOk_mono (gentle_mono g) h1
    · intro p hp
      rcases hplots with e | ⟨e, hm⟩
      · rw [e] at hp; exact h.mark p hp
      · rw [e, List.mem_append, List.mem_singleton] at hp
        rcases hp with hp | rfl
        · exact h.mark p hp
        · exact hm
    · intro p hp
      rcases hplots with e | ⟨e, hm⟩
      · rw [e] at hp; exact hlt p hp
      · rw [e, List.mem_append, List.mem_singleton] at hp
        rcases hp with hp | rfl
        · exact hlt p hp
        · intro n hn
          have hl := congrArg List.length g.1
          rw [List.length_map, List.length_map] at hl
          show n < (updatePlot ok (os i) (w.obs i) (initPlot rnd (os i) (w.obs i).xr sr sn w.canvas).1 f
            (initPlot rnd (os i) (w.obs i).xr sr sn w.canvas).2).2.2.length
          rw [hl]
          exact (h3 n hn).2
    · rcases hplots with e | ⟨e, hm⟩
      · rw [e]; exact h.apart
      · rw [e, List.pairwise_append]
        refine ⟨h.apart, List.pairwise_singleton _ _, fun p hp q hq n hn hn' => ?_⟩
        rw [List.mem_singleton] at hq
        subst hq
        have a := h.old p hp n hn
        have b := (h3 n hn').1
        omega
  | update k f =>
    cases hk : w.plots[k]? with
    | none =>
      simp only [sceneStep, hk, nextPoint]
      exact ⟨h.cache, h.pose, h.ref, h.plot, h.mark, h.old, h.apart⟩
    | some p =>
      obtain ⟨i, sr, sn, hs⟩ := p
      have hst : (updatePlot ok (os i) (w.obs i) hs f w.canvas).2.1 = w.obs i ∨
          ∃ f', (updatePlot ok (os i) (w.obs i) hs f w.canvas).2.1 = (polygonCall (w.obs i) f').2 := by
        rcases updatePlot_state ok (os i) (w.obs i) hs f w.canvas with e | e
        · exact .inl e
        · exact .inr ⟨f, e⟩
      obtain ⟨u1, u2, u3⟩ := obs_update h.cache h.pose h.ref i _ hst
      have g := updatePlot_gentle ok (os i) (w.obs i) hs f w.canvas
      have hl := congrArg List.length g.1
      rw [List.length_map, List.length_map] at hl
      simp only [sceneStep, hk, nextPoint]
      exact ⟨u1, u2, u3, fun p hp => plotOk_mono (gentle_mono g) (h.plot p hp), h.mark,
        fun p hp n hn => by simp only [hl]; exact h.old p hp n hn, h.apart⟩

theorem sceneRun_ok {ok : Bool} {os : Nat → DrawObj} {base : Nat → Shape} (src : Nat → KernelSrc) (nr : Bool) (ops : List SceneOp) :
    ∀ {mx : Nat → Option Pose × Pt ℝ} {w : Scene}, SceneOk ok os base mx w →
      SceneOk ok os base (fun i => lastPoint i (mx i).1 (mx i).2 ops) (sceneRun ok os src nr w ops) := by
  induction ops with
  | nil => intro mx w h; exact h
  | cons op ops ih => intro mx w h; exact ih (sceneStep_ok src nr h op)

/-- New obstacles and empty axes. -/
noncomputable def freshScene (base : Nat → Shape) (mm : Nat → Option Pose) (xr : Nat → Pt ℝ) (eager static : Nat → Bool) : Scene :=
  ⟨fresh base mm xr eager static, [], []⟩

theorem freshScene_ok (ok : Bool) (os : Nat → DrawObj) (base : Nat → Shape) (mm : Nat → Option Pose) (xr : Nat → Pt ℝ)
    (eager static : Nat → Bool) : SceneOk ok os base (fun i => (mm i, xr i)) (freshScene base mm xr eager static) := by
  refine ⟨fun i => (fresh_ok base mm xr eager static i).1, fun i => (fresh_ok base mm xr eager static i).2, fun i => rfl, ?_, ?_, ?_, ?_⟩ <;>
    simp [freshScene]

theorem artistsOf_congr {hs : List Handle} {c d : Canvas} (h : ∀ n : Nat, some n ∈ hs → d[n]? = c[n]?) :
    artistsOf hs d = artistsOf hs c := by
  unfold artistsOf
  refine List.filterMap_congr fun a ha => ?_
  cases a with
  | none => rfl
  | some n => exact h n ha

/-- C112 (partial): after any history of movements, queries, changes of reference points, drawings and updates of any number
of obstacles (ellipses, polygons, starshaped polygons), `draw` in one of the two frames succeeds, and the returned handles are
those of a patch that covers exactly the points of the obstacle at its current pose, and of the mark and the name if wanted; nothing
that was drawn before changes. With a recent matplotlib this needs `show_reference=False` (`C112_matplotlib_false`). -/
theorem C112_draw_partial (ok : Bool) (os : Nat → DrawObj) (src : Nat → KernelSrc) (nr : Bool) (base : Nat → Shape)
    (mm : Nat → Option Pose) (xr : Nat → Pt ℝ) (eager static : Nat → Bool) (ops : List SceneOp) (i : Nat) (f : Frame) (hf : f.Valid)
    (rnd : Shape) (sr sn : Bool) (hok : marked (os i).kind sr = true → ok = true) :
    let w := sceneRun ok os src nr (freshScene base mm xr eager static) ops
    let r := drawCall ok rnd (os i) (w.obs i) f sr sn w.canvas
    ∃ hs, r.1 = .ok hs ∧
      Depicts (os i) (base i) (lastPoint i (mm i) (xr i) ops).1 (lastPoint i (mm i) (xr i) ops).2 f sr sn hs r.2.2 ∧
      ∀ k < w.canvas.length, r.2.2[k]? = w.canvas[k]? := by
  intro w r
  have h : SceneOk ok os base _ w := sceneRun_ok src nr ops (freshScene_ok ok os base mm xr eager static)
  obtain ⟨h1, _, _, _⟩ := initPlot_ok rnd (os i) (w.obs i).xr sr sn w.canvas
  obtain ⟨e, d⟩ := updatePlot_depicts ok (os i) (h.cache i) sr sn hok _ f hf _ h1
  refine ⟨(initPlot rnd (os i) (w.obs i).xr sr sn w.canvas).1, ?_, ?_, (drawCall_old ok rnd (os i) (w.obs i) f sr sn w.canvas).1⟩
  · show (drawCall ok rnd (os i) (w.obs i) f sr sn w.canvas).1 = _
    rw [drawCall_result]
    simp only [e]
  · rw [show (lastPoint i (mm i) (xr i) ops).1 = (w.obs i).mm from (h.pose i).symm,
      show (lastPoint i (mm i) (xr i) ops).2 = (w.obs i).xr from (h.ref i).symm]
    exact d

/-- C112 (partial): after any such history, `update_plot` with the handles that an earlier call of `draw` has returned succeeds,
in one of the two frames, and the drawing then shows the obstacle at its current pose; no other drawing changes. -/
theorem C112_update_partial (ok : Bool) (os : Nat → DrawObj) (src : Nat → KernelSrc) (nr : Bool) (base : Nat → Shape)
    (mm : Nat → Option Pose) (xr : Nat → Pt ℝ) (eager static : Nat → Bool) (ops : List SceneOp) (k i : Nat) (sr sn : Bool)
    (hs : List Handle) (f : Frame) (hf : f.Valid)
    (hk : (sceneRun ok os src nr (freshScene base mm xr eager static) ops).plots[k]? = some (i, sr, sn, hs)) :
    let w := sceneRun ok os src nr (freshScene base mm xr eager static) ops
    let r := updatePlot ok (os i) (w.obs i) hs f w.canvas
    r.1 = .ok () ∧ Depicts (os i) (base i) (lastPoint i (mm i) (xr i) ops).1 (lastPoint i (mm i) (xr i) ops).2 f sr sn hs r.2.2 ∧
      ∀ l ≠ k, ∀ p, w.plots[l]? = some p → artistsOf p.2.2.2 r.2.2 = artistsOf p.2.2.2 w.canvas := by
  intro w r
  have h : SceneOk ok os base _ w := sceneRun_ok src nr ops (freshScene_ok ok os base mm xr eager static)
  have hm := List.mem_of_getElem? hk
  obtain ⟨e, d⟩ := updatePlot_depicts ok (os i) (h.cache i) sr sn (h.mark _ hm) hs f hf _ (h.plot _ hm)
  rw [h.pose, h.ref] at d
  refine ⟨e, d, fun l hl p hp => artistsOf_congr fun n hn => ?_⟩
  refine (updatePlot_gentle ok (os i) (w.obs i) hs f w.canvas).2 n fun hn' => ?_
  obtain ⟨lk, ek⟩ := List.getElem?_eq_some_iff.1 hk
  obtain ⟨ll, el⟩ := List.getElem?_eq_some_iff.1 hp
  have ha := List.pairwise_iff_getElem.1 h.apart
  rcases lt_or_gt_of_ne hl with h' | h'
  · have := ha l k ll lk h' n
    rw [el] at this
    exact this hn (by rw [ek]; exact hn')
  · have := ha k l lk ll h' n
    rw [el] at this
    exact this (by rw [ek]; exact hn') hn

/-- An ellipse with half axes 2 and 1 at (3, 4), and a square. -/
def twoObjects : Nat → DrawObj := fun i => if i = 0 then ⟨.ellipse (2, 1), "ell"⟩ else ⟨.star, "sq"⟩

/-- The ellipse is drawn, then the square, and then the ellipse is turned by 90 degrees. -/
noncomputable def turnStory : List SceneOp :=
  [.draw 0 .global [] true true, .draw 1 .global [] true false, .on 0 (.setPose ⟨(3, 4), π / 2⟩)]

noncomputable def turnScene : Scene :=
  freshScene (fun _ => bigSquare) (fun _ => some ⟨(3, 4), 0⟩) (fun _ => 0) (fun _ => false) (fun _ => false)

theorem turnPlots : ∃ q, (sceneRun true twoObjects (fun _ => .fromPolygon) true turnScene turnStory).plots =
    [(0, true, true, [some 0, some 1, some 2]), q] := by
  obtain ⟨h1, e1, -⟩ := C112_draw_partial true twoObjects (fun _ => .fromPolygon) true (fun _ => bigSquare) (fun _ => some ⟨(3, 4), 0⟩)
    (fun _ => 0) (fun _ => false) (fun _ => false) [] 0 .global (.inl rfl) [] true true fun _ => rfl
  obtain ⟨h2, e2, -⟩ := C112_draw_partial true twoObjects (fun _ => .fromPolygon) true (fun _ => bigSquare) (fun _ => some ⟨(3, 4), 0⟩)
    (fun _ => 0) (fun _ => false) (fun _ => false) [.draw 0 .global [] true true] 1 .global (.inl rfl) [] true false fun _ => rfl
  have hh : h1 = [some 0, some 1, some 2] := by
    rw [drawCall_result] at e1
    split at e1
    · cases e1; rfl
    · cases e1
  subst hh
  simp only [sceneRun, turnStory, List.foldl_cons, List.foldl_nil] at e1 e2 ⊢
  change (drawCall _ _ _ (turnScene.obs 0) _ _ _ turnScene.canvas).1 = _ at e1
  change (drawCall _ _ _ ((sceneStep _ _ _ _ turnScene _).obs 1) _ _ _ (sceneStep _ _ _ _ turnScene _).canvas).1 = _ at e2
  refine ⟨(1, true, false, h2), ?_⟩
  show (match (drawCall true [] (twoObjects 1) ((sceneStep true twoObjects (fun _ => .fromPolygon) true turnScene
      (.draw 0 .global [] true true)).obs 1) .global true false (sceneStep true twoObjects (fun _ => .fromPolygon) true turnScene
      (.draw 0 .global [] true true)).canvas).1 with
    | .ok hs => (sceneStep true twoObjects (fun _ => .fromPolygon) true turnScene (.draw 0 .global [] true true)).plots ++ [(1, true, false, hs)]
    | .error _ => (sceneStep true twoObjects (fun _ => .fromPolygon) true turnScene (.draw 0 .global [] true true)).plots) = _
  rw [e2]
  show (match (drawCall true [] (twoObjects 0) (turnScene.obs 0) .global true true turnScene.canvas).1 with
    | .ok hs => turnScene.plots ++ [(0, true, true, hs)]
    | .error _ => turnScene.plots) ++ _ = _
  rw [e1]
  rfl

/-- After `update_plot` the patch covers (3, 6) and no longer (5, 4). -/
example : ∃ patch ∈ artistsOf [some 0, some 1, some 2]
      (updatePlot true (twoObjects 0) ((sceneRun true twoObjects (fun _ => .fromPolygon) true turnScene turnStory).obs 0)
        [some 0, some 1, some 2] .global (sceneRun true twoObjects (fun _ => .fromPolygon) true turnScene turnStory).canvas).2.2,
    ((3, 6) : Pt ℝ) ∈ artRegion patch ∧ ((5, 4) : Pt ℝ) ∉ artRegion patch := by
  obtain ⟨q, hq⟩ := turnPlots
  obtain ⟨-, ⟨patch, hp, hperm⟩, -⟩ := C112_update_partial true twoObjects (fun _ => .fromPolygon) true (fun _ => bigSquare)
    (fun _ => some ⟨(3, 4), 0⟩) (fun _ => 0) (fun _ => false) (fun _ => false) turnStory 0 0 true true [some 0, some 1, some 2]
    .global (.inl rfl) (by
      show (sceneRun true twoObjects (fun _ => .fromPolygon) true turnScene turnStory).plots[0]? = _
      rw [hq]; rfl)
  refine ⟨patch, hperm.mem_iff.2 (by simp), ?_⟩
  have hm : (lastPoint 0 (some (⟨(3, 4), 0⟩ : Pose)) 0 turnStory).1 = some ⟨(3, 4), π / 2⟩ := rfl
  rw [hp, hm]
  refine ⟨⟨(2, 0), ?_, ?_⟩, ?_⟩
  · show ellForm (2, 1) (2, 0) ≤ 1
    norm_num [ellForm]
  · ext
    · simp [inFrame, worldOf]
    · norm_num [inFrame, worldOf]
  · rintro ⟨p, hp, he⟩
    change ellForm (2, 1) p ≤ 1 at hp
    have h1 := congrArg Prod.fst he
    simp [inFrame, worldOf] at h1
    have : p.2 = -2 := by linarith
    rw [ellForm, this] at hp
    norm_num at hp
    nlinarith [sq_nonneg p.1]

/-! ## What goes wrong -/

/-- C112 is false with matplotlib 3.9 or later: `draw` of an ellipse or a starshaped polygon with the default
`show_reference=True` raises an exception, whatever the obstacle, its history and the frame. -/
theorem C112_matplotlib_false (rnd : Shape) (o : DrawObj) (s : ObState) (f : Frame) (sn : Bool) (c : Canvas)
    (ho : (∃ a, o.kind = .ellipse a) ∨ o.kind = .star) : ∃ e, (drawCall false rnd o s f true sn c).1 = .error e := by
  have hm : marked o.kind true = true := by
    rcases ho with ⟨a, h⟩ | h <;> rw [h] <;> rfl
  obtain ⟨e, he⟩ := updatePlot_fails o s true sn hm _ f _ (initPlot_ok rnd o s.xr true sn c).1
  exact ⟨e, by rw [drawCall_result]; simp only [he]⟩

/-- The unit circle at rest. -/
example : (drawCall false [] ⟨.ellipse (1, 1), "1"⟩ (construct [] none (0, 0) false false) .global true false []).1 =
    .error .runtimeError := by
  simp [drawCall, initPlot, addIf, addArtist, updatePlot, ellipseUpdate, obstaclePos, obstacleRot, construct, touch, Artist.setCenter,
    Artist.setAngle, andThen, dataXr, xrCall, transform, Artist.setData]

/-- C112 is false of combinations: the members of a combination are moved by (10, 0). `update_plot` changes nothing, and a second
drawing is like the first one: both cover the old square with the exterior point 0, and not the interior point (10, 0). With a
frame, which all other classes take, `update_plot` raises TypeError. -/
theorem C112_combination_false (argsort : List ℝ → List Nat) :
    ∃ s : CombState, s = (CombState.make ⟨[starMember bigSquare], none, 0⟩ none).run argsort
      [.polygon (some bigSquare), .moved [starMember farSquare], .polygon (some farSquare)] ∧
      s.comb.pointLocation (10, 0) = .ok (-1) ∧ s.comb.pointLocation 0 = .ok 1 ∧
      ∃ ring, s.polygon = some (some ring) ∧
        ∀ c sr sn name, ∃ patch ∈ artistsOf (combInitPlot [ring] s.comb.xr name sr sn c).1 (combInitPlot [ring] s.comb.xr name sr sn c).2,
          (0 : Pt ℝ) ∈ artRegion patch ∧ ((10, 0) : Pt ℝ) ∉ artRegion patch ∧
          (∀ hs, combUpdatePlot false hs (combInitPlot [ring] s.comb.xr name sr sn c).2 =
            (.ok (), (combInitPlot [ring] s.comb.xr name sr sn c).2)) ∧
          ∀ hs d, (combUpdatePlot true hs d).1 = .error .typeError := by
  obtain ⟨s, e, h1, h2, h3, h4, h5⟩ := C82_stale_false argsort
  refine ⟨s, e, h1, h2, bigSquare, h3, fun c sr sn name => ⟨.ring bigSquare, ?_, Or.inl h4, ?_, fun _ => rfl, fun _ _ => rfl⟩⟩
  · cases sr <;> cases sn <;> simp [combInitPlot, addIf, addArtist, artistsOf, List.getElem?_append]
  · rintro (h | ⟨i, hi, h⟩)
    · exact h5 h
    · have hl : i < 4 := hi
      obtain ⟨t, t0, t1, ht⟩ := h
      interval_cases i <;> simp [bigSquare, corner] at ht
      have := ht.1
      norm_num at this

end Starworlds
