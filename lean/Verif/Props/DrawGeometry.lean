import Verif.Props.Draw
import Verif.Spec.DrawGeometry
import Verif.Proofs.Winding
import Mathlib.Data.Nat.Sqrt

/-! # C113, C114, C115: drawings of geometries, clusters and admissible kernels -/

namespace Starworlds

open Spec

/-! ## C113 -/

theorem drawParts_ok (clip : PolyG → Box → ShGeom) (xlim ylim : Lim) (ps : List PolyG) :
    ∀ (hs : List Handle) (c : Canvas), (∀ n : Nat, some n ∈ hs → n < c.length) →
      (∀ p ∈ ps, ∃ q, clipPart clip xlim ylim p = .polygon q) →
      ∃ hs' c', drawParts clip xlim ylim ps (hs, c) = (.ok hs', c') ∧ (∀ k < c.length, c'[k]? = c[k]?) ∧
        ∀ x, x ∈ coveredBy hs' c' ↔ (x ∈ coveredBy hs c ∨ ∃ p ∈ ps, ∃ q, clipPart clip xlim ylim p = .polygon q ∧ x ∈ filled q.exterior) := by
  induction ps with
  | nil => intro hs c _ _; exact ⟨hs, c, rfl, fun _ _ => rfl, by simp⟩
  | cons p ps ih =>
    intro hs c hc hp
    obtain ⟨q, hq⟩ := hp p (by simp)
    obtain ⟨hs', c', e, h1, h2⟩ := ih (hs ++ [some c.length]) (c ++ [.ring q.exterior]) (by
      intro n hn
      simp only [List.mem_append, List.mem_singleton, Option.some.injEq] at hn
      simp only [List.length_append, List.length_singleton]
      rcases hn with hn | rfl
      · have := hc n hn; omega
      · omega) fun p' hp' => hp p' (by simp [hp'])
    refine ⟨hs', c', ?_, ?_, ?_⟩
    · rw [← e]
      simp only [drawParts, hq, addArtist]
    · intro k hk
      rw [h1 k (by simp; omega), List.getElem?_append_left hk]
    · intro x
      rw [h2]
      have key : x ∈ coveredBy (hs ++ [some c.length]) (c ++ [.ring q.exterior]) ↔ x ∈ coveredBy hs c ∨ x ∈ filled q.exterior := by
        have e1 : artistsOf (hs ++ [some c.length]) (c ++ [.ring q.exterior]) = artistsOf hs c ++ [.ring q.exterior] := by
          rw [← artistsOf_congr (hs := hs) (c := c) (d := c ++ [.ring q.exterior])
            fun n hn => List.getElem?_append_left (hc n hn)]
          simp [artistsOf]
        simp only [coveredBy, e1, List.mem_append, List.mem_singleton, Set.mem_ofPred_eq]
        constructor
        · rintro ⟨a, ha | rfl, hx⟩
          · exact .inl ⟨a, ha, hx⟩
          · exact .inr hx
        · rintro (⟨a, ha, hx⟩ | hx)
          · exact ⟨a, .inl ha, hx⟩
          · exact ⟨_, .inr rfl, hx⟩
      rw [key]
      constructor
      · rintro ((h | h) | ⟨p', hp', q', h⟩)
        · exact .inl h
        · exact .inr ⟨p, by simp, q, hq, h⟩
        · exact .inr ⟨p', by simp [hp'], q', h⟩
      · rintro (h | ⟨p', hp', q', h3, h4⟩)
        · exact .inl (.inl h)
        · rcases List.mem_cons.1 hp' with rfl | hp'
          · rw [hq] at h3
            cases h3
            exact .inl (.inr h4)
          · exact .inr ⟨p', hp', q', h3, h4⟩

/-- `draw_shapely_polygon` in terms of the parts. -/
theorem drawShapely_parts (clip : PolyG → Box → ShGeom) (g : ShGeom) (hg : g ≠ .thin) :
    ∃ ps : List PolyG, (∀ p, p ∈ ps ↔ IsPart p g) ∧ ∀ xlim ylim c, drawShapely clip g xlim ylim c = drawParts clip xlim ylim ps ([], c) := by
  cases g with
  | polygon p => exact ⟨[p], fun q => by simp [IsPart], fun _ _ _ => rfl⟩
  | multi parts => exact ⟨parts.filterMap id, fun q => by simp [IsPart], fun _ _ _ => rfl⟩
  | thin => exact absurd rfl hg

theorem geomArea_parts (g : ShGeom) (x : Pt ℝ) : x ∈ geomArea g ↔ ∃ p, IsPart p g ∧ x ∈ polyArea p := by
  cases g with
  | polygon p => simp [geomArea, IsPart]
  | multi parts => rfl
  | thin => simp [geomArea, IsPart]

/-- C113 (partial): for a Polygon, MultiPolygon or collection without holes, of which every clipped polygon is a Polygon without
holes, `draw_shapely_polygon` draws exactly the points of its polygons that are within the limits, and nothing that was drawn
before changes. Missing: holes are drawn (`C113_hole_false`); a polygon of which the limits leave several parts, or only a
point or line, and a geometry without area, is an exception (`C113_clip_false`, `C113_thin_false`). -/
theorem C113_partial (clip : PolyG → Box → ShGeom) (hclip : ClipOk clip) (g : ShGeom) (hg : WithoutHoles g) (xlim ylim : Lim) (c : Canvas)
    (hq : ∀ x ∈ xlim, ∀ y ∈ ylim, ∀ p, IsPart p g → ∃ q, clip p ⟨(x.1 - 1, y.1 - 1), (x.2 + 1, y.2 + 1)⟩ = .polygon q ∧ q.holes = []) :
    ∃ hs, (drawShapely clip g xlim ylim c).1 = .ok hs ∧
      coveredBy hs (drawShapely clip g xlim ylim c).2 ∩ window xlim ylim = geomArea g ∩ window xlim ylim ∧
      ∀ k < c.length, (drawShapely clip g xlim ylim c).2[k]? = c[k]? := by
  have hth : g ≠ .thin := by rintro rfl; exact hg
  have hno : ∀ p, IsPart p g → p.holes = [] := by
    cases g with
    | polygon q => rintro p rfl; exact hg
    | multi parts => exact hg
    | thin => exact fun p h => h.elim
  obtain ⟨ps, hps, e⟩ := drawShapely_parts clip g hth
  have hsh : ∀ p, IsPart p g → ∃ q, clipPart clip xlim ylim p = .polygon q ∧ q.holes = [] ∧
      polyArea q ∩ window xlim ylim = polyArea p ∩ window xlim ylim := by
    intro p hp
    have h1 : (xlim = none ∨ ylim = none) → clipPart clip xlim ylim p = .polygon p := by
      rintro (rfl | rfl)
      · cases ylim <;> rfl
      · cases xlim <;> rfl
    rcases xlim with _ | x
    · exact ⟨p, h1 (.inl rfl), hno p hp, rfl⟩
    rcases ylim with _ | y
    · exact ⟨p, h1 (.inr rfl), hno p hp, rfl⟩
    obtain ⟨q, h2, h3⟩ := hq x rfl y rfl p hp
    refine ⟨q, h2, h3, ?_⟩
    rw [(hclip _ _ _ h2).1]
    ext z
    simp only [Set.mem_inter_iff, and_assoc]
    refine ⟨fun ⟨a, _, b⟩ => ⟨a, b⟩, fun ⟨a, b⟩ => ⟨a, ?_, b⟩⟩
    obtain ⟨⟨b1, b2⟩, b3, b4⟩ : (x.1 ≤ z.1 ∧ z.1 ≤ x.2) ∧ (y.1 ≤ z.2 ∧ z.2 ≤ y.2) := ⟨b.1 x rfl, b.2 y rfl⟩
    exact ⟨by simp only []; linarith, by simp only []; linarith, by simp only []; linarith, by simp only []; linarith⟩
  obtain ⟨hs, c', e1, h1, h2⟩ := drawParts_ok clip xlim ylim ps [] c (by simp) fun p hp => by
    obtain ⟨q, hq, _⟩ := hsh p ((hps p).1 hp)
    exact ⟨q, hq⟩
  rw [e, e1]
  refine ⟨hs, rfl, ?_, h1⟩
  have full : ∀ q : PolyG, q.holes = [] → polyArea q = filled q.exterior := by
    intro q hq
    ext x
    simp [polyArea, hq]
  ext x
  rw [Set.mem_inter_iff, Set.mem_inter_iff, h2, geomArea_parts]
  constructor
  · rintro ⟨h | ⟨p, hp, q, h3, h4⟩, hx⟩
    · simp [coveredBy, artistsOf] at h
    · obtain ⟨q', a1, a2, a3⟩ := hsh p ((hps p).1 hp)
      rw [a1] at h3
      cases h3
      have := a3.subset ⟨by rw [full q a2]; exact h4, hx⟩
      exact ⟨⟨p, (hps p).1 hp, this.1⟩, hx⟩
  · rintro ⟨⟨p, hp, h3⟩, hx⟩
    obtain ⟨q', a1, a2, a3⟩ := hsh p hp
    have := a3.symm.subset ⟨h3, hx⟩
    refine ⟨.inr ⟨p, (hps p).2 hp, q', a1, ?_⟩, hx⟩
    rw [← full q' a2]
    exact this.1

/-- Two squares; the point between them is not covered. -/
example (clip : PolyG → Box → ShGeom) (hclip : ClipOk clip) :
    ∃ hs, (drawShapely clip (.multi [some ⟨bigSquare, []⟩, none, some ⟨farSquare, []⟩]) none none []).1 = .ok hs ∧
      (0 : Pt ℝ) ∈ coveredBy hs (drawShapely clip (.multi [some ⟨bigSquare, []⟩, none, some ⟨farSquare, []⟩]) none none []).2 := by
  obtain ⟨hs, h1, h2, _⟩ := C113_partial clip hclip (.multi [some ⟨bigSquare, []⟩, none, some ⟨farSquare, []⟩])
    (by simp [WithoutHoles]) none none [] (by simp)
  refine ⟨hs, h1, (h2.symm.subset ⟨⟨⟨bigSquare, []⟩, by simp, ?_, by simp⟩, by simp [window]⟩).1⟩
  refine .inl ((C37_interior _ _).1 ?_)
  norm_num [bigSquare, polyLocation, boundsOf, polyContains, ringContains, onSegB, rayCrosses, edgesOf, ringOf, List.countP, List.countP.go]

/-- The square of side 8 about 0. -/
def outerSquare : List (Pt ℝ) := [(4, -4), (4, 4), (-4, 4), (-4, -4)]

/-- C113 is false of polygons with holes: a square frame, as the union of four bars, is drawn as the whole square, so the point
in the middle is covered although it does not belong to the polygon. -/
theorem C113_hole_false (clip : PolyG → Box → ShGeom) :
    ∃ hs, (drawShapely clip (.polygon ⟨outerSquare, [bigSquare]⟩) none none []).1 = .ok hs ∧
      (0 : Pt ℝ) ∈ coveredBy hs (drawShapely clip (.polygon ⟨outerSquare, [bigSquare]⟩) none none []).2 ∧
      (0 : Pt ℝ) ∉ geomArea (.polygon ⟨outerSquare, [bigSquare]⟩) := by
  refine ⟨[some 0], rfl, ⟨.ring outerSquare, by simp [drawShapely, drawParts, clipPart, addArtist, artistsOf], .inl ((C37_interior _ _).1 ?_)⟩, ?_⟩
  · norm_num [outerSquare, polyLocation, boundsOf, polyContains, ringContains, onSegB, rayCrosses, edgesOf, ringOf, List.countP, List.countP.go]
  · rintro ⟨_, h⟩
    refine h bigSquare (by simp) ((C37_interior _ _).1 ?_)
    norm_num [bigSquare, polyLocation, boundsOf, polyContains, ringContains, onSegB, rayCrosses, edgesOf, ringOf, List.countP, List.countP.go]

/-- A polygon like the letter U. -/
def letterU : List (Pt ℝ) := [(0, 0), (30, 0), (30, 30), (20, 30), (20, 10), (10, 10), (10, 30), (0, 30)]

theorem letterU_gap {y : ℝ} (h : 20 ≤ y) (h' : y ≤ 26) : ((15, y) : Pt ℝ) ∉ filled letterU := by
  have hr : ∀ z : ℝ, 20 ≤ z → z ≤ 26 → ¬ OnRing letterU (15, z) := by
    rintro z h1 h2 ⟨i, hi, t, t0, t1, ht⟩
    have hl : i < 8 := hi
    have e1 := congrArg Prod.fst ht
    have e2 := congrArg Prod.snd ht
    interval_cases i <;> simp [letterU, corner] at e1 e2 <;> linarith
  rintro (h1 | h1)
  · have := (inside_connected (v := letterU) (S := (fun z : ℝ => ((15, z) : Pt ℝ)) '' Set.Icc 20 26)
      (isPreconnected_Icc.image _ (by fun_prop)) (by rintro _ ⟨z, hz, rfl⟩; exact hr z hz.1 hz.2) ⟨y, ⟨h, h'⟩, rfl⟩
      ⟨23, ⟨by norm_num, by norm_num⟩, rfl⟩).1 h1
    have h2 : polyLocation letterU (15, 23) = 1 := by
      norm_num [letterU, polyLocation, boundsOf, polyContains, ringContains, onSegB, rayCrosses, edgesOf, ringOf, List.countP, List.countP.go]
    rw [← C37_interior, h2] at this
    norm_num at this
  · exact hr y h h' h1

/-- C113 is false with limits: of the letter U with `ylim = [21, 25]` two separate parts remain, which are no Polygon, and
AttributeError is raised, whatever shapely returns for them. -/
theorem C113_clip_false (clip : PolyG → Box → ShGeom) (hclip : ClipOk clip) (c : Canvas) :
    (drawShapely clip (.polygon ⟨letterU, []⟩) (some (0, 30)) (some (21, 25)) c).1 = .error .attributeError := by
  have key : ∀ q, clip ⟨letterU, []⟩ ⟨(0 - 1, 21 - 1), (30 + 1, 25 + 1)⟩ ≠ .polygon q := by
    intro q hq
    obtain ⟨h1, h2⟩ := hclip _ _ _ hq
    have hin : ∀ x : ℝ, (-1 < x ∧ x < 31) → Inside letterU (x, 23) → ((x, 23) : Pt ℝ) ∈ interior (polyArea q) := by
      intro x hx hi
      rw [h1]
      refine mem_interior.2 ⟨{p | Inside letterU p} ∩ {p : Pt ℝ | (-1 < p.1 ∧ p.1 < 31) ∧ 20 < p.2 ∧ p.2 < 26}, ?_, ?_, ?_⟩
      · rintro p ⟨a, ⟨b1, b2⟩, b3, b4⟩
        refine ⟨⟨.inl a, by simp⟩, ?_, ?_, ?_, ?_⟩ <;> simp only [] <;> linarith
      · refine (inside_open letterU).inter ?_
        refine ((isOpen_lt continuous_const continuous_fst).inter (isOpen_lt continuous_fst continuous_const)).inter
          ((isOpen_lt continuous_const continuous_snd).inter (isOpen_lt continuous_snd continuous_const))
      · exact ⟨hi, hx, by norm_num, by norm_num⟩
    have a1 : Inside letterU (5, 23) := by
      refine (C37_interior _ _).1 ?_
      norm_num [letterU, polyLocation, boundsOf, polyContains, ringContains, onSegB, rayCrosses, edgesOf, ringOf, List.countP, List.countP.go]
    have a2 : Inside letterU (25, 23) := by
      refine (C37_interior _ _).1 ?_
      norm_num [letterU, polyLocation, boundsOf, polyContains, ringContains, onSegB, rayCrosses, edgesOf, ringOf, List.countP, List.countP.go]
    obtain ⟨z, hz, hz1, hz2⟩ := h2 {p : Pt ℝ | p.1 < 15} {p : Pt ℝ | 15 < p.1} (isOpen_lt continuous_fst continuous_const)
      (isOpen_lt continuous_const continuous_fst) (by
        intro p hp
        rcases lt_trichotomy p.1 15 with h | h | h
        · exact .inl h
        · exfalso
          have hp' := interior_subset hp
          rw [h1] at hp'
          obtain ⟨⟨b1, _⟩, _, _, b2, b3⟩ := hp'
          have e : p = (15, p.2) := Prod.ext h rfl
          rw [e] at b1
          simp only [] at b2 b3
          exact letterU_gap (by linarith) (by linarith) b1
        · exact .inr h) ⟨(5, 23), hin 5 (by norm_num) a1, by show (5 : ℝ) < 15; norm_num⟩
      ⟨(25, 23), hin 25 (by norm_num) a2, by show (15 : ℝ) < 25; norm_num⟩
    exact lt_asymm (show z.1 < 15 from hz1) hz2
  simp only [drawShapely, drawParts]
  cases hq : clipPart clip (some (0, 30)) (some (21, 25)) ⟨letterU, []⟩ with
  | polygon q => exact absurd hq (key q)
  | multi ps => rfl
  | thin => rfl

/-- C113 is false of points and lines: AttributeError. -/
theorem C113_thin_false (clip : PolyG → Box → ShGeom) (xlim ylim : Lim) (c : Canvas) :
    drawShapely clip .thin xlim ylim c = (.error .attributeError, c) := rfl

open scoped Classical in
/-- There is an `intersection` with the law: it returns a Polygon without any vertex if nothing is left, and else no Polygon. -/
example : ClipOk fun p b => if polyArea p ∩ boxArea b = ∅ then .polygon ⟨[], []⟩ else .multi [] := by
  intro p b q h
  simp only [] at h
  split at h
  · rename_i he
    cases h
    have e : polyArea ⟨[], []⟩ = ∅ := by
      ext x
      simp [polyArea, filled, Inside, OnRing]
    rw [he, e]
    exact ⟨rfl, by simp [isPreconnected_empty]⟩
  · cases h

/-! ## C114 -/

/-- C114 is false of every cluster: `ObstacleCluster.draw` raises an exception, for every cluster as it is made by the constructor,
also after its `cluster_obstacle` has been set. -/
theorem C114_false (ok : Bool) (rnd : Shape) (obstacles : List Target) (co : Option Target)
    (h : newClusterObstacle obstacles = .ok co ∨ ∃ t c0, co = some t ∧ newClusterObstacle obstacles = .ok c0) (ax : AxVal) (c : Canvas) :
    ∃ e, (clusterDraw ok rnd co obstacles ax c).1 = .error e := by
  have hl : ∃ t u ts, co.toList ++ obstacles = t :: u :: ts := by
    have ho : obstacles ≠ [] := by
      rintro rfl
      rcases h with h | ⟨_, _, _, h⟩ <;> simp [newClusterObstacle] at h
    obtain ⟨u, ts, rfl⟩ := List.exists_cons_of_ne_nil ho
    cases co with
    | some t => exact ⟨t, u, ts, rfl⟩
    | none =>
      rcases h with h | ⟨_, _, h, _⟩
      · cases ts with
        | nil => simp [newClusterObstacle] at h
        | cons v ts => exact ⟨u, v, ts, rfl⟩
      · cases h
  obtain ⟨t, u, ts, hl⟩ := hl
  unfold clusterDraw
  rw [hl]
  unfold drawEach
  rcases targetDraw ok rnd t ax c with ⟨r, d⟩
  cases r with
  | error e => exact ⟨e, rfl⟩
  | ok p => exact ⟨.attributeError, rfl⟩

/-- C114 (partial): until the exception only the first object is drawn: the cluster obstacle, or the first obstacle if there is
none. If that can be drawn, the exception is AttributeError. Missing: the other obstacles. -/
theorem C114_first_partial (ok : Bool) (rnd : Shape) (co : Option Target) (obstacles : List Target) (t u : Target) (ts : List Target)
    (h : co.toList ++ obstacles = t :: u :: ts) (ax : AxVal) (c : Canvas) :
    (clusterDraw ok rnd co obstacles ax c).2 = (targetDraw ok rnd t ax c).2 ∧
      ∀ p, (targetDraw ok rnd t ax c).1 = .ok p → (clusterDraw ok rnd co obstacles ax c).1 = .error .attributeError := by
  unfold clusterDraw
  rw [h]
  unfold drawEach
  rcases targetDraw ok rnd t ax c with ⟨r, d⟩
  cases r with
  | error e => exact ⟨rfl, fun p hp => by cases hp⟩
  | ok p => exact ⟨rfl, fun _ _ => rfl⟩

/-- C114 (partial): without axes the cluster is drawn on a new figure, whatever was drawn before. Missing: as above, only its first object. -/
theorem C114_new_figure_partial (ok : Bool) (rnd : Shape) (co : Option Target) (obstacles : List Target)
    (h : co.toList ++ obstacles ≠ []) (c : Canvas) :
    clusterDraw ok rnd co obstacles .none c = clusterDraw ok rnd co obstacles .axes [] := by
  unfold clusterDraw
  cases hl : co.toList ++ obstacles with
  | nil => exact absurd hl h
  | cons t ts => cases t <;> rfl

/-- Two combinations, drawn on a new figure. -/
example (c : Canvas) : clusterDraw true [] none [.comb [bigSquare] 0 "1", .comb [bigSquare] (1, 1) "2"] .none c =
    clusterDraw true [] none [.comb [bigSquare] 0 "1", .comb [bigSquare] (1, 1) "2"] .axes [] :=
  C114_new_figure_partial true [] none _ (by simp) c

/-- A cluster of one square, with an older matplotlib. -/
example : (clusterDraw true [] (some (.comb [bigSquare] 0 "1")) [.comb [bigSquare] 0 "1"] .none []).1 = .error .attributeError :=
  (C114_first_partial true [] (some (.comb [bigSquare] 0 "1")) [.comb [bigSquare] 0 "1"] _ _ _ rfl .none []).2 _ rfl

/-! ## C115 -/

/-- The panel of cluster number `i` of `n`. -/
def panelOf (n i : Nat) : Nat × Nat := (i / nCol n, i % nCol n)

/-- C115: every cluster has a panel, and no two clusters have the same. -/
theorem C115_panels (n : Nat) : (∀ i < n, (panelOf n i).1 < nCol n ∧ (panelOf n i).2 < nCol n) ∧
    ∀ i j, panelOf n i = panelOf n j → i = j := by
  have hpos : 0 < nCol n := Nat.succ_pos _
  refine ⟨fun i hi => ⟨?_, Nat.mod_lt _ hpos⟩, fun i j h => ?_⟩
  · show i / nCol n < nCol n
    rw [Nat.div_lt_iff_lt_mul hpos]
    exact lt_of_lt_of_le hi (Nat.lt_succ_sqrt n).le
  · simp only [panelOf, Prod.mk.injEq] at h
    rw [← Nat.div_add_mod i (nCol n), ← Nat.div_add_mod j (nCol n), h.1, h.2]

theorem drawParts_plain (clip : PolyG → Box → ShGeom) (ps : List PolyG) : ∀ (hs : List Handle) (c : Canvas),
    ∃ hs', drawParts clip none none ps (hs, c) = (.ok hs', c ++ ps.map fun p => .ring p.exterior) := by
  induction ps with
  | nil => intro hs c; exact ⟨hs, by simp [drawParts]⟩
  | cons p ps ih =>
    intro hs c
    obtain ⟨hs', e⟩ := ih (hs ++ [some c.length]) (c ++ [.ring p.exterior])
    exact ⟨hs', by simp only [drawParts, clipPart, addArtist, e]; simp⟩

/-- The artists for the kernels of one cluster. -/
noncomputable def kernelArtists (cl : AdmCluster) : Except PyErr Canvas :=
  match drawKernels cl [] with
  | (.ok _, c) => .ok c
  | (.error e, _) => .error e

theorem admLoop_ok (n : Nat) (hn : 0 < n) (cls : List AdmCluster) : ∀ (i : Nat) (grid : Nat → Nat → Canvas),
    i + cls.length ≤ n * n → (∀ j, i ≤ j → grid (j / n) (j % n) = []) → (∀ cl ∈ cls, ∃ c, kernelArtists cl = .ok c) →
    ∃ grid', admLoop n cls i grid = .ok grid' ∧ (∀ k cl, cls[k]? = some cl → kernelArtists cl = .ok (grid' ((i + k) / n) ((i + k) % n))) ∧
      ∀ r col, (∀ k < cls.length, ¬ (r = (i + k) / n ∧ col = (i + k) % n)) → grid' r col = grid r col := by
  induction cls with
  | nil => intro i grid _ _ _; exact ⟨grid, rfl, by simp, fun _ _ _ => rfl⟩
  | cons cl cls ih =>
    intro i grid hi he hk
    obtain ⟨c, hc⟩ := hk cl (by simp)
    have hlt : i < n * n := by simp only [List.length_cons] at hi; omega
    have hrow : i / n < n := by rw [Nat.div_lt_iff_lt_mul hn]; exact hlt
    have hcol : i % n < n := Nat.mod_lt _ hn
    have inj : ∀ a b, (a / n = b / n ∧ a % n = b % n) → a = b := by
      intro a b h
      rw [← Nat.div_add_mod a n, ← Nat.div_add_mod b n, h.1, h.2]
    have hd : ∃ u, drawKernels cl (grid (i / n) (i % n)) = (.ok u, c) := by
      rw [he i le_rfl]
      unfold kernelArtists at hc
      rcases h : drawKernels cl [] with ⟨r, d⟩
      rw [h] at hc
      cases r with
      | error e => cases hc
      | ok u => cases hc; exact ⟨u, rfl⟩
    obtain ⟨u, hd⟩ := hd
    obtain ⟨grid', e, h1, h2⟩ := ih (i + 1) (fun r k => if r = i / n ∧ k = i % n then c else grid r k)
      (by simp only [List.length_cons] at hi; omega) (by
        intro j hj
        have hne : ¬ (j / n = i / n ∧ j % n = i % n) := by
          intro h
          have := inj _ _ h
          omega
        simp only [if_neg hne]
        exact he j (by omega)) fun cl' h => hk cl' (by simp [h])
    refine ⟨grid', ?_, ?_, ?_⟩
    · rw [← e]
      conv_lhs => unfold admLoop
      simp only [hrow, hcol, and_self, if_true, hd]
    · intro k cl' hk'
      cases k with
      | zero =>
        simp only [List.getElem?_cons_zero, Option.some.injEq] at hk'
        subst hk'
        rw [hc, h2]
        · simp
        · rintro k _ h
          have := inj _ _ h
          omega
      | succ k =>
        rw [List.getElem?_cons_succ] at hk'
        have := h1 k cl' hk'
        rwa [show i + 1 + k = i + (k + 1) by omega] at this
    · intro r col h
      rw [h2]
      · have := h 0 (by simp)
        rw [if_neg (by simpa using this)]
      · intro k hk'
        have := h (k + 1) (by simpa using hk')
        rwa [show i + (k + 1) = i + 1 + k by omega] at this

theorem kernelArtists_plain (cl : AdmCluster) (h : PlainKernel cl) :
    ∃ c, kernelArtists cl = .ok c ∧ {x | ∃ a ∈ c, x ∈ artRegion a} = admArea cl := by
  obtain ⟨kernel, kp⟩ := cl
  rcases h with h | ⟨g, h, hg, hp⟩
  · simp only [] at h
    subst h
    exact ⟨[], rfl, by simp [admArea]⟩
  · simp only [] at h
    subst h
    have hth : g ≠ .thin := by rintro rfl; exact hg
    have hno : ∀ p, IsPart p g → p.holes = [] := by
      cases g with
      | polygon q => rintro p rfl; exact hg
      | multi parts => exact hg
      | thin => exact fun p h => h.elim
    obtain ⟨ps, hps, e⟩ := drawShapely_parts (fun p _ => .polygon p) g hth
    obtain ⟨hs, e1⟩ := drawParts_plain (fun p _ => .polygon p) ps [] []
    have hreg : ∀ x, (∃ a ∈ ps.map fun p => Artist.ring p.exterior, x ∈ artRegion a) ↔ x ∈ geomArea g := by
      intro x
      rw [geomArea_parts]
      simp only [List.mem_map, exists_exists_and_eq_and]
      refine exists_congr fun p => ?_
      rw [hps]
      refine and_congr_right fun hp => ?_
      show x ∈ filled p.exterior ↔ _
      simp [polyArea, hno p hp]
    cases kp with
    | none =>
      refine ⟨ps.map fun p => .ring p.exterior, ?_, ?_⟩
      · simp only [kernelArtists, drawKernels, e, e1, List.nil_append]
      · ext x
        rw [Set.mem_ofPred_eq, hreg]
        simp [admArea]
    | some qs =>
      have h3 := hp qs rfl
      refine ⟨(ps.map fun p => .ring p.exterior) ++ [.ring qs], ?_, ?_⟩
      · have hl : ¬ (qs.length = 1 ∨ qs.length = 2) := by omega
        simp only [kernelArtists, drawKernels, e, e1, List.nil_append, if_neg hl]
        simp only [drawShapely, drawParts, clipPart, addArtist]
      · ext x
        simp only [Set.mem_ofPred_eq, List.mem_append, List.mem_singleton, or_and_right, exists_or, exists_eq_left]
        rw [hreg]
        simp [admArea, artRegion]

theorem valid_iff (cl : AdmCluster) : cl.valid = true ↔ HasKernel cl := by
  obtain ⟨kernel, kp⟩ := cl
  cases kernel <;> simp [AdmCluster.valid, HasKernel]

/-- C115 (partial): if there is a cluster with non-empty admissible kernel, and the kernels and the kernel points of all such
clusters are points or polygons without holes, then `draw_adm_ker` returns a square array of axes; each such cluster has a panel of its
own, which shows exactly its kernel and kernel points, and the other panels are empty. Missing: kernel points that are
no polygon (`C115_points_false`), a kernel that is a segment (`C115_line_false`), and no such cluster (`C115_none_false`). -/
theorem C115_partial (clusters : List AdmCluster) (hne : ∃ cl ∈ clusters, HasKernel cl)
    (hk : ∀ cl ∈ clusters, HasKernel cl → PlainKernel cl) :
    ∃ n grid, drawAdmKer clusters = .ok (some (n, grid)) ∧
      ∃ cls : List AdmCluster, cls.Sublist clusters ∧ (∀ cl ∈ clusters, HasKernel cl ↔ cl ∈ cls) ∧
      ∃ panel : Nat → Nat × Nat, Function.Injective panel ∧
        (∀ i cl, cls[i]? = some cl → (panel i).1 < n ∧ (panel i).2 < n ∧
          {x | ∃ a ∈ grid (panel i).1 (panel i).2, x ∈ artRegion a} = admArea cl) ∧
        ∀ r k, (∀ i < cls.length, panel i ≠ (r, k)) → grid r k = [] := by
  generalize hv : clusters.filter AdmCluster.valid = valid
  have hmem : ∀ cl, cl ∈ valid ↔ cl ∈ clusters ∧ HasKernel cl := by
    intro cl
    rw [← hv, List.mem_filter, valid_iff]
  have hne' : valid ≠ [] := by
    obtain ⟨cl, h1, h2⟩ := hne
    intro h
    have := (hmem cl).2 ⟨h1, h2⟩
    rw [h] at this
    cases this
  have hk' : ∀ cl ∈ valid, ∃ c, kernelArtists cl = .ok c := fun cl h => by
    obtain ⟨c, hc, _⟩ := kernelArtists_plain cl (hk cl ((hmem cl).1 h).1 ((hmem cl).1 h).2)
    exact ⟨c, hc⟩
  obtain ⟨p1, p2⟩ := C115_panels valid.length
  obtain ⟨grid, e, h1, h2⟩ := admLoop_ok (nCol valid.length) (Nat.succ_pos _) valid 0 (fun _ _ => []) (by
    rw [Nat.zero_add]; exact (Nat.lt_succ_sqrt valid.length).le) (fun _ _ => rfl) hk'
  refine ⟨nCol valid.length, grid, ?_, valid, hv ▸ List.filter_sublist, fun cl h => ⟨fun h' => (hmem cl).2 ⟨h, h'⟩, fun h' => ((hmem cl).1 h').2⟩,
    panelOf valid.length, fun i j => p2 i j, ?_, ?_⟩
  · have hn : nCol valid.length ≠ 1 := by
      have h0 : 0 < valid.length := List.length_pos_iff.2 hne'
      have : 0 < Nat.sqrt valid.length := Nat.sqrt_pos.2 h0
      unfold nCol
      omega
    simp only [drawAdmKer, hv, e, if_neg hn]
  · intro i cl hi
    have hl : i < valid.length := by
      by_contra h
      rw [List.getElem?_eq_none (Nat.le_of_not_lt h)] at hi
      cases hi
    have := h1 i cl hi
    rw [Nat.zero_add] at this
    have hc := (hmem cl).1 (List.mem_of_getElem? hi)
    obtain ⟨c, hc1, hc2⟩ := kernelArtists_plain cl (hk cl hc.1 hc.2)
    rw [this] at hc1
    cases hc1
    exact ⟨(p1 i hl).1, (p1 i hl).2, hc2⟩
  · intro r k h
    refine h2 r k fun i hi hh => h i hi ?_
    rw [Nat.zero_add] at hh
    exact Prod.ext hh.1.symm hh.2.symm

/-- Two clusters: the panels of a square and of a point. -/
example : ∃ n grid, drawAdmKer [⟨.geom (.polygon ⟨bigSquare, []⟩), none⟩, ⟨.empty, none⟩, ⟨.point, none⟩] = .ok (some (n, grid)) := by
  obtain ⟨n, grid, h, _⟩ := C115_partial [⟨.geom (.polygon ⟨bigSquare, []⟩), none⟩, ⟨.empty, none⟩, ⟨.point, none⟩]
    ⟨_, List.mem_cons_self, by simp [HasKernel]⟩ (by
      intro cl h hk
      simp only [List.mem_cons, List.not_mem_nil, or_false] at h
      rcases h with rfl | rfl | rfl
      · exact .inr ⟨_, rfl, rfl, by simp⟩
      · exact absurd rfl hk.2
      · exact .inl rfl)
  exact ⟨n, grid, h⟩

/-- Five clusters in a square of nine panels. -/
example : nCol 5 = 3 ∧ (List.range 5).map (panelOf 5) = [(0, 0), (0, 1), (0, 2), (1, 0), (1, 1)] := by
  decide +kernel

/-- C115 is false if the kernel points are one or two points: ValueError. -/
theorem C115_points_false (p q : Pt ℝ) (g : PolyG) :
    drawAdmKer [⟨.geom (.polygon g), some [p, q]⟩] = .error .valueError := by
  have e : ([⟨.geom (.polygon g), some [p, q]⟩] : List AdmCluster).filter AdmCluster.valid = [⟨.geom (.polygon g), some [p, q]⟩] := rfl
  simp [drawAdmKer, e, admLoop, nCol, drawKernels, drawShapely, drawParts, clipPart]

/-- C115 is false if an admissible kernel is a segment: AttributeError. -/
theorem C115_line_false (kp : Option (List (Pt ℝ))) : drawAdmKer [⟨.geom .thin, kp⟩] = .error .attributeError := by
  have e : ([⟨.geom .thin, kp⟩] : List AdmCluster).filter AdmCluster.valid = [⟨.geom .thin, kp⟩] := rfl
  simp [drawAdmKer, e, admLoop, nCol, drawKernels, drawShapely]

/-- C115 is false without admissible kernels: there is a single axes object in place of an array. -/
theorem C115_none_false (kp : Option (List (Pt ℝ))) : drawAdmKer [⟨.empty, kp⟩, ⟨.missing, kp⟩] = .ok none := by
  simp [drawAdmKer, AdmCluster.valid, admLoop, nCol]

end Starworlds
