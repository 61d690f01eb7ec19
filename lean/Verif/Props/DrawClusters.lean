import Verif.Props.DrawGeometry
import Verif.Spec.DrawClusters
import Verif.Proofs.BoxRing
import Mathlib.Combinatorics.Pigeonhole

/-! # C125: the pictures of a clustering -/

namespace Starworlds

open Spec

/-- The obstacles are those with the given shapes, poses and reference points. -/
def ObsOk (base : Nat → Shape) (mx : Nat → Option Pose × Pt ℝ) (obs : Nat → ObState) : Prop :=
  (∀ i, PolCacheOk (base i) (obs i)) ∧ (∀ i, (obs i).mm = (mx i).1) ∧ ∀ i, (obs i).xr = (mx i).2

/-- What `draw` does. -/
theorem drawCall_one {ok : Bool} {rnd : Shape} {o : DrawObj} {base : Shape} {s : ObState} (h : PolCacheOk base s) {sr sn : Bool}
    (hok : marked o.kind sr = true → ok = true) (c : Canvas) :
    ∃ hs s' c', drawCall ok rnd o s .global sr sn c = (.ok hs, s', c') ∧ Depicts o base s.mm s.xr .global sr sn hs c' ∧
      (∀ k < c.length, c'[k]? = c[k]?) ∧ c.length ≤ c'.length ∧ (∀ n : Nat, some n ∈ hs → n < c'.length) ∧
      (s' = s ∨ ∃ f, s' = (polygonCall s f).2) := by
  obtain ⟨h1, h2, h3, h4⟩ := initPlot_ok rnd o s.xr sr sn c
  obtain ⟨e, d⟩ := updatePlot_depicts ok o h sr sn hok _ .global (.inl rfl) _ h1
  obtain ⟨g1, g2⟩ := drawCall_old ok rnd o s .global sr sn c
  refine ⟨(initPlot rnd o s.xr sr sn c).1, _, _, by rw [drawCall_result]; simp only [e]; rfl, d, g1, g2, fun n hn => ?_, ?_⟩
  · have hg := (updatePlot_gentle ok o s (initPlot rnd o s.xr sr sn c).1 .global (initPlot rnd o s.xr sr sn c).2).1
    have := congrArg List.length hg
    simp only [List.length_map] at this
    rw [this]
    exact (h3 n hn).2
  · rcases updatePlot_state ok o s (initPlot rnd o s.xr sr sn c).1 .global (initPlot rnd o s.xr sr sn c).2 with h | h
    · exact .inl h
    · exact .inr ⟨_, h⟩

theorem ObsOk.update {base : Nat → Shape} {mx : Nat → Option Pose × Pt ℝ} {obs : Nat → ObState} (h : ObsOk base mx obs) (i : Nat) {s : ObState}
    (hs : s = obs i ∨ ∃ f, s = (polygonCall (obs i) f).2) : ObsOk base mx (Function.update obs i s) := obs_update h.1 h.2.1 h.2.2 i s hs

theorem depicts_later {o : DrawObj} {base : Shape} {mm : Option Pose} {xr : Pt ℝ} {f : Frame} {sr sn : Bool} {hs : List Handle} {c d : Canvas}
    (h : Depicts o base mm xr f sr sn hs c) (hl : ∀ n : Nat, some n ∈ hs → n < c.length) (hd : ∀ k < c.length, d[k]? = c[k]?) :
    Depicts o base mm xr f sr sn hs d := by
  obtain ⟨patch, h1, h2⟩ := h
  exact ⟨patch, h1, by rw [artistsOf_congr fun n hn => hd n (hl n hn)]; exact h2⟩

/-- One axes object is a later state of another one. -/
def Later (c d : Canvas) : Prop := (∀ k < c.length, d[k]? = c[k]?) ∧ c.length ≤ d.length

theorem Later.refl (c : Canvas) : Later c c := ⟨fun _ _ => rfl, le_rfl⟩

theorem Later.trans {c d e : Canvas} (h : Later c d) (g : Later d e) : Later c e :=
  ⟨fun k hk => (g.1 k (lt_of_lt_of_le hk h.2)).trans (h.1 k hk), h.2.trans g.2⟩

/-- The drawing is of an obstacle at the given pose. -/
def InkOk (os : Nat → DrawObj) (base : Nat → Shape) (mx : Nat → Option Pose × Pt ℝ) (c : Canvas) (k : Ink Nat) : Prop :=
  Depicts (os k.of) (base k.of) (mx k.of).1 (mx k.of).2 .global false false k.handles c ∧ ∀ n : Nat, some n ∈ k.handles → n < c.length

theorem InkOk.later {os : Nat → DrawObj} {base : Nat → Shape} {mx : Nat → Option Pose × Pt ℝ} {c d : Canvas} {k : Ink Nat}
    (h : InkOk os base mx c k) (hl : Later c d) : InkOk os base mx d k :=
  ⟨depicts_later h.1 h.2 hl.1, fun n hn => lt_of_lt_of_le (h.2 n hn) hl.2⟩

theorem drawMembers_ok (ok : Bool) (os : Nat → DrawObj) (rnd : Shape) (col : Colour) {base : Nat → Shape} {mx : Nat → Option Pose × Pt ℝ}
    (is : List Nat) : ∀ s : Sheet Nat, ObsOk base mx s.obs →
      ∃ obs c new, drawMembers ok os rnd col is s = .ok ⟨obs, c, s.inks ++ new⟩ ∧ ObsOk base mx obs ∧ Later s.canvas c ∧
        new.map (fun k => (k.of, k.colour)) = is.map (fun i => (i, col)) ∧ ∀ k ∈ new, InkOk os base mx c k := by
  induction is with
  | nil => intro s h; exact ⟨s.obs, s.canvas, [], by simp [drawMembers], h, .refl _, rfl, by simp⟩
  | cons i is ih =>
    intro s h
    obtain ⟨hs, s', c', e, d, l1, l2, l3, l4⟩ := drawCall_one (ok := ok) (rnd := rnd) (o := os i) (h.1 i) (sr := false) (sn := false)
      (by cases (os i).kind <;> simp [marked]) s.canvas
    obtain ⟨obs, c, new, e2, g1, g2, g3, g4⟩ := ih ⟨Function.update s.obs i s', c', s.inks ++ [⟨i, hs, col⟩]⟩ (h.update i l4)
    refine ⟨obs, c, ⟨i, hs, col⟩ :: new, ?_, g1, Later.trans ⟨l1, l2⟩ g2, by simp [g3], ?_⟩
    · rw [drawMembers]
      simp only [e, e2, List.append_assoc, List.singleton_append]
    · intro k hk
      rcases List.mem_cons.1 hk with rfl | hk
      · rw [h.2.1 i, h.2.2 i] at d
        exact InkOk.later (c := c') ⟨d, l3⟩ g2
      · exact g4 k hk

theorem drawColoured_ok (ok : Bool) (os : Nat → DrawObj) (rnd : Shape) (n : Nat) {base : Nat → Shape} {mx : Nat → Option Pose × Pt ℝ}
    (cls : List (List Nat)) : ∀ (j : Nat) (s : Sheet Nat), ObsOk base mx s.obs →
      ∃ obs c new, drawColoured ok os rnd n j cls s = .ok ⟨obs, c, s.inks ++ new⟩ ∧ ObsOk base mx obs ∧ Later s.canvas c ∧
        new.map (fun k => (k.of, k.colour)) = ((cls.zipIdx j).flatMap fun p => p.1.map fun i => (i, .rainbow (rainbowEntry n p.2))) ∧
        ∀ k ∈ new, InkOk os base mx c k := by
  induction cls with
  | nil => intro j s h; exact ⟨s.obs, s.canvas, [], by simp [drawColoured], h, .refl _, rfl, by simp⟩
  | cons cl cls ih =>
    intro j s h
    obtain ⟨obs, c, new, e, g1, g2, g3, g4⟩ := drawMembers_ok ok os rnd (.rainbow (rainbowEntry n j)) cl s h
    obtain ⟨obs', c', new', e', g1', g2', g3', g4'⟩ := ih (j + 1) ⟨obs, c, s.inks ++ new⟩ g1
    refine ⟨obs', c', new ++ new', ?_, g1', g2.trans g2', ?_, ?_⟩
    · simp only [drawColoured, e, bind, Except.bind, e', List.append_assoc]
    · simp only [List.map_append, g3, g3', List.zipIdx_cons, List.flatMap_cons]
    · intro k hk
      rcases List.mem_append.1 hk with hk | hk
      · exact (g4 k hk).later g2'
      · exact g4' k hk

/-- Different clusters, of at most 256, have different entries of the colour map. -/
theorem rainbow_apart {n i j : Nat} (hn : n ≤ 256) (hij : i < j) (hj : j < n) : rainbowEntry n i < rainbowEntry n j := by
  have h2 : ¬ n ≤ 1 := by omega
  simp only [rainbowEntry, if_neg h2]
  have hd : 0 < n - 1 := by omega
  have h1 : 256 * i / (n - 1) < 256 * j / (n - 1) := by
    rw [Nat.lt_div_iff_mul_lt hd]
    have := Nat.div_mul_le_self (256 * i) (n - 1)
    have e : (256 * i / (n - 1) + 1) * (n - 1) = 256 * i / (n - 1) * (n - 1) + (n - 1) := by ring
    omega
  have h3 : 256 * i / (n - 1) < 255 := by
    rw [Nat.div_lt_iff_lt_mul hd]
    omega
  omega

/-- C125 (partial), `draw_clustering`: after any history of the obstacles, for at most 256 clusters, every obstacle of every cluster is drawn
at its current pose, and nothing else; obstacles of one cluster have one colour, and those of different clusters different entries of the colour
map. Missing: more than 256 clusters, see `C125_colours_false`. -/
theorem C125_clustering_partial (ok : Bool) (os : Nat → DrawObj) (src : Nat → KernelSrc) (nr : Bool) (base : Nat → Shape)
    (mm : Nat → Option Pose) (xr : Nat → Pt ℝ) (eager static : Nat → Bool) (ops : List SceneOp) (rnd : Shape) (clusters : List (List Nat))
    (hn : clusters.length ≤ 256) :
    ∃ s colour, drawClustering ok os rnd (sceneRun ok os src nr (freshScene base mm xr eager static) ops).obs clusters = .ok s ∧
      s.inks.map (fun k => (k.of, k.colour)) = wantedInks clusters colour ∧
      (∀ i < clusters.length, ∀ j < clusters.length, i ≠ j → colour i ≠ colour j) ∧
      ∀ k ∈ s.inks, Depicts (os k.of) (base k.of) (lastPoint k.of (mm k.of) (xr k.of) ops).1 (lastPoint k.of (mm k.of) (xr k.of) ops).2
        .global false false k.handles s.canvas := by
  have h := sceneRun_ok (ok := ok) (os := os) src nr ops (freshScene_ok ok os base mm xr eager static)
  obtain ⟨obs, c, new, e, _, _, g3, g4⟩ := drawColoured_ok ok os rnd clusters.length clusters 0
    ⟨(sceneRun ok os src nr (freshScene base mm xr eager static) ops).obs, [], []⟩ ⟨h.cache, h.pose, h.ref⟩
  rw [List.nil_append] at e
  refine ⟨_, fun j => .rainbow (rainbowEntry clusters.length j), e, g3, fun i hi j hj hij => ?_, fun k hk => (g4 k hk).1⟩
  rw [Ne, Colour.rainbow.injEq]
  rcases lt_or_gt_of_ne hij with h | h
  · exact (rainbow_apart hn h hj).ne
  · exact (rainbow_apart hn h hi).ne'

theorem rainbow_same {n : Nat} (hn : 256 < n) : ∃ i j, i < j ∧ j < n ∧ rainbowEntry n i = rainbowEntry n j := by
  obtain ⟨i, hi, j, hj, hij, e⟩ := Finset.exists_ne_map_eq_of_card_lt_of_maps_to (s := Finset.range n) (t := Finset.range 256)
    (f := rainbowEntry n) (by simpa using hn) (by
      intro i _
      simp only [Finset.coe_range, Set.mem_Iio]
      unfold rainbowEntry
      split <;> omega)
  rw [Finset.mem_range] at hi hj
  rcases lt_or_gt_of_ne hij with h | h
  · exact ⟨i, j, h, hj, e⟩
  · exact ⟨j, i, h, hi, e.symm⟩

/-- C125 is false of more than 256 clusters: obstacles of different clusters are drawn with the same colour. -/
theorem C125_colours_false (ok : Bool) (os : Nat → DrawObj) (src : Nat → KernelSrc) (nr : Bool) (base : Nat → Shape)
    (mm : Nat → Option Pose) (xr : Nat → Pt ℝ) (eager static : Nat → Bool) (ops : List SceneOp) (rnd : Shape) (clusters : List (List Nat))
    (hn : 256 < clusters.length) (he : ∀ cl ∈ clusters, cl ≠ []) :
    ∃ s, drawClustering ok os rnd (sceneRun ok os src nr (freshScene base mm xr eager static) ops).obs clusters = .ok s ∧
      ∃ i j, ∃ hi : i < clusters.length, ∃ hj : j < clusters.length, i ≠ j ∧
        ∃ k ∈ s.inks, ∃ l ∈ s.inks, k.of ∈ clusters[i] ∧ l.of ∈ clusters[j] ∧ k.colour = l.colour := by
  have h := sceneRun_ok (ok := ok) (os := os) src nr ops (freshScene_ok ok os base mm xr eager static)
  obtain ⟨obs, c, new, e, _, _, g3, g4⟩ := drawColoured_ok ok os rnd clusters.length clusters 0
    ⟨(sceneRun ok os src nr (freshScene base mm xr eager static) ops).obs, [], []⟩ ⟨h.cache, h.pose, h.ref⟩
  rw [List.nil_append] at e
  obtain ⟨i, j, hij, hj, ec⟩ := rainbow_same hn
  have find : ∀ (m : Nat) (hm : m < clusters.length), ∃ k ∈ new, k.of ∈ clusters[m] ∧ k.colour = .rainbow (rainbowEntry clusters.length m) := by
    intro m hm
    obtain ⟨a, ha⟩ := List.exists_mem_of_ne_nil _ (he clusters[m] (List.getElem_mem hm))
    have : (a, Colour.rainbow (rainbowEntry clusters.length m)) ∈ new.map fun k => (k.of, k.colour) := by
      rw [g3, List.mem_flatMap]
      exact ⟨(clusters[m], m), by rw [List.mem_zipIdx_iff_getElem?]; simp [hm], List.mem_map.2 ⟨a, ha, rfl⟩⟩
    obtain ⟨k, hk, ek⟩ := List.mem_map.1 this
    rw [Prod.mk.injEq] at ek
    exact ⟨k, hk, by rw [ek.1]; exact ha, ek.2⟩
  obtain ⟨k, hk, k1, k2⟩ := find i (by omega)
  obtain ⟨l, hl, l1, l2⟩ := find j hj
  exact ⟨_, e, i, j, by omega, hj, by omega, k, hk, l, hl, k1, l1, by rw [k2, l2, ec]⟩

/-- Three clusters, and the last two of 257. -/
example : (List.range 3).map (rainbowEntry 3) = [0, 128, 255] ∧ rainbowEntry 257 255 = rainbowEntry 257 256 := by decide

/-- Squares 0 and 2 are a cluster and square 1 is another one; all of them have been moved. -/
example : ∃ s x y, drawClustering false (fun i => ⟨.polygon, toString i⟩) []
      (sceneRun false (fun i => ⟨.polygon, toString i⟩) (fun _ => .fromPolygon) true
        (freshScene (fun _ => bigSquare) (fun _ => some ⟨(0, 0), 0⟩) (fun _ => 0) (fun _ => false) (fun _ => false))
        [.on 0 (.setPose ⟨(1, 0), 0⟩), .on 1 (.setPose ⟨(10, 0), 0⟩), .on 2 (.setPose ⟨(2, 0), 0⟩)]).obs [[0, 2], [1]] = .ok s ∧
    s.inks.map (fun k => (k.of, k.colour)) = [(0, x), (2, x), (1, y)] ∧ x ≠ y := by
  obtain ⟨s, colour, e, h1, h2, _⟩ := C125_clustering_partial false (fun i => ⟨.polygon, toString i⟩) (fun _ => .fromPolygon) true
    (fun _ => bigSquare) (fun _ => some ⟨(0, 0), 0⟩) (fun _ => 0) (fun _ => false) (fun _ => false)
    [.on 0 (.setPose ⟨(1, 0), 0⟩), .on 1 (.setPose ⟨(10, 0), 0⟩), .on 2 (.setPose ⟨(2, 0), 0⟩)] [] [[0, 2], [1]] (by simp)
  exact ⟨s, colour 0, colour 1, e, h1, h2 0 (by simp) 1 (by simp) (by simp)⟩

/-! ## draw_star_hull -/

/-- The polygons of the obstacles at the given poses. -/
noncomputable def ringsAt (base : Nat → Shape) (pose : Nat → Option Pose) (is : List Nat) : List Shape := is.map fun i => (base i).map (worldOf (pose i))

theorem polygonsOf_ok {base : Nat → Shape} {mx : Nat → Option Pose × Pt ℝ} (is : List Nat) : ∀ obs : Nat → ObState, ObsOk base mx obs →
    ∃ obs', polygonsOf is obs = (.ok (ringsAt base (fun i => (mx i).1) is), obs') ∧ ObsOk base mx obs' := by
  induction is with
  | nil => intro obs h; exact ⟨obs, rfl, h⟩
  | cons i is ih =>
    intro obs h
    have hv := polygonCall_frame (h.1 i) .global (.inl rfl)
    obtain ⟨obs', e, h'⟩ := ih (Function.update obs i (polygonCall (obs i) .global).2) (h.update i (.inr ⟨_, rfl⟩))
    refine ⟨obs', ?_, h'⟩
    rw [polygonsOf]
    rw [show polygonCall (obs i) .global = (.ok ((base i).map (inFrame (obs i).mm .global)), (polygonCall (obs i) .global).2) from
      Prod.ext hv rfl]
    simp only [e, h.2.1 i]
    rfl

theorem geomArea_rings {union : List Shape → ShGeom} (hu : UnionOk union) (base : Nat → Shape) (pose : Nat → Option Pose) (is : List Nat) :
    geomArea (union (ringsAt base pose is)) = {x | ∃ i ∈ is, x ∈ placedPolygon (base i) (pose i)} := by
  rw [hu]
  ext x
  simp only [ringsAt, Set.mem_ofPred_eq, List.mem_map]
  constructor
  · rintro ⟨v, ⟨i, hi, rfl⟩, hx⟩
    exact ⟨i, hi, by rw [placed_filled] at hx; exact hx⟩
  · rintro ⟨i, hi, hx⟩
    exact ⟨_, ⟨i, hi, rfl⟩, by rw [placed_filled]; exact hx⟩

/-- The polygons that the cluster has in its cache, or will have, are those at the given poses. -/
def CacheAt (union : List Shape → ShGeom) (base : Nat → Shape) (mx : Nat → Option Pose × Pt ℝ) (pose : Nat → Option Pose) (cl : HullCluster) : Prop :=
  cl.cache = some (union (ringsAt base pose cl.obstacles)) ∨ cl.cache = none ∧ ∀ i ∈ cl.obstacles, pose i = (mx i).1

theorem excludingHull_ok {union : List Shape → ShGeom} {base : Nat → Shape} {mx : Nat → Option Pose × Pt ℝ} {obs : Nat → ObState}
    (h : ObsOk base mx obs) {pose : Nat → Option Pose} {cl : HullCluster} (hc : CacheAt union base mx pose cl) :
    ∃ obs', excludingHull union cl obs = (.ok (union (ringsAt base pose cl.obstacles)), obs',
      { cl with cache := some (union (ringsAt base pose cl.obstacles)) }) ∧ ObsOk base mx obs' := by
  rcases hc with hc | ⟨hc, hp⟩
  · refine ⟨obs, ?_, h⟩
    simp only [excludingHull, hc]
    rw [← hc]
  · obtain ⟨obs', e, h'⟩ := polygonsOf_ok cl.obstacles obs h
    refine ⟨obs', ?_, h'⟩
    have : ringsAt base (fun i => (mx i).1) cl.obstacles = ringsAt base pose cl.obstacles :=
      List.map_congr_left fun i hi => by rw [hp i hi]
    simp only [excludingHull, hc, e, this]

/-- What a drawing covers stays the same. -/
theorem covered_later {hs : List Handle} {c d : Canvas} (hl : ∀ n : Nat, some n ∈ hs → n < c.length) (hd : Later c d) :
    coveredBy hs d = coveredBy hs c := by
  rw [coveredBy, coveredBy, artistsOf_congr fun n hn => hd.1 n (hl n hn)]

theorem Spec.HullShows.later {os : Nat → DrawObj} {base : Nat → Shape} {mx : Nat → Option Pose × Pt ℝ} {pose : Nat → Nat → Option Pose}
    {clusters : List HullCluster} {c d : Canvas} {k : Ink HullPart} (h : HullShows os base mx pose clusters c k)
    (hl : ∀ n : Nat, some n ∈ k.handles → n < c.length) (hd : Later c d) : HullShows os base mx pose clusters d k := by
  obtain ⟨part, hs, col⟩ := k
  cases part with
  | star j =>
    obtain ⟨cl, st, h1, h2, h3⟩ := h
    refine ⟨cl, st, h1, h2, ?_⟩
    cases st with
    | obstacle i => exact depicts_later h3 hl hd.1
    | comb parts xr name => exact (covered_later hl hd).trans h3
  | members j =>
    obtain ⟨cl, h1, h2⟩ := h
    exact ⟨cl, h1, (covered_later hl hd).trans h2⟩

theorem foldl_rings (parts : List Shape) : ∀ (hs : List Handle) (c : Canvas), (∀ n : Nat, some n ∈ hs → n < c.length) →
    ∃ hs' c', parts.foldl (fun h v => addArtist (.ring v) h) (hs, c) = (hs', c') ∧ Later c c' ∧ (∀ n : Nat, some n ∈ hs' → n < c'.length) ∧
      artistsOf hs' c' = artistsOf hs c ++ parts.map .ring := by
  induction parts with
  | nil => intro hs c h; exact ⟨hs, c, rfl, .refl c, h, by simp⟩
  | cons v parts ih =>
    intro hs c h
    obtain ⟨hs', c', e, l1, l2, l3⟩ := ih (hs ++ [some c.length]) (c ++ [.ring v]) (by
      intro n hn
      simp only [List.mem_append, List.mem_singleton, Option.some.injEq] at hn
      simp only [List.length_append, List.length_singleton]
      rcases hn with hn | rfl
      · have := h n hn; omega
      · omega)
    refine ⟨hs', c', e, Later.trans ⟨fun k hk => List.getElem?_append_left hk, by simp⟩ l1, l2, ?_⟩
    rw [l3]
    have e1 : artistsOf (hs ++ [some c.length]) (c ++ [.ring v]) = artistsOf hs c ++ [.ring v] := by
      rw [← artistsOf_congr (hs := hs) (c := c) (d := c ++ [.ring v]) fun n hn => List.getElem?_append_left (h n hn)]
      simp [artistsOf]
    rw [e1]
    simp

theorem combInitPlot_ok (parts : List Shape) (xr : Pt ℝ) (name : String) (c : Canvas) :
    ∃ hs c', combInitPlot parts xr name true false c = (hs, c') ∧ Later c c' ∧ (∀ n : Nat, some n ∈ hs → n < c'.length) ∧
      coveredBy hs c' = {x | (∃ v ∈ parts, x ∈ filled v) ∨ x = xr} := by
  obtain ⟨hs', c', e, l1, l2, l3⟩ := foldl_rings parts [] c (by simp)
  refine ⟨hs' ++ [some c'.length] ++ [none], c' ++ [.marker xr], ?_, Later.trans l1 ⟨fun k hk => List.getElem?_append_left hk, by simp⟩, ?_, ?_⟩
  · rw [combInitPlot, e]
    simp [addIf, addArtist]
  · intro n hn
    simp only [List.mem_append, List.mem_singleton, Option.some.injEq, reduceCtorEq, or_false] at hn
    simp only [List.length_append, List.length_singleton]
    rcases hn with hn | rfl
    · have := l2 n hn; omega
    · omega
  · have e1 : artistsOf (hs' ++ [some c'.length] ++ [none]) (c' ++ [.marker xr]) = parts.map .ring ++ [.marker xr] := by
      have : artistsOf hs' (c' ++ [.marker xr]) = parts.map .ring := by
        rw [artistsOf_congr (hs := hs') (c := c') fun n hn => List.getElem?_append_left (l2 n hn), l3]
        simp [artistsOf]
      rw [← this]
      simp [artistsOf]
    ext x
    simp only [coveredBy, e1, List.mem_append, List.mem_map, List.mem_singleton, Set.mem_ofPred_eq]
    constructor
    · rintro ⟨a, ⟨v, hv, rfl⟩ | rfl, hx⟩
      · exact .inl ⟨v, hv, hx⟩
      · exact .inr hx
    · rintro (⟨v, hv, hx⟩ | hx)
      · exact ⟨_, .inl ⟨v, hv, rfl⟩, hx⟩
      · exact ⟨_, .inr rfl, hx⟩

theorem drawParts_foldl (clip : PolyG → Box → ShGeom) (ps : List PolyG) : ∀ h : List Handle × Canvas,
    drawParts clip none none ps h = (.ok ((ps.map PolyG.exterior).foldl (fun h v => addArtist (.ring v) h) h).1,
      ((ps.map PolyG.exterior).foldl (fun h v => addArtist (.ring v) h) h).2) := by
  induction ps with
  | nil => rintro ⟨hs, c⟩; rfl
  | cons p ps ih => rintro ⟨hs, c⟩; simp only [drawParts, clipPart, ih]; rfl

/-- Without limits `draw_shapely_polygon` draws all of a geometry without holes. -/
theorem drawShapely_plain (clip : PolyG → Box → ShGeom) {g : ShGeom} (hg : WithoutHoles g) (c : Canvas) :
    ∃ hs c', drawShapely clip g none none c = (.ok hs, c') ∧ Later c c' ∧ (∀ n : Nat, some n ∈ hs → n < c'.length) ∧ coveredBy hs c' = geomArea g := by
  have hth : g ≠ .thin := by rintro rfl; exact hg
  have hno : ∀ p, IsPart p g → p.holes = [] := by
    cases g with
    | polygon q => rintro p rfl; exact hg
    | multi parts => exact hg
    | thin => exact fun p h => h.elim
  obtain ⟨ps, h1, h2⟩ := drawShapely_parts clip g hth
  obtain ⟨hs', c', e, l1, l2, l3⟩ := foldl_rings (ps.map PolyG.exterior) [] c (by simp)
  refine ⟨hs', c', by rw [h2, drawParts_foldl, e], l1, l2, ?_⟩
  ext x
  rw [geomArea_parts]
  simp only [coveredBy, l3, Set.mem_ofPred_eq]
  constructor
  · rintro ⟨a, ha, hx⟩
    simp only [artistsOf, List.filterMap_nil, List.nil_append, List.mem_map, List.map_map] at ha
    obtain ⟨p, hp, rfl⟩ := ha
    exact ⟨p, (h1 p).1 hp, hx, by simp [hno p ((h1 p).1 hp)]⟩
  · rintro ⟨p, hp, hx⟩
    refine ⟨.ring p.exterior, ?_, hx.1⟩
    simp only [artistsOf, List.filterMap_nil, List.nil_append, List.mem_map, List.map_map]
    exact ⟨p, (h1 p).2 hp, rfl⟩

/-- The loop of `draw_star_hull`. -/
theorem drawHulls_ok (ok : Bool) (os : Nat → DrawObj) (rnd : Shape) {union : List Shape → ShGeom} (hu : UnionOk union) {base : Nat → Shape}
    {mx : Nat → Option Pose × Pt ℝ} (pose : Nat → Nat → Option Pose) (clusters : List HullCluster)
    (hc : ∀ (j : Nat) cl, clusters[j]? = some cl → CacheAt union base mx (pose j) cl)
    (hw : ∀ (j : Nat) cl, clusters[j]? = some cl → WithoutHoles (union (ringsAt base (pose j) cl.obstacles)))
    (hm : ∀ cl ∈ clusters, starMarked os cl.star = true → ok = true) (cls : List HullCluster) :
    ∀ (j : Nat) (s : Sheet HullPart), (∀ (m : Nat) cl, cls[m]? = some cl → clusters[j + m]? = some cl) → ObsOk base mx s.obs →
      ∃ obs c new, drawHulls ok os rnd union j cls s = .ok ⟨obs, c, s.inks ++ new⟩ ∧ ObsOk base mx obs ∧ Later s.canvas c ∧
        new.map (fun k => (k.of, k.colour)) = wantedHulls cls j ∧
        ∀ k ∈ new, HullShows os base mx pose clusters c k ∧ ∀ n : Nat, some n ∈ k.handles → n < c.length := by
  induction cls with
  | nil => intro j s _ h; exact ⟨s.obs, s.canvas, [], by simp [drawHulls], h, .refl _, rfl, by simp⟩
  | cons cl cls ih =>
    intro j s hj h
    have hcl : clusters[j]? = some cl := hj 0 cl rfl
    have hj' : ∀ (m : Nat) cl', cls[m]? = some cl' → clusters[j + 1 + m]? = some cl' := by
      intro m cl' hm'
      have := hj (m + 1) cl' (by simpa using hm')
      rwa [show j + (m + 1) = j + 1 + m by omega] at this
    have members : ∀ (col : Colour) (s : Sheet HullPart), ObsOk base mx s.obs →
        ∃ obs c hs, drawHullMembers union j cl col s = .ok ⟨obs, c, s.inks ++ [⟨.members j, hs, col⟩]⟩ ∧ ObsOk base mx obs ∧ Later s.canvas c ∧
          HullShows os base mx pose clusters c ⟨.members j, hs, col⟩ ∧ ∀ n : Nat, some n ∈ hs → n < c.length := by
      intro col s h
      obtain ⟨obs, e, h'⟩ := excludingHull_ok h (hc j cl hcl)
      obtain ⟨hs, c, e2, l1, l2, l3⟩ := drawShapely_plain (fun p _ => .polygon p) (hw j cl hcl) s.canvas
      refine ⟨obs, c, hs, ?_, h', l1, ⟨cl, hcl, l3.trans (geomArea_rings hu base (pose j) _)⟩, l2⟩
      simp only [drawHullMembers, e, e2]
    cases hst : cl.star with
    | none =>
      obtain ⟨obs, c, hs, e, h1, l1, k1, k2⟩ := members .red s h
      obtain ⟨obs', c', new, e', h', l', w', sh'⟩ := ih (j + 1) ⟨obs, c, s.inks ++ [⟨.members j, hs, .red⟩]⟩ hj' h1
      refine ⟨obs', c', ⟨.members j, hs, .red⟩ :: new, ?_, h', l1.trans l', ?_, ?_⟩
      · rw [drawHulls, hst]
        simp only [e, bind, Except.bind, e', List.append_assoc, List.singleton_append]
      · simp only [List.map_cons, w', wantedHulls, List.zipIdx_cons, List.flatMap_cons, hst, List.singleton_append]
      · intro k hk
        rcases List.mem_cons.1 hk with rfl | hk
        · exact ⟨k1.later k2 l', fun n hn => lt_of_lt_of_le (k2 n hn) l'.2⟩
        · exact sh' k hk
    | some st =>
      have star : ∃ obs c hs, drawHullStar ok os rnd j st s = .ok ⟨obs, c, s.inks ++ [⟨.star j, hs, .green⟩]⟩ ∧ ObsOk base mx obs ∧
          Later s.canvas c ∧ HullShows os base mx pose clusters c ⟨.star j, hs, .green⟩ ∧ ∀ n : Nat, some n ∈ hs → n < c.length := by
        cases st with
        | obstacle i =>
          obtain ⟨hs, o, c, e, d, g1, g2, g3, g4⟩ := drawCall_one (ok := ok) (rnd := rnd) (o := os i) (sr := true) (sn := false) (h.1 i)
            (fun hmk => hm cl (List.mem_of_getElem? hcl) (by rw [hst]; exact hmk)) s.canvas
          refine ⟨Function.update s.obs i o, c, hs, by simp only [drawHullStar, e], h.update i g4, ⟨g1, g2⟩, ⟨cl, _, hcl, hst, ?_⟩, g3⟩
          rw [h.2.1 i, h.2.2 i] at d
          exact d
        | comb parts xr name =>
          obtain ⟨hs, c, e, l1, l2, l3⟩ := combInitPlot_ok parts xr name s.canvas
          exact ⟨s.obs, c, hs, by simp only [drawHullStar, e], h, l1, ⟨cl, _, hcl, hst, l3⟩, l2⟩
      obtain ⟨obs0, c0, hs0, e0, h0, l0, k0, k0'⟩ := star
      obtain ⟨obs, c, hs, e, h1, l1, k1, k2⟩ := members .lightgrey ⟨obs0, c0, s.inks ++ [⟨.star j, hs0, .green⟩]⟩ h0
      obtain ⟨obs', c', new, e', h', l', w', sh'⟩ := ih (j + 1) ⟨obs, c, s.inks ++ [⟨.star j, hs0, .green⟩] ++ [⟨.members j, hs, .lightgrey⟩]⟩ hj' h1
      refine ⟨obs', c', ⟨.star j, hs0, .green⟩ :: ⟨.members j, hs, .lightgrey⟩ :: new, ?_, h', l0.trans (l1.trans l'), ?_, ?_⟩
      · rw [drawHulls, hst]
        simp only [List.append_assoc, List.singleton_append] at e' e
        simp only [e0, bind, Except.bind, e, e', List.cons_append, List.nil_append]
      · simp only [List.map_cons, w', wantedHulls, List.zipIdx_cons, List.flatMap_cons, hst, List.cons_append, List.nil_append]
      · intro k hk
        rcases List.mem_cons.1 hk with rfl | hk
        · exact ⟨k0.later k0' (l1.trans l'), fun n hn => lt_of_lt_of_le (k0' n hn) (l1.trans l').2⟩
        rcases List.mem_cons.1 hk with rfl | hk
        · exact ⟨k1.later k2 l', fun n hn => lt_of_lt_of_le (k2 n hn) l'.2⟩
        · exact sh' k hk

/-- C125 (partial), `draw_star_hull`: after any history of the obstacles there is a green drawing of every cluster obstacle at its current pose and
one of the obstacles of every cluster, lightgrey, or red if there is no cluster obstacle, that covers exactly their polygons at the current poses;
in this order, and there is nothing else. Assumed: `unary_union` covers the polygons and nothing else (`UnionOk`); its value has no holes
(missing: `C125_hole_false`); a cluster has no cached polygon, or the one of the current poses (missing: `C125_moved_false`); the version of
matplotlib takes numbers in `set_data` if the cluster obstacle is an ellipse or a star polygon (missing: `C125_matplotlib_false`). -/
theorem C125_hull_partial (ok : Bool) (os : Nat → DrawObj) (src : Nat → KernelSrc) (nr : Bool) (base : Nat → Shape)
    (mm : Nat → Option Pose) (xr : Nat → Pt ℝ) (eager static : Nat → Bool) (ops : List SceneOp) (rnd : Shape) (union : List Shape → ShGeom)
    (hu : UnionOk union) (clusters : List HullCluster)
    (hc : ∀ cl ∈ clusters, cl.cache = none ∨
      cl.cache = some (union (cl.obstacles.map fun i => (base i).map (worldOf (lastPoint i (mm i) (xr i) ops).1))))
    (hw : ∀ cl ∈ clusters, WithoutHoles (union (cl.obstacles.map fun i => (base i).map (worldOf (lastPoint i (mm i) (xr i) ops).1))))
    (hm : ∀ cl ∈ clusters, starMarked os cl.star = true → ok = true) :
    ∃ s, drawStarHull ok os rnd union (sceneRun ok os src nr (freshScene base mm xr eager static) ops).obs clusters = .ok s ∧
      s.inks.map (fun k => (k.of, k.colour)) = wantedHulls clusters ∧
      ∀ k ∈ s.inks, HullShows os base (fun i => lastPoint i (mm i) (xr i) ops) (fun _ i => (lastPoint i (mm i) (xr i) ops).1) clusters s.canvas k := by
  have h := sceneRun_ok (ok := ok) (os := os) src nr ops (freshScene_ok ok os base mm xr eager static)
  obtain ⟨obs, c, new, e, _, _, g3, g4⟩ := drawHulls_ok ok os rnd hu (fun _ i => (lastPoint i (mm i) (xr i) ops).1) clusters
    (fun j cl hj => (hc cl (List.mem_of_getElem? hj)).elim (fun h => .inr ⟨h, fun _ _ => rfl⟩) .inl)
    (fun j cl hj => hw cl (List.mem_of_getElem? hj)) hm clusters 0
    ⟨(sceneRun ok os src nr (freshScene base mm xr eager static) ops).obs, [], []⟩ (fun m cl hm => by rwa [Nat.zero_add]) ⟨h.cache, h.pose, h.ref⟩
  rw [List.nil_append] at e
  exact ⟨_, e, g3, fun k hk => (g4 k hk).1⟩

/-- The parts as they are. -/
def plainUnion (vs : List Shape) : ShGeom := .multi (vs.map fun v => some ⟨v, []⟩)

theorem plainUnion_ok : UnionOk plainUnion := by
  intro vs
  ext x
  simp only [geomArea, plainUnion, List.mem_map, Option.some.injEq, Set.mem_ofPred_eq]
  constructor
  · rintro ⟨p, ⟨v, hv, rfl⟩, hx, _⟩
    exact ⟨v, hv, hx⟩
  · rintro ⟨v, hv, hx⟩
    exact ⟨_, ⟨v, hv, rfl⟩, hx, by simp⟩

theorem plainUnion_noHoles (vs : List Shape) : WithoutHoles (plainUnion vs) := by
  intro p hp
  simp only [List.mem_map, Option.some.injEq] at hp
  obtain ⟨v, _, rfl⟩ := hp
  rfl

/-- Three polygons. -/
def threePolygons : Nat → DrawObj := fun i => ⟨.polygon, toString i⟩

/-- The square about 0 and its copy about (10, 0) are a cluster with the rectangle around both, and a third square far away is on its own. The
grey drawing of the first cluster covers the middle of the second square and nothing between them, the green one does. -/
example : ∃ s, drawStarHull false threePolygons [] plainUnion
      (sceneRun false threePolygons (fun _ => .fromPolygon) true
        (freshScene (fun _ => bigSquare) (fun _ => some ⟨(0, 0), 0⟩) (fun _ => 0) (fun _ => false) (fun _ => false))
        [.on 1 (.setPose ⟨(10, 0), 0⟩), .on 2 (.setPose ⟨(0, 20), 0⟩)]).obs
      [⟨some (.comb [rectRing (-1) 11 (-1) 1] (5, 0) "c"), [0, 1], none⟩, ⟨some (.obstacle 2), [2], none⟩] = .ok s ∧
    s.inks.map (fun k => (k.of, k.colour)) = [(.star 0, .green), (.members 0, .lightgrey), (.star 1, .green), (.members 1, .lightgrey)] ∧
    ∃ k ∈ s.inks, ∃ l ∈ s.inks, k.of = .star 0 ∧ l.of = .members 0 ∧ ((10, 0) : Pt ℝ) ∈ coveredBy l.handles s.canvas ∧
      ((5, 0) : Pt ℝ) ∉ coveredBy l.handles s.canvas ∧ ((5, 0) : Pt ℝ) ∈ coveredBy k.handles s.canvas := by
  obtain ⟨s, e, h1, h2⟩ := C125_hull_partial false threePolygons (fun _ => .fromPolygon) true (fun _ => bigSquare)
    (fun _ => some ⟨(0, 0), 0⟩) (fun _ => 0) (fun _ => false) (fun _ => false)
    [.on 1 (.setPose ⟨(10, 0), 0⟩), .on 2 (.setPose ⟨(0, 20), 0⟩)] [] plainUnion plainUnion_ok
    [⟨some (.comb [rectRing (-1) 11 (-1) 1] (5, 0) "c"), [0, 1], none⟩, ⟨some (.obstacle 2), [2], none⟩]
    (by simp) (fun _ _ => plainUnion_noHoles _) (by simp [starMarked, marked, threePolygons])
  refine ⟨s, e, h1, ?_⟩
  have m0 : (HullPart.star 0, Colour.green) ∈ s.inks.map fun k => (k.of, k.colour) := by rw [h1]; simp [wantedHulls]
  have m1 : (HullPart.members 0, Colour.lightgrey) ∈ s.inks.map fun k => (k.of, k.colour) := by rw [h1]; simp [wantedHulls]
  obtain ⟨k, hk, ek⟩ := List.mem_map.1 m0
  obtain ⟨l, hl, el⟩ := List.mem_map.1 m1
  rw [Prod.mk.injEq] at ek el
  have sk := h2 k hk
  have sl := h2 l hl
  simp only [HullShows, ek.1] at sk
  simp only [HullShows, el.1] at sl
  obtain ⟨cl, st, g1, g2, g3⟩ := sk
  obtain ⟨cl', g1', g3'⟩ := sl
  simp only [List.getElem?_cons_zero, Option.some.injEq] at g1 g1'
  subst g1 g1'
  simp only [Option.some.injEq] at g2
  subst g2
  refine ⟨k, hk, l, hl, ek.1, el.1, ?_, ?_, ?_⟩
  · rw [g3']
    refine ⟨1, by simp, (0, 0), (rectRing_filled (by norm_num) (by norm_num) _).2 (by norm_num), ?_⟩
    simp [lastPoint, nextPoint, worldOf]
  · rw [g3']
    rintro ⟨i, hi, p, hp, hx⟩
    have hp' := (rectRing_filled (by norm_num) (by norm_num) _).1 hp
    simp only [List.mem_cons, List.not_mem_nil, or_false] at hi
    rcases hi with rfl | rfl <;> simp [lastPoint, nextPoint, worldOf, Prod.ext_iff] at hx <;> linarith [hp'.1, hp'.2.1, hx.1]
  · rw [g3]
    exact .inr rfl

/-- The four bars of the frame between two squares. -/
def bars : Nat → Shape
  | 0 => rectRing (-4) (-1) (-4) 4
  | 1 => rectRing 1 4 (-4) 4
  | 2 => rectRing (-1) 1 (-4) (-1)
  | _ => rectRing (-1) 1 1 4

/-- The frame. -/
def frameGeom : ShGeom := .polygon ⟨outerSquare, [bigSquare]⟩

theorem frame_area : geomArea frameGeom = {x | ∃ v ∈ [bars 0, bars 1, bars 2, bars 3], x ∈ filled v} := by
  have hO : ∀ x, x ∈ filled outerSquare ↔ _ := fun x => rectRing_filled (a := -4) (b := 4) (c := -4) (d := 4) (by norm_num) (by norm_num) x
  have hI : ∀ x, Inside bigSquare x ↔ _ := fun x => rectRing_inside (a := -1) (b := 1) (c := -1) (d := 1) (by norm_num) (by norm_num) x
  ext x
  simp only [geomArea, frameGeom, polyArea, Set.mem_ofPred_eq, forall_eq, hO, hI, List.mem_cons, List.not_mem_nil, or_false,
    exists_eq_or_imp, exists_eq_left, bars]
  rw [rectRing_filled (by norm_num) (by norm_num), rectRing_filled (by norm_num) (by norm_num), rectRing_filled (by norm_num) (by norm_num),
    rectRing_filled (by norm_num) (by norm_num)]
  constructor
  · rintro ⟨⟨h1, h2, h3, h4⟩, h⟩
    by_cases l : x.1 ≤ -1
    · exact .inl ⟨h1, l, h3, h4⟩
    by_cases r : 1 ≤ x.1
    · exact .inr (.inl ⟨r, h2, h3, h4⟩)
    push Not at l r
    by_cases b : x.2 ≤ -1
    · exact .inr (.inr (.inl ⟨l.le, r.le, h3, b⟩))
    push Not at b
    exact .inr (.inr (.inr ⟨l.le, r.le, by by_contra t; exact h ⟨l, r, b, not_le.1 t⟩, h4⟩))
  · rintro (⟨h1, h2, h3, h4⟩ | ⟨h1, h2, h3, h4⟩ | ⟨h1, h2, h3, h4⟩ | ⟨h1, h2, h3, h4⟩) <;>
      exact ⟨⟨by linarith, by linarith, by linarith, by linarith⟩, by rintro ⟨g1, g2, g3, g4⟩; linarith⟩

open scoped Classical in
/-- A union that makes a frame of the bars. -/
noncomputable def frameUnion (vs : List Shape) : ShGeom := if vs = [bars 0, bars 1, bars 2, bars 3] then frameGeom else plainUnion vs

theorem frameUnion_ok : UnionOk frameUnion := by
  intro vs
  unfold frameUnion
  split
  · rename_i h; rw [h, frame_area]
  · exact plainUnion_ok vs

/-- C125 is false of unions with holes: four bars around a square are a cluster. The point in its middle, which is in none of the bars, is covered
by the drawing of the obstacles. -/
theorem C125_hole_false : UnionOk frameUnion ∧
    ∃ s k, drawStarHull false threePolygons [] frameUnion (freshScene bars (fun _ => none) (fun _ => 0) (fun _ => false) (fun _ => false)).obs
      [⟨none, [0, 1, 2, 3], none⟩] = .ok s ∧ s.inks = [k] ∧ k.of = .members 0 ∧ (0 : Pt ℝ) ∈ coveredBy k.handles s.canvas ∧
      ∀ i ∈ [0, 1, 2, 3], (0 : Pt ℝ) ∉ placedPolygon (bars i) none := by
  refine ⟨frameUnion_ok, ?_⟩
  have hb : ∀ i ∈ [0, 1, 2, 3], (0 : Pt ℝ) ∉ filled (bars i) := by
    intro i hi
    simp only [List.mem_cons, List.not_mem_nil, or_false] at hi
    rcases hi with rfl | rfl | rfl | rfl <;> simp only [bars] <;> rw [rectRing_filled (by norm_num) (by norm_num)] <;> norm_num
  have h := freshScene_ok false threePolygons bars (fun _ => none) (fun _ => 0) (fun _ => false) (fun _ => false)
  obtain ⟨obs', e, _⟩ := polygonsOf_ok [0, 1, 2, 3] _ (⟨h.cache, h.pose, h.ref⟩ : ObsOk bars _ _)
  have hr : ringsAt bars (fun _ => none) [0, 1, 2, 3] = [bars 0, bars 1, bars 2, bars 3] := by
    have : worldOf none = id := funext fun _ => rfl
    simp [ringsAt, this]
  refine ⟨⟨obs', [.ring outerSquare], [⟨.members 0, [some 0], .red⟩]⟩, _, ?_, rfl, rfl, ?_, ?_⟩
  · simp only [drawStarHull, drawHulls, drawHullMembers, excludingHull, e]
    rw [hr]
    simp only [frameUnion, if_true, frameGeom]
    rfl
  · refine ⟨.ring outerSquare, by simp [artistsOf], ?_⟩
    exact (rectRing_filled (a := -4) (b := 4) (c := -4) (d := 4) (by norm_num) (by norm_num) 0).2 (by norm_num)
  · rintro i hi ⟨p, hp, hx⟩
    exact hb i hi (by rw [show (0 : Pt ℝ) = p from hx]; exact hp)

/-- C125 is false if an obstacle moves after `polygon_excluding_hull` was called, as `cluster_and_starify` does: a cluster of one square, which is
moved by (10, 0). In the picture the obstacle is still drawn about 0 in grey, and its cluster obstacle, the same square, about (10, 0). -/
theorem C125_moved_false : ∃ (before : Scene) (cl : HullCluster),
    before = freshScene (fun _ => bigSquare) (fun _ => some ⟨(0, 0), 0⟩) (fun _ => 0) (fun _ => false) (fun _ => false) ∧
    cl = (excludingHull plainUnion ⟨some (.obstacle 0), [0], none⟩ before.obs).2.2 ∧
    ∃ s, drawStarHull false threePolygons [] plainUnion
      (sceneRun false threePolygons (fun _ => .fromPolygon) true before [.on 0 (.setPose ⟨(10, 0), 0⟩)]).obs [cl] = .ok s ∧
      ∃ k ∈ s.inks, ∃ l ∈ s.inks, k.of = .star 0 ∧ l.of = .members 0 ∧
        Depicts (threePolygons 0) bigSquare (some ⟨(10, 0), 0⟩) 0 .global true false k.handles s.canvas ∧
        (0 : Pt ℝ) ∈ coveredBy l.handles s.canvas ∧ (0 : Pt ℝ) ∉ placedPolygon bigSquare (some ⟨(10, 0), 0⟩) ∧
        ((10, 0) : Pt ℝ) ∉ coveredBy l.handles s.canvas ∧ ((10, 0) : Pt ℝ) ∈ placedPolygon bigSquare (some ⟨(10, 0), 0⟩) := by
  refine ⟨_, _, rfl, rfl, ?_⟩
  have h := freshScene_ok false threePolygons (fun _ => bigSquare) (fun _ => some ⟨(0, 0), 0⟩) (fun _ => 0) (fun _ => false) (fun _ => false)
  have h' := sceneRun_ok (ok := false) (os := threePolygons) (fun _ => .fromPolygon) true [.on 0 (.setPose ⟨(10, 0), 0⟩)] h
  obtain ⟨obs0, e0, _⟩ := excludingHull_ok (union := plainUnion) (cl := ⟨some (.obstacle 0), [0], none⟩)
    (⟨h.cache, h.pose, h.ref⟩ : ObsOk (fun _ => bigSquare) _ _) (pose := fun _ => some ⟨(0, 0), 0⟩) (.inr ⟨rfl, fun _ _ => rfl⟩)
  rw [e0]
  obtain ⟨obs, c, new, e, _, _, g3, g4⟩ := drawHulls_ok false threePolygons [] plainUnion_ok (fun _ _ => some ⟨(0, 0), 0⟩)
    [⟨some (.obstacle 0), [0], some (plainUnion (ringsAt (fun _ => bigSquare) (fun _ => some ⟨(0, 0), 0⟩) [0]))⟩]
    (fun j cl hj => .inl (by
      obtain rfl := List.mem_singleton.1 (List.mem_of_getElem? hj)
      rfl))
    (fun _ _ _ => plainUnion_noHoles _) (by simp [starMarked, marked, threePolygons]) _ 0 ⟨_, [], []⟩
    (fun m cl hm => by rwa [Nat.zero_add]) (⟨h'.cache, h'.pose, h'.ref⟩ : ObsOk (fun _ => bigSquare) _ _)
  rw [List.nil_append] at e
  refine ⟨_, e, ?_⟩
  have m0 : (HullPart.star 0, Colour.green) ∈ new.map fun k => (k.of, k.colour) := by rw [g3]; simp [wantedHulls]
  have m1 : (HullPart.members 0, Colour.lightgrey) ∈ new.map fun k => (k.of, k.colour) := by rw [g3]; simp [wantedHulls]
  obtain ⟨k, hk, ek⟩ := List.mem_map.1 m0
  obtain ⟨l, hl, el⟩ := List.mem_map.1 m1
  rw [Prod.mk.injEq] at ek el
  have sk := (g4 k hk).1
  have sl := (g4 l hl).1
  simp only [HullShows, ek.1] at sk
  simp only [HullShows, el.1] at sl
  obtain ⟨cl, st, q1, q2, q3⟩ := sk
  obtain ⟨cl', q1', q3'⟩ := sl
  simp only [List.getElem?_cons_zero, Option.some.injEq] at q1 q1'
  subst q1 q1'
  simp only [Option.some.injEq] at q2
  subst q2
  have hb : ∀ x, x ∈ filled bigSquare ↔ _ := fun x => rectRing_filled (a := -1) (b := 1) (c := -1) (d := 1) (by norm_num) (by norm_num) x
  refine ⟨k, hk, l, hl, ek.1, el.1, q3, ?_, ?_, ?_, ?_⟩
  · rw [q3']
    exact ⟨0, by simp, 0, (hb _).2 (by norm_num), by simp [worldOf, Prod.ext_iff]⟩
  · rintro ⟨p, hp, hx⟩
    have hp' := (hb p).1 hp
    simp [worldOf, Prod.ext_iff] at hx
    linarith [hx.1]
  · rw [q3']
    rintro ⟨i, hi, p, hp, hx⟩
    have hp' := (hb p).1 hp
    simp [worldOf, Prod.ext_iff] at hx
    linarith [hx.1]
  · exact ⟨0, (hb _).2 (by norm_num), by simp [worldOf]⟩

/-- C125 is false of clusters whose cluster obstacle is an ellipse or a star polygon, with a version of matplotlib in which `set_data` does not take
numbers: `draw_star_hull` raises an exception. -/
theorem C125_matplotlib_false (os : Nat → DrawObj) (rnd : Shape) (union : List Shape → ShGeom) (obs : Nat → ObState) (i : Nat) (is : List Nat)
    (cache : Option ShGeom) (cls : List HullCluster) (ho : (∃ a, (os i).kind = .ellipse a) ∨ (os i).kind = .star) :
    ∃ e, drawStarHull false os rnd union obs (⟨some (.obstacle i), is, cache⟩ :: cls) = .error e := by
  obtain ⟨e, he⟩ := C112_matplotlib_false rnd (os i) (obs i) .global false [] ho
  refine ⟨e, ?_⟩
  simp only [drawStarHull, drawHulls, drawHullStar]
  rw [show drawCall false rnd (os i) (obs i) .global true false [] = (.error e, (drawCall false rnd (os i) (obs i) .global true false []).2) from
    Prod.ext he rfl]
  rfl

end Starworlds
