import Verif.Model.KernelPolygon
import Mathlib.Tactic.Tauto

/-!
# `_compute_kernel` commutes with maps of points

If a map of points is compatible with the geometric primitives, it is compatible with the whole computation. The computation on
the source side may give up with `keyError` (used for rational numbers, where a norm need not exist).
-/

namespace Starworlds

variable {A B C D P Q : Type}

/-- The right computation does the same as the left one; if `u` holds, unless the left one gives up. -/
def Tracks (u : Prop) (φ : A → B) (r : Except PyErr A) (s : Except PyErr B) : Prop :=
  (u ∧ r = .error .keyError) ∨ s = r.map φ

variable {u : Prop}

theorem Tracks.ok (φ : A → B) (a : A) : Tracks u φ (.ok a) (.ok (φ a)) := Or.inr rfl

theorem Tracks.err (φ : A → B) (e : PyErr) : Tracks u φ (.error e) (.error e) := Or.inr rfl

theorem Tracks.bind {φ : A → B} {ψ : C → D} {r : Except PyErr A} {s : Except PyErr B} {f : A → Except PyErr C}
    {g : B → Except PyErr D} (h : Tracks u φ r s) (hf : ∀ a, Tracks u ψ (f a) (g (φ a))) : Tracks u ψ (r >>= f) (s >>= g) := by
  rcases h with h | h
  · left; refine ⟨h.1, ?_⟩; rw [h.2]; rfl
  · subst h
    cases r with
    | error e => right; rfl
    | ok a => exact hf a

theorem Tracks.ite {φ : A → B} {p : Prop} [Decidable p] {a a' : Except PyErr A} {b b' : Except PyErr B}
    (h : Tracks u φ a b) (h' : Tracks u φ a' b') : Tracks u φ (if p then a else a') (if p then b else b') := by
  split <;> assumption

/-- A map of points compatible with the primitives. -/
structure KernelOps.Hom (u : Prop) (o : KernelOps P) (o' : KernelOps Q) (φ : P → Q) : Prop where
  meet : ∀ a b c d, Tracks u (Option.map φ) (o.meet a b c d) (o'.meet (φ a) (φ b) (φ c) (φ d))
  collinear : ∀ a b c, o'.collinear (φ a) (φ b) (φ c) = o.collinear a b c
  cw : ∀ a b c, o'.cw (φ a) (φ b) (φ c) = o.cw a b c
  ccw : ∀ a b c, o'.ccw (φ a) (φ b) (φ c) = o.ccw a b c
  between : ∀ a b c, o'.between (φ a) (φ b) (φ c) = o.between a b c
  agree : ∀ a b c d e f, o'.agree (φ a) (φ b) (φ c) (φ d) (φ e) (φ f) = o.agree a b c d e f
  before : ∀ a b, Tracks u φ (o.before a b) (o'.before (φ a) (φ b))
  beyond : ∀ a b, Tracks u φ (o.beyond a b) (o'.beyond (φ a) (φ b))
  stretch : ∀ a b, o'.stretch (φ a) (φ b) = φ (o.stretch a b)

theorem kGet_tracks (φ : P → Q) (l : List P) (i : Int) : Tracks u φ (kGet l i) (kGet (l.map φ) i) := by
  right
  simp only [kGet, List.length_map, List.getElem?_map]
  generalize (if i < 0 then i + (l.length : Int) else i) = j
  by_cases hj : j < 0
  · rw [if_pos hj, if_pos hj]; rfl
  · rw [if_neg hj, if_neg hj]
    cases l[j.toNat]? <;> rfl

theorem kGet_same (l : List Int) (i : Int) : Tracks u id (kGet l i) (kGet l i) := by
  right; cases kGet l i <;> rfl

theorem kFrom_map (φ : P → Q) (l : List P) (i : Int) : kFrom (l.map φ) i = (kFrom l i).map φ := by
  simp [kFrom]

theorem kTo_map (φ : P → Q) (l : List P) (i : Int) : kTo (l.map φ) i = (kTo l i).map φ := by
  simp [kTo]

theorem kSlice_map (φ : P → Q) (l : List P) (i j : Int) : kSlice (l.map φ) i j = (kSlice l i j).map φ := by
  simp [kSlice]

variable {o : KernelOps P} {o' : KernelOps Q} {φ : P → Q}

theorem dropInline_tracks (h : KernelOps.Hom u o o' φ) (v : List P) : ∀ (is idcs : List Int),
    Tracks u id (dropInline o v idcs is) (dropInline o' (v.map φ) idcs is)
  | [], idcs => Tracks.ok id idcs
  | i :: is, idcs => by
    unfold dropInline
    refine (kGet_same idcs (i - 2)).bind fun i2 => (kGet_same idcs (i - 1)).bind fun i1 =>
      (kGet_same idcs i).bind fun i0 => (kGet_tracks φ v i2).bind fun a => (kGet_tracks φ v i1).bind fun b =>
      (kGet_tracks φ v i0).bind fun c => ?_
    rw [h.collinear]
    exact dropInline_tracks h v is _

theorem mapM_tracks {E : Type} {f : E → Except PyErr A} {g : E → Except PyErr B} {ψ : A → B}
    (h : ∀ x, Tracks u ψ (f x) (g x)) : ∀ l : List E, Tracks u (List.map ψ) (l.mapM f) (l.mapM g)
  | [] => Tracks.ok (List.map ψ) []
  | x :: l => by
    rw [List.mapM_cons, List.mapM_cons]
    exact (h x).bind fun a => (mapM_tracks h l).bind fun as => Tracks.ok (List.map ψ) (a :: as)

theorem reduceVertices_tracks (h : KernelOps.Hom u o o' φ) (v : List P) :
    Tracks u (List.map φ) (reduceVertices o v) (reduceVertices o' (v.map φ)) := by
  unfold reduceVertices
  simp only [List.length_map]
  refine (dropInline_tracks h v _ _).bind fun idcs => ?_
  refine (mapM_tracks (fun x => kGet_tracks φ v x) _).bind fun w => (kGet_tracks φ w _).bind fun a =>
    (kGet_tracks φ w _).bind fun b => (kGet_tracks φ w _).bind fun c => ?_
  rw [h.collinear]
  split
  · rw [← List.map_dropLast]; exact Tracks.ok _ _
  · exact Tracks.ok _ _

theorem isReflex_tracks (h : KernelOps.Hom u o o' φ) (v : List P) (i : Nat) :
    Tracks u id (isReflex o v i) (isReflex o' (v.map φ) i) := by
  unfold isReflex
  simp only [List.length_map]
  refine (kGet_tracks φ v _).bind fun a => (kGet_tracks φ v _).bind fun b => (kGet_tracks φ v _).bind fun c => ?_
  rw [h.cw]; exact Tracks.ok id _

theorem startReflex_tracks (h : KernelOps.Hom u o o' φ) (v : List P) : ∀ is : List Nat,
    Tracks u (List.map φ) (startReflex o v is) (startReflex o' (v.map φ) is)
  | [] => Tracks.ok _ v
  | i :: is => by
    unfold startReflex
    refine (isReflex_tracks h v i).bind fun b => ?_
    refine Tracks.ite ?_ (startReflex_tracks h v is)
    rw [← List.map_drop, ← List.map_take, ← List.map_append]
    exact Tracks.ok _ _

/-- The state with all points mapped. -/
def KernelState.map (φ : P → Q) (st : KernelState P) : KernelState Q :=
  ⟨st.xk.map φ, st.f, st.l, st.bounded, st.delta.map (List.map φ)⟩

theorem scanMeet_tracks (h : KernelOps.Hom u o o' φ) (xk : List P) (edge : Int → Int × Int) (c d : P) : ∀ ts : List Int,
    Tracks u (Option.map (Prod.map id φ)) (scanMeet o xk edge c d ts) (scanMeet o' (xk.map φ) edge (φ c) (φ d) ts)
  | [] => Tracks.ok _ none
  | t :: ts => by
    unfold scanMeet
    refine (kGet_tracks φ xk _).bind fun a => (kGet_tracks φ xk _).bind fun b => (h.meet a b c d).bind fun r => ?_
    cases r with
    | none => exact scanMeet_tracks h xk edge c d ts
    | some w => exact Tracks.ok (Option.map (Prod.map id φ)) (some (t, w))

theorem scanTurn_tracks {side : P → P → P → Bool} {side' : Q → Q → Q → Bool} {str : P → P → P} {str' : Q → Q → Q}
    (h : ∀ a b c, side' (φ a) (φ b) (φ c) = side a b c) (hs : ∀ a b, str' (φ a) (φ b) = φ (str a b))
    (xk : List P) (p : P) (cur : Int) : ∀ ts : List Int,
    Tracks u id (scanTurn side str xk p cur ts) (scanTurn side' str' (xk.map φ) (φ p) cur ts)
  | [] => Tracks.ok id cur
  | t :: ts => by
    unfold scanTurn
    simp only [List.length_map]
    refine (kGet_tracks φ xk _).bind fun a => (kGet_tracks φ xk _).bind fun b => ?_
    rw [hs, h]
    exact Tracks.ite (Tracks.ok id t) (scanTurn_tracks h hs xk p cur ts)

theorem lastEdge_tracks (h : KernelOps.Hom u o o' φ) (debug : Bool) (st : KernelState P) (start vi1 : P) (t : Int) (w : Option P) :
    Tracks u (Option.map (Prod.map (Option.map (List.map φ)) φ)) (lastEdge o debug st start vi1 t w)
      (lastEdge o' debug (st.map φ) (φ start) (φ vi1) t (w.map φ)) := by
  cases w with
  | some w2 =>
    refine Or.inr ?_
    cases debug <;> simp [lastEdge, KernelState.map, Except.map, kSlice_map]
  | none =>
    simp only [lastEdge, Option.map_none, KernelState.map, List.length_map]
    refine (scanMeet_tracks h st.xk _ start vi1 _).bind fun r => ?_
    refine Or.inr ?_
    cases r <;> simp [Except.map, kSlice_map]

theorem closeReflex_tracks (st : KernelState P) (t : Int) (w1 : P) (f : Option (Option (List P) × P)) :
    Tracks u (KernelState.map φ) (closeReflex st t w1 f)
      (closeReflex (st.map φ) t (φ w1) (f.map (Prod.map (Option.map (List.map φ)) φ))) := by
  rcases f with _ | ⟨_ | dl, w2⟩
  · simp only [closeReflex, Option.map_none, KernelState.map]
    cases st.delta <;> exact Tracks.err _ _
  · exact Tracks.err _ _
  · refine Or.inr ?_
    simp [closeReflex, Except.map, KernelState.map]

theorem cutReflex_tracks (h : KernelOps.Hom u o o' φ) (debug : Bool) (st : KernelState P) (start vi1 : P) (t : Int) (w1 : P) :
    Tracks u (KernelState.map φ) (cutReflex o debug st start vi1 t w1)
      (cutReflex o' debug (st.map φ) (φ start) (φ vi1) t (φ w1)) := by
  unfold cutReflex
  refine Tracks.bind (φ := Option.map (Prod.map id φ)) ?_ fun r => ?_
  · simp only [KernelState.map, List.length_map]
    exact scanMeet_tracks h st.xk _ start vi1 _
  · cases r with
    | some r =>
      obtain ⟨s, w2⟩ := r
      simp only [Option.map_some, Prod.map_apply, id]
      refine Tracks.ite ?_ ?_
      · refine Or.inr ?_
        simp [Except.map, KernelState.map, kSlice_map]
      · refine Or.inr ?_
        simp [Except.map, KernelState.map, kFrom_map, kTo_map]
    | none =>
      refine (kGet_tracks φ st.xk _).bind fun e2 => (kGet_tracks φ st.xk _).bind fun e1 =>
        (kGet_tracks φ st.xk _).bind fun e0 => ?_
      rw [h.agree]
      refine Tracks.ite ?_ (Tracks.ite ?_ ?_)
      · refine Or.inr ?_
        simp [Except.map, KernelState.map, kFrom_map]
      · exact (h.meet _ _ _ _).bind fun w => (lastEdge_tracks h debug st start vi1 t w).bind fun f =>
          closeReflex_tracks st t w1 f
      · exact (lastEdge_tracks h debug st start vi1 t none).bind fun f => closeReflex_tracks st t w1 f

theorem reflexCut_tracks (h : KernelOps.Hom u o o' φ) (debug : Bool) (st : KernelState P) (f1 start vi1 : P) :
    Tracks u (Option.map (KernelState.map φ)) (reflexCut o debug st f1 start vi1)
      (reflexCut o' debug (st.map φ) (φ f1) (φ start) (φ vi1)) := by
  unfold reflexCut
  rw [h.ccw]
  refine Tracks.ite ?_ ?_
  · refine Tracks.bind (φ := id) ?_ fun f => ?_
    · simp only [KernelState.map, List.length_map]
      exact scanTurn_tracks h.cw h.stretch st.xk vi1 st.f _
    · exact Tracks.ok (Option.map (KernelState.map φ)) (some { st with f := f })
  · refine Tracks.bind (φ := Option.map (Prod.map id φ)) ?_ fun r => ?_
    · simp only [KernelState.map, List.length_map]
      exact scanMeet_tracks h st.xk _ start vi1 _
    · cases r with
      | none => exact Tracks.ok (Option.map (KernelState.map φ)) none
      | some r =>
        exact (cutReflex_tracks h debug st start vi1 r.1 r.2).bind fun s =>
          Tracks.ok (Option.map (KernelState.map φ)) (some s)

theorem turn_tracks {side : P → P → P → Bool} {side' : Q → Q → Q → Bool} {str : P → P → P} {str' : Q → Q → Q}
    (h : ∀ a b c, side' (φ a) (φ b) (φ c) = side a b c) (hs : ∀ a b, str' (φ a) (φ b) = φ (str a b))
    (st : KernelState P) (p : P) (cur i : Int) :
    Tracks u id (scanTurn side str st.xk p cur (around i st.xk.length))
      (scanTurn side' str' (st.map φ).xk (φ p) cur (around i (st.map φ).xk.length)) := by
  simp only [KernelState.map, List.length_map]
  exact scanTurn_tracks h hs st.xk p cur _

theorem reflexRound_tracks (h : KernelOps.Hom u o o' φ) (debug : Bool) (st : KernelState P) (vi vi1 : P) :
    Tracks u (Option.map (KernelState.map φ)) (reflexRound o debug st vi vi1)
      (reflexRound o' debug (st.map φ) (φ vi) (φ vi1)) := by
  unfold reflexRound
  refine (kGet_tracks φ st.xk st.f).bind fun f1 => (h.before vi vi1).bind fun start =>
    (reflexCut_tracks h debug st f1 start vi1).bind fun next => ?_
  cases next with
  | none => exact Tracks.ok (Option.map (KernelState.map φ)) none
  | some s =>
    exact (turn_tracks h.ccw h.stretch s vi1 s.l s.l).bind fun l =>
      Tracks.ok (Option.map (KernelState.map φ)) (some { s with l := l })

theorem cutConvex_tracks (h : KernelOps.Hom u o o' φ) (st : KernelState P) (vi stop : P) (t : Int) (w1 : P) :
    Tracks u (Prod.map (KernelState.map φ) (Prod.map id (Option.map (Prod.map φ id)))) (cutConvex o st vi stop t w1)
      (cutConvex o' (st.map φ) (φ vi) (φ stop) t (φ w1)) := by
  unfold cutConvex
  refine Tracks.bind (φ := Option.map (Prod.map id φ)) ?_ fun r => ?_
  · simp only [KernelState.map, List.length_map]
    exact scanMeet_tracks h st.xk _ vi stop _
  · cases r with
    | some r =>
      obtain ⟨s, w2⟩ := r
      simp only [Option.map_some, Prod.map_apply, id]
      refine Tracks.ite ?_ ?_
      · refine Or.inr ?_
        simp [Except.map, KernelState.map, kSlice_map]
      · refine Or.inr ?_
        simp [Except.map, KernelState.map, kFrom_map, kTo_map]
    | none =>
      refine (kGet_tracks φ st.xk _).bind fun e2 => (kGet_tracks φ st.xk _).bind fun e1 =>
        (kGet_tracks φ st.xk _).bind fun e0 => ?_
      rw [h.agree]
      refine Tracks.ite ?_ ?_
      · refine Or.inr ?_
        simp [Except.map, KernelState.map, kTo_map]
      · refine Tracks.bind (φ := Option.map (Prod.map id φ)) ?_ fun r => ?_
        · simp only [KernelState.map, List.length_map]
          exact scanMeet_tracks h st.xk _ vi stop _
        · cases r with
          | some r =>
            refine Or.inr ?_
            simp [Except.map, KernelState.map, kSlice_map]
          | none =>
            simp only [KernelState.map]
            cases st.delta <;> exact Tracks.err _ _

theorem convexF_tracks (h : KernelOps.Hom u o o' φ) (s : KernelState P) (vi vi1 w1 : P) (i1 : Int) :
    Tracks u id (convexF o s vi vi1 w1 i1) (convexF o' (s.map φ) (φ vi) (φ vi1) (φ w1) i1) := by
  unfold convexF
  rw [h.between]
  exact Tracks.ite (turn_tracks h.cw h.stretch s vi1 s.f s.f) (Tracks.ok id i1)

theorem convexL_tracks (h : KernelOps.Hom u o o' φ) (s : KernelState P) (vi vi1 : P) (q : Option (P × Int)) :
    Tracks u id (convexL o s vi vi1 q) (convexL o' (s.map φ) (φ vi) (φ vi1) (q.map (Prod.map φ id))) := by
  cases q with
  | none => refine Or.inr ?_; simp [convexL, KernelState.map, Except.map]
  | some q =>
    obtain ⟨w2, i2⟩ := q
    simp only [convexL, Option.map_some, Prod.map_apply, id]
    rw [h.between]
    exact Tracks.ite (Tracks.ok id i2) (turn_tracks h.ccw h.stretch s vi1 s.l i2)

theorem convexRound_tracks (h : KernelOps.Hom u o o' φ) (st : KernelState P) (vi vi1 : P) :
    Tracks u (Option.map (KernelState.map φ)) (convexRound o st vi vi1) (convexRound o' (st.map φ) (φ vi) (φ vi1)) := by
  unfold convexRound
  refine (kGet_tracks φ st.xk st.l).bind fun l1 => (h.beyond vi vi1).bind fun stop => ?_
  rw [h.ccw]
  refine Tracks.ite ?_ ?_
  · refine (turn_tracks h.cw h.stretch st vi1 st.f st.f).bind fun f => ?_
    refine Tracks.ite ?_ ?_
    · exact (turn_tracks h.ccw h.stretch st vi1 st.l st.l).bind fun l =>
        Tracks.ok (Option.map (KernelState.map φ)) (some { st with f := f, l := l })
    · exact Tracks.ok (Option.map (KernelState.map φ)) (some { st with f := f })
  · refine Tracks.bind (φ := Option.map (Prod.map id φ)) ?_ fun r => ?_
    · simp only [KernelState.map, List.length_map]
      exact scanMeet_tracks h st.xk _ vi stop _
    · cases r with
      | none => exact Tracks.ok (Option.map (KernelState.map φ)) none
      | some r =>
        exact (cutConvex_tracks h st vi stop r.1 r.2).bind fun c =>
          (convexF_tracks h c.1 vi vi1 r.2 c.2.1).bind fun f => (convexL_tracks h c.1 vi vi1 c.2.2).bind fun l =>
            Tracks.ok (Option.map (KernelState.map φ)) (some { c.1 with f := f, l := l })

theorem kernelRounds_tracks (h : KernelOps.Hom u o o' φ) (debug : Bool) (v : List P) : ∀ (is : List Nat) (st : KernelState P),
    Tracks u (Option.map (KernelState.map φ)) (kernelRounds o debug v is st)
      (kernelRounds o' debug (v.map φ) is (st.map φ))
  | [], st => Tracks.ok (Option.map (KernelState.map φ)) (some st)
  | i :: is, st => by
    unfold kernelRounds
    simp only [List.length_map]
    refine (kGet_tracks φ st.xk _).bind fun _ => (kGet_tracks φ st.xk _).bind fun _ =>
      (kGet_tracks φ v _).bind fun vi => (kGet_tracks φ v _).bind fun vi1 => ?_
    refine (isReflex_tracks h v i).bind fun b => ?_
    refine Tracks.bind (φ := Option.map (KernelState.map φ))
      (show Tracks u _ (kernelRound o debug st vi vi1 b) (kernelRound o' debug (st.map φ) (φ vi) (φ vi1) b) from
        Tracks.ite (reflexRound_tracks h debug st vi vi1) (convexRound_tracks h st vi vi1)) fun next => ?_
    cases next with
    | none => exact Tracks.ok (Option.map (KernelState.map φ)) none
    | some s => exact kernelRounds_tracks h debug v is s

theorem kernelInit_tracks (h : KernelOps.Hom u o o' φ) (v : List P) :
    Tracks u (KernelState.map φ) (kernelInit o v) (kernelInit o' (v.map φ)) := by
  unfold kernelInit
  exact (kGet_tracks φ v _).bind fun v0 => (kGet_tracks φ v _).bind fun v1 => (kGet_tracks φ v _).bind fun vn =>
    (h.before _ _).bind fun f1 => (h.before _ _).bind fun l1 =>
      Tracks.ok (KernelState.map φ) ⟨[f1, v0, l1], 0, 2, false, none⟩

theorem keepFirst_map [DecidableEq P] [DecidableEq Q] (hφ : Function.Injective φ) (l : List P) :
    keepFirst (l.map φ) = (keepFirst l).map φ := by
  have aux : ∀ (l acc : List P), (l.map φ).foldl (fun acc p => if p ∈ acc then acc else acc ++ [p]) (acc.map φ) =
      (l.foldl (fun acc p => if p ∈ acc then acc else acc ++ [p]) acc).map φ := by
    intro l
    induction l with
    | nil => intro acc; rfl
    | cons p l ih =>
      intro acc
      simp only [List.map_cons, List.foldl_cons]
      have hm : φ p ∈ acc.map φ ↔ p ∈ acc := by
        constructor
        · intro h
          obtain ⟨q, hq, e⟩ := List.mem_map.mp h
          rwa [← hφ e]
        · exact fun h => List.mem_map_of_mem h
      by_cases hp : p ∈ acc
      · rw [if_pos hp, if_pos (hm.mpr hp)]; exact ih acc
      · rw [if_neg hp, if_neg (fun x => hp (hm.mp x))]
        have := ih (acc ++ [p])
        rwa [List.map_append] at this
  exact aux l []

theorem kernelVertices_tracks [DecidableEq P] [DecidableEq Q] (h : KernelOps.Hom u o o' φ) (hφ : Function.Injective φ) (debug : Bool)
    (v : List P) :
    Tracks u (Option.map (List.map φ)) (kernelVertices o debug v) (kernelVertices o' debug (v.map φ)) := by
  unfold kernelVertices
  refine (reduceVertices_tracks h v).bind fun w => ?_
  rw [List.length_map]
  refine (startReflex_tracks h w _).bind fun w => ?_
  rw [List.length_map]
  refine (kernelInit_tracks h w).bind fun st => ?_
  refine (kernelRounds_tracks h debug w _ st).bind fun r => ?_
  cases r with
  | none => exact Tracks.ok (Option.map (List.map φ)) none
  | some st =>
    simp only [KernelState.map, Option.map_some, keepFirst_map hφ, List.length_map]
    exact Tracks.ite (Tracks.err _ _) (Tracks.ok (Option.map (List.map φ)) (some (keepFirst st.xk)))

end Starworlds
