import Verif.Proofs.Groups

/-! # Helper lemmas for C124: the clustering loop for two groups -/

namespace Starworlds

open Spec

variable {Ob Star KP P : Type} {g : Geo Ob Star KP P} {A B : List Ob} {prev : Option (List (Cl Ob Star KP P))}

/-- The name of a cluster of some of these obstacles. -/
def NameOf (g : Geo Ob Star KP P) (A : List Ob) (nm : String) : Prop :=
  ∃ l : List Ob, l ≠ [] ∧ (∀ o ∈ l, o ∈ A) ∧ nm = clusterName (l.map g.id)

theorem nameOf_apart (hid : ((A ++ B).map g.id).Nodup) {nm : String} (hA : NameOf g A nm) (hB : NameOf g B nm) : False := by
  obtain ⟨l, l0, lA, rfl⟩ := hA
  obtain ⟨m, m0, mB, e⟩ := hB
  have := same_obstacles hid (fun o ho => List.mem_append_left _ (lA o ho)) (fun o ho => List.mem_append_right _ (mB o ho)) l0 m0 e
  subst this
  obtain ⟨o, ho⟩ := List.exists_mem_of_ne_nil _ l0
  rw [List.map_append, List.nodup_append] at hid
  exact hid.2.2 _ (List.mem_map_of_mem (lA o ho)) _ (List.mem_map_of_mem (mB o ho)) rfl

/-- The clusters of the iterations so far. -/
def LoopEnd.iters : LoopEnd Ob Star KP P → List (List (Cl Ob Star KP P))
  | .incomplete _ it => it
  | .done _ _ it => it

theorem clusterLoop_iters {par : Params} (fuel : Nat) {cls : List (Cl Ob Star KP P)} {ex : Bool} {h : History Ob Star KP P} {n : Nat}
    {it : List (List (Cl Ob Star KP P))} {e : LoopEnd Ob Star KP P} (he : clusterLoop g par prev fuel cls ex h n it = some (.ok e)) :
    (∀ x ∈ it, x ∈ e.iters) ∧ ∀ m j, e = .incomplete m j → n ≤ m := by
  induction fuel generalizing cls ex h n it with
  | zero =>
    cases ex with
    | false =>
      simp only [clusterLoop] at he
      injection he with he; injection he with he; subst he
      exact ⟨fun _ h => h, by rintro m j ⟨⟩⟩
    | true => simp [clusterLoop] at he
  | succ fuel ih =>
    cases ex with
    | false =>
      simp only [clusterLoop] at he
      injection he with he; injection he with he; subst he
      exact ⟨fun _ h => h, by rintro m j ⟨⟩⟩
    | true =>
      simp only [clusterLoop] at he
      split at he
      · injection he with he; injection he with he; subst he
        exact ⟨fun _ h => List.mem_append_left _ h, by rintro m j ⟨⟩; exact le_rfl⟩
      · split at he
        · cases he
        · injection he with he; injection he with he; subst he
          exact ⟨fun _ h => List.mem_append_left _ h, by rintro m j ⟨⟩; exact le_rfl⟩
        · rename_i cls' h' hst
          split at he
          · cases he
          · rename_i cls'' ex' hgic
            have hsub : ∀ x ∈ it, x ∈ (if par.returnHistory then it ++ [cls'] else it) := by
              intro x hx
              split
              · exact List.mem_append_left _ hx
              · exact hx
            split at he
            · injection he with he; injection he with he; subst he
              exact ⟨hsub, by rintro m j ⟨⟩⟩
            · obtain ⟨h1, h2⟩ := ih he
              exact ⟨fun x hx => h1 x (hsub x hx), fun m j e => by have := h2 m j e; omega⟩

/-- The state of the loop of one group, when the loop of both is at iteration `n`. -/
structure Side (g : Geo Ob Star KP P) (A : List Ob) (n : Nat) (cls : List (Cl Ob Star KP P)) (ex : Bool) (h : History Ob Star KP P)
    (m : Nat) (it : List (List (Cl Ob Star KP P))) : Prop where
  hist : HistOk g A h
  perm : (cls.flatMap (·.obstacles)).Perm A
  fresh : ex = true → m = n ∧ ∀ c ∈ cls, Fresh g A c ∧ renew g c = c
  done : ex = false → m ≤ n ∧ ∃ c0 ∈ it, getIntersectionClusters g c0 = .ok (cls, false) ∧ ∀ c ∈ c0, Good g A c ∧ h c.name = some c

theorem Good.nameOf {c : Cl Ob Star KP P} (h : Good g A c) : NameOf g A c.name := ⟨_, h.nonempty, h.sub, h.name⟩

theorem Fresh.nameOf {c : Cl Ob Star KP P} (h : Fresh g A c) : NameOf g A c.name := ⟨_, h.nonempty, h.sub, h.name⟩

theorem renew_name {c : Cl Ob Star KP P} (h : Good g A c) : (renew g c).name = c.name := h.name.symm

theorem gic_renew {cls out : List (Cl Ob Star KP P)} (h : getIntersectionClusters g cls = .ok (out, true)) : ∀ c ∈ out, renew g c = c := by
  intro c hc
  rw [(gic_true h).1] at hc
  obtain ⟨grp, _, rfl⟩ := List.mem_map.1 hc
  rfl

theorem side_of_gic (hs : IsSetList g.setList) {n : Nat} {c1 out : List (Cl Ob Star KP P)} {ex : Bool} {h : History Ob Star KP P}
    {it : List (List (Cl Ob Star KP P))} (hh : HistOk g A h) (hg : ∀ c ∈ c1, Good g A c) (hk : ∀ c ∈ c1, h c.name = some c)
    (hp : (c1.flatMap (·.obstacles)).Perm A)
    (hgic : getIntersectionClusters g c1 = .ok (out, ex)) (hit : c1 ∈ it) : Side g A n out ex h n it := by
  refine ⟨hh, (gic_perm hs hgic).trans hp, ?_, ?_⟩
  · rintro rfl
    exact ⟨rfl, fun c hc => ⟨gic_fresh hs hg hgic c hc, gic_renew hgic c hc⟩⟩
  · rintro rfl
    exact ⟨le_rfl, c1, hit, hgic, fun c hc => ⟨hg c hc, hk c hc⟩⟩

theorem clusters_le {cls : List (Cl Ob Star KP P)} (hg : ∀ c ∈ cls, Good g A c) (hp : (cls.flatMap (·.obstacles)).Perm A) :
    cls.length ≤ A.length := by
  rw [← hp.length_eq]
  clear hp
  induction cls with
  | nil => simp
  | cons c cls ih =>
    have h1 := ih fun d hd => hg d (by simp [hd])
    have h2 := List.length_pos_iff.2 (hg c (by simp)).nonempty
    rw [List.length_cons, List.flatMap_cons, List.length_append]
    omega

/-- One iteration of the loop of one group, seen from the loop of both. -/
theorem side_step (hs : IsSetList g.setList) (hid : (A.map g.id).Nodup) (htm : ∀ n, g.timeoutIter n = false) {par : Params} (hmax : par.maxIterations = none)
    (hret : par.returnHistory = true) {fuel n m : Nat} {cls : List (Cl Ob Star KP P)} {ex : Bool} {h k : History Ob Star KP P}
    {it : List (List (Cl Ob Star KP P))} {e : LoopEnd Ob Star KP P} (hS : Side g A n cls ex h m it)
    (hk : ∀ nm, NameOf g A nm → k nm = h nm) (he : clusterLoop g par prev (fuel + 1) cls ex h m it = some (.ok e)) :
    (∃ part, ex = true ∧ e = .incomplete n (it ++ [part]) ∧ starifyAll g prev n (cls.map (renew g)) k = .ok (.inl part)) ∨
    ∃ c1 k1 out ex' h' m' it', starifyAll g prev n (cls.map (renew g)) k = .ok (.inr (c1, k1)) ∧
      (∀ nm, NameOf g A nm → k1 nm = h' nm) ∧ (∀ nm, ¬ NameOf g A nm → k1 nm = k nm) ∧
      getIntersectionClusters g c1 = .ok (out, ex') ∧ (∀ c ∈ c1, Good g A c) ∧ c1.length ≤ A.length ∧ c1 ∈ it' ∧ Side g A (n + 1) out ex' h' m' it' ∧
      (ex = true → m' = n + 1) ∧ clusterLoop g par prev fuel out ex' h' m' it' = some (.ok e) := by
  cases ex with
  | false =>
    right
    obtain ⟨hm, c0, hc0, hgic, hgood⟩ := hS.done rfl
    have hobs : cls.map (renew g) = c0.map (renew g) := by
      rw [(gic_false hgic).1, List.map_map]
      refine List.map_congr_left fun c _ => ?_
      simp only [Function.comp_apply, renew, cachePolygon_obstacles]
    refine ⟨c0, k, cls, false, h, m, it, ?_, hk, fun _ _ => rfl, hgic, fun c hc => (hgood c hc).1, ?_, hc0,
      ⟨hS.hist, hS.perm, by simp, fun _ => ⟨by omega, c0, hc0, hgic, hgood⟩⟩, by simp, ?_⟩
    · rw [hobs]
      refine starifyAll_known c0 k fun c hc => ?_
      rw [renew_name (hgood c hc).1, hk _ (hgood c hc).1.nameOf, (hgood c hc).2]
    · refine clusters_le (fun c hc => (hgood c hc).1) ?_
      exact (gic_perm hs hgic).symm.trans hS.perm
    · simp only [clusterLoop] at he
      cases fuel <;> simpa only [clusterLoop] using he
  | true =>
    obtain ⟨rfl, hf⟩ := hS.fresh rfl
    have hren : cls.map (renew g) = cls := by
      conv_rhs => rw [← List.map_id cls]
      exact List.map_congr_left fun c hc => (hf c hc).2
    rw [hren]
    have hfr := starifyAll_frame (g := g) (prev := prev) (n := m) cls h k fun c hc => (hk _ (hf c hc).1.nameOf).symm
    simp only [clusterLoop, htm, Bool.false_eq_true, if_false] at he
    split at he
    · cases he
    · rename_i part hst
      injection he with he; injection he with he
      rw [hst] at hfr
      exact Or.inl ⟨part, rfl, he.symm, hfr⟩
    · rename_i cls' h' hst
      rw [hst] at hfr
      obtain ⟨k1, e1, e2, e3⟩ := hfr
      obtain ⟨g1, g2, g3⟩ := starifyAll_good cls h hS.hist (fun c hc => (hf c hc).1) hst
      have gp : (cls'.flatMap (·.obstacles)).Perm A := by rw [flatMap_congr_obs (g3 hid)]; exact hS.perm
      obtain ⟨_, g4, _⟩ := starifyAll_history cls h (fun nm d hd => (hS.hist nm d hd).2) hst
      split at he
      · cases he
      · rename_i out ex' hgic
        simp only [reachedMax, hmax, Bool.false_eq_true, if_false, hret, if_true] at he
        refine Or.inr ⟨cls', k1, out, ex', h', m + 1, it ++ [cls'], e1, fun nm hnm => (e2 nm (hk nm hnm).symm).symm, fun nm hnm => e3 nm ?_, hgic, g2,
          clusters_le g2 gp, by simp, side_of_gic hs g1 g2 g4 gp hgic (by simp), fun _ => rfl, he⟩
        rintro c hc rfl
        exact hnm (hf c hc).1.nameOf

/-- How the loop of both groups ends. -/
def Joined : LoopEnd Ob Star KP P → LoopEnd Ob Star KP P → LoopEnd Ob Star KP P → Prop
  | .done oA mA _, .done oB mB _, .done o m _ => o = oA ++ oB ∧ m = max mA mB
  | .done _ _ _, .incomplete mB _, .incomplete m _ => m = mB
  | .incomplete mA _, .done _ _ _, .incomplete m _ => m = mA
  | .incomplete mA _, .incomplete mB _, .incomplete m _ => m = min mA mB
  | _, _, _ => False

theorem loop_two (hs : IsSetList g.setList) (hsh : ShiftFree (A ++ B).length g.setList) (htm : ∀ n, g.timeoutIter n = false)
    (hid : ((A ++ B).map g.id).Nodup) {par parC : Params} (hmax : par.maxIterations = none) (hret : par.returnHistory = true)
    (hmaxC : parC.maxIterations = none) (fuel : Nat) {n mA mB : Nat}
    {clsA clsB : List (Cl Ob Star KP P)} {exA exB : Bool} {hA hB k : History Ob Star KP P}
    {itA itB itC : List (List (Cl Ob Star KP P))} {eA eB : LoopEnd Ob Star KP P}
    (hx : (exA || exB) = true) (hSA : Side g A n clsA exA hA mA itA) (hSB : Side g B n clsB exB hB mB itB)
    (hkA : ∀ nm, NameOf g A nm → k nm = hA nm) (hkB : ∀ nm, NameOf g B nm → k nm = hB nm)
    (heA : clusterLoop g par prev fuel clsA exA hA mA itA = some (.ok eA))
    (heB : clusterLoop g par prev fuel clsB exB hB mB itB = some (.ok eB))
    (hap : ∀ x ∈ eA.iters, ∀ y ∈ eB.iters, ∀ c ∈ x, ∀ d ∈ y, ApartFrom g c d) :
    ∃ e, clusterLoop g parC prev fuel (clsA.map (renew g) ++ clsB.map (renew g)) true k n itC = some (.ok e) ∧ Joined eA eB e := by
  induction fuel generalizing n mA mB clsA clsB exA exB hA hB k itA itB itC with
  | zero =>
    cases exA with
    | true => simp [clusterLoop] at heA
    | false => cases exB with
      | true => simp [clusterLoop] at heB
      | false => simp at hx
  | succ fuel ih =>
    simp only [clusterLoop, htm, Bool.false_eq_true, if_false]
    rw [starifyAll_append]
    rcases side_step hs (by rw [List.map_append] at hid; exact hid.of_append_left) htm hmax hret hSA hkA heA with ⟨part, rfl, rfl, e1⟩ |
      ⟨c1, k1, outA, exA', hA', mA', itA', e1, e2, e3, e4, e5, el, e6, e7, e8, e9⟩
    · refine ⟨.incomplete n (itC ++ [part ++ clsB.map (renew g)]), by simp only [e1], ?_⟩
      cases eB with
      | done => exact rfl
      | incomplete m j =>
        have hm := (clusterLoop_iters _ heB).2 m j rfl
        cases exB with
        | false => simp [clusterLoop] at heB
        | true =>
          rw [(hSB.fresh rfl).1] at hm
          exact (min_eq_left hm).symm
    · have hkB1 : ∀ nm, NameOf g B nm → k1 nm = hB nm := fun nm hnm => by
        rw [e3 nm fun h => nameOf_apart hid h hnm, hkB nm hnm]
      rcases side_step hs (by rw [List.map_append] at hid; exact hid.of_append_right) htm hmax hret hSB hkB1 heB with ⟨part, rfl, rfl, f1⟩ |
        ⟨c2, k2, outB, exB', hB', mB', itB', f1, f2, f3, f4, f5, fl, f6, f7, f8, f9⟩
      · refine ⟨.incomplete n (itC ++ [c1 ++ part]), by simp only [e1, f1], ?_⟩
        cases eA with
        | done => exact rfl
        | incomplete m j =>
          have hm := (clusterLoop_iters _ e9).2 m j rfl
          cases hxA : exA' with
          | false =>
            subst hxA
            cases fuel <;> simp [clusterLoop] at e9
          | true =>
            rw [(e7.fresh hxA).1] at hm
            exact (min_eq_right (by omega)).symm
      · have hapc : ∀ c ∈ c1, ∀ d ∈ c2, ApartFrom g c d := fun c hc d hd =>
          hap c1 ((clusterLoop_iters _ e9).1 _ e6) c2 ((clusterLoop_iters _ f9).1 _ f6) c hc d hd
        have hg := gic_two hs hsh (by rw [List.length_append]; omega) e5 f5 hapc e4 f4
        simp only [e1, f1, hg, reachedMax, hmaxC, Bool.false_eq_true, if_false]
        cases hx' : exA' || exB' with
        | true =>
          simp only [if_true]
          refine ih hx' e7 f7 (fun nm hnm => ?_) f2 e9 f9
          rw [f3 nm fun h => nameOf_apart hid hnm h, e2 nm hnm]
        | false =>
          rw [Bool.or_eq_false_iff] at hx'
          obtain ⟨rfl, rfl⟩ := hx'
          have heA' : eA = .done outA mA' itA' := by
            cases fuel <;> simp only [clusterLoop] at e9 <;> (injection e9 with e9; injection e9 with e9; exact e9.symm)
          have heB' : eB = .done outB mB' itB' := by
            cases fuel <;> simp only [clusterLoop] at f9 <;> (injection f9 with f9; injection f9 with f9; exact f9.symm)
          subst heA' heB'
          have h1 := (e7.done rfl).1
          have h2 := (f7.done rfl).1
          have hm : n + 1 = max mA' mB' := by
            rw [Bool.or_eq_true] at hx
            rcases hx with hx | hx
            · have := e8 hx; omega
            · have := f8 hx; omega
          simp only [Bool.false_eq_true, if_false]
          refine ⟨.done (outA ++ outB) (n + 1) (if parC.returnHistory then itC ++ [c1 ++ c2] else itC), ?_, rfl, hm⟩
          cases fuel <;> simp only [clusterLoop]

end Starworlds
