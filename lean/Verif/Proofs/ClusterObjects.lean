import Verif.Spec.ClusterObjects
import Verif.Proofs.Cluster

/-! # The clustering with cluster objects -/

namespace Starworlds

open Spec

variable {Ob Star KP P : Type} {g : Geo Ob Star KP P}

theorem cache_fields (c : Cl Ob Star KP P) : (cachePolygon g c).name = c.name ∧ (cachePolygon g c).obstacles = c.obstacles ∧
    (cachePolygon g c).star = c.star ∧ (cachePolygon g c).kernelPoints = c.kernelPoints ∧
    (cachePolygon g c).polygon = c.polygon.or (c.star.map g.starPoly) := by
  unfold cachePolygon
  split <;> simp_all

theorem alike_iff (c d : Cl Ob Star KP P) : Alike g c d ↔ cachePolygon g c = cachePolygon g d := by
  obtain ⟨c1, c2, c3, c4, c5⟩ := cache_fields (g := g) c
  obtain ⟨d1, d2, d3, d4, d5⟩ := cache_fields (g := g) d
  constructor
  · rintro ⟨h1, h2, h3, h4, h5⟩
    rw [← c5, ← d5] at h5
    rw [← c1, ← d1] at h1
    rw [← c2, ← d2] at h2
    rw [← c3, ← d3] at h3
    rw [← c4, ← d4] at h4
    generalize cachePolygon g c = x at *
    generalize cachePolygon g d = y at *
    cases x; cases y
    simp_all
  · intro h
    refine ⟨by rw [← c1, ← d1, h], by rw [← c2, ← d2, h], by rw [← c3, ← d3, h], by rw [← c4, ← d4, h], by rw [← c5, ← d5, h]⟩

theorem alike_refl (c : Cl Ob Star KP P) : Alike g c c := ⟨rfl, rfl, rfl, rfl, rfl⟩

theorem alike_trans {c d e : Cl Ob Star KP P} (h : Alike g c d) (h' : Alike g d e) : Alike g c e := by
  rw [alike_iff] at *
  rw [h, h']

theorem alike_symm {c d : Cl Ob Star KP P} (h : Alike g c d) : Alike g d c := by
  rw [alike_iff] at *
  rw [h]

theorem cache_idem (c : Cl Ob Star KP P) : cachePolygon g (cachePolygon g c) = cachePolygon g c := by
  obtain ⟨n, o, s, k, p⟩ := c
  cases p <;> cases s <;> rfl

theorem alike_cache (c : Cl Ob Star KP P) : Alike g (cachePolygon g c) c := by
  rw [alike_iff, cache_idem]

theorem gic_alike {cls cls' : List (Cl Ob Star KP P)} (h : List.Forall₂ (Alike g) cls cls') :
    getIntersectionClusters g cls = getIntersectionClusters g cls' := by
  have e : cls.map (cachePolygon g) = cls'.map (cachePolygon g) := by
    induction h with
    | nil => rfl
    | cons h _ ih => rw [List.map_cons, List.map_cons, ih, (alike_iff _ _).1 h]
  simp only [getIntersectionClusters, e]

theorem gic_false_eq {cls out : List (Cl Ob Star KP P)} (h : getIntersectionClusters g cls = .ok (out, false)) :
    out = cls.map (cachePolygon g) := by
  simp only [getIntersectionClusters] at h
  split at h
  · cases h
  · split at h
    · cases h
    · cases h; rfl

/-! ## The heap -/

theorem cache_length (H : ClHeap Ob Star KP P) (l : List Nat) : (H.cache g l).length = H.length := by
  induction l generalizing H with
  | nil => rfl
  | cons a l ih =>
    rw [ClHeap.cache, List.foldl_cons, ← ClHeap.cache, ih, List.length_modify]

theorem cache_at (H : ClHeap Ob Star KP P) (l : List Nat) (a : Nat) :
    (H.cache g l)[a]? = if a ∈ l then H[a]?.map (cachePolygon g) else H[a]? := by
  induction l generalizing H with
  | nil => simp [ClHeap.cache]
  | cons b l ih =>
    rw [ClHeap.cache, List.foldl_cons, ← ClHeap.cache, ih, List.getElem?_modify]
    by_cases hb : b = a
    · subst hb
      simp only [List.mem_cons, true_or, if_true]
      cases H[b]? with
      | none => simp
      | some c => by_cases hl : b ∈ l <;> simp [hl, cache_idem]
    · simp only [hb, if_false, List.mem_cons, Ne.symm hb, false_or]
      cases H[a]? <;> simp

theorem cache_alike {H : ClHeap Ob Star KP P} (l : List Nat) {a : Nat} {c : Cl Ob Star KP P} (h : H[a]? = some c) :
    ∃ d, (H.cache g l)[a]? = some d ∧ Alike g d c := by
  rw [cache_at, h]
  split
  · exact ⟨_, rfl, alike_cache c⟩
  · exact ⟨_, rfl, alike_refl c⟩

theorem Spec.Reads.read {H : ClHeap Ob Star KP P} {l : List Nat} {cls : List (Cl Ob Star KP P)} (h : Reads H l cls) : H.read l = cls := by
  induction h with
  | nil => rfl
  | cons h _ ih => rw [ClHeap.read, List.filterMap_cons, h, ← ClHeap.read, ih]

theorem Spec.Reads.shows {H : ClHeap Ob Star KP P} {l : List Nat} {cls : List (Cl Ob Star KP P)} (h : Reads H l cls) : Shows g H l cls :=
  List.Forall₂.imp (fun _ c h => ⟨c, h, alike_refl c⟩) h

/-- From a list that shows some clusters to the objects themselves. -/
theorem Spec.Shows.reads {H : ClHeap Ob Star KP P} {l : List Nat} {cls : List (Cl Ob Star KP P)} (h : Shows g H l cls) :
    ∃ cls', Reads H l cls' ∧ List.Forall₂ (Alike g) cls' cls := by
  induction h with
  | nil => exact ⟨[], .nil, .nil⟩
  | cons h _ ih =>
    obtain ⟨d, h1, h2⟩ := h
    obtain ⟨cls', h3, h4⟩ := ih
    exact ⟨d :: cls', .cons h1 h3, .cons h2 h4⟩

theorem Spec.Reads.cached {H : ClHeap Ob Star KP P} {l : List Nat} {cls : List (Cl Ob Star KP P)} (h : Reads H l cls) :
    Reads (H.cache g l) l (cls.map (cachePolygon g)) := by
  have key : ∀ l0 : List Nat, (∀ a ∈ l, a ∈ l0) → Reads (H.cache g l0) l (cls.map (cachePolygon g)) := by
    intro l0 hl
    induction h with
    | nil => exact .nil
    | cons h hr ih =>
      refine .cons ?_ (ih fun a ha => hl a (List.mem_cons_of_mem _ ha))
      rw [cache_at, if_pos (hl _ List.mem_cons_self), h]
      rfl
  exact key l fun _ h => h

theorem reads_range (H new : List (Cl Ob Star KP P)) : Reads (H ++ new) (List.range' H.length new.length) new := by
  have key : ∀ (pre new : List (Cl Ob Star KP P)) (A : ClHeap Ob Star KP P), A = pre ++ new → Reads A (List.range' pre.length new.length) new := by
    intro pre new
    induction new generalizing pre with
    | nil => intro A _; exact .nil
    | cons c new ih =>
      rintro A rfl
      rw [List.length_cons, List.range'_succ]
      refine .cons (by simp) ?_
      have := ih (pre ++ [c]) (pre ++ c :: new) (by simp)
      rwa [List.length_append, List.length_singleton] at this
  exact key H new _ rfl

theorem Spec.Shows.mono {H H' : ClHeap Ob Star KP P} {l : List Nat} {cls : List (Cl Ob Star KP P)} (h : Shows g H l cls)
    (hk : ∀ (a : Nat), a ∈ l → ∀ c, H[a]? = some c → ∃ d, H'[a]? = some d ∧ Alike g d c) : Shows g H' l cls := by
  induction h with
  | nil => exact .nil
  | cons h _ ih =>
    obtain ⟨d, h1, h2⟩ := h
    obtain ⟨e, h3, h4⟩ := hk _ List.mem_cons_self d h1
    exact .cons ⟨e, h3, alike_trans h4 h2⟩ (ih fun a ha => hk a (List.mem_cons_of_mem _ ha))

theorem Spec.Shows.lt {H : ClHeap Ob Star KP P} {l : List Nat} {cls : List (Cl Ob Star KP P)} (h : Shows g H l cls) : ∀ a ∈ l, a < H.length := by
  induction h with
  | nil => simp
  | cons h _ ih =>
    obtain ⟨d, h1, _⟩ := h
    intro a ha
    rcases List.mem_cons.1 ha with rfl | ha
    · exact (List.getElem?_eq_some_iff.1 h1).1
    · exact ih a ha

/-! ## get_intersection_clusters -/

theorem gicObj_error {H : ClHeap Ob Star KP P} {l : List Nat} {cls : List (Cl Ob Star KP P)} (h : Shows g H l cls) {e : PyErr}
    (he : getIntersectionClusters g cls = .error e) : gicObj g H l = .error e := by
  obtain ⟨cls', h1, h2⟩ := h.reads
  have e1 : getIntersectionClusters g (cls'.map (cachePolygon g)) = .error e := by
    rw [← he]
    refine (gic_alike ?_)
    rw [List.forall₂_map_left_iff]
    exact List.Forall₂.imp (fun a b hab => alike_trans (alike_cache a) hab) h2
  simp only [gicObj, h1.cached.read, e1]

theorem gicObj_ok {H : ClHeap Ob Star KP P} {l : List Nat} {cls : List (Cl Ob Star KP P)} (h : Shows g H l cls)
    {out : List (Cl Ob Star KP P)} {ex : Bool} (he : getIntersectionClusters g cls = .ok (out, ex)) :
    ∃ H' l', gicObj g H l = .ok (H', l', ex) ∧ Reads H' l' out ∧
      (∀ (a : Nat) c, H[a]? = some c → ∃ d, H'[a]? = some d ∧ Alike g d c) ∧
      (ex = true → l'.Nodup ∧ ∀ a ∈ l', H.length ≤ a) ∧ (ex = false → l' = l) := by
  obtain ⟨cls', h1, h2⟩ := h.reads
  have hall : List.Forall₂ (Alike g) (cls'.map (cachePolygon g)) cls := by
    rw [List.forall₂_map_left_iff]
    exact List.Forall₂.imp (fun a b hab => alike_trans (alike_cache a) hab) h2
  have e1 : getIntersectionClusters g (cls'.map (cachePolygon g)) = .ok (out, ex) := by
    rw [← he]
    exact gic_alike hall
  cases ex with
  | false =>
    refine ⟨H.cache g l, l, by simp only [gicObj, h1.cached.read, e1], ?_, fun a c hc => cache_alike l hc, by simp, fun _ => rfl⟩
    have := gic_false_eq e1
    rw [this, List.map_map, show (cachePolygon g ∘ cachePolygon g) = cachePolygon g from funext cache_idem]
    exact h1.cached
  | true =>
    refine ⟨H.cache g l ++ out, List.range' H.length out.length, by simp only [gicObj, h1.cached.read, e1], ?_, fun a c hc => ?_,
      fun _ => ⟨List.nodup_range', fun a ha => (List.mem_range'_1.1 ha).1⟩, by simp⟩
    · have := reads_range (H.cache g l) out
      rwa [cache_length] at this
    · obtain ⟨d, h3, h4⟩ := cache_alike (g := g) l hc
      exact ⟨d, by rw [List.getElem?_append_left (List.getElem?_eq_some_iff.1 h3).1]; exact h3, h4⟩

/-! ## The loop over the clusters -/

/-- The two histories agree, and the objects in the history are not among the given ones. -/
def HistAgree (g : Geo Ob Star KP P) (H : ClHeap Ob Star KP P) (l : List Nat) (ho : ObjHistory) (h : History Ob Star KP P) : Prop :=
  ∀ nm, (h nm = none ∧ ho nm = none) ∨ ∃ c a d, h nm = some c ∧ ho nm = some a ∧ a ∉ l ∧ H[a]? = some d ∧ Alike g d c

theorem starifyAllObj_spec (prev : Option (List (Cl Ob Star KP P))) (n : Nat) {l : List Nat} {cls : List (Cl Ob Star KP P)}
    {H : ClHeap Ob Star KP P} {ho : ObjHistory} {h : History Ob Star KP P} (hr : Reads H l cls) (hl : l.Nodup) (hh : HistAgree g H l ho h) :
    (∃ e, starifyAll g prev n cls h = .error e ∧ starifyAllObj g prev n l H ho = .error e) ∨
    ∃ H', (∀ a, a ∉ l → H'[a]? = H[a]?) ∧ H'.length = H.length ∧
      ((∃ part p, starifyAll g prev n cls h = .ok (.inl part) ∧ starifyAllObj g prev n l H ho = .ok (H', .inl p) ∧ Shows g H' p part) ∨
       ∃ cls' h' l' ho', starifyAll g prev n cls h = .ok (.inr (cls', h')) ∧ starifyAllObj g prev n l H ho = .ok (H', .inr (l', ho')) ∧
         Shows g H' l' cls' ∧ HistAgree g H' [] ho' h') := by
  induction l generalizing cls H ho h with
  | nil =>
    cases hr
    exact .inr ⟨H, fun _ _ => rfl, rfl, .inr ⟨[], h, [], ho, rfl, rfl, .nil, hh⟩⟩
  | cons a l ih =>
    cases hr with
    | @cons _ cl _ cls hc hr =>
    obtain ⟨hal, hl⟩ := List.nodup_cons.1 hl
    have hsub : HistAgree g H l ho h := fun nm => by
      rcases hh nm with h1 | ⟨c, b, d, h1, h2, h3, h4, h5⟩
      · exact .inl h1
      · exact .inr ⟨c, b, d, h1, h2, fun hb => h3 (List.mem_cons_of_mem _ hb), h4, h5⟩
    rcases hh cl.name with ⟨h1, h2⟩ | ⟨c, b, d, h1, h2, h3, h4, h5⟩
    · cases hs : starifyCluster g prev n cl with
      | error e => exact .inl ⟨e, by simp only [starifyAll, h1, hs], by simp only [starifyAllObj, hc, h2, hs]⟩
      | ok r =>
        cases r with
        | none =>
          refine .inr ⟨H, fun _ _ => rfl, rfl, .inl ⟨cl :: cls, a :: l, by simp only [starifyAll, h1, hs],
            by simp only [starifyAllObj, hc, h2, hs], ?_⟩⟩
          exact (Spec.Reads.shows (g := g) (.cons hc hr))
        | some c =>
          have hlt := (List.getElem?_eq_some_iff.1 hc).1
          have hr' : Reads (H.set a c) l cls := by
            have key : ∀ {l cls}, Reads H l cls → a ∉ l → Reads (H.set a c) l cls := by
              intro l cls h
              induction h with
              | nil => intro _; exact .nil
              | cons h _ ih =>
                intro ha
                refine .cons ?_ (ih fun h => ha (List.mem_cons_of_mem _ h))
                rw [List.getElem?_set_ne (by rintro rfl; exact ha List.mem_cons_self)]
                exact h
            exact key hr hal
          have hh' : HistAgree g (H.set a c) l (ho.insert c.name a) (h.insert c) := by
            intro nm
            by_cases hnm : nm = c.name
            · refine .inr ⟨c, a, c, by simp [History.insert, hnm], by simp [ObjHistory.insert, hnm], hal, ?_, alike_refl c⟩
              rw [List.getElem?_set_self hlt]
            · rcases hh nm with ⟨k1, k2⟩ | ⟨c', b, d, k1, k2, k3, k4, k5⟩
              · exact .inl ⟨by simp [History.insert, hnm, k1], by simp [ObjHistory.insert, hnm, k2]⟩
              · refine .inr ⟨c', b, d, by simp [History.insert, hnm, k1], by simp [ObjHistory.insert, hnm, k2],
                  fun hb => k3 (List.mem_cons_of_mem _ hb), ?_, k5⟩
                rw [List.getElem?_set_ne (by rintro rfl; exact k3 List.mem_cons_self)]
                exact k4
          rcases ih hr' hl hh' with ⟨e, e1, e2⟩ | ⟨H', f1, f2, ⟨part, p, e1, e2, e3⟩ | ⟨cls', h', l', ho', e1, e2, e3, e4⟩⟩
          · exact .inl ⟨e, by simp only [starifyAll, h1, hs, e1, consStarified], by simp only [starifyAllObj, hc, h2, hs, e2, consAddress]⟩
          · refine .inr ⟨H', fun x hx => ?_, by rw [f2, List.length_set], .inl ⟨c :: part, a :: p,
              by simp only [starifyAll, h1, hs, e1, consStarified], by simp only [starifyAllObj, hc, h2, hs, e2, consAddress],
              .cons ⟨c, ?_, alike_refl c⟩ e3⟩⟩
            · rw [f1 x fun h => hx (List.mem_cons_of_mem _ h), List.getElem?_set_ne (by rintro rfl; exact hx List.mem_cons_self)]
            · rw [f1 a hal, List.getElem?_set_self hlt]
          · refine .inr ⟨H', fun x hx => ?_, by rw [f2, List.length_set], .inr ⟨c :: cls', h', a :: l', ho',
              by simp only [starifyAll, h1, hs, e1, consStarified], by simp only [starifyAllObj, hc, h2, hs, e2, consAddress],
              .cons ⟨c, ?_, alike_refl c⟩ e3, e4⟩⟩
            · rw [f1 x fun h => hx (List.mem_cons_of_mem _ h), List.getElem?_set_ne (by rintro rfl; exact hx List.mem_cons_self)]
            · rw [f1 a hal, List.getElem?_set_self hlt]
    · have hbl : b ∉ l := fun hb => h3 (List.mem_cons_of_mem _ hb)
      rcases ih hr hl hsub with ⟨e, e1, e2⟩ | ⟨H', f1, f2, ⟨part, p, e1, e2, e3⟩ | ⟨cls', h', l', ho', e1, e2, e3, e4⟩⟩
      · exact .inl ⟨e, by simp only [starifyAll, h1, e1, consStarified], by simp only [starifyAllObj, hc, h2, e2, consAddress]⟩
      · exact .inr ⟨H', fun x hx => f1 x fun h => hx (List.mem_cons_of_mem _ h), f2, .inl ⟨c :: part, b :: p,
          by simp only [starifyAll, h1, e1, consStarified], by simp only [starifyAllObj, hc, h2, e2, consAddress],
          .cons ⟨d, by rw [f1 b hbl, h4], h5⟩ e3⟩⟩
      · exact .inr ⟨H', fun x hx => f1 x fun h => hx (List.mem_cons_of_mem _ h), f2, .inr ⟨c :: cls', h', b :: l', ho',
          by simp only [starifyAll, h1, e1, consStarified], by simp only [starifyAllObj, hc, h2, e2, consAddress],
          .cons ⟨d, by rw [f1 b hbl, h4], h5⟩ e3, e4⟩⟩

/-! ## The clustering loop -/

/-- The two loops at the same point. -/
structure LoopAgree (g : Geo Ob Star KP P) (par : Params) (l : List Nat) (cls : List (Cl Ob Star KP P)) (ex : Bool) (H : ClHeap Ob Star KP P)
    (ho : ObjHistory) (h : History Ob Star KP P) (n : Nat) (itO : List (List Nat)) (it : List (List (Cl Ob Star KP P))) : Prop where
  reads : Reads H l cls
  hist : HistAgree g H [] ho h
  iters : List.Forall₂ (Shows g H) itO it
  fresh : ex = true → l.Nodup ∧ (∀ nm a, ho nm = some a → a ∉ l) ∧ ∀ x ∈ itO, ∀ a ∈ x, a ∉ l
  last : ex = false → par.returnHistory = true → itO.getLast? = some l
  count : par.returnHistory = true → it.length = n

theorem clusterLoopObj_spec (par : Params) (prev : Option (List (Cl Ob Star KP P))) (fuel : Nat) {l : List Nat}
    {cls : List (Cl Ob Star KP P)} {ex : Bool} {H : ClHeap Ob Star KP P} {ho : ObjHistory} {h : History Ob Star KP P} {n : Nat}
    {itO : List (List Nat)} {it : List (List (Cl Ob Star KP P))} (hi : LoopAgree g par l cls ex H ho h n itO it) :
    (clusterLoop g par prev fuel cls ex h n it = none ∧ clusterLoopObj g par prev fuel l ex H ho n itO = none) ∨
    (∃ e, clusterLoop g par prev fuel cls ex h n it = some (.error e) ∧ clusterLoopObj g par prev fuel l ex H ho n itO = some (.error e)) ∨
    (∃ m it' H' itO', clusterLoop g par prev fuel cls ex h n it = some (.ok (.incomplete m it')) ∧
      clusterLoopObj g par prev fuel l ex H ho n itO = some (.ok (H', .incomplete m itO')) ∧ List.Forall₂ (Shows g H') itO' it' ∧
      itO <+: itO') ∨
    (∃ out m it' H' l' itO', clusterLoop g par prev fuel cls ex h n it = some (.ok (.done out m it')) ∧
      clusterLoopObj g par prev fuel l ex H ho n itO = some (.ok (H', .done l' m itO')) ∧ Reads H' l' out ∧
      List.Forall₂ (Shows g H') itO' it' ∧ (itO <+: itO' ∧ it <+: it') ∧ (par.returnHistory = true → it'.length = m) ∧
      (par.maxIterations = none → par.returnHistory = true → itO'.getLast? = some l')) := by
  induction fuel generalizing l cls ex H ho h n itO it with
  | zero =>
    cases ex with
    | true => exact .inl ⟨rfl, rfl⟩
    | false =>
      exact .inr (.inr (.inr ⟨cls, n, it, H, l, itO, rfl, rfl, hi.reads, hi.iters, ⟨List.prefix_rfl, List.prefix_rfl⟩, hi.count, fun _ hb => hi.last rfl hb⟩))
  | succ fuel ih =>
    cases ex with
    | false =>
      exact .inr (.inr (.inr ⟨cls, n, it, H, l, itO, by simp [clusterLoop], by simp [clusterLoopObj], hi.reads, hi.iters,
        ⟨List.prefix_rfl, List.prefix_rfl⟩, hi.count, fun _ hb => hi.last rfl hb⟩))
    | true =>
      cases htm : g.timeoutIter n with
      | true =>
        refine .inr (.inr (.inl ⟨n, it ++ [cls], H, itO ++ [l], by simp [clusterLoop, htm], by simp [clusterLoopObj, htm], ?_, List.prefix_append _ _⟩))
        exact List.rel_append hi.iters (.cons hi.reads.shows .nil)
      | false =>
        obtain ⟨hnd, hfh, hfi⟩ := hi.fresh rfl
        have hh : HistAgree g H l ho h := fun nm => by
          rcases hi.hist nm with h1 | ⟨c, a, d, h1, h2, _, h4, h5⟩
          · exact .inl h1
          · exact .inr ⟨c, a, d, h1, h2, hfh nm a h2, h4, h5⟩
        have hkeep : ∀ {H' : ClHeap Ob Star KP P}, (∀ a, a ∉ l → H'[a]? = H[a]?) → List.Forall₂ (Shows g H') itO it := by
          intro H' hH
          have key : ∀ {itO it}, List.Forall₂ (Shows g H) itO it → (∀ x ∈ itO, ∀ a ∈ x, a ∉ l) → List.Forall₂ (Shows g H') itO it := by
            intro itO it h
            induction h with
            | nil => intro _; exact .nil
            | cons h _ ih =>
              intro hx
              refine .cons (h.mono fun a ha c hc => ⟨c, ?_, alike_refl c⟩) (ih fun x hx' => hx x (List.mem_cons_of_mem _ hx'))
              rw [hH a (hx _ List.mem_cons_self a ha), hc]
          exact key hi.iters hfi
        rcases starifyAllObj_spec prev n hi.reads hnd hh with ⟨e, e1, e2⟩ | ⟨H1, f1, f2, ⟨part, p, e1, e2, e3⟩ | ⟨cls1, h1, l1, ho1, e1, e2, e3, e4⟩⟩
        · exact .inr (.inl ⟨e, by simp [clusterLoop, htm, e1], by simp [clusterLoopObj, htm, e2]⟩)
        · exact .inr (.inr (.inl ⟨n, it ++ [part], H1, itO ++ [p], by simp [clusterLoop, htm, e1], by simp [clusterLoopObj, htm, e2],
            List.rel_append (hkeep f1) (.cons e3 .nil), List.prefix_append _ _⟩))
        · cases hg : getIntersectionClusters g cls1 with
          | error e =>
            exact .inr (.inl ⟨e, by simp [clusterLoop, htm, e1, hg], by simp [clusterLoopObj, htm, e2, gicObj_error e3 hg]⟩)
          | ok r =>
            obtain ⟨cls2, ex2⟩ := r
            obtain ⟨H2, l2, g1, g2, g3, g4, g5⟩ := gicObj_ok e3 hg
            have hit : List.Forall₂ (Shows g H2) (if par.returnHistory then itO ++ [l1] else itO)
                (if par.returnHistory then it ++ [cls1] else it) := by
              have k1 : List.Forall₂ (Shows g H2) itO it := List.Forall₂.imp (fun x c hx => hx.mono fun a _ c hc => g3 a c hc) (hkeep f1)
              split
              · exact List.rel_append k1 (.cons (e3.mono fun a _ c hc => g3 a c hc) .nil)
              · exact k1
            have hpre : itO <+: (if par.returnHistory then itO ++ [l1] else itO) := by
              split
              · exact List.prefix_append _ _
              · exact List.prefix_rfl
            have hpre' : it <+: (if par.returnHistory then it ++ [cls1] else it) := by
              split
              · exact List.prefix_append _ _
              · exact List.prefix_rfl
            have hcnt : par.returnHistory = true → (if par.returnHistory then it ++ [cls1] else it).length = n + 1 := by
              intro hb
              rw [if_pos hb, List.length_append, hi.count hb, List.length_singleton]
            cases hm : reachedMax par (n + 1) with
            | true =>
              refine .inr (.inr (.inr ⟨cls2, n + 1, _, H2, l2, _, by simp [clusterLoop, htm, e1, hg, hm],
                by simp [clusterLoopObj, htm, e2, g1, hm], g2, hit, ⟨hpre, hpre'⟩, hcnt, fun hmax => ?_⟩))
              simp [reachedMax, hmax] at hm
            | false =>
              have hH2 : HistAgree g H2 [] ho1 h1 := fun nm => by
                rcases e4 nm with k1 | ⟨c, a, d, k1, k2, k3, k4, k5⟩
                · exact .inl k1
                · obtain ⟨d', k6, k7⟩ := g3 a d k4
                  exact .inr ⟨c, a, d', k1, k2, k3, k6, alike_trans k7 k5⟩
              have hnext : LoopAgree g par l2 cls2 ex2 H2 ho1 h1 (n + 1) (if par.returnHistory then itO ++ [l1] else itO)
                  (if par.returnHistory then it ++ [cls1] else it) := by
                refine ⟨g2, hH2, hit, fun hex => ?_, fun hex hb => ?_, hcnt⟩
                · obtain ⟨k1, k2⟩ := g4 hex
                  refine ⟨k1, fun nm a ha hal => ?_, fun x hx a ha hal => ?_⟩
                  · rcases e4 nm with ⟨_, k3⟩ | ⟨c, b, d, _, k3, _, k4, _⟩
                    · rw [ha] at k3; cases k3
                    · rw [ha] at k3
                      obtain rfl := Option.some.inj k3
                      have := (List.getElem?_eq_some_iff.1 k4).1
                      have := k2 a hal
                      omega
                  · have hlt : a < H1.length := by
                      have k5 : List.Forall₂ (Shows g H1) (itO ++ [l1]) (it ++ [cls1]) := List.rel_append (hkeep f1) (.cons e3 .nil)
                      have hx' : x ∈ itO ++ [l1] := by
                        split at hx
                        · exact hx
                        · simp [hx]
                      have key : ∀ {itO it}, List.Forall₂ (Shows g H1) itO it → ∀ x ∈ itO, ∀ a ∈ x, a < H1.length := by
                        intro itO it h
                        induction h with
                        | nil => simp
                        | cons h _ ih =>
                          intro x hx a ha
                          rcases List.mem_cons.1 hx with rfl | hx
                          · exact h.lt a ha
                          · exact ih x hx a ha
                      exact key k5 x hx' a ha
                    have := k2 a hal
                    omega
                · rw [if_pos hb, g5 hex, List.getLast?_append]
                  simp
              have hgo1 : clusterLoop g par prev (fuel + 1) cls true h n it =
                  clusterLoop g par prev fuel cls2 ex2 h1 (n + 1) (if par.returnHistory then it ++ [cls1] else it) := by
                simp [clusterLoop, htm, e1, hg, hm]
              have hgo2 : clusterLoopObj g par prev (fuel + 1) l true H ho n itO =
                  clusterLoopObj g par prev fuel l2 ex2 H2 ho1 (n + 1) (if par.returnHistory then itO ++ [l1] else itO) := by
                simp [clusterLoopObj, htm, e2, g1, hm]
              rw [hgo1, hgo2]
              rcases ih hnext with k | k | ⟨m, it', H', itO', k1, k2, k3, k4⟩ | ⟨out, m, it', H', l', itO', k1, k2, k3, k4, k5, k6⟩
              · exact .inl k
              · exact .inr (.inl k)
              · exact .inr (.inr (.inl ⟨m, it', H', itO', k1, k2, k3, hpre.trans k4⟩))
              · exact .inr (.inr (.inr ⟨out, m, it', H', l', itO', k1, k2, k3, k4, ⟨hpre.trans k5.1, hpre'.trans k5.2⟩, k6⟩))

/-! ## The make_convex stage -/

theorem Spec.Reads.modify {H : ClHeap Ob Star KP P} {l : List Nat} {cls : List (Cl Ob Star KP P)} (h : Reads H l cls) (hl : l.Nodup)
    {j a : Nat} (ha : l[j]? = some a) (f : Cl Ob Star KP P → Cl Ob Star KP P) : Reads (H.modify a f) l (cls.modify j f) := by
  induction l generalizing cls j with
  | nil => simp at ha
  | cons b l ih =>
    cases h with
    | @cons _ c _ cls hc hr =>
    obtain ⟨hbl, hl⟩ := List.nodup_cons.1 hl
    cases j with
    | zero =>
      simp only [List.getElem?_cons_zero, Option.some.injEq] at ha
      subst ha
      have key : ∀ {l cls}, Reads H l cls → b ∉ l → Reads (H.modify b f) l cls := by
        intro l cls h
        induction h with
        | nil => intro _; exact .nil
        | cons h _ ih =>
          intro hb
          refine .cons ?_ (ih fun h => hb (List.mem_cons_of_mem _ h))
          rw [List.getElem?_modify_ne _ _ (by rintro rfl; exact hb List.mem_cons_self)]
          exact h
      exact .cons (by rw [List.getElem?_modify_eq, hc]; rfl) (key hr hbl)
    | succ j =>
      simp only [List.getElem?_cons_succ] at ha
      refine .cons ?_ (ih hr hl ha)
      rw [List.getElem?_modify_ne _ _ (by rintro rfl; exact hbl (List.mem_of_getElem? ha))]
      exact hc

theorem makeConvexObj_spec {l : List Nat} (hl : l.Nodup) (k j : Nat) {cls : List (Cl Ob Star KP P)} {H : ClHeap Ob Star KP P}
    (hr : Reads H l cls) :
    (∃ e, makeConvexLoop g k j cls = .error e ∧ makeConvexObj g l k j H = .error e) ∨
    ∃ H' out, (∀ a, a ∉ l → H'[a]? = H[a]?) ∧ Reads H' l out ∧
      ((makeConvexLoop g k j cls = .ok (.inl out) ∧ makeConvexObj g l k j H = .ok (false, H')) ∨
       (makeConvexLoop g k j cls = .ok (.inr out) ∧ makeConvexObj g l k j H = .ok (true, H'))) := by
  induction k generalizing j cls H with
  | zero => exact .inr ⟨H, cls, fun _ _ => rfl, hr, .inr ⟨rfl, rfl⟩⟩
  | succ k ih =>
    have hlen : l.length = cls.length := hr.length_eq
    cases ha : l[j]? with
    | none =>
      have hc : cls[j]? = none := by
        rw [List.getElem?_eq_none_iff] at ha ⊢
        omega
      exact .inr ⟨H, cls, fun _ _ => rfl, hr, .inr ⟨by simp [makeConvexLoop, hc], by simp [makeConvexObj, ha]⟩⟩
    | some a =>
      have hj := (List.getElem?_eq_some_iff.1 ha)
      obtain ⟨hj1, hj2⟩ := hj
      have hHa : H[a]? = some (cls[j]'(by omega)) := by
        have := (List.forall₂_iff_get.1 hr).2 j hj1 (by omega)
        simp only [List.get_eq_getElem, hj2] at this
        exact this
      have hcj : cls[j]? = some (cls[j]'(by omega)) := List.getElem?_eq_getElem _
      generalize (cls[j]'(by omega)) = cl at hHa hcj
      cases hs : cl.star with
      | none => exact .inl ⟨.attributeError, by simp only [makeConvexLoop, hcj, hs], by simp only [makeConvexObj, ha, hHa, hs]⟩
      | some st =>
        cases hv : g.isConvex st with
        | true =>
          rw [show makeConvexLoop g (k + 1) j cls = makeConvexLoop g k (j + 1) cls by simp only [makeConvexLoop, hcj, hs, hv, if_true],
            show makeConvexObj g l (k + 1) j H = makeConvexObj g l k (j + 1) H by simp only [makeConvexObj, ha, hHa, hs, hv, if_true]]
          exact ih (j + 1) hr
        | false =>
          cases htm : g.timeoutConvex j with
          | true =>
            exact .inr ⟨H, cls, fun _ _ => rfl, hr, .inl ⟨by simp [makeConvexLoop, hcj, hs, hv, htm], by simp [makeConvexObj, ha, hHa, hs, hv, htm]⟩⟩
          | false =>
            cases hp : (cachePolygon g cl).polygon with
            | none => exact .inl ⟨.attributeError, by simp [makeConvexLoop, hcj, hs, hv, htm, hp], by simp [makeConvexObj, ha, hHa, hs, hv, htm, hp]⟩
            | some p =>
              cases hh : g.hullOf p with
              | error e => exact .inl ⟨e, by simp [makeConvexLoop, hcj, hs, hv, htm, hp, hh], by simp [makeConvexObj, ha, hHa, hs, hv, htm, hp, hh]⟩
              | ok q =>
                have hr' := hr.cached (g := g)
                have hframe : ∀ x, x ∉ l → (H.cache g l)[x]? = H[x]? := fun x hx => by rw [cache_at, if_neg hx]
                cases hb : (g.blocked q || meetsOther g (cls.map (cachePolygon g)) j q) with
                | true =>
                  rw [show makeConvexLoop g (k + 1) j cls = makeConvexLoop g k (j + 1) (cls.map (cachePolygon g)) by
                      simp [makeConvexLoop, hcj, hs, hv, htm, hp, hh, hb],
                    show makeConvexObj g l (k + 1) j H = makeConvexObj g l k (j + 1) (H.cache g l) by
                      simp [makeConvexObj, ha, hHa, hs, hv, htm, hp, hh, hr'.read, hb]]
                  rcases ih (j + 1) hr' with h | ⟨H', out, h1, h2⟩
                  · exact .inl h
                  · exact .inr ⟨H', out, fun x hx => by rw [h1 x hx, hframe x hx], h2⟩
                | false =>
                  rw [show makeConvexLoop g (k + 1) j cls = makeConvexLoop g k (j + 1) ((cls.map (cachePolygon g)).modify j fun c =>
                        { c with star := some (g.hullStar q st) }) by
                      simp [makeConvexLoop, hcj, hs, hv, htm, hp, hh, hb],
                    show makeConvexObj g l (k + 1) j H = makeConvexObj g l k (j + 1) ((H.cache g l).modify a fun c =>
                        { c with star := some (g.hullStar q st) }) by
                      simp [makeConvexObj, ha, hHa, hs, hv, htm, hp, hh, hr'.read, hb]]
                  rcases ih (j + 1) (hr'.modify hl ha _) with h | ⟨H', out, h1, h2⟩
                  · exact .inl h
                  · refine .inr ⟨H', out, fun x hx => ?_, h2⟩
                    rw [h1 x hx, List.getElem?_modify_ne _ _ (by rintro rfl; exact hx (List.mem_of_getElem? ha)), hframe x hx]

/-! ## The whole call -/

theorem firstObjHistory_agree (pre cls : List (Cl Ob Star KP P)) (ho : ObjHistory) (h : History Ob Star KP P)
    (hh : HistAgree g (pre ++ cls) [] ho h) :
    HistAgree g (pre ++ cls) [] (firstObjHistory pre.length cls ho) (cls.foldl History.insert h) := by
  induction cls generalizing pre ho h with
  | nil => exact hh
  | cons c cls ih =>
    have := ih (pre ++ [c]) (ho.insert c.name pre.length) (h.insert c) (by
      rw [List.append_assoc, List.singleton_append]
      intro nm
      by_cases hnm : nm = c.name
      · exact .inr ⟨c, pre.length, c, by simp [History.insert, hnm], by simp [ObjHistory.insert, hnm], by simp, by simp, alike_refl c⟩
      · rcases hh nm with ⟨k1, k2⟩ | ⟨c', b, d, k1, k2, k3, k4, k5⟩
        · exact .inl ⟨by simp [History.insert, hnm, k1], by simp [ObjHistory.insert, hnm, k2]⟩
        · exact .inr ⟨c', b, d, by simp [History.insert, hnm, k1], by simp [ObjHistory.insert, hnm, k2], k3, k4, k5⟩)
    rwa [List.append_assoc, List.singleton_append, List.length_append, List.length_singleton] at this

/-- The start of the loop. -/
theorem loopAgree_first (par : Params) {cls0 cls1 : List (Cl Ob Star KP P)} {ex : Bool} (he : getIntersectionClusters g cls0 = .ok (cls1, ex)) :
    ∃ H l1, gicObj g cls0 (List.range' 0 cls0.length) = .ok (H, l1, ex) ∧
      LoopAgree g par l1 cls1 ex H (firstObjHistory 0 cls0 fun _ => none) (firstHistory cls0) 1
        (if par.returnHistory then [List.range' 0 cls0.length] else []) (if par.returnHistory then [cls0] else []) := by
  have h0 : Reads cls0 (List.range' 0 cls0.length) cls0 := by simpa using reads_range [] cls0
  obtain ⟨H, l1, g1, g2, g3, g4, g5⟩ := gicObj_ok (h0.shows (g := g)) he
  have hh0 : HistAgree g cls0 [] (firstObjHistory 0 cls0 fun _ => none) (firstHistory cls0) := by
    have := firstObjHistory_agree (g := g) [] cls0 (fun _ => none) (fun _ => none) (fun _ => .inl ⟨rfl, rfl⟩)
    simpa [firstHistory] using this
  refine ⟨H, l1, g1, g2, fun nm => ?_, ?_, fun hex => ?_, fun hex hb => ?_, fun hb => by rw [if_pos hb]; rfl⟩
  · rcases hh0 nm with k1 | ⟨c, a, d, k1, k2, k3, k4, k5⟩
    · exact .inl k1
    · obtain ⟨d', k6, k7⟩ := g3 a d k4
      exact .inr ⟨c, a, d', k1, k2, k3, k6, alike_trans k7 k5⟩
  · split
    · exact .cons ((h0.shows (g := g)).mono fun a _ c hc => g3 a c hc) .nil
    · exact .nil
  · obtain ⟨k1, k2⟩ := g4 hex
    refine ⟨k1, fun nm a ha hal => ?_, fun x hx a ha hal => ?_⟩
    · rcases hh0 nm with ⟨_, k3⟩ | ⟨c, b, d, _, k3, _, k4, _⟩
      · rw [ha] at k3; cases k3
      · rw [ha] at k3
        obtain rfl := Option.some.inj k3
        have := (List.getElem?_eq_some_iff.1 k4).1
        have := k2 a hal
        omega
    · split at hx
      · rw [List.mem_singleton] at hx
        subst hx
        have := (h0.shows (g := g)).lt a ha
        have := k2 a hal
        omega
      · simp at hx
  · rw [if_pos hb, g5 hex]
    rfl

theorem Spec.Shows.except {H : ClHeap Ob Star KP P} {l : List Nat} {cls : List (Cl Ob Star KP P)} (h : Shows g H l cls) (ex : List Nat) :
    ShowsExcept g H ex l cls := by
  unfold ShowsExcept
  exact List.Forall₂.imp (fun a c (hac : ∃ d, H[a]? = some d ∧ Alike g d c) (_ : a ∉ ex) => hac) h

/-- `default_result`. -/
theorem defaultObj_spec (par : Params) (obstacles : List Ob) (n : Nat) {H : ClHeap Ob Star KP P} {itO : List (List Nat)}
    {it : List (List (Cl Ob Star KP P))} (hi : List.Forall₂ (Shows g H) itO it) (ex : ObjRes Ob Star KP P → List Nat) :
    SameCall g ex (some (.ok (defaultObj g par obstacles H n itO))) (some (.ok (defaultResult g par obstacles n it))) := by
  have hlen : (obstacles.map fun o => newCluster g [o]).length = obstacles.length := List.length_map ..
  refine .ok ?_ rfl rfl ?_
  · simp only [defaultObj, defaultResult]
    have h1 := reads_range H (obstacles.map fun o => newCluster g [o])
    rw [hlen] at h1
    refine List.Forall₂.imp (fun a c hc => ?_) h1
    rw [List.getElem?_append_left (List.getElem?_eq_some_iff.1 hc).1]
    exact hc
  · simp only [defaultObj, defaultResult]
    split
    · split
      · refine .iters (List.Forall₂.imp (fun x y hxy => (Shows.mono hxy fun a _ c hc => ⟨c, ?_, alike_refl c⟩).except _) hi)
        rw [List.append_assoc, List.getElem?_append_left (List.getElem?_eq_some_iff.1 hc).1]
        exact hc
      · refine .flat (Spec.Shows.except (Spec.Reads.shows ?_) _)
        have h1 := reads_range (H ++ obstacles.map fun o => newCluster g [o]) (obstacles.map fun o => newCluster g [o])
        rwa [List.length_append, hlen] at h1
    · exact .none

/-- The objects that the `make_convex` stage may change. -/
def changedBy (par : Params) (ro : ObjRes Ob Star KP P) : List Nat := if par.makeConvex then ro.clusters else []

theorem clusterAndStarifyObj_spec (par : Params) (prev : Option (List (Cl Ob Star KP P))) (fuel : Nat) (obstacles : List Ob)
    (hmc : par.makeConvex = true → IsSetList g.setList ∧ par.maxIterations = none ∧ (obstacles.map g.id).Nodup) :
    SameCall g (changedBy par) (clusterAndStarifyObj g par prev fuel obstacles) (clusterAndStarify g par prev fuel obstacles) := by
  unfold clusterAndStarify clusterAndStarifyObj
  rcases hin : initLoop g 0 obstacles with e | b
  · exact .error _
  cases b with
  | false => exact defaultObj_spec par obstacles 0 .nil _
  | true =>
    simp only
    cases h0 : obstacles.mapM (firstCluster g prev) with
    | error e => exact .error _
    | ok cls0 =>
      simp only
      cases hgic : getIntersectionClusters g cls0 with
      | error e =>
        have hr0 : Reads cls0 (List.range' 0 cls0.length) cls0 := by simpa using reads_range [] cls0
        rw [gicObj_error (hr0.shows (g := g)) hgic]
        exact .error _
      | ok r =>
        obtain ⟨cls1, ex⟩ := r
        obtain ⟨H, l1, e1, hla⟩ := loopAgree_first par hgic
        rw [e1]
        simp only
        rcases clusterLoopObj_spec par prev fuel hla with ⟨k1, k2⟩ | ⟨e, k1, k2⟩ | ⟨m, it', H', itO', k1, k2, k3, k4⟩ |
          ⟨out, m, it', H', l', itO', k1, k2, k3, k4, k5, k6, k7⟩
        · rw [k1, k2]; exact .none
        · rw [k1, k2]; exact .error _
        · rw [k1, k2]
          exact defaultObj_spec par obstacles m k3 _
        · rw [k1, k2]
          simp only
          have hhist : ∀ {H'' : ClHeap Ob Star KP P} {x : List Nat}, (∀ a, a ∉ x → H''[a]? = H'[a]?) → SameHistory g H'' x
              (if par.returnHistory then some (ObjHist.iters itO') else none) (if par.returnHistory then some (HistVal.iters it') else none) := by
            intro H'' x hx
            split
            · refine .iters (List.Forall₂.imp (fun y z hyz => List.Forall₂.imp (fun a c hac ha => ?_) hyz) k4)
              rw [hx a ha]
              exact hac
            · exact .none
          cases hb : par.makeConvex with
          | false =>
            simp only [Bool.false_eq_true, if_false]
            exact .ok k3 rfl rfl (by rw [changedBy, hb]; exact hhist fun _ _ => rfl)
          | true =>
            obtain ⟨hs, hmax, hid⟩ := hmc hb
            obtain ⟨m1, m2, _⟩ := mapM_first (obstacles := obstacles) obstacles (fun o ho => ho) h0
            have hfin : Final g obstacles out := by
              refine clusterLoop_final hs hmax fuel cls1 ex (firstHistory cls0) 1 _ (histOk_first _ m1) (fun hex => ?_) (fun hex => ?_) k1
              · subst hex
                exact ⟨gic_fresh hs m1 hgic, fun _ => by rw [← m2]; exact gic_perm hs hgic⟩
              · subst hex
                exact gic_final hs m1 (fun _ => by rw [m2]) hgic
            have hnd : l'.Nodup := by
              have ho : (out.flatMap (·.obstacles)).Nodup := (hfin.perm hid).nodup_iff.2 (List.Nodup.of_map _ hid)
              rw [List.flatMap_def] at ho
              have hpw := List.pairwise_iff_getElem.1 (List.nodup_flatten.1 ho).2
              have hlen := k3.length_eq
              have hget := (List.forall₂_iff_get.1 k3).2
              refine List.pairwise_iff_getElem.2 fun i j hi hj hij hne => ?_
              have p1 := hget i hi (by omega)
              have p2 := hget j hj (by omega)
              simp only [List.get_eq_getElem] at p1 p2
              rw [hne, p2, Option.some.injEq] at p1
              have hdis := hpw i j (by simp; omega) (by simp; omega) hij
              simp only [List.getElem_map] at hdis
              rw [p1] at hdis
              obtain ⟨o, ho⟩ := List.exists_mem_of_ne_nil _ (hfin.good _ (List.getElem_mem (by omega : i < out.length))).1.nonempty
              exact hdis ho ho
            simp only [if_true]
            rw [show l'.length = out.length from k3.length_eq]
            rcases makeConvexObj_spec (g := g) hnd out.length 0 k3 with ⟨e, q1, q2⟩ | ⟨H'', out', q1, q2, ⟨q3, q4⟩ | ⟨q3, q4⟩⟩
            · rw [q1, q2]; exact .error _
            · rw [q3, q4]
              exact .ok q2 rfl rfl .none
            · rw [q3, q4]
              exact .ok q2 rfl rfl (by simp only [changedBy, hb, if_true]; exact hhist q1)

theorem mapM_first_obstacles {prev : Option (List (Cl Ob Star KP P))} (l : List Ob) {cls : List (Cl Ob Star KP P)}
    (h : l.mapM (firstCluster g prev) = .ok cls) : cls.map (·.obstacles) = l.map fun o => [o] := by
  induction l generalizing cls with
  | nil =>
    simp only [List.mapM_nil, pure, Except.pure] at h
    injection h with h; subst h; rfl
  | cons o l ih =>
    simp only [List.mapM_cons, bind, Except.bind] at h
    split at h
    · simp at h
    · rename_i c hc
      split at h
      · simp at h
      · rename_i cls' hl
        simp only [pure, Except.pure, Except.ok.injEq] at h
        subst h
        rw [List.map_cons, List.map_cons, ih hl, (firstCluster_good (obstacles := [o]) (by simp) hc).2]

end Starworlds
