import Verif.Proofs.Remove
/-
The refinement theorem: every operation of the code does what the specification says.
-/
set_option autoImplicit false
namespace Xecs
open Spec World
variable {V : Type}

/-- The refinement relation between worlds of the code and states of the specification. -/
structure Rel (w : World V) (s : State V) : Prop where
  core : WRel w s
  em : w.em.Inv s.free
  next : w.em.flags.length = s.next
  res : ∀ t, w.res t = (s.res t).map (ResBox.mk t)
  live : ∀ t e, s.has t e = true → s.live e = true
  dist : ∀ (i j : Nat) gi gj, s.groups[i]? = some gi → s.groups[j]? = some gj → i ≠ j →
    ¬ (gi.kind = gj.kind ∧ gi.a = gj.a ∧ gi.b = gj.b)

theorem live_iff {s : State V} {id : Nat} : s.live id = true ↔ 0 < id ∧ id < s.next ∧ id ∉ s.free := by
  simp [State.live, and_assoc]

theorem Rel.new : Rel (World.new : World V) Spec.init := by
  refine ⟨⟨fun t => rfl, rfl, ?_, ?_⟩, EntityManager.inv_new, rfl, fun t => rfl, ?_, ?_⟩
  · intro k g gs h; simp [World.new] at h
  · intro i j gi gj h; simp [Spec.init] at h
  · intro t e h; simp [State.has, State.get, Spec.init] at h
  · intro i j gi gj h; simp [Spec.init] at h

/-! ### Entities -/

theorem exist_live {w : World V} {s : State V} (h : Rel w s) {id : Nat} (hl : s.live id = true) :
    World.exist id w = (w, .ok true) := by
  obtain ⟨h0, h1, h2⟩ := live_iff.1 hl
  simp [World.exist, M.read_apply, EntityManager.has_live h.em h0 (by rw [h.next]; exact h1) h2]

theorem exist_dead {w : World V} {s : State V} (h : Rel w s) {id : Nat} (hl : s.live id = false)
    (h0 : id ≠ 0) (hz : s.zombie id = false) :
    World.exist id w = (w, if id < s.next then .ok false else .error .panic) := by
  have hnl : ¬ (0 < id ∧ id < s.next ∧ id ∉ s.free) := by rw [← live_iff, hl]; simp
  simp only [World.exist, M.read_apply]
  by_cases hlt : id < s.next
  · have hf : id ∈ s.free := by
      apply Classical.byContradiction
      intro hf; exact hnl ⟨by omega, hlt, hf⟩
    rw [EntityManager.has_free h.em hf]
    have : s.free.getLast? ≠ some id := by simpa [State.zombie] using hz
    simp [this, hlt]
  · rw [EntityManager.has_oob (by rw [h.next]; omega)]
    simp [hlt]

theorem entity_live {w : World V} {s : State V} (h : Rel w s) {id : Nat} (hl : s.live id = true) :
    World.entity id w = (w, .ok (some id)) := by
  simp [World.entity, M.bind_apply, exist_live h hl, M.pure_apply]

theorem entity_dead {w : World V} {s : State V} (h : Rel w s) {id : Nat} (hl : s.live id = false)
    (h0 : id ≠ 0) (hz : s.zombie id = false) :
    World.entity id w = (w, if id < s.next then .ok none else .error .panic) := by
  simp only [World.entity, M.bind_apply, exist_dead h hl h0 hz]
  by_cases hlt : id < s.next <;> simp [hlt, M.pure_apply]

/-- Changing only the entity table. -/
theorem Rel.setEm {w : World V} {s : State V} (h : Rel w s) {em : EntityManager} {next : Nat}
    {free : List Nat} (hi : em.Inv free) (hn : em.flags.length = next)
    (hlive : ∀ id, s.live id = true → (0 < id ∧ id < next ∧ id ∉ free)) :
    Rel { w with em := em } { s with next := next, free := free } := by
  refine ⟨⟨h.core.st, h.core.glen, h.core.grp, h.core.excl⟩, hi, hn, h.res, ?_, h.dist⟩
  intro t e hh
  rw [live_iff]
  exact hlive e (h.live t e hh)

theorem createEntity_ref {w : World V} {s : State V} (h : Rel w s) :
    ∃ w' s' id, World.createEntity w = (w', .ok id) ∧ s.step .createEntity = .ok s' (.id id) ∧ Rel w' s' := by
  cases hf : s.free with
  | nil =>
    have hinv := h.em; rw [hf] at hinv
    obtain ⟨em, h1, h2, h3, h4⟩ := EntityManager.allocate_nil hinv
    have hnx : w.em.flags.length = s.next := h.next
    have hpos := hinv.pos
    have hr : Rel { w with em := em } { s with next := s.next + 1, free := [] } :=
      h.setEm h2 (by omega) (fun id hl => by
        obtain ⟨a, b, c⟩ := live_iff.1 hl; exact ⟨a, by omega, by simp⟩)
    have hs : ({ s with next := s.next + 1, free := [] } : State V) = { s with next := s.next + 1 } := by
      rw [← hf]
    rw [hs] at hr
    refine ⟨{ w with em := em }, { s with next := s.next + 1 }, s.next, ?_, by simp [State.step, hf], hr⟩
    have hlive : ({ s with next := s.next + 1 } : State V).live s.next = true := by
      rw [live_iff]; simp [hf]; omega
    simp only [World.createEntity, M.bind_apply]
    rw [M.crit_ok (w' := { w with em := em }) (a := s.next) (by simp [World.allocate, h1, hnx])]
    simp only [entity_live hr hlive]
    rfl
  | cons f fs =>
    have hinv := h.em; rw [hf] at hinv
    obtain ⟨em, h1, h2, h3, h4⟩ := EntityManager.allocate_cons hinv
    have hnx : w.em.flags.length = s.next := h.next
    have hr : Rel { w with em := em } { s with next := s.next, free := fs } :=
      h.setEm h2 (by omega) (fun id hl => by
        obtain ⟨a, b, c⟩ := live_iff.1 hl
        rw [hf] at c
        exact ⟨a, by omega, fun h' => c (List.mem_cons_of_mem _ h')⟩)
    refine ⟨{ w with em := em }, { s with free := fs }, f, ?_, by simp [State.step, hf], hr⟩
    have hlive : ({ s with free := fs } : State V).live f = true := by
      rw [live_iff]
      have hnd := List.nodup_cons.1 hinv.nodup
      have := hinv.range f (by simp)
      exact ⟨this.1, by simp; omega, hnd.1⟩
    simp only [World.createEntity, M.bind_apply]
    rw [M.crit_ok (w' := { w with em := em }) (a := f) (by simp [World.allocate, h1])]
    simp only [entity_live hr hlive]
    rfl

theorem createEntities_ref {w : World V} {s : State V} (h : Rel w s) (n : Nat) :
    ∃ w', World.createEntities n w = (w', .ok (s.next, s.next + n)) ∧
      Rel w' { s with next := s.next + n } := by
  obtain ⟨h1, h2, h3, h4⟩ := EntityManager.allocateN_spec h.em n
  refine ⟨{ w with em := (w.em.allocateN n).1 }, ?_, ?_⟩
  · rw [World.createEntities, M.crit_ok rfl, h1, h.next]
  · exact h.setEm h2 (by rw [h3, h.next]) (fun id hl => by
      obtain ⟨a, b, c⟩ := live_iff.1 hl; exact ⟨a, by omega, c⟩)

/-! ### Components -/

theorem hasRegistered_eq {w : World V} {s : State V} (h : WRel w s) (t : Nat) :
    w.hasRegistered t = (s.comp t).isSome := by
  have := h.st t
  unfold hasRegistered
  cases hw : w.comps t <;> cases hs : s.comp t <;> rw [hw, hs] at this <;> simp_all [StRel]

theorem register_ref {w : World V} {s : State V} (h : Rel w s) {t : Nat} (ht : s.comp t = none) :
    ∃ w', World.register t w = (w', .ok ()) ∧ Rel w' (s.setComp t fun _ => none) := by
  have hreg := hasRegistered_eq h.core t
  rw [ht] at hreg
  refine ⟨w.insertStorage t, ?_, ⟨⟨?_, h.core.glen, ?_, h.core.excl⟩, h.em, h.next, h.res, ?_, h.dist⟩⟩
  · simp [World.register, M.bind_apply, M.read_apply, hreg, M.assert_true, M.crit]
  · intro u
    simp only [insertStorage, State.setComp]
    by_cases hu : u = t
    · subst hu
      simp only [if_true]
      exact ⟨rfl, SparseSet.wf_new, SparseSet.lookup_new, (h.core.comp_none ht).2.symm⟩
    · simp only [hu, if_false]; exact h.core.st u
  · intro k g gs hk hks
    have hr := h.core.grp k g gs hk hks
    obtain ⟨A, B, hA, hB, h1⟩ := hr.ex
    have hn := (h.core.comp_none ht).1
    have na : gs.a ≠ t := by intro h'; rw [h', hn] at hA; simp at hA
    have nb : gs.b ≠ t := by intro h'; rw [h', hn] at hB; simp at hB
    exact ⟨hr.kind, hr.tyA, hr.tyB, hr.ne, A, B, by simp [insertStorage, na, hA],
      by simp [insertStorage, nb, hB], h1⟩
  · intro u e hh
    have : s.has u e = true := by
      simp only [State.has, State.get, State.setComp] at hh ⊢
      by_cases hu : u = t
      · subst hu; simp at hh
      · simpa [hu] using hh
    exact h.live u e this

theorem register_panics {w : World V} {s : State V} (h : Rel w s) {t : Nat} {f : Nat → Option V}
    (ht : s.comp t = some f) : World.register t w = (w, .error .panic) := by
  have hreg := hasRegistered_eq h.core t
  rw [ht] at hreg
  simp [World.register, M.bind_apply, M.read_apply, hreg, M.assert_false]

theorem put_has {s : State V} {id t : Nat} {f : Nat → Option V} {v : V} (hf : s.comp t = some f)
    (u x : Nat) : (s.put id t f v).has u x = (s.has u x || (u == t && x == id)) := by
  simp only [State.has, State.get, State.put, State.setComp]
  by_cases hu : u = t
  · subst hu
    by_cases hx : x = id
    · simp [hx]
    · have : (x == id) = false := by simp [hx]
      simp [hx, hf, this]
  · have : (u == t) = false := by simp [hu]
    simp [hu, this]

/-- Attaching a component of a registered type succeeds, whether or not the entity is alive. -/
theorem entityAttach_ok {w : World V} {s : State V} (h : Rel w s) {id t : Nat} (v : V)
    {f : Nat → Option V} (hf : s.comp t = some f) : ∃ w', World.entityAttach id t v w = (w', .ok ()) := by
  have hreg := hasRegistered_eq h.core t
  rw [hf] at hreg
  obtain ⟨w1, h1, h2, h3, h4⟩ := attachStore_ref h.core id t v hf
  have hlt : ∀ k ∈ w1.groupsOf t, k < (s.put id t f v).groups.length := by
    intro k hk
    obtain ⟨gs, hgs, _⟩ := (mem_groupsOf h2 t k).1 hk
    exact (List.getElem?_eq_some_iff.1 hgs).1
  obtain ⟨w2, h5, _⟩ := forEach_groupAdd id (w1.groupsOf t) w1 _ h2 hlt
  refine ⟨w2, ?_⟩
  simp only [World.entityAttach, M.bind_apply, M.read_apply, hreg, Option.isSome_some, M.assert_true,
    M.crit_ok h1, h5]

/-- `Entity::attach` on a handle. -/
theorem entityAttach_ref {w : World V} {s : State V} (h : Rel w s) {id t : Nat} (v : V)
    {f : Nat → Option V} (hl : s.live id = true) (hf : s.comp t = some f) :
    ∃ w', World.entityAttach id t v w = (w', .ok ()) ∧ Rel w' (s.attached id t f v) := by
  have hreg := hasRegistered_eq h.core t
  rw [hf] at hreg
  obtain ⟨w1, h1, h2, h3, h4⟩ := attachStore_ref h.core id t v hf
  have hks : ∀ k, k ∈ w1.groupsOf t ↔ ∃ gs, s.groups[k]? = some gs ∧ gs.touches t = true :=
    fun k => mem_groupsOf h2 t k
  have hlt : ∀ k ∈ w1.groupsOf t, k < (s.put id t f v).groups.length := by
    intro k hk
    obtain ⟨gs, hgs, _⟩ := (hks k).1 hk
    exact (List.getElem?_eq_some_iff.1 hgs).1
  obtain ⟨w2, h5, h6, h7⟩ := forEach_groupAdd id (w1.groupsOf t) w1 _ h2 hlt
  obtain ⟨j1, j2, j3, j4⟩ := joins_spec id (w1.groupsOf t) (s.put id t f v) (groupsOf_nodup w1 t) hlt
  have hkeep := h3.trans h7
  refine ⟨w2, ?_, ⟨?_, ?_, ?_, ?_, ?_, ?_⟩⟩
  · simp only [World.entityAttach, M.bind_apply, M.read_apply, hreg, Option.isSome_some, M.assert_true,
      M.crit_ok h1, h5]
  · refine h6.weaken (fun u => by rw [j1]; rfl) (fun u => by rw [j2]; rfl)
      (by rw [j3]; simp [State.attached, State.put, State.setComp]) ?_
    intro k g g' hg hg'
    simp only [State.attached, State.setComp, List.getElem?_map, Option.map_eq_some_iff] at hg'
    obtain ⟨g0, hg0, rfl⟩ := hg'
    obtain ⟨e1, e2, e3, e4, e5⟩ := j4 k g0 g hg0 hg
    refine ⟨e1.symm, e2.symm, e3.symm, ?_, ?_⟩
    · intro x
      rw [e4]
      have : (decide (k ∈ w1.groupsOf t)) = g0.touches t := by
        rw [Bool.eq_iff_iff, decide_eq_true_iff, hks]
        constructor
        · rintro ⟨gs, hgs, ht⟩; rw [hg0] at hgs; simp at hgs; subst hgs; exact ht
        · intro ht; exact ⟨g0, hg0, ht⟩
      rw [this]
      have hb : ∀ gg, State.both { s with
          comp := fun u => if u = t then some (fun x => if x = id then some v else f x) else s.comp u
          hw := fun u => if u = t then max (s.hw t) (id + 1) else s.hw u } gg id =
          (s.put id t f v).both gg id := fun gg => rfl
      simp only [hb]
      cases g0.mem x <;> cases g0.touches t <;> cases (x == id) <;> simp
    · intro hfr
      rw [e5]
      simp only [Bool.and_eq_true, Bool.not_eq_true'] at hfr ⊢
      refine ⟨hfr.1, ?_⟩
      rw [List.any_eq_false]
      intro k' hk'
      obtain ⟨gs, hgs, ht⟩ := (hks k').1 hk'
      have hgs' : (s.put id t f v).groups[k']? = some gs := hgs
      rw [hgs']
      have := hfr.2
      rw [List.any_eq_false] at this
      have := this gs (List.mem_of_getElem? hgs)
      rw [ht, Bool.true_and] at this
      exact this
  · rw [hkeep.em]; exact h.em
  · rw [hkeep.em]; exact h.next
  · intro u; rw [hkeep.res]; exact h.res u
  · intro u e hh
    have hh' : (s.put id t f v).has u e = true := hh
    rw [put_has hf] at hh'
    simp only [Bool.or_eq_true, Bool.and_eq_true, beq_iff_eq] at hh'
    rcases hh' with hh' | ⟨_, rfl⟩
    · exact h.live u e hh'
    · exact hl
  · intro i j gi gj hi hj hij
    simp only [State.attached, List.getElem?_map, Option.map_eq_some_iff] at hi hj
    obtain ⟨gi0, hi0, rfl⟩ := hi
    obtain ⟨gj0, hj0, rfl⟩ := hj
    exact h.dist i j gi0 gj0 hi0 hj0 hij

theorem attach_ref {w : World V} {s : State V} (h : Rel w s) {id t : Nat} (v : V)
    {f : Nat → Option V} (hl : s.live id = true) (hf : s.comp t = some f) :
    ∃ w', World.attach id t v w = (w', .ok ()) ∧ Rel w' (s.attached id t f v) := by
  obtain ⟨w', h1, h2⟩ := entityAttach_ref h v hl hf
  refine ⟨w', ?_, h2⟩
  simp only [World.attach, M.bind_apply, entity_live h hl, M.read_apply, unwrapR_some, h1]

theorem attach_unregistered {w : World V} {s : State V} (h : Rel w s) {id t : Nat} (v : V)
    (hl : s.live id = true) (hf : s.comp t = none) : World.attach id t v w = (w, .error .panic) := by
  have hreg := hasRegistered_eq h.core t
  rw [hf] at hreg
  simp [World.attach, World.entityAttach, M.bind_apply, entity_live h hl, M.read_apply, hreg, M.assert_false]

theorem attach_dead {w : World V} {s : State V} (h : Rel w s) {id t : Nat} (v : V)
    (hl : s.live id = false) (h0 : id ≠ 0) (hz : s.zombie id = false) :
    World.attach id t v w = (w, .error .panic) := by
  simp only [World.attach, M.bind_apply, entity_dead h hl h0 hz]
  by_cases hlt : id < s.next <;> simp [hlt, M.read_apply]

/-- A group member has both components. -/
theorem Rel.mem_both {w : World V} {s : State V} (h : WRel w s) {k : Nat} {g : SGroup}
    (hk : s.groups[k]? = some g) {x : Nat} (hm : g.mem x = true) : s.both g x = true := by
  obtain ⟨g0, hg0⟩ := group_at h hk
  obtain ⟨A, B, hA, hB, hlp, wA, wB, hs, hab, hmm, hf, mA, mB⟩ := lockPair_ok h hg0 hk
  obtain ⟨x1, x2⟩ := hs.mem_both ((hmm x).1 hm)
  simp [State.both, (mA x).1 x1, (mB x).1 x2]

theorem touches_has {s : State V} {g : SGroup} {t x : Nat} (ht : g.touches t = true)
    (hb : s.both g x = true) : s.has t x = true := by
  simp only [SGroup.touches, Bool.or_eq_true, beq_iff_eq] at ht
  simp only [State.both, Bool.and_eq_true] at hb
  rcases ht with rfl | rfl
  · exact hb.1
  · exact hb.2

/-- `Entity::detach` of a present component. -/
theorem entityDetach_present {w : World V} {s : State V} (h : Rel w s) {id t : Nat} {v : V}
    {f : Nat → Option V} (hf : s.comp t = some f) (hv : f id = some v) :
    ∃ w', World.entityDetach id t w = (w', .ok (some v)) ∧ Rel w' (s.detached id t f) := by
  have hreg := hasRegistered_eq h.core t
  rw [hf] at hreg
  have hks : ∀ k, k ∈ w.groupsOf t ↔ ∃ gs, s.groups[k]? = some gs ∧ gs.touches t = true :=
    fun k => mem_groupsOf h.core t k
  have hlt : ∀ k ∈ w.groupsOf t, k < s.groups.length := by
    intro k hk
    obtain ⟨gs, hgs, _⟩ := (hks k).1 hk
    exact (List.getElem?_eq_some_iff.1 hgs).1
  obtain ⟨w1, h5, h6, h7⟩ := forEach_groupRemove id (w.groupsOf t) w _ h.core hlt
  obtain ⟨j1, j2, j3, j4⟩ := leaves_spec id (w.groupsOf t) s (groupsOf_nodup w t) hlt
  have hmemk : ∀ k g0, s.groups[k]? = some g0 → (decide (k ∈ w.groupsOf t)) = g0.touches t := by
    intro k g0 hg0
    rw [Bool.eq_iff_iff, decide_eq_true_iff, hks]
    constructor
    · rintro ⟨gs, hgs, ht⟩; rw [hg0] at hgs; simp at hgs; subst hgs; exact ht
    · intro ht; exact ⟨g0, hg0, ht⟩
  have hgrp : ∀ (k : Nat) g', (leaves s id (w.groupsOf t)).groups[k]? = some g' →
      ∃ g, s.groups[k]? = some g := by
    intro k g' hg'
    have h1 := (List.getElem?_eq_some_iff.1 hg').1
    exact ⟨_, List.getElem?_eq_getElem (by omega)⟩
  obtain ⟨st, S, e1, e2, e3, e4, e5⟩ := erase_ref h6 (id := id) (t := t) (f := f) (by rw [j1]; exact hf) hv (by
    intro k g' hg' ht
    obtain ⟨g, hg⟩ := hgrp k g' hg'
    obtain ⟨a1, a2, a3, a4, a5⟩ := j4 k g g' hg hg'
    rw [a4, hmemk k g hg]
    have : g.touches t = true := by simpa [SGroup.touches, a2, a3] using ht
    simp [this])
  refine ⟨w1.setSet t S, ?_, ⟨?_, ?_, ?_, ?_, ?_, ?_⟩⟩
  · have hds : detachStore t id w1 = .ok (w1.setSet t S, some v) := by
      simp [detachStore, e1, downcast, e2, e3]
    simp only [World.entityDetach, M.bind_apply, M.read_apply, hreg, Option.isSome_some, M.assert_true, h5,
      M.crit_ok hds]
  · refine e5.weaken ?_ (fun u => ?_) ?_ ?_
    · intro u
      simp only [State.detached, State.erase, State.setComp, j1]
    · show s.hw u = (leaves s id (w.groupsOf t)).hw u
      rw [j2]
    · simp [State.detached, State.erase, State.setComp, j3]
    · intro k g g' hg hg'
      simp only [State.detached, State.setComp, List.getElem?_map, Option.map_eq_some_iff] at hg'
      obtain ⟨g0, hg0, rfl⟩ := hg'
      simp only [State.erase, State.setComp, List.getElem?_map, Option.map_eq_some_iff] at hg
      obtain ⟨g1, hg1, rfl⟩ := hg
      obtain ⟨a1, a2, a3, a4, a5⟩ := j4 k g0 g1 hg0 hg1
      refine ⟨a1.symm, a2.symm, a3.symm, ?_, ?_⟩
      · intro x
        simp only [a4, hmemk k g0 hg0]
        cases g0.mem x <;> cases g0.touches t <;> cases (x == id) <;> simp
      · intro hfr
        simp only [Bool.and_eq_true, Bool.not_eq_true'] at hfr ⊢
        rw [a5]
        simp only [Bool.and_eq_true, Bool.not_eq_true']
        refine ⟨⟨hfr.1.1, ?_⟩, ?_⟩
        · rw [List.any_eq_false]
          intro k' hk'
          obtain ⟨gs, hgs, ht⟩ := (hks k').1 hk'
          rw [hgs]
          have := hfr.2
          rw [List.any_eq_false] at this
          have := this gs (List.mem_of_getElem? hgs)
          rw [ht, Bool.true_and] at this
          exact this
        · have := hfr.1.2
          simpa [SGroup.touches, a2, a3] using this
  · show w1.em.Inv s.free
    rw [h7.em]; exact h.em
  · show w1.em.flags.length = s.next
    rw [h7.em]; exact h.next
  · intro u; show w1.res u = _
    rw [h7.res]; exact h.res u
  · intro u e hh
    apply h.live u e
    simp only [State.has, State.get, State.detached, State.setComp] at hh ⊢
    by_cases hu : u = t
    · subst hu
      simp only [if_true] at hh
      rw [hf]
      by_cases he : e = id
      · simp [he] at hh
      · simpa [he] using hh
    · simpa [hu] using hh
  · intro i j gi gj hi hj hij
    simp only [State.detached, List.getElem?_map, Option.map_eq_some_iff] at hi hj
    obtain ⟨gi0, hi0, rfl⟩ := hi
    obtain ⟨gj0, hj0, rfl⟩ := hj
    exact h.dist i j gi0 gj0 hi0 hj0 hij

/-- `Entity::detach` of an absent component: nothing happens, except that the call panics when the id is
exactly one more than the largest id the component was ever attached to. -/
theorem entityDetach_absent {w : World V} {s : State V} (h : Rel w s) {id t : Nat}
    {f : Nat → Option V} (hf : s.comp t = some f) (hv : f id = none) :
    World.entityDetach id t w = (w, if id = s.hw t then .error .panic else .ok none) := by
  have hreg := hasRegistered_eq h.core t
  rw [hf] at hreg
  have hks : ∀ k, k ∈ w.groupsOf t ↔ ∃ gs, s.groups[k]? = some gs ∧ gs.touches t = true :=
    fun k => mem_groupsOf h.core t k
  have h5 := forEach_groupRemove_id id (w.groupsOf t) w s h.core (by
    intro k hk
    obtain ⟨gs, hgs, ht⟩ := (hks k).1 hk
    refine ⟨gs, hgs, ?_⟩
    cases hm : gs.mem id with
    | false => rfl
    | true =>
      have := touches_has ht (Rel.mem_both h.core hgs hm)
      simp [State.has, State.get, hf, hv] at this)
  obtain ⟨st, hst, hty, hwf, hlook, hlen⟩ := h.core.comp_some hf
  have hnm : id ∉ st.set.entities := by
    rw [← SparseSet.lookup_isSome hwf, hlook, hv]; simp
  have hrem := SparseSet.remove_absent hwf hnm
  rw [hlen] at hrem
  have hset : w.setSet t st.set = w := by
    have : (w.setSet t st.set).comps = w.comps := by
      funext u; rw [setSet_comps]
      by_cases hu : u = t
      · simp [hu, hst]
      · simp [hu]
    show (⟨w.em, (w.setSet t st.set).comps, w.groups, w.res⟩ : World V) = w
    rw [this]
  by_cases hid : id = s.hw t
  · rw [if_pos hid] at hrem ⊢
    have hds : detachStore t id w = .error .panic := by
      simp [detachStore, hst, downcast, hty, hrem]
    simp only [World.entityDetach, M.bind_apply, M.read_apply, hreg, Option.isSome_some, M.assert_true, h5,
      M.crit_error hds, detachStoreX_state hst hwf hrem]
  · rw [if_neg hid] at hrem ⊢
    have hds : detachStore t id w = .ok (w, none) := by
      simp [detachStore, hst, downcast, hty, hrem, hset]
    simp only [World.entityDetach, M.bind_apply, M.read_apply, hreg, Option.isSome_some, M.assert_true, h5,
      M.crit_ok hds]

theorem detach_live {w : World V} {s : State V} (h : Rel w s) {id t : Nat} (hl : s.live id = true) :
    World.detach id t w = World.entityDetach id t w := by
  simp only [World.detach, M.bind_apply, entity_live h hl, M.read_apply, unwrapR_some]

theorem detach_unregistered {w : World V} {s : State V} (h : Rel w s) {id t : Nat}
    (hl : s.live id = true) (hf : s.comp t = none) : World.detach id t w = (w, .error .panic) := by
  have hreg := hasRegistered_eq h.core t
  rw [hf] at hreg
  rw [detach_live h hl]
  simp [World.entityDetach, M.bind_apply, M.read_apply, hreg, M.assert_false]

theorem detach_dead {w : World V} {s : State V} (h : Rel w s) {id t : Nat}
    (hl : s.live id = false) (h0 : id ≠ 0) (hz : s.zombie id = false) :
    World.detach id t w = (w, .error .panic) := by
  simp only [World.detach, M.bind_apply, entity_dead h hl h0 hz]
  by_cases hlt : id < s.next <;> simp [hlt, M.read_apply]

/-! ### Batch attach -/

theorem foldl_range' (n : Nat) : ∀ (a m : Nat), (List.range' a n).foldl (fun n e => max n (e + 1)) m =
    if n = 0 then m else max m (a + n) := by
  induction n with
  | zero => intro a m; rfl
  | succ n ih =>
    intro a m
    rw [List.range'_succ, List.foldl_cons, ih]
    by_cases hn : n = 0
    · subst hn; simp
    · simp [hn]; omega

theorem idxOf_range' (n : Nat) : ∀ (a x : Nat), a ≤ x → x < a + n → (List.range' a n).idxOf x = x - a := by
  induction n with
  | zero => intro a x h1 h2; omega
  | succ n ih =>
    intro a x h1 h2
    rw [List.range'_succ, List.idxOf_cons]
    by_cases hx : a = x
    · subst hx; simp
    · have h3 : (a == x) = false := by simp [hx]
      rw [h3]
      simp only [cond_false]
      rw [ih (a+1) x (by omega) (by omega)]; omega

theorem attachBatch_ref {w : World V} {s : State V} (h : Rel w s) {start stop t : Nat} {vs : List V}
    {f : Nat → Option V} (hlen : vs.length = stop - start) (hf : s.comp t = some f)
    (hlive : ∀ x, start ≤ x → x < start + vs.length → s.live x = true)
    (hnone : ∀ x, start ≤ x → x < start + vs.length → f x = none) :
    ∃ w', World.attachBatch start stop t vs w = (w', .ok ()) ∧ Rel w' (s.batchAttached start t f vs) := by
  obtain ⟨st, hst, hty, hwf, hlook, hil⟩ := h.core.comp_some hf
  have hmem : ∀ x, x ∈ List.range' start vs.length ↔ start ≤ x ∧ x < start + vs.length :=
    fun x => List.mem_range'_1
  obtain ⟨S, hS, wS, hent, hdat, hilS, hlk, hgi⟩ := SparseSet.addBatch_spec hwf
    (es := List.range' start vs.length) (vs := vs) (by simp) List.nodup_range' (by
      intro x hx
      obtain ⟨x1, x2⟩ := (hmem x).1 hx
      rw [← SparseSet.lookup_isSome hwf, hlook, hnone x x1 x2]; simp)
  refine ⟨w.setSet t S, ?_, ⟨⟨?_, h.core.glen, ?_, h.core.excl⟩, h.em, h.next, h.res, ?_, h.dist⟩⟩
  · have : (vs.length == stop - start) = true := by simp [hlen]
    simp only [World.attachBatch, M.bind_apply, this, M.assert_true]
    rw [M.crit_ok]
    simp [batchStore, hst, downcast, hty, ← hlen, hS]
  · intro u
    simp only [setSet_comps, State.batchAttached, State.setComp]
    by_cases hu : u = t
    · subst hu
      simp only [if_true, hst, Option.map_some, true_and]
      refine ⟨hty, wS, ?_, ?_⟩
      · intro e
        show S.lookup e = _
        rw [hlk, hlook]
        show _ = if start ≤ e ∧ e < start + vs.length then vs[e - start]? else f e
        by_cases he : start ≤ e ∧ e < start + vs.length
        · rw [if_pos ((hmem e).2 he), if_pos he, idxOf_range' _ _ _ he.1 he.2]
        · rw [if_neg (fun h => he ((hmem e).1 h)), if_neg he]
      · show S.indices.length = _
        rw [hilS, foldl_range', hil]
        by_cases h0 : vs.length = 0
        · simp [h0]
        · have : 0 < vs.length := by omega
          simp [h0, this]
    · simp only [hu, if_false, false_and]; exact h.core.st u
  · intro k g gs hk hks
    refine (h.core.grp k g gs hk hks).extend ?_
    intro u st' hu
    by_cases hut : u = t
    · subst hut
      rw [hst] at hu; simp at hu; subst hu
      refine ⟨⟨st.ty, S⟩, by simp [setSet_comps, hst], ⟨_, hent⟩, fun x hx => hgi x ?_⟩
      intro hx'
      obtain ⟨x1, x2⟩ := (hmem x).1 hx'
      rw [← SparseSet.lookup_isSome hwf, hlook, hnone x x1 x2] at hx; simp at hx
    · exact ⟨st', by simp [setSet_comps, hut, hu], ⟨[], by simp⟩, fun _ _ => rfl⟩
  · intro u e hh
    show s.live e = true
    simp only [State.has, State.get, State.batchAttached, State.setComp] at hh
    by_cases hu : u = t
    · subst hu
      simp only [if_true] at hh
      by_cases he : start ≤ e ∧ e < start + vs.length
      · exact hlive e he.1 he.2
      · rw [if_neg he] at hh
        exact h.live u e (by simp [State.has, State.get, hf, hh])
    · simp only [hu, if_false] at hh
      exact h.live u e hh

theorem attachBatch_len {w : World V} {start stop t : Nat} {vs : List V}
    (hlen : vs.length ≠ stop - start) : World.attachBatch start stop t vs w = (w, .error .panic) := by
  have : (vs.length == stop - start) = false := by simp [hlen]
  simp only [World.attachBatch, M.bind_apply, this, M.assert_false]

theorem attachBatch_unregistered {w : World V} {s : State V} (h : Rel w s) {start stop t : Nat} {vs : List V}
    (hlen : vs.length = stop - start) (hf : s.comp t = none) :
    World.attachBatch start stop t vs w = (w, .error .panic) := by
  have : (vs.length == stop - start) = true := by simp [hlen]
  simp only [World.attachBatch, M.bind_apply, this, M.assert_true]
  have hn := (h.core.comp_none hf).1
  rw [M.crit_error (e := .panic) (by simp [batchStore, hn])]
  simp [batchStoreX, onStore, hn]

/-! ### Reading and writing single components -/

theorem componentRead_eq {w : World V} {s : State V} (h : Rel w s) (t id : Nat) :
    World.componentRead t id w = (w, .ok (s.get t id)) := by
  simp only [World.componentRead, M.read_apply]
  cases hc : s.comp t with
  | none => simp [(h.core.comp_none hc).1, State.get, hc]
  | some f =>
    obtain ⟨st, hst, hty, hwf, hlook, hlen⟩ := h.core.comp_some hc
    simp only [hst, downcast, hty, if_true, ok_bind, State.get, hc]
    cases hv : f id with
    | none =>
      have : st.set.exist id = false := by
        cases hx : st.set.exist id with
        | false => rfl
        | true =>
          have := (SparseSet.exist_iff hwf).1 hx
          rw [← SparseSet.lookup_isSome hwf, hlook, hv] at this; simp at this
      simp [this]
    | some v =>
      have hl : st.set.lookup id = some v := by rw [hlook, hv]
      have : st.set.exist id = true := by
        rw [SparseSet.exist_iff hwf, ← SparseSet.lookup_isSome hwf, hl]; rfl
      simp [this, SparseSet.getUnchecked_eq hwf hl]

theorem storageGet_eq {w : World V} {s : State V} (h : Rel w s) (t id : Nat) :
    World.storageGet t id w = (w, .ok (s.get t id)) := by
  simp only [World.storageGet, M.read_apply]
  cases hc : s.comp t with
  | none => simp [(h.core.comp_none hc).1, State.get, hc]
  | some f =>
    obtain ⟨st, hst, hty, hwf, hlook, hlen⟩ := h.core.comp_some hc
    simp [hst, downcast, hty, State.get, hc, SparseSet.get_eq hwf, hlook]

theorem componentWrite_ok {w : World V} {s : State V} (h : Rel w s) {t id : Nat} (v : V)
    {f : Nat → Option V} (hf : s.comp t = some f) (hv : (f id).isSome = true) :
    ∃ w', World.componentWrite t id v w = (w', .ok true) ∧
      Rel w' (s.setComp t fun x => if x = id then some v else f x) := by
  obtain ⟨st, hst, hty, hwf, hlook, hlen⟩ := h.core.comp_some hf
  obtain ⟨S, hS, hrel⟩ := write_ref h.core v hf hst hv
  have hex : st.set.exist id = true := by
    rw [SparseSet.exist_iff hwf, ← SparseSet.lookup_isSome hwf, hlook]; exact hv
  refine ⟨w.setSet t S, ?_, hrel, h.em, h.next, h.res, ?_, h.dist⟩
  · rw [World.componentWrite, M.crit_ok]
    simp [hst, downcast, hty, hex, hS]
  · intro u e hh
    apply h.live u e
    simp only [State.has, State.get, State.setComp] at hh ⊢
    by_cases hu : u = t
    · subst hu
      simp only [if_true] at hh
      rw [hf]
      by_cases he : e = id
      · rw [he]; exact hv
      · simpa [he] using hh
    · simpa [hu] using hh

theorem componentWrite_absent {w : World V} {s : State V} (h : Rel w s) {t id : Nat} (v : V)
    (hv : s.has t id = false) : World.componentWrite t id v w = (w, .ok false) := by
  rw [World.componentWrite, M.crit_ok]
  cases hc : s.comp t with
  | none => simp [(h.core.comp_none hc).1]
  | some f =>
    obtain ⟨st, hst, hty, hwf, hlook, hlen⟩ := h.core.comp_some hc
    have : st.set.exist id = false := by
      cases hx : st.set.exist id with
      | false => rfl
      | true =>
        have := (SparseSet.exist_iff hwf).1 hx
        rw [h.core.mem_iff hst, hv] at this; simp at this
    simp [hst, downcast, hty, this]

/-- Two duplicate-free lists with the same members have the same length. -/
theorem nodup_length_eq {α : Type} {l l' : List α} (h : l.Nodup) (h' : l'.Nodup)
    (hm : ∀ x, x ∈ l ↔ x ∈ l') : l.length = l'.length :=
  (List.perm_ext_iff_of_nodup h h').2 hm |>.length_eq

theorem Rel.count_eq {w : World V} {s : State V} (h : Rel w s) {t : Nat} {st : Storage V}
    (hst : w.comps t = some st) : st.set.entities.length = s.countOf t := by
  obtain ⟨_, hwf, hl, _⟩ := h.core.st_some hst
  apply nodup_length_eq (SparseSet.nodup hwf) (List.Pairwise.filter _ List.nodup_range)
  intro x
  rw [h.core.mem_iff hst, List.mem_filter, List.mem_range]
  constructor
  · intro hx; exact ⟨(live_iff.1 (h.live t x hx)).2.1, hx⟩
  · exact fun hx => hx.2

theorem storageCount_eq {w : World V} {s : State V} (h : Rel w s) (t : Nat) :
    World.storageCount t w = (w, .ok ((s.comp t).map fun _ => s.countOf t)) := by
  simp only [World.storageCount, M.read_apply]
  cases hc : s.comp t with
  | none => simp [(h.core.comp_none hc).1]
  | some f =>
    obtain ⟨st, hst, hty, hwf, hlook, hlen⟩ := h.core.comp_some hc
    simp [hst, downcast, hty, SparseSet.len, h.count_eq hst]

/-! ### Groups -/

theorem same_eq {comps : Nat → Option (Storage V)} {g : Group} {gs : SGroup} (h : GRel comps g gs)
    (k : SKind) (a b : Nat) :
    g.same (Group.fresh (toKind k) a b) = (gs.kind == k && gs.a == a && gs.b == b) := by
  have h1 := h.kind; have h2 := h.tyA; have h3 := h.tyB
  have e : ∀ k, (Group.fresh (toKind k) a b).kind = toKind k ∧ (Group.fresh (toKind k) a b).tyA = a ∧
    (Group.fresh (toKind k) a b).tyB = b := by
      intro k; cases k <;> exact ⟨rfl, rfl, rfl⟩
  rw [Group.same, h1, h2, h3, (e k).1, (e k).2.1, (e k).2.2]
  congr 2
  cases gs.kind <;> cases k <;> rfl

theorem hasGroup_eq {w : World V} {s : State V} (h : WRel w s) (k : SKind) (a b : Nat) :
    w.hasGroup (toKind k) a b = s.groups.any fun g => g.kind == k && g.a == a && g.b == b := by
  rw [hasGroup, Bool.eq_iff_iff, List.any_eq_true, List.any_eq_true]
  constructor
  · rintro ⟨g, hg, hs⟩
    obtain ⟨i, hi⟩ := List.mem_iff_getElem?.1 hg
    have hlt := (List.getElem?_eq_some_iff.1 hi).1
    have hgs := List.getElem?_eq_getElem (l := s.groups) (i := i) (by rw [← h.glen]; exact hlt)
    exact ⟨_, List.mem_of_getElem? hgs, by rw [← same_eq (h.grp i _ _ hi hgs)]; exact hs⟩
  · rintro ⟨gs, hg, hs⟩
    obtain ⟨i, hi⟩ := List.mem_iff_getElem?.1 hg
    obtain ⟨g, hgi⟩ := group_at h hi
    exact ⟨g, List.mem_of_getElem? hgi, by rw [same_eq (h.grp i _ _ hgi hi)]; exact hs⟩

theorem owning_iff {g : Group} {t : Nat} : t ∈ g.owning ↔ g.owned t = true := by
  cases g <;> simp [Group.owning, Group.owned]

theorem fresh_owned (k : SKind) (a b t : Nat) (m : Nat → Bool) (fr : Bool) :
    (Group.fresh (toKind k) a b).owned t = (SGroup.mk k a b m fr).owns t := by
  cases k <;> rfl

theorem ownershipFree_iff {w : World V} {s : State V} (h : WRel w s) (k : SKind) (a b : Nat)
    (m : Nat → Bool) (fr : Bool) :
    w.ownershipFree (Group.fresh (toKind k) a b) = true ↔
      ∀ g ∈ s.groups, ∀ t, g.owns t = true → (SGroup.mk k a b m fr).owns t = false := by
  rw [ownershipFree, List.all_eq_true]
  constructor
  · intro hall gs hgs t ht
    obtain ⟨i, hi⟩ := List.mem_iff_getElem?.1 hgs
    obtain ⟨g, hgi⟩ := group_at h hi
    have h1 := hall g (List.mem_of_getElem? hgi)
    rw [List.all_eq_true] at h1
    have h2 := h1 t (owning_iff.2 (by rw [(h.grp i _ _ hgi hi).owns]; exact ht))
    rw [fresh_owned k a b t m fr] at h2
    simpa using h2
  · intro hall g hg
    rw [List.all_eq_true]
    intro t ht
    obtain ⟨i, hi⟩ := List.mem_iff_getElem?.1 hg
    have hlt := (List.getElem?_eq_some_iff.1 hi).1
    have hgs := List.getElem?_eq_getElem (l := s.groups) (i := i) (by rw [← h.glen]; exact hlt)
    have h1 := hall _ (List.mem_of_getElem? hgs) t (by
      rw [← (h.grp i _ _ hi hgs).owns]; exact owning_iff.1 ht)
    rw [fresh_owned k a b t m fr, h1]; rfl

/-- The specification's test for a conflicting group, as a proposition. -/
theorem conflict_iff {s : State V} (k : SKind) (a b : Nat) :
    s.groups.any (fun g => (g.kind == k && g.a == a && g.b == b) ||
        (g.owns a && (SGroup.mk k a b (fun _ => false) false).owns a) ||
        (g.owns b && (SGroup.mk k a b (fun _ => false) false).owns b)) = false ↔
    (s.groups.any fun g => g.kind == k && g.a == a && g.b == b) = false ∧
      ∀ g ∈ s.groups, ∀ t, g.owns t = true →
        (SGroup.mk k a b (fun _ => false) false).owns t = false := by
  rw [List.any_eq_false, List.any_eq_false]
  constructor
  · intro hall
    refine ⟨fun g hg => ?_, fun g hg t ht => ?_⟩
    · have := hall g hg
      simp only [Bool.or_eq_true, not_or] at this
      exact this.1.1
    · have := hall g hg
      simp only [Bool.or_eq_true, not_or, Bool.and_eq_true, not_and, Bool.not_eq_true] at this
      cases hx : (SGroup.mk k a b (fun _ => false) false).owns t with
      | false => rfl
      | true =>
        have htab : t = a ∨ t = b := by
          unfold SGroup.owns at hx
          cases k <;> simp at hx
          · exact hx
          · exact .inl hx
        rcases htab with rfl | rfl
        · rw [this.1.2 ht] at hx; simp at hx
        · rw [this.2 ht] at hx; simp at hx
  · rintro ⟨h1, h2⟩ g hg
    simp only [Bool.or_eq_true, not_or, Bool.and_eq_true, not_and, Bool.not_eq_true]
    refine ⟨⟨?_, fun ho => h2 g hg a ho⟩, fun ho => h2 g hg b ho⟩
    have := h1 g hg
    simpa using this

/-- Adding an empty group. -/
theorem push_ref {w : World V} {s : State V} (h : WRel w s) {k : SKind} {a b : Nat} {A B : Storage V}
    (hA : w.comps a = some A) (hB : w.comps b = some B) (hab : k ≠ .non → a ≠ b)
    (hfree : ∀ g ∈ s.groups, ∀ t, g.owns t = true →
        (SGroup.mk k a b (fun _ => false) false).owns t = false) :
    WRel { w with groups := w.groups ++ [Group.fresh (toKind k) a b] }
      { s with groups := s.groups ++ [⟨k, a, b, fun _ => false, true⟩] } := by
  have hk : (Group.fresh (toKind k) a b).kind = toKind k ∧ (Group.fresh (toKind k) a b).tyA = a ∧
    (Group.fresh (toKind k) a b).tyB = b := by cases k <;> exact ⟨rfl, rfl, rfl⟩
  have hown : ∀ g ∈ s.groups, ∀ t, g.owns t = true →
      (SGroup.mk k a b (fun _ => false) true).owns t = false := hfree
  refine ⟨h.st, by simp [h.glen], ?_, ?_⟩
  · intro i g gs hg hgs
    simp only [List.getElem?_append, ← h.glen] at hg hgs
    by_cases hi : i < w.groups.length
    · simp only [hi, if_true] at hg hgs
      exact h.grp i g gs hg hgs
    · simp only [hi, if_false, List.getElem?_singleton] at hg hgs
      split at hg <;> simp at hg
      rename_i hi0
      rw [if_pos hi0] at hgs; simp at hgs
      subst hg hgs
      refine ⟨hk.1, hk.2.1, hk.2.2, hab, A, B, hA, hB, ?_, ?_, ?_⟩
      · cases k with
        | full => intro i hi; omega
        | part => intro i hi; omega
        | non => exact ⟨SparseSet.wf_new, fun e he => by simp [SparseSet.new] at he⟩
      · intro e
        constructor
        · intro h; simp at h
        · intro h
          cases k with
          | full => obtain ⟨i, hi, _⟩ := h; omega
          | part => obtain ⟨i, hi, _⟩ := h; omega
          | non => simp [Group.Mem, Group.fresh, toKind, SparseSet.new] at h
      · intro _
        cases k with
        | full => trivial
        | part => trivial
        | non => intro e ia ib h; rw [SparseSet.lookup_new] at h; simp at h
  · intro i j gi gj hi hj hij t ht
    simp only [List.getElem?_append] at hi hj
    by_cases hil : i < s.groups.length
    · simp only [hil, if_true] at hi
      by_cases hjl : j < s.groups.length
      · simp only [hjl, if_true] at hj
        exact h.excl i j gi gj hi hj hij t ht
      · simp only [hjl, if_false, List.getElem?_singleton] at hj
        split at hj <;> simp at hj
        subst hj
        exact hown gi (List.mem_of_getElem? hi) t ht
    · simp only [hil, if_false, List.getElem?_singleton] at hi
      split at hi <;> simp at hi
      subst hi
      by_cases hjl : j < s.groups.length
      · simp only [hjl, if_true] at hj
        cases hx : gj.owns t with
        | false => rfl
        | true => rw [hown gj (List.mem_of_getElem? hj) t hx] at ht; simp at ht
      · simp only [hjl, if_false, List.getElem?_singleton] at hj
        split at hj <;> simp at hj
        omega

theorem makeGroup_ref {w : World V} {s : State V} (h : Rel w s) {k : SKind} {a b : Nat}
    (hc : s.groups.any (fun g => (g.kind == k && g.a == a && g.b == b) ||
        (g.owns a && (SGroup.mk k a b (fun _ => false) false).owns a) ||
        (g.owns b && (SGroup.mk k a b (fun _ => false) false).owns b)) = false)
    (ha : (s.comp a).isSome = true) (hb : (s.comp b).isSome = true) (hab : k ≠ .non → a ≠ b) :
    ∃ w', World.makeGroup (toKind k) a b w = (w', .ok ()) ∧ Rel w' (s.grouped k a b) := by
  obtain ⟨hc1, hc2⟩ := (conflict_iff k a b).1 hc
  obtain ⟨fa, hfa⟩ := Option.isSome_iff_exists.1 ha
  obtain ⟨fb, hfb⟩ := Option.isSome_iff_exists.1 hb
  obtain ⟨A, hA, -⟩ := h.core.comp_some hfa
  obtain ⟨B, hB, -⟩ := h.core.comp_some hfb
  have hpush := push_ref h.core hA hB hab hc2
  have hg : ({ w with groups := w.groups ++ [Group.fresh (toKind k) a b] } : World V).groups[w.groups.length]?
      = some (Group.fresh (toKind k) a b) := by simp
  have hgs : ({ s with groups := s.groups ++ [⟨k, a, b, fun _ => false, true⟩] } : State V).groups[w.groups.length]?
      = some ⟨k, a, b, fun _ => false, true⟩ := by rw [h.core.glen]; simp
  obtain ⟨A0, B0, hA0, hB0, hlp, wA, wB, hs, hab', hm, hf, mA, mB⟩ := lockPair_ok hpush hg hgs
  obtain ⟨g', A', B', hmk, hU, hmem, hfresh⟩ := Group.make_spec (g := Group.fresh (toKind k) a b) wA wB
  have hput := putPair_ref (s' := s.grouped k a b) hpush hg hgs hA0 hB0 hU true (by simp) (fun t => rfl)
    (fun t => rfl) (by simp [State.grouped]) (by
      intro gs' hgs'
      simp only [State.grouped, List.getElem?_append, List.length_map, h.core.glen, Nat.lt_irrefl,
        if_false, Nat.sub_self, List.getElem?_cons_zero, Option.some.injEq] at hgs'
      subst hgs'
      refine ⟨rfl, rfl, rfl, ?_, fun _ => hfresh⟩
      intro e
      rw [hmem, mA, mB]; simp; exact Iff.rfl) (by
      intro j gj gj' hjk hj hj'
      simp only [State.grouped, List.getElem?_append, List.length_map, h.core.glen] at hj hj' hjk
      by_cases hjl : j < s.groups.length
      · simp only [hjl, if_true, List.getElem?_map] at hj hj'
        rw [hj, Option.map_some, Option.some.injEq] at hj'
        subst hj'
        refine ⟨rfl, rfl, rfl, fun _ => rfl, ?_⟩
        intro hfr
        simp only [Bool.and_eq_true, Bool.not_eq_true', Bool.or_eq_false_iff] at hfr
        refine ⟨hfr.1, ?_, ?_⟩
        · simpa [SGroup.owns] using hfr.2.1
        · simpa [SGroup.owns] using hfr.2.2
      · simp only [hjl, if_false] at hj
        rw [List.getElem?_singleton] at hj
        split at hj <;> simp at hj
        omega)
  refine ⟨_, ?_, ⟨hput.1, ?_, ?_, ?_, ?_, ?_⟩⟩
  · have hmk' : groupMake w.groups.length { w with groups := w.groups ++ [Group.fresh (toKind k) a b] } =
        .ok (({ w with groups := w.groups ++ [Group.fresh (toKind k) a b] } : World V).putPair
          w.groups.length (g', A', B'), ()) := by
      simp only [groupMake, getR_some hg, ok_bind, hlp, hmk]
    have hh : w.hasGroup (toKind k) a b = false := by rw [hasGroup_eq h.core]; exact hc1
    have ho : w.ownershipFree (Group.fresh (toKind k) a b) = true :=
      (ownershipFree_iff h.core k a b _ _).2 hc2
    simp only [World.makeGroup, M.bind_apply, M.read_apply, hh, Bool.not_false, M.assert_true, ho]
    rw [M.crit_ok (w' := { w with groups := w.groups ++ [Group.fresh (toKind k) a b] })
      (a := w.groups.length) rfl]
    simp only [M.crit_ok hmk']
  · exact h.em
  · exact h.next
  · exact h.res
  · exact fun t e hh => h.live t e hh
  · have hnew : ∀ g ∈ s.groups, ¬ (g.kind = k ∧ g.a = a ∧ g.b = b) := by
      intro g hg ⟨e1, e2, e3⟩
      rw [List.any_eq_false] at hc1
      exact hc1 g hg (by simp [e1, e2, e3])
    intro i j gi gj hi hj hij
    simp only [State.grouped, List.getElem?_append, List.length_map] at hi hj
    by_cases hil : i < s.groups.length
    · simp only [hil, if_true, List.getElem?_map, Option.map_eq_some_iff] at hi
      obtain ⟨gi0, hi0, rfl⟩ := hi
      by_cases hjl : j < s.groups.length
      · simp only [hjl, if_true, List.getElem?_map, Option.map_eq_some_iff] at hj
        obtain ⟨gj0, hj0, rfl⟩ := hj
        exact h.dist i j gi0 gj0 hi0 hj0 hij
      · simp only [hjl, if_false, List.getElem?_singleton] at hj
        split at hj <;> simp at hj
        subst hj
        exact hnew gi0 (List.mem_of_getElem? hi0)
    · simp only [hil, if_false, List.getElem?_singleton] at hi
      split at hi <;> simp at hi
      subst hi
      by_cases hjl : j < s.groups.length
      · simp only [hjl, if_true, List.getElem?_map, Option.map_eq_some_iff] at hj
        obtain ⟨gj0, hj0, rfl⟩ := hj
        intro ⟨e1, e2, e3⟩
        exact hnew gj0 (List.mem_of_getElem? hj0) ⟨e1.symm, e2.symm, e3.symm⟩
      · simp only [hjl, if_false, List.getElem?_singleton] at hj
        split at hj <;> simp at hj
        omega

theorem makeGroup_conflict {w : World V} {s : State V} (h : Rel w s) {k : SKind} {a b : Nat}
    (hc : s.groups.any (fun g => (g.kind == k && g.a == a && g.b == b) ||
        (g.owns a && (SGroup.mk k a b (fun _ => false) false).owns a) ||
        (g.owns b && (SGroup.mk k a b (fun _ => false) false).owns b)) = true) :
    World.makeGroup (toKind k) a b w = (w, .error .panic) := by
  by_cases hh : w.hasGroup (toKind k) a b = true
  · simp only [World.makeGroup, M.bind_apply, M.read_apply, hh, Bool.not_true, M.assert_false]
  · have hh' : w.hasGroup (toKind k) a b = false := by simpa using hh
    have ho : w.ownershipFree (Group.fresh (toKind k) a b) = false := by
      cases hx : w.ownershipFree (Group.fresh (toKind k) a b) with
      | false => rfl
      | true =>
        have := (conflict_iff k a b).2 ⟨by rw [← hasGroup_eq h.core]; exact hh',
          (ownershipFree_iff h.core k a b _ _).1 hx⟩
        rw [hc] at this; simp at this
    simp only [World.makeGroup, M.bind_apply, M.read_apply, hh', Bool.not_false, M.assert_true, ho,
      M.assert_false]

/-! ### remove_entity -/

theorem orderSafe_spec {id : Nat} : ∀ (l : List SGroup), State.orderSafe id l = true →
    ∀ (i j : Nat) gi gj, i < j → l[i]? = some gi → l[j]? = some gj → gi.mem id = true → gj.mem id = true →
    gi.owns gj.a = false ∧ gi.owns gj.b = false := by
  intro l
  induction l with
  | nil => intro _ i j gi gj _ hi; simp at hi
  | cons g gs ih =>
    intro ho i j gi gj hij hi hj mi mj
    simp only [State.orderSafe, Bool.and_eq_true, List.all_eq_true] at ho
    obtain ⟨j', rfl⟩ : ∃ j', j = j' + 1 := ⟨j - 1, by omega⟩
    simp only [List.getElem?_cons_succ] at hj
    cases i with
    | zero =>
      simp only [List.getElem?_cons_zero, Option.some.injEq] at hi
      subst hi
      have := ho.1 gj (List.mem_of_getElem? hj)
      simpa [mi, mj] using this
    | succ i =>
      simp only [List.getElem?_cons_succ] at hi
      exact ih ho.2 i j' gi gj (by omega) hi hj mi mj

theorem removeEntity_ref {w : World V} {s : State V} (h : Rel w s) {id : Nat} (order : List Nat)
    (hnd : order.Nodup) (hord : ∀ t, t ∈ order ↔ s.comp t ≠ none) (hl : s.live id = true)
    (hs : State.orderSafe id s.groups = true) :
    ∃ w', World.removeEntity order id w = (w', .ok ()) ∧ Rel w' (s.removed id) := by
  have hos := orderSafe_spec _ hs
  have hneed := needRemoveList_ok h.core id w.groups.length 0 (by omega)
  rw [List.drop_zero] at hneed
  generalize hks : ((List.range' 0 w.groups.length).filter fun k =>
      match s.groups[k]? with
      | some g => g.mem id
      | none => false) = ks at hneed
  have hmk : ∀ k, k ∈ ks ↔ ∃ g, s.groups[k]? = some g ∧ g.mem id = true := by
    intro k
    rw [← hks, List.mem_filter, List.mem_range']
    constructor
    · rintro ⟨_, hk⟩
      cases hg : s.groups[k]? with
      | none => simp [hg] at hk
      | some g => exact ⟨g, rfl, by simpa [hg] using hk⟩
    · rintro ⟨g, hg, hm⟩
      have := (List.getElem?_eq_some_iff.1 hg).1
      refine ⟨⟨k, by rw [h.core.glen]; exact this, by omega⟩, by simp [hg, hm]⟩
  have hlt : ks.Pairwise (· < ·) := by
    rw [← hks]
    apply List.Pairwise.filter
    simpa using List.pairwise_lt_range' (s := 0) (n := w.groups.length) (step := 1)
  obtain ⟨w1, s1, P, E, h1, h2, h3, h4, h5⟩ := forEach_groupErase id ks w s _ _ h.core (.refl s id)
    (hlt.imp (fun h => by omega)) (fun k hk => ⟨rfl, (hmk k).1 hk⟩)
    (fun k g hg hm => .inr ((hmk k).2 ⟨g, hg, hm⟩))
    (by
      rw [List.pairwise_iff_forall_sublist]
      intro i j hij gi gj hgi hgj
      have hlt' : i < j := (List.pairwise_iff_forall_sublist.1 hlt) hij
      have hi : i ∈ ks := hij.subset (by simp)
      have hj : j ∈ ks := hij.subset (by simp)
      obtain ⟨gi', hgi', mi⟩ := (hmk i).1 hi
      obtain ⟨gj', hgj', mj⟩ := (hmk j).1 hj
      rw [hgi] at hgi'; rw [hgj] at hgj'
      simp at hgi' hgj'
      subst hgi' hgj'
      exact hos i j gi gj hlt' hgi hgj mi mj)
  have hreg : ∀ t, s1.has t id = true → t ∈ order := by
    intro t ht
    have := h4.has_le t id ht
    rw [hord]
    intro hn
    simp [State.has, State.get, hn] at this
  have hts : ∀ t, t ∈ w1.storagesWith id order ↔ s1.has t id = true := by
    intro t
    rw [storagesWith, List.mem_filter]
    cases hc : s1.comp t with
    | none =>
      simp [(h2.comp_none hc).1, State.has, State.get, hc]
    | some f =>
      obtain ⟨st, hst, hty, hwf, hlook, hlen⟩ := h2.comp_some hc
      rw [hst]
      constructor
      · rintro ⟨_, hx⟩
        exact (h2.mem_iff hst id).1 ((SparseSet.exist_iff hwf).1 hx)
      · intro hh
        exact ⟨hreg t hh, (SparseSet.exist_iff hwf).2 ((h2.mem_iff hst id).2 hh)⟩
  have hnomem : ∀ (k : Nat) g, s1.groups[k]? = some g → g.mem id = false := by
    intro k g hg
    obtain ⟨g0, hg0⟩ := h4.group hg
    obtain ⟨e1, e2, e3, e4, e5⟩ := h4.grp k g0 g hg0 hg
    rw [e4]
    cases hm : g0.mem id with
    | false => rfl
    | true => simp [h5 k g0 hg0 hm]
  obtain ⟨w2, s2, E2, r1, r2, r3, r4, r5⟩ := forEach_storeErase id (w1.storagesWith id order) w1 s1 P E h2 h4
    (List.Pairwise.filter _ hnd) (fun t ht => (hts t).1 ht) hnomem
  have hno : ∀ t, s2.has t id = false := by
    intro t
    cases hx : s2.has t id with
    | false => rfl
    | true =>
      obtain ⟨a, b⟩ := (r5 t).1 hx
      exact absurd ((hts t).2 a) b
  obtain ⟨l0, l1, l2⟩ := live_iff.1 hl
  have hk := h3.trans r3
  obtain ⟨em, m1, m2, m3, m4, m5⟩ := EntityManager.remove_live h.em l0 (by rw [h.next]; exact l1) l2
  have hcomp : ∀ t, (s.removed id).comp t = s2.comp t := by
    intro t
    rw [r4.comp]
    simp only [State.removed]
    cases hc : s.comp t with
    | none => rfl
    | some f =>
      simp only [Option.map_some, Option.some.injEq]
      funext x
      by_cases hx : x = id
      · subst hx
        have := hno t
        simp only [State.has, State.get, r4.comp, hc, Option.map_some] at this
        by_cases hE : E2 t = true
        · simp [hE]
        · simp only [hE] at this ⊢
          simp at this
          simp [this]
      · simp [hx]
  have hcore : WRel w2 (s.removed id) := by
    refine r2.weaken hcomp (fun t => by rw [r4.hw]; rfl) (by rw [r4.len]; simp [State.removed]) ?_
    intro k g2 g' hg2 hg'
    simp only [State.removed, List.getElem?_map, Option.map_eq_some_iff] at hg'
    obtain ⟨g0, hg0, rfl⟩ := hg'
    obtain ⟨e1, e2, e3, e4, e5⟩ := r4.grp k g0 g2 hg0 hg2
    refine ⟨e1.symm, e2.symm, e3.symm, ?_, ?_⟩
    · intro x
      rw [e4]
      by_cases hx : x = id
      · subst hx
        cases hm : g0.mem x with
        | false => simp
        | true => simp [h5 k g0 hg0 hm]
      · have : (x == id) = false := by simp [hx]
        simp [this]
    · intro hfr
      simp only [Bool.and_eq_true, Bool.not_eq_true'] at hfr
      exact e5 hfr.1.1 hfr.1.2 hfr.2
  refine ⟨{ w2 with em := em }, ?_, ⟨⟨hcore.st, hcore.glen, hcore.grp, hcore.excl⟩, m2, by
      show em.flags.length = s.next; rw [m3, h.next], fun t => ?_, ?_, ?_⟩⟩
  · simp only [World.removeEntity, M.bind_apply, exist_live h hl, M.assert_true, M.read_apply, hneed, h1, r1]
    rw [M.crit_ok (w' := { w2 with em := em }) (a := ())]
    simp [release, hk.em, m1]
  · show w2.res t = _
    rw [hk.res]; exact h.res t
  · intro t e hh
    have hne : e ≠ id := by
      rintro rfl
      have := hno t
      simp only [State.has, State.get, ← hcomp] at this hh
      rw [this] at hh; simp at hh
    have hh0 : s.has t e = true := by
      simp only [State.has, State.get, State.removed] at hh ⊢
      cases hc : s.comp t with
      | none => simp [hc] at hh
      | some f => simpa [hc, hne] using hh
    have := live_iff.1 (h.live t e hh0)
    rw [live_iff]
    exact ⟨this.1, this.2.1, by simp [State.removed, hne, this.2.2]⟩
  · intro i j gi gj hi hj hij
    simp only [State.removed, List.getElem?_map, Option.map_eq_some_iff] at hi hj
    obtain ⟨gi0, hi0, rfl⟩ := hi
    obtain ⟨gj0, hj0, rfl⟩ := hj
    exact h.dist i j gi0 gj0 hi0 hj0 hij

theorem removeEntity_dead {w : World V} {s : State V} (h : Rel w s) {id : Nat} (order : List Nat)
    (hl : s.live id = false) (h0 : id ≠ 0) (hz : s.zombie id = false) :
    World.removeEntity order id w = (w, .error .panic) := by
  simp only [World.removeEntity, M.bind_apply, exist_dead h hl h0 hz]
  by_cases hlt : id < s.next <;> simp [hlt, M.assert_false]

/-! ### Resources -/

theorem registerResource_ref {w : World V} {s : State V} (h : Rel w s) (t : Nat) (v : V) :
    ∃ w', World.registerResource t v w = (w', .ok ()) ∧
      Rel w' { s with res := fun u => if u = t then some v else s.res u } := by
  refine ⟨_, rfl, ⟨⟨h.core.st, h.core.glen, h.core.grp, h.core.excl⟩, h.em, h.next, ?_, h.live, h.dist⟩⟩
  intro u
  by_cases hu : u = t
  · simp [hu]
  · simp [hu, h.res]

theorem resourceRead_eq {w : World V} {s : State V} (h : Rel w s) (t : Nat) :
    World.resourceRead t w = (w, .ok (s.res t)) := by
  simp only [World.resourceRead, M.read_apply, h.res]
  cases s.res t <;> simp [downcastRes]

theorem resourceWrite_ok {w : World V} {s : State V} (h : Rel w s) {t : Nat} {v0 : V} (v : V)
    (hv : s.res t = some v0) :
    ∃ w', World.resourceWrite t v w = (w', .ok true) ∧
      Rel w' { s with res := fun u => if u = t then some v else s.res u } := by
  have hr : w.res t = some (ResBox.mk t v0) := by rw [h.res, hv]; rfl
  refine ⟨{ w with res := fun u => if u = t then some (ResBox.mk t v) else w.res u }, ?_,
    ⟨⟨h.core.st, h.core.glen, h.core.grp, h.core.excl⟩, h.em, h.next, ?_, h.live, h.dist⟩⟩
  · rw [World.resourceWrite, M.crit_ok]
    simp [hr, downcastRes]
  · intro u
    by_cases hu : u = t
    · simp [hu]
    · simp [hu, h.res]

theorem resourceWrite_absent {w : World V} {s : State V} (h : Rel w s) {t : Nat} (v : V)
    (hv : s.res t = none) : World.resourceWrite t v w = (w, .ok false) := by
  have hr : w.res t = none := by rw [h.res, hv]; rfl
  rw [World.resourceWrite, M.crit_ok]
  simp [hr]

end Xecs
