import Verif.Props.Storage
import Verif.Proofs.Overlap
/-
Entities: properties C07-C13 and C42.
-/
set_option autoImplicit false
namespace Xecs
open Spec World Hist
variable {V : Type} {tr : List (Op V × Out V)} {w w' : World V}

/-! ### C07: ids of living entities are unique and non-zero -/

/-- After any history whatsoever in which only living entities were removed, `create_entity` succeeds, and the
id it returns is not zero and is not the id of a living entity. -/
theorem C07_unique (h : Wild tr w) (hl : RemovesLive tr) :
    ∃ w' id, World.createEntity w = (w', .ok id) ∧ id ≠ 0 ∧ alive id tr = false := by
  have hem := wild_em h hl
  obtain ⟨em, id, h1, h2, h3, h4⟩ := createEntity_em hem
  refine ⟨_, id, h1, ?_⟩
  have hpos := hem.inv.pos
  rcases h4 with ⟨_, rfl, _⟩ | ⟨h4, _⟩
  · refine ⟨by omega, ?_⟩
    rw [← Bool.not_eq_true, emOk_alive hem]; omega
  · have hm : id ∈ recyclable tr := List.mem_of_head? h4
    refine ⟨by have := (hem.inv.range id hm).1; omega, ?_⟩
    rw [← Bool.not_eq_true, emOk_alive hem]; exact fun hh => hh.2.2 hm

/-- The same for `create_entities`: none of the ids is zero or the id of a living entity. -/
theorem C07_batch (h : Wild tr w) (hl : RemovesLive tr) (n : Nat) :
    ∃ w' a b, World.createEntities n w = (w', .ok (a, b)) ∧ ∀ id, a ≤ id → id < b → id ≠ 0 ∧ alive id tr = false := by
  have hem := wild_em h hl
  refine ⟨_, _, _, rfl, fun id h1 h2 => ?_⟩
  have hpos := hem.inv.pos
  have h1 : w.em.flags.length ≤ id := h1
  refine ⟨by omega, ?_⟩
  rw [← Bool.not_eq_true, emOk_alive hem]; omega

example : ∃ w', World.createEntity Demo.w = (w', .ok 5) ∧ alive 5 Demo.tr = false ∧ alive 3 Demo.tr = true := by
  obtain ⟨w', id, h1, h2, h3⟩ := C07_unique (Wild.of_any Demo.trace.any) Demo.trace.live.2.1
  have : (World.createEntity Demo.w).2 = .ok 5 := by decide +kernel
  rw [h1] at this; simp at this; subst this
  exact ⟨w', h1, h3, by decide +kernel⟩

/-! ### C08: recycling order -/

/-- After any history in which only living entities were removed: `create_entity` returns the most recently
removed id that was not handed out again, and if there is none, the smallest positive id never handed out. -/
theorem C08_order (h : Wild tr w) (hl : RemovesLive tr) {id : EntityId} (he : World.createEntity w = (w', .ok id)) :
    (∀ r rs, recyclable tr = r :: rs → id = r) ∧
    (recyclable tr = [] → 0 < id ∧ handedOut id tr = false ∧ ∀ j, 0 < j → j < id → handedOut j tr = true) := by
  have hem := wild_em h hl
  obtain ⟨em, id', h1, h2, h3, h4⟩ := createEntity_em hem
  rw [h1] at he
  simp only [Prod.mk.injEq, Except.ok.injEq] at he
  obtain ⟨_, rfl⟩ := he
  rcases h4 with ⟨hn, rfl, _⟩ | ⟨h4, _⟩
  · refine ⟨by simp [hn], fun _ => ⟨hem.inv.pos, ?_, fun j h1 h2 => (hem.out j).2 ⟨h1, h2⟩⟩⟩
    rw [← Bool.not_eq_true, hem.out]; omega
  · refine ⟨fun r rs hr => by rw [hr] at h4; simpa using h4.symm, fun hn => by simp [hn] at h4⟩

/-- The ids that can be reused are exactly those handed out and not alive, each listed once. -/
theorem C08_recyclable (h : Wild tr w) (hl : RemovesLive tr) :
    (recyclable tr).Nodup ∧ ∀ id, id ∈ recyclable tr ↔ (handedOut id tr = true ∧ alive id tr = false) := by
  have hem := wild_em h hl
  refine ⟨hem.inv.nodup, fun id => ?_⟩
  rw [← Bool.not_eq_true, emOk_alive hem, hem.out]
  constructor
  · intro hm; exact ⟨hem.inv.range id hm, fun hh => hh.2.2 hm⟩
  · rintro ⟨⟨h1, h2⟩, h3⟩
    rcases Classical.em (id ∈ recyclable tr) with hm | hm
    · exact hm
    · exact absurd ⟨h1, h2, hm⟩ h3

/-- Removed 2 then 4: first 4 is reused, then 2, then 6 is new. -/
example : ∃ tr, Trace (V := Nat) tr (played [.createEntities 5, .removeEntity [] 2, .removeEntity [] 4] (by decide +kernel)).2 ∧
    recyclable tr = [4, 2] :=
  ⟨_, played_trace _ _, by decide +kernel⟩

/-! ### C09: create_entities -/

/-- After any history in which only living entities were removed: `create_entities(n)` returns a block of `n`
consecutive ids, none zero or handed out before; afterwards all of them exist, and so do the entities
alive before. -/
theorem C09_block (h : Wild tr w) (hl : RemovesLive tr) (n : Nat) :
    ∃ w' a, World.createEntities n w = (w', .ok (a, a + n)) ∧ 0 < a ∧
      (∀ id, a ≤ id → handedOut id tr = false) ∧
      (∀ id, a ≤ id → id < a + n → World.exist id w' = (w', .ok true)) ∧
      (∀ id, alive id tr = true → World.exist id w' = (w', .ok true)) ∧
      w'.comps = w.comps ∧ w'.groups = w.groups ∧ w'.res = w.res := by
  have hem := wild_em h hl
  have hpos := hem.inv.pos
  have hw1 : World.createEntities n w = ({ w with em := (w.em.allocateN n).1 }, .ok (w.em.flags.length, w.em.flags.length + n)) := rfl
  obtain ⟨h1, h2, h3, h4⟩ := EntityManager.allocateN_spec hem.inv n
  refine ⟨_, w.em.flags.length, hw1, hpos, ?_, ?_, ?_, rfl, rfl, rfl⟩
  · intro id hid; rw [← Bool.not_eq_true, hem.out]; omega
  · intro id ha hb
    have := EntityManager.has_live h2 (id := id) (by omega) (by omega)
      (fun hm => by have := (hem.inv.range id hm).2; omega)
    simp only [World.exist, M.read, this]
  · intro id ha
    obtain ⟨p1, p2, p3⟩ := (emOk_alive hem id).1 ha
    have := EntityManager.has_live h2 (id := id) p1 (by omega) p3
    simp only [World.exist, M.read, this]

example : ∃ w', World.createEntities 3 Demo.w = (w', .ok (5, 8)) ∧ World.exist 6 w' = (w', .ok true) ∧
    World.exist 2 w' = (w', .ok true) := by
  obtain ⟨w', a, h1, h2, h3, h4, h5, _⟩ := C09_block (Wild.of_any Demo.trace.any) Demo.trace.live.2.1 3
  have : (World.createEntities 3 Demo.w).2 = .ok (5, 8) := by decide +kernel
  rw [h1] at this; simp at this; subst this
  exact ⟨w', h1, h4 6 (by omega) (by omega), h5 2 (by decide +kernel)⟩

/-! ### C10: exist -/

/-- After any history in which only living entities were removed, what `exist` answers: for an id handed out at
some time, `true` iff it is alive -- or is the least recently removed id not yet reused. For an id never
handed out it panics. Missing from the English property: it should be `false` in the last two cases. -/
theorem C10_exist_partial (h : Wild tr w) (hl : RemovesLive tr) {id : EntityId} (h0 : id ≠ 0) :
    World.exist id w = (w,
      if handedOut id tr then .ok (alive id tr || decide ((recyclable tr).getLast? = some id)) else .error .panic) := by
  have hem := wild_em h hl
  simp only [World.exist, M.read]
  congr 1
  by_cases ho : handedOut id tr = true
  · rw [if_pos ho]
    obtain ⟨h1, h2⟩ := (hem.out id).1 ho
    by_cases hm : id ∈ recyclable tr
    · have ha : alive id tr = false := by rw [← Bool.not_eq_true, emOk_alive hem]; exact fun hh => hh.2.2 hm
      rw [EntityManager.has_free hem.inv hm, ha]; rfl
    · rw [EntityManager.has_live hem.inv h1 h2 hm, (emOk_alive hem id).2 ⟨h1, h2, hm⟩]; rfl
  · rw [if_neg ho]
    rw [hem.out] at ho
    exact EntityManager.has_oob (by omega)

/-- In particular: if nothing is waiting for reuse, or `id` is not the least recently removed one, `exist` is
exactly liveness for every id handed out at some time; and it is always right about living entities. -/
theorem C10_liveness_partial (h : Wild tr w) (hl : RemovesLive tr) {id : EntityId} (h0 : id ≠ 0) :
    (alive id tr = true → World.exist id w = (w, .ok true)) ∧
    (handedOut id tr = true → (recyclable tr).getLast? ≠ some id → World.exist id w = (w, .ok (alive id tr))) := by
  rw [C10_exist_partial h hl h0]
  constructor
  · intro ha
    have hem := wild_em h hl
    have := (emOk_alive hem id).1 ha
    rw [if_pos ((hem.out id).2 ⟨this.1, this.2.1⟩), ha]; rfl
  · intro ho hn; rw [if_pos ho]; simp [hn]

/-- A removed and not reused entity, reported as not existing. -/
example : ∃ (tr : List (Op Nat × Out Nat)) (w : World Nat), Trace tr w ∧ handedOut 4 tr = true ∧ alive 4 tr = false ∧
    World.exist 4 w = (w, .ok false) ∧ World.exist 3 w = (w, .ok true) := by
  have ht := played_trace (V := Nat) [.createEntities 5, .removeEntity [] 2, .removeEntity [] 4] (by decide +kernel)
  have hw := Wild.of_any ht.any
  have h4 := (C10_liveness_partial hw ht.live.2.1 (id := 4) (by omega)).2 (by decide +kernel) (by decide +kernel)
  have h3 := (C10_liveness_partial hw ht.live.2.1 (id := 3) (by omega)).1 (by decide +kernel)
  have : alive 4 (played (V := Nat) [.createEntities 5, .removeEntity [] 2, .removeEntity [] 4] (by decide +kernel)).1 = false := by
    decide +kernel
  rw [this] at h4
  exact ⟨_, _, ht, by decide +kernel, this, h4, h3⟩

/-! ### C11: using a removed entity -/

/-- After any history in which only living entities were removed, for an id that is not alive and is not the
least recently removed id still waiting for reuse: `attach_component`, `detach_component` and `remove_entity`
panic and leave the world exactly as it was; `entity` returns `None` if the id was handed out at some time.
Missing from the English property: the excepted id, for which the code treats the entity as alive; and
`entity` should return `None` (instead of panicking) also for ids never handed out. -/
theorem C11_dead_partial (h : Wild tr w) (hl : RemovesLive tr) {id : EntityId} (hu : Usable id tr)
    (hd : alive id tr = false) :
    (∀ t v, World.attach id t v w = (w, .error .panic)) ∧
    (∀ t, World.detach id t w = (w, .error .panic)) ∧
    (∀ order, World.removeEntity order id w = (w, .error .panic)) ∧
    World.entity id w = (w, if handedOut id tr then .ok none else .error .panic) := by
  have hx := C10_exist_partial h hl hu.1
  rw [hd] at hx
  by_cases ho : handedOut id tr = true
  · rw [if_pos ho] at hx
    have hx : World.exist id w = (w, .ok false) := by rw [hx]; simp [hu.2]
    have he : World.entity id w = (w, .ok none) := by
      unfold World.entity; rw [M.bind_apply, hx]; rfl
    refine ⟨fun t v => ?_, fun t => ?_, fun order => ?_, by rw [he, if_pos ho]⟩
    · unfold World.attach; rw [M.bind_apply, he]; rfl
    · unfold World.detach; rw [M.bind_apply, he]; rfl
    · unfold World.removeEntity; rw [M.bind_apply, hx]; rfl
  · rw [if_neg ho] at hx
    have he : World.entity id w = (w, .error .panic) := by
      unfold World.entity; rw [M.bind_apply, hx]
    refine ⟨fun t v => ?_, fun t => ?_, fun order => ?_, by rw [he, if_neg ho]⟩
    · unfold World.attach; rw [M.bind_apply, he]
    · unfold World.detach; rw [M.bind_apply, he]
    · unfold World.removeEntity; rw [M.bind_apply, hx]

/-- The excepted id, exactly: after every allowed history, the least recently removed id still waiting for reuse belongs to
no living entity, and yet `exist` and `entity` find it and components can be attached to it. -/
theorem C11_excepted (h : Trace tr w) {id : EntityId} (hz : (recyclable tr).getLast? = some id) :
    alive id tr = false ∧ World.exist id w = (w, .ok true) ∧ World.entity id w = (w, .ok (some id)) ∧
    ∀ t v, registered t tr = true → ∃ w', World.attach id t v w = (w', .ok ()) ∧
      (World.componentRead t id w').2 = .ok (some v) := by
  have hl := h.live.2.1
  have hem := wild_em (.of_any h.any) hl
  have hmem := List.mem_of_getLast? hz
  have hin := hem.inv.range id hmem
  have hx := C10_exist_partial (.of_any h.any) hl (id := id) (by omega)
  have hho : handedOut id tr = true ∧ alive id tr = false := by
    refine ⟨(hem.out id).2 hin, ?_⟩
    rw [← Bool.not_eq_true, emOk_alive hem id]
    exact fun hc => hc.2.2 hmem
  rw [if_pos hho.1, hz, hho.2] at hx
  have hx : World.exist id w = (w, .ok true) := by rw [hx]; simp
  have he : World.entity id w = (w, .ok (some id)) := by unfold World.entity; rw [M.bind_apply, hx]; rfl
  refine ⟨hho.2, hx, he, fun t v hr => ?_⟩
  obtain ⟨s, hrun⟩ := h.run
  obtain ⟨f, hf⟩ := Option.isSome_iff_exists.1 ((run_registered hrun t).trans hr)
  obtain ⟨w', h1⟩ := entityAttach_ok hrun.rel (id := id) v hf
  have ha : World.attach id t v w = (w', .ok ()) := by
    unfold World.attach; rw [M.bind_apply, he]; exact h1
  refine ⟨w', ha, ?_⟩
  have hx : exec (.attach id t v) w = (w', .ok .unit) := by
    show (World.attach id t v >>= fun _ => pure Out.unit) w = _
    rw [M.bind_apply, ha]; rfl
  exact (C01_effect h.any (op := .attach id t v) (o := .unit) trivial hx h.live.1 t id).1 v rfl

example : ∃ (tr : List (Op Nat × Out Nat)) (w : World Nat), Trace tr w ∧ handedOut 4 tr = true ∧ alive 4 tr = false ∧
    World.attach 4 1 7 w = (w, .error .panic) ∧ World.entity 4 w = (w, .ok none) := by
  have ht := played_trace (V := Nat) [.register 1, .createEntities 5, .removeEntity [1] 2, .removeEntity [1] 4] (by decide +kernel)
  obtain ⟨h1, _, _, h2⟩ := C11_dead_partial (Wild.of_any ht.any) ht.live.2.1 (id := 4) (by decide +kernel) (by decide +kernel)
  rw [if_pos (by decide +kernel)] at h2
  exact ⟨_, _, ht, by decide +kernel, by decide +kernel, h1 1 7, h2⟩

example : ∃ (tr : List (Op Nat × Out Nat)) (w w' : World Nat), Trace tr w ∧ (recyclable tr).getLast? = some 2 ∧
    World.attach 2 7 55 w = (w', .ok ()) := by
  have ht := played_trace (V := Nat) [.register 7, .createEntities 3, .removeEntity [7] 2] (by decide +kernel)
  obtain ⟨_, _, _, h⟩ := C11_excepted ht (id := 2) (by decide +kernel)
  obtain ⟨w', h1, _⟩ := h 7 55 (by decide +kernel)
  exact ⟨_, _, w', ht, by decide +kernel, h1⟩

/-! ### C12: new entities have no components -/

/-- After any history in which components are only attached to living entities and only living entities
removed: the id returned by `create_entity` has no component of any type, even when it is a reused one. -/
theorem C12_new (h : AnyTrace tr w) (h1 : NoRebatch tr) (h2 : RemovesLive tr) (h3 : AttachesLive tr) {id : EntityId}
    (he : World.createEntity w = (w', .ok id)) (t : TypeId) :
    World.componentRead t id w' = (w', .ok none) := by
  have hx : exec .createEntity w = (w', .ok (.id id)) := by
    show (World.createEntity >>= fun a => pure (Out.id a)) w = _
    rw [bind_pure_ok]; exact ⟨id, he, rfl⟩
  rw [(C01_read (.ok h (by trivial) hx) (by exact h1) t id).1]
  simp only [lastValue]
  obtain ⟨_, id', e1, _, e2⟩ := C07_unique (Wild.of_any h) h2
  rw [e1] at he; simp only [Prod.mk.injEq, Except.ok.injEq] at he
  obtain ⟨_, rfl⟩ := he
  cases hv : lastValue t id' tr with
  | none => rfl
  | some v => rw [any_alive h h1 h2 h3 t id' (by simp [hv])] at e2; cases e2

/-- The same for `create_entities`. -/
theorem C12_batch (h : AnyTrace tr w) (h1 : NoRebatch tr) (h2 : RemovesLive tr) (h3 : AttachesLive tr) {n : Nat}
    {a b : EntityId} (he : World.createEntities n w = (w', .ok (a, b))) (t : TypeId) {id : EntityId} (ha : a ≤ id) (hb : id < b) :
    World.componentRead t id w' = (w', .ok none) := by
  have hx : exec (.createEntities n) w = (w', .ok (.range a b)) := by
    show (World.createEntities n >>= fun x => pure (Out.range x.1 x.2)) w = _
    rw [bind_pure_ok]; exact ⟨(a, b), he, rfl⟩
  rw [(C01_read (.ok h (by trivial) hx) (by exact h1) t id).1]
  simp only [lastValue]
  obtain ⟨_, a', b', e1, e2⟩ := C07_batch (Wild.of_any h) h2 n
  rw [e1] at he; simp only [Prod.mk.injEq, Except.ok.injEq] at he
  obtain ⟨_, rfl, rfl⟩ := he
  cases hv : lastValue t id tr with
  | none => rfl
  | some v => have := (e2 id ha hb).2; rw [any_alive h h1 h2 h3 t id (by simp [hv])] at this; cases this

/-- A reused id: entity 2 had component 1, was removed, and comes back without it. -/
example : ∃ (tr : List (Op Nat × Out Nat)) (w w' : World Nat), Trace tr w ∧ alive 2 tr = false ∧ handedOut 2 tr = true ∧
    World.createEntity w = (w', .ok 2) ∧ World.componentRead 1 2 w' = (w', .ok none) := by
  have ht := played_trace (V := Nat) [.register 1, .createEntities 5, .attach 2 1 7, .removeEntity [1] 2] (by decide +kernel)
  obtain ⟨w', id, h1, _⟩ := C07_unique (Wild.of_any ht.any) ht.live.2.1
  have : (World.createEntity (played (V := Nat) [.register 1, .createEntities 5, .attach 2 1 7, .removeEntity [1] 2] (by decide +kernel)).2).2
    = .ok 2 := by decide +kernel
  rw [h1] at this; simp at this; subst this
  exact ⟨_, _, w', ht, by decide +kernel, by decide +kernel, h1, C12_new ht.any ht.live.1 ht.live.2.1 ht.live.2.2 h1 1⟩

/-! ### C13: remove_entity -/

/-- The entity table lists the living ids. -/
theorem C42_listing (h : Wild tr w) (hl : RemovesLive tr) (id : EntityId) :
    id ∈ w.em.entities ↔ alive id tr = true := ((wild_em h hl).alive id).symm


/-- Removing a living entity succeeds, whatever groups it is in (also when two of them share an owned type, where
C21 fails); it then
has no component and is gone from the entity table, everybody else keeps every component and stays alive; and
its id is the next one to be handed out. -/
theorem C13_remove (h : Trace tr w) {id : EntityId} (ha : alive id tr = true) {order : List TypeId}
    (ho : order.Nodup ∧ ∀ t, t ∈ order ↔ registered t tr = true) :
    ∃ w', World.removeEntity order id w = (w', .ok ()) ∧
      (∀ t x, World.componentRead t x w' = (w', .ok (if x = id then none else lastValue t x tr))) ∧
      (∀ x, x ≠ id → alive x tr = true → World.exist x w' = (w', .ok true)) ∧
      id ∈ w.em.entities ∧ (∀ x, x ∈ w'.em.entities ↔ x ∈ w.em.entities ∧ x ≠ id) ∧
      (World.createEntity w').2 = .ok id ∧ w'.res = w.res := by
  have hok : ∃ w', World.removeEntity order id w = (w', .ok ()) := by
    obtain ⟨s, hrun⟩ := h.run
    have hlive : s.live id = true := by rw [← (run_em hrun).2.2.2.1]; exact ha
    obtain ⟨w', h1, _⟩ := removeEntity_any hrun.rel ho.1 hlive
    exact ⟨w', h1⟩
  obtain ⟨w', hok⟩ := hok
  have hx : exec (.removeEntity order id) w = (w', .ok .unit) := by
    show (World.removeEntity order id >>= fun _ => pure Out.unit) w = _
    rw [bind_pure_ok]; exact ⟨(), hok, rfl⟩
  have ht := AnyTrace.ok h.any (op := .removeEntity order id) ho hx
  have hnr : NoRebatch ((Op.removeEntity order id, Out.unit) :: tr) := h.live.1
  have hrl : RemovesLive ((Op.removeEntity order id, Out.unit) :: tr) := ⟨ha, h.live.2.1⟩
  have hc := C42_listing (Wild.of_any h.any) h.live.2.1
  have hc' := C42_listing (Wild.of_any ht) hrl
  refine ⟨w', hok, fun t x => ?_, fun x hne hx => ?_, (hc id).2 ha, fun x => ?_, ?_, ?_⟩
  · rw [(C01_read ht hnr t x).1]
    simp only [lastValue]
    by_cases hc : x = id
    · rw [if_pos hc, if_pos hc.symm]
    · rw [if_neg hc, if_neg (fun e => hc e.symm)]
  · refine (C10_liveness_partial (Wild.of_any ht) hrl ?_).1 ?_
    · exact (h.usable hx).1
    · simp only [alive, hx, Bool.and_true, Bool.not_eq_true', beq_eq_false_iff_ne]; exact fun e => hne e.symm
  · rw [hc', hc]
    simp only [alive, Bool.and_eq_true, Bool.not_eq_true', beq_eq_false_iff_ne]
    exact ⟨fun e => ⟨e.2, fun e' => e.1 e'.symm⟩, fun e => ⟨fun e' => e.2 e'.symm, e.1⟩⟩
  · obtain ⟨w2, id', h1, _⟩ := C07_unique (Wild.of_any ht) hrl
    have := (C08_order (Wild.of_any ht) hrl h1).1 id (recyclable tr) rfl
    rw [h1, this]
  · have := removeEntity_fix (blind_res (V := V)) (fun _ _ => rfl) order id w
    rw [hok] at this; exact this

theorem storeErase_comm {a b id : EntityId} (hne : a ≠ b) {w w1 w2 : World V}
    (h1 : M.crit (storeErase a id) (storeEraseX a id) w = (w1, .ok ())) (h2 : M.crit (storeErase b id) (storeEraseX b id) w1 = (w2, .ok ())) :
    ∃ w3, M.crit (storeErase b id) (storeEraseX b id) w = (w3, .ok ()) ∧ M.crit (storeErase a id) (storeEraseX a id) w3 = (w2, .ok ()) := by
  simp only [M.crit_iff, storeErase, bind_eq_ok, Except.ok.injEq, Prod.mk.injEq] at h1 h2 ⊢
  obtain ⟨sa, hsa, S, hS, rfl, -⟩ := h1
  obtain ⟨sb, hsb, T, hT, rfl, -⟩ := h2
  rw [setSet_comps, if_neg (fun e => hne e.symm)] at hsb
  refine ⟨_, ⟨sb, hsb, T, hT, rfl, trivial⟩, sa, ?_, S, hS, ?_, trivial⟩
  · rw [setSet_comps, if_neg hne]; exact hsa
  · simp only [World.setSet]
    congr 1
    funext u
    by_cases ha : u = a
    · subst ha; simp [hne]
    · by_cases hb : u = b
      · subst hb; simp [ha]
      · simp [ha, hb]

theorem storeErases_perm {id : EntityId} {l l' : List Nat} (hp : l.Perm l') : ∀ {w w' : World V}, l.Nodup →
    M.forEach l (fun t => M.crit (storeErase t id) (storeEraseX t id)) w = (w', .ok ()) →
    M.forEach l' (fun t => M.crit (storeErase t id) (storeEraseX t id)) w = (w', .ok ()) := by
  induction hp with
  | nil => intro w w' _ h; exact h
  | cons x hp ih =>
    intro w w' hn h
    simp only [M.forEach, M.bind_ok] at h ⊢
    obtain ⟨w1, _, h1, h2⟩ := h
    exact ⟨w1, _, h1, ih (List.nodup_cons.1 hn).2 h2⟩
  | swap x y l =>
    intro w w' hn h
    simp only [M.forEach, M.bind_ok] at h ⊢
    obtain ⟨w1, _, h1, w2, _, h2, h3⟩ := h
    have hne : y ≠ x := by
      have := (List.nodup_cons.1 hn).1; simp only [List.mem_cons, not_or] at this; exact this.1
    obtain ⟨w3, h4, h5⟩ := storeErase_comm hne h1 h2
    exact ⟨w3, _, h4, w2, _, h5, h3⟩
  | trans hp hq ih1 ih2 =>
    intro w w' hn h
    exact ih2 (hp.nodup_iff.1 hn) (ih1 hn h)

/-- The same for `manaully_drop` of the entity's handle. -/
theorem C13_manual (h : Trace tr w) {id : EntityId} (ha : alive id tr = true) {order : List TypeId}
    (ho : order.Nodup ∧ ∀ t, t ∈ order ↔ registered t tr = true) :
    ∃ w', World.entityManuallyDrop order id w = (w', .ok ()) ∧
      (∀ t x, World.componentRead t x w' = (w', .ok (if x = id then none else lastValue t x tr))) ∧
      (∀ x, x ≠ id → alive x tr = true → World.exist x w' = (w', .ok true)) ∧
      id ∈ w.em.entities ∧ (∀ x, x ∈ w'.em.entities ↔ x ∈ w.em.entities ∧ x ≠ id) ∧
      (World.createEntity w').2 = .ok id ∧ w'.res = w.res :=
  C13_remove h ha ho

/-- In any world at all, the result of `remove_entity` does not depend on the order in which the hash map
enumerates the storages: if it succeeds for one order, then it does for every other, with the same world. -/
theorem C13_order {order order' : List TypeId} (hn : order.Nodup) (hp : order.Perm order') {id : EntityId}
    (h : World.removeEntity order id w = (w', .ok ())) : World.removeEntity order' id w = (w', .ok ()) := by
  simp only [World.removeEntity, M.bind_ok, M.read_ok] at h ⊢
  obtain ⟨w1, b, h1, w2, _, h2, w3, ks, h3, w4, _, h4, w5, ts, ⟨hw5, hts⟩, w6, _, h6, h7⟩ := h
  subst hw5
  refine ⟨w1, b, h1, w2, _, h2, w3, ks, h3, _, _, h4, _, _, ⟨rfl, rfl⟩, w6, (), ?_, h7⟩
  simp only [Except.ok.injEq] at hts
  subst hts
  exact storeErases_perm (hp.filter _) (hn.filter _) h6

/-- Entity 3 has two components, one in a full-owning group; it is removed with two different enumeration
orders. -/
example : ∃ (tr : List (Op Nat × Out Nat)) (w w' : World Nat), Trace tr w ∧ lastValue 1 3 tr = some 30 ∧
    World.removeEntity [1, 2] 3 w = (w', .ok ()) ∧ World.removeEntity [2, 1] 3 w = (w', .ok ()) ∧
    World.componentRead 1 3 w' = (w', .ok none) ∧ World.componentRead 1 2 w' = (w', .ok (some 20)) := by
  have ht := played_trace (V := Nat) [.register 1, .register 2, .createEntities 5, .makeGroup .full 1 2, .attach 2 1 20,
    .attach 3 1 30, .attach 3 2 31, .attach 2 2 21] (by decide +kernel)
  obtain ⟨w', h1, h2, _⟩ := C13_remove ht (id := 3) (order := [1, 2]) (by decide +kernel)
    (orderOk_iff (op := .removeEntity [1, 2] 3) (by decide +kernel))
  refine ⟨_, _, w', ht, by decide +kernel, h1, C13_order (by decide) (List.Perm.swap _ _ _) h1, by simpa using h2 1 3, ?_⟩
  have := h2 1 2
  rwa [if_neg (by decide), show lastValue 1 2 _ = some 20 by decide +kernel] at this

/-- Entity 1 is in two groups, the older of which owns a type of the newer. -/
example : ∃ (tr : List (Op Nat × Out Nat)) (w w' : World Nat), Trace tr w ∧ ¬ RemoveSafe 1 tr ∧
    World.removeEntity [1, 2, 3] 1 w = (w', .ok ()) ∧ World.componentRead 3 1 w' = (w', .ok none) ∧
    World.componentRead 3 2 w' = (w', .ok (some 32)) := by
  have ht := played_trace (V := Nat) [.register 1, .register 2, .register 3, .createEntities 2, .makeGroup .full 1 2,
    .makeGroup .part 3 1, .attach 1 1 11, .attach 1 2 21, .attach 1 3 31, .attach 2 1 12, .attach 2 3 32] (by decide +kernel)
  obtain ⟨w', h1, h2, _⟩ := C13_remove ht (id := 1) (order := [1, 2, 3]) (by decide +kernel)
    (orderOk_iff (op := .removeEntity [1, 2, 3] 1) (by decide +kernel))
  refine ⟨_, _, w', ht, by decide +kernel, h1, by simpa using h2 3 1, ?_⟩
  have := h2 3 2
  rwa [if_neg (by decide), show lastValue 3 2 _ = some 32 by decide +kernel] at this

/-! ### C42: counting -/

/-- After any history in which only living entities were removed, the entity table lists each living id exactly
once, and their number is the number created minus the number removed. -/
theorem C42_count (h : Wild tr w) (hl : RemovesLive tr) :
    w.em.entities.Nodup ∧ (∀ id, id ∈ w.em.entities ↔ alive id tr = true) ∧
    w.em.len + removals tr = created tr := by
  have hem := wild_em h hl
  exact ⟨hem.inv.entities_nodup, fun id => (hem.alive id).symm, hem.count⟩

example : Demo.w.em.len = 4 ∧ created Demo.tr = 5 ∧ removals Demo.tr = 1 := by
  have h := (C42_count (Wild.of_any Demo.trace.any) Demo.trace.live.2.1).2.2
  have h1 : created Demo.tr = 5 := by decide +kernel
  have h2 : removals Demo.tr = 1 := by decide +kernel
  exact ⟨by omega, h1, h2⟩

end Xecs
