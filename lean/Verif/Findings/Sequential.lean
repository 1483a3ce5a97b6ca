import Verif.Spec.Play
import Verif.Spec.Decide
import Verif.Proofs.Shape
import Verif.Proofs.Coverage
/-
Concrete histories on which the code does not do what its user would expect. Each theorem gives a history of
calls from `World::new()`, all of which return normally, and the observation that contradicts the English
property it is named after. They delimit the theorems of Verif/Props: the hypotheses there exclude exactly
these situations.
-/
set_option autoImplicit false
namespace Xecs
open Spec Hist

/-- The calls, all allowed, succeed one after the other; the history. -/
abbrev fine (ops : List (Op Nat)) (h : (play Hist.allowed ops ([], World.new)).isSome = true := by decide +kernel) :
    Trace (played ops h).1 (played ops h).2 := played_trace ops h

/-- The calls succeed one after the other; the history. -/
abbrev odd (ops : List (Op Nat)) (h : (play Hist.orderOk ops ([], World.new)).isSome = true := by decide +kernel) :
    AnyTrace (playedAny ops h).1 (playedAny ops h).2 := playedAny_trace ops h

/-- C03: detaching a component that a living entity does not have panics, if the entity's id is one more than the
largest id that ever had the component (src/sparse_set.rs:70 tests `<` where it should test `<=`). -/
theorem C03_detach_absent_counterexample : ∃ (tr : List (Op Nat × Out Nat)) (w : World Nat), Trace tr w ∧
    alive 2 tr = true ∧ registered 7 tr = true ∧ lastValue 7 2 tr = none ∧
    (World.detach 2 7 w).2 = .error .panic ∧ (World.detach 3 7 w).2 = .ok none :=
  ⟨_, _, fine [.register 7, .createEntities 3, .attach 1 7 10], by decide +kernel, by decide +kernel, by decide +kernel,
    by decide +kernel, by decide +kernel⟩

/-- C04: if a batch attach bypassed a group, overwriting a component in place changes the iteration order. -/
theorem C04_order_counterexample : ∃ (tr : List (Op Nat × Out Nat)) (w w' : World Nat), Trace tr w ∧
    (lastValue 1 2 tr).isSome = true ∧ World.attach 2 1 99 w = (w', .ok ()) ∧
    Yields w (.comp .ref 1) [(1, .leaf 11), (2, .leaf 12)] ∧ Yields w' (.comp .ref 1) [(2, .leaf 99), (1, .leaf 11)] :=
  ⟨_, _, _, fine [.register 1, .register 2, .createEntities 2, .makeGroup .full 1 2, .attachBatch 1 3 1 [11, 12],
      .attachBatch 2 3 2 [22]], by decide +kernel,
    Prod.ext rfl (show (World.attach 2 1 99 _).2 = _ by decide +kernel),
    by unfold Yields; decide +kernel, by unfold Yields; decide +kernel⟩

/-- C10: `exist` says `true` for a removed entity. -/
theorem C10_zombie_counterexample : ∃ (tr : List (Op Nat × Out Nat)) (w : World Nat), Trace tr w ∧
    alive 2 tr = false ∧ (World.exist 2 w).2 = .ok true :=
  ⟨_, _, fine [.createEntities 3, .removeEntity [] 2], by decide +kernel, by decide +kernel⟩

/-- C10: `exist` and `entity` panic for an id that was never handed out. -/
theorem C10_unallocated_counterexample : ∃ (tr : List (Op Nat × Out Nat)) (w : World Nat), Trace tr w ∧
    handedOut 9 tr = false ∧ (World.exist 9 w).2 = .error .panic ∧ (World.entity 9 w).2 = .error .panic :=
  ⟨_, _, fine [.createEntities 3], by decide +kernel, by decide +kernel, by decide +kernel⟩

/-- C11: a handle to a removed entity can be had, and components can be attached to it; C12: the next new
entity then has a component. -/
theorem C11_zombie_counterexample : ∃ (tr : List (Op Nat × Out Nat)) (w w1 w2 : World Nat), Trace tr w ∧
    alive 2 tr = false ∧ (World.entity 2 w).2 = .ok (some 2) ∧ World.attach 2 7 55 w = (w1, .ok ()) ∧
    (World.componentRead 7 2 w1).2 = .ok (some 55) ∧ World.createEntity w1 = (w2, .ok 2) ∧
    (World.componentRead 7 2 w2).2 = .ok (some 55) :=
  ⟨_, _, _, _, fine [.register 7, .createEntities 3, .removeEntity [7] 2], by decide +kernel, by decide +kernel,
    Prod.ext rfl (show (World.attach 2 7 55 _).2 = _ by decide +kernel), by decide +kernel,
    Prod.ext rfl (show (World.createEntity _).2 = _ by decide +kernel), by decide +kernel⟩

/-- C11: removing the same entity twice is accepted; afterwards another entity, which was never removed, is
no longer in the entity table, and `create_entity` hands out the same id twice. -/
theorem C11_twice_counterexample : ∃ (tr : List (Op Nat × Out Nat)) (w w1 w2 w3 : World Nat), Trace tr w ∧
    alive 1 tr = false ∧ alive 2 tr = true ∧ w.em.entities = [2] ∧
    World.removeEntity [] 1 w = (w1, .ok ()) ∧ w1.em.entities = [] ∧
    World.createEntity w1 = (w2, .ok 1) ∧ World.createEntity w2 = (w3, .ok 1) ∧ w3.em.entities = [1, 1] :=
  ⟨_, _, _, _, _, fine [.createEntities 2, .removeEntity [] 1], by decide +kernel, by decide +kernel, by decide +kernel,
    Prod.ext rfl (show (World.removeEntity [] 1 _).2 = _ by decide +kernel), by decide +kernel,
    Prod.ext rfl (show (World.createEntity _).2 = _ by decide +kernel),
    Prod.ext rfl (show (World.createEntity _).2 = _ by decide +kernel), by decide +kernel⟩

/-- C17: after a detach, a non-owning group query reads outside its storage. -/
theorem C17_unchecked_counterexample : ∃ (tr : List (Op Nat × Out Nat)) (w : World Nat), Trace tr w ∧
    madeGroup .non 1 2 tr = true ∧ w.queryAll (.group .non .ref .ref 1 2) = .error .ub :=
  ⟨_, _, fine [.register 1, .register 2, .createEntities 3, .makeGroup .non 1 2, .attach 1 1 11, .attach 2 1 12,
      .attach 3 1 13, .attach 1 2 21, .attach 2 2 22, .attach 3 2 23, .detach 1 1], by decide +kernel, by decide +kernel⟩

/-- C17: after a detach and an attach, a non-owning group query yields another entity's component. -/
theorem C17_wrong_value_counterexample : ∃ (tr : List (Op Nat × Out Nat)) (w : World Nat), Trace tr w ∧
    madeGroup .non 1 2 tr = true ∧ lastValue 1 3 tr = some 13 ∧
    Yields w (.group .non .ref .ref 1 2) [(3, .pair (.leaf 14) (.leaf 23)), (2, .pair (.leaf 12) (.leaf 22))] :=
  ⟨_, _, fine [.register 1, .register 2, .createEntities 4, .makeGroup .non 1 2, .attach 1 1 11, .attach 2 1 12,
      .attach 3 1 13, .attach 1 2 21, .attach 2 2 22, .attach 3 2 23, .detach 1 1, .attach 4 1 14], by decide +kernel,
    by decide +kernel, by unfold Yields; decide +kernel⟩

/-- C17: an owning group over one of the types invalidates a non-owning group just as well, without any
removal: here two entities exchange their values. -/
theorem C17_owning_counterexample : ∃ (tr : List (Op Nat × Out Nat)) (w : World Nat), Trace tr w ∧
    lastValue 1 1 tr = some 11 ∧ lastValue 1 2 tr = some 12 ∧
    Yields w (.group .non .ref .ref 1 2) [(1, .pair (.leaf 12) (.leaf 21)), (2, .pair (.leaf 11) (.leaf 22))] :=
  ⟨_, _, fine [.register 1, .register 2, .register 3, .createEntities 2, .makeGroup .non 1 2, .attach 1 1 11,
      .attach 2 1 12, .attach 1 2 21, .attach 2 2 22, .attach 2 3 32, .makeGroup .part 1 3], by decide +kernel,
    by decide +kernel, by unfold Yields; decide +kernel⟩

/-- C19: `make_group` with an unregistered type panics and leaves the group in the world; from then on no entity
can be removed any more. -/
theorem C19_left_behind_counterexample : ∃ (tr : List (Op Nat × Out Nat)) (w w' : World Nat), Trace tr w ∧
    World.makeGroup .full 1 2 w = (w', .error .panic) ∧ w.groups = [] ∧ w'.groups = [.full 0 1 2] ∧
    alive 1 tr = true ∧ (∃ w1, World.removeEntity [1] 1 w = (w1, .ok ())) ∧
    (World.removeEntity [1] 1 w').2 = .error .panic :=
  ⟨_, _, _, fine [.register 1, .createEntities 2], Prod.ext rfl (show (World.makeGroup .full 1 2 _).2 = _ by decide +kernel),
    by decide +kernel, by decide +kernel, by decide +kernel,
    ⟨_, Prod.ext rfl (show (World.removeEntity [1] 1 _).2 = _ by decide +kernel)⟩, by decide +kernel⟩

/-- C20: an entity that obtains both components by batch attach is not yielded by an existing group. -/
theorem C20_bypass_counterexample : ∃ (tr : List (Op Nat × Out Nat)) (w : World Nat), Trace tr w ∧
    madeGroup .full 1 2 tr = true ∧ lastValue 1 1 tr = some 11 ∧ lastValue 2 1 tr = some 21 ∧
    Yields w (.group .full .ref .ref 1 2) [] :=
  ⟨_, _, fine [.register 1, .register 2, .makeGroup .full 1 2, .createEntities 2, .attachBatch 1 3 1 [11, 12],
      .attachBatch 1 3 2 [21, 22]], by decide +kernel, by decide +kernel, by decide +kernel,
    by unfold Yields; decide +kernel⟩

/-- C21: removing an entity from two groups, the older owning a type of the newer: the newer group, a
partial-owning one, then reads outside its storage. -/
theorem C21_overlap_counterexample : ∃ (tr : List (Op Nat × Out Nat)) (w w' : World Nat), Trace tr w ∧
    alive 1 tr = true ∧ World.removeEntity [1, 2, 3] 1 w = (w', .ok ()) ∧
    Yields w (.group .part .ref .ref 3 1) [(1, .pair (.leaf 31) (.leaf 11))] ∧
    w'.queryAll (.group .part .ref .ref 3 1) = .error .ub :=
  ⟨_, _, _, fine [.register 1, .register 2, .register 3, .createEntities 1, .makeGroup .full 1 2, .makeGroup .part 3 1,
      .attach 1 1 11, .attach 1 2 21, .attach 1 3 31], by decide +kernel,
    Prod.ext rfl (show (World.removeEntity [1, 2, 3] 1 _).2 = _ by decide +kernel),
    by unfold Yields; decide +kernel, by decide +kernel⟩

/-- C21: the same with a newer non-owning group, which keeps listing the removed entity. -/
theorem C21_stale_counterexample : ∃ (tr : List (Op Nat × Out Nat)) (w w' : World Nat), Trace tr w ∧
    World.removeEntity [1, 2, 3] 1 w = (w', .ok ()) ∧
    w'.groups = [.full 1 1 2, .non ⟨[none, some 1, some 2], [1, 2], [(0, 0), (1, 1)]⟩ 1 3] ∧
    w'.queryAll (.group .non .ref .ref 1 3) = .error .ub :=
  ⟨_, _, _, fine [.register 1, .register 2, .register 3, .createEntities 2, .makeGroup .full 1 2, .makeGroup .non 1 3,
      .attach 1 1 11, .attach 1 2 21, .attach 1 3 31, .attach 2 1 12, .attach 2 2 22, .attach 2 3 32],
    Prod.ext rfl (show (World.removeEntity [1, 2, 3] 1 _).2 = _ by decide +kernel),
    by decide +kernel, by decide +kernel⟩

/-- C28: `from_id` hands out a second mutable reference to a component whose first one, from `next`, the client
may still hold. -/
theorem C28_from_id_counterexample : ∃ (tr : List (Op Nat × Out Nat)) (w : World Nat) (it it' : Iter) (rs : List Reply),
    Trace tr w ∧ w.iter (.comp .mut 1) = .ok it ∧ it.session w [.next, .fromId 1] = .ok (rs, it') ∧
    rs.flatMap Reply.locs = [⟨1, 0, .mut⟩, ⟨1, 0, .mut⟩] ∧ ¬ Compatible ⟨1, 0, .mut⟩ ⟨1, 0, .mut⟩ :=
  ⟨_, _, ⟨.comp .mut 1, .leaf 0⟩, ⟨.comp .mut 1, .leaf 1⟩,
    [.item (some (.leaf ⟨1, 0, .mut⟩)), .atId (some (.leaf ⟨1, 0, .mut⟩))],
    fine [.register 1, .createEntities 1, .attach 1 1 11], by decide +kernel, by decide +kernel, by decide +kernel,
    by decide⟩

/-- C28: the items of a query do not borrow its iterator, so they can be kept after the iterator and its guard
are gone; a second query then hands out mutable references to the same components. -/
theorem C28_outlive_counterexample : ∃ (tr : List (Op Nat × Out Nat)) (w : World Nat) (l : Loc), Trace tr w ∧
    w.queryAll (.comp .mut 1) = .ok [(1, .leaf l)] ∧ ¬ Compatible l l :=
  ⟨_, _, ⟨1, 0, .mut⟩, fine [.register 1, .createEntities 1, .attach 1 1 11], by decide +kernel, by decide⟩

/-- C02, C43: attaching by batch what an entity already has leaves the old value in the storage: it is iterated
as well, the count is wrong, and it survives a detach. -/
theorem C43_duplicate_counterexample : ∃ (tr : List (Op Nat × Out Nat)) (w w1 w2 : World Nat), AnyTrace tr w ∧
    lastValue 1 1 tr = some 11 ∧ World.attachBatch 1 2 1 [99] w = (w1, .ok ()) ∧ (World.storageCount 1 w1).2 = .ok (some 2) ∧
    Yields w1 (.comp .ref 1) [(1, .leaf 11), (1, .leaf 99)] ∧ World.detach 1 1 w1 = (w2, .ok (some 99)) ∧
    Yields w2 (.comp .ref 1) [(1, .leaf 11)] :=
  ⟨_, _, _, _, odd [.register 1, .createEntities 1, .attachBatch 1 2 1 [11]], by decide +kernel,
    Prod.ext rfl (show (World.attachBatch 1 2 1 [99] _).2 = _ by decide +kernel), by decide +kernel,
    by unfold Yields; decide +kernel, Prod.ext rfl (show (World.detach 1 1 _).2 = _ by decide +kernel),
    by unfold Yields; decide +kernel⟩

/-- C44: making an owning group of a type with itself blocks for ever. -/
theorem C44_self_group_counterexample : ∃ (tr : List (Op Nat × Out Nat)) (w : World Nat), Trace tr w ∧
    registered 1 tr = true ∧ (World.makeGroup .full 1 1 w).2 = .error .deadlock ∧
    (World.makeGroup .part 1 1 w).2 = .error .deadlock :=
  ⟨_, _, fine [.register 1, .createEntities 1, .attach 1 1 11], by decide +kernel, by decide +kernel, by decide +kernel⟩

end Xecs
