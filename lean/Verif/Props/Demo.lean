import Verif.Spec.Play
import Verif.Proofs.Coverage
/-
Concrete histories on which the property theorems are instantiated, to show that their hypotheses are met
by non-trivial cases.
-/
set_option autoImplicit false
namespace Xecs.Demo
open Spec World Hist

/-- A disciplined history: three component types, five entities, a full-owning and a non-owning group, batch
attach, detach, removal and reuse of an id, writes. -/
def calls : List (Op Nat) :=
  [.register 1, .register 2, .register 3, .createEntities 3, .createEntity, .makeGroup .full 1 2,
   .attach 1 1 10, .attach 1 2 20, .attach 2 2 21, .attach 2 1 11, .makeGroup .non 1 3, .attach 2 3 5,
   .attachBatch 3 5 3 [7, 8], .detach 1 1, .attach 3 1 12, .registerResource 9 90,
   .removeEntity [2, 1, 3] 3, .createEntity, .attach 3 2 30, .write 2 3 31, .resourceWrite 9 91]

theorem calls_play : (play Hist.allowed calls ([], World.new)).isSome = true := by decide +kernel

/-- The history, newest call first. -/
def tr : List (Op Nat × Out Nat) := (played calls calls_play).1
/-- The world it leads to. -/
def w : World Nat := (played calls calls_play).2

theorem trace : Trace tr w := played_trace calls calls_play

/-- An undisciplined history: an entity is attached to after its removal (the code takes the oldest removed
id to be alive), a group is bypassed by a batch attach, groups overlap. -/
def wildCalls : List (Op Nat) :=
  [.register 1, .register 2, .createEntities 3, .makeGroup .full 1 2, .makeGroup .non 1 2,
   .attachBatch 1 4 1 [10, 11, 12], .attach 2 2 21, .attach 3 2 22, .removeEntity [1, 2] 1, .attach 1 1 99,
   .attachBatch 1 2 2 [88], .detach 2 1, .attach 2 1 13]

theorem wildCalls_play : (play Hist.orderOk wildCalls ([], World.new)).isSome = true := by decide +kernel

/-- The history, newest call first. -/
def wildTr : List (Op Nat × Out Nat) := (playedAny wildCalls wildCalls_play).1
/-- The world it leads to. -/
def wildW : World Nat := (playedAny wildCalls wildCalls_play).2

theorem wildTrace : AnyTrace wildTr wildW := playedAny_trace wildCalls wildCalls_play

theorem wild_noRebatch : NoRebatch wildTr := noRebatch_iff (by decide +kernel)

end Xecs.Demo
