import Verif.Proofs.ConserveHist
import Verif.Proofs.ConserveShared
import Verif.Props.Sound
import Verif.Props.Phases
/-
C59: component values are neither made up, nor duplicated, nor lost.
-/
set_option autoImplicit false
namespace Xecs
open Spec World Hist
variable {V : Type} {tr : List (Op V × Out V)} {w w' : World V}

/-- What `held` means: it is what `components_read::<T>().data()` shows, after any calls whatever. -/
theorem C59_held {l : List (Op V × R (Out V))} (h : Calls l w) (t : TypeId) :
    World.storageData t w = (w, .ok (if (w.comps t).isSome then some (w.held t) else none)) := by
  have hw : ∃ tr, Wild tr w := by
    induction h with
    | init => exact ⟨_, .init⟩
    | @call _ _ _ _ r _ he ih =>
      obtain ⟨tr, ih⟩ := ih
      cases r with
      | ok o => exact ⟨_, .ok ih he⟩
      | error e => exact ⟨_, .fails ih he⟩
  obtain ⟨tr, hw⟩ := hw
  unfold World.storageData World.held
  cases hc : w.comps t with
  | none => simp [M.read_apply, hc]
  | some st => simp [M.read_apply, hc, downcast, (wild_typed hw).1 t st hc]

/-- **C59**, every call in every world, failing ones included: the values stored afterwards, those handed back, and some
that are gone, are exactly the values stored before and those moved into the call. So no value is made up and none is
both kept and handed back. -/
theorem C59_call (op : Op V) {r : R (Out V)} (h : exec op w = (w', r)) (t : TypeId) :
    ∃ gone : List V, (w'.held t ++ op.returned t r ++ gone).Perm (w.held t ++ op.given t r) := by
  refine part_of_count fun P => ?_
  have := exec_pays (P := P) (t := t) op w
  rw [h] at this
  simpa only [List.countP_append, World.num] using this

/-- **C59**, every call that returns (other than a removal), in every world: the only values gone are those it
overwrote, which could be read before. -/
theorem C59_exact {op : Op V} {o : Out V} (h : exec op w = (w', .ok o)) (hr : ∀ order id, op ≠ .removeEntity order id)
    (t : TypeId) : (w'.held t ++ op.returned t (.ok o) ++ op.replaced w t o).Perm (w.held t ++ op.given t (.ok o)) := by
  refine perm_of_count fun P => ?_
  have := exec_exact P t h hr
  simpa only [List.countP_append, World.num] using this

/-- **C59**, a removal: exactly the components of the entity are gone. -/
theorem C59_removal (h : AnyTrace tr w) (hn : NoRebatch tr) {order : List TypeId} {id : EntityId} {o : Out V}
    (ho : OrderOk tr (.removeEntity order id : Op V)) (he : exec (.removeEntity order id) w = (w', .ok o)) (t : TypeId) :
    (w'.held t ++ (w.value t id).toList).Perm (w.held t) := by
  have h' : AnyTrace ((.removeEntity order id, o) :: tr) w' := .ok h ho he
  rw [look_value (any_look h hn)]
  exact removal_held (any_look h hn) (any_look h' (by simpa [NoRebatch] using hn)) t

/-- **C59**, every history without repeated batch attach: everything ever given to the world is stored, or was handed
back, or was overwritten, or died with its entity -- each value exactly one of these. -/
theorem C59_balance (h : AnyTrace tr w) (hn : NoRebatch tr) (t : TypeId) :
    (w.held t ++ Hist.returned t tr ++ dropped t tr).Perm (Hist.given t tr) := by
  refine perm_of_count fun P => ?_
  have := balance h P t hn
  simpa only [List.countP_append, World.num] using this

/-- **C59**, any calls whatever, panicking and undefined ones included: what is stored and what was handed back was
given, each value once. -/
theorem C59_calls {l : List (Op V × R (Out V))} (h : Calls l w) (t : TypeId) :
    ∃ gone : List V, (w.held t ++ l.flatMap (fun x => x.1.returned t x.2) ++ gone).Perm
      (l.flatMap fun x => x.1.given t x.2) := by
  refine part_of_count fun P => ?_
  have := calls_pay h P t
  simpa only [List.countP_append, World.num] using this

/-- **C59**, several threads, no discipline, at any moment, whatever has panicked: what is stored and what was handed
back was there at the start or was named in some call, each value once. -/
theorem C59_shared {n : Nat} {cfg : Config} {may : Sys V → Nat → ApiCall V → Prop} {σ : Sys V}
    (h : (Sys.init w n).Sched cfg may σ) (t : TypeId) :
    ∃ gone : List V, (σ.world.held t ++ σ.returned t ++ gone).Perm (w.held t ++ σ.named t) := by
  refine part_of_count fun P => ?_
  have := books h P t
  simpa only [List.countP_append, World.num] using this

/-- **C59**, a world owned and shared by turns, the threads disciplined: nothing is lost in the shared phases. -/
theorem C59_phases (h : Mixed tr w) (t : TypeId) :
    (w.held t ++ Hist.returned t tr ++ dropped t tr).Perm (Hist.given t tr) := by
  obtain ⟨u, g, ht, _, _⟩ := h.like
  have h1 := C59_balance ht.any ht.live.1 t
  have h2 := look_held (any_look ht.any ht.live.1) h.look t
  exact ((h2.append_right _).append_right _).trans h1

namespace Demo

/-- A history of calls of which some fail: an attach to an id that was never created, and a batch attach with the
wrong number of values. -/
def spilt : List (Op Nat) :=
  [.register 1, .register 2, .makeGroup .full 1 2, .createEntities 2, .attach 1 1 10, .attach 7 1 10, .attachBatch 1 3 2 [5],
   .attach 1 2 20, .attach 1 1 11, .detach 1 1]

/-- All calls, with what came of them. -/
def callAll : List (Op Nat) → List (Op Nat × R (Out Nat)) × World Nat → List (Op Nat × R (Out Nat)) × World Nat
  | [], s => s
  | op :: ops, (l, w) => callAll ops ((op, (exec op w).2) :: l, (exec op w).1)

theorem callAll_calls : ∀ (ops : List (Op Nat)) (s : List (Op Nat × R (Out Nat)) × World Nat), Calls s.1 s.2 →
    Calls (callAll ops s).1 (callAll ops s).2
  | [], _, h => h
  | _ :: ops, (_, _), h => callAll_calls ops _ (.call h rfl)

def spiltLog : List (Op Nat × R (Out Nat)) := (callAll spilt ([], World.new)).1
def spiltW : World Nat := (callAll spilt ([], World.new)).2
theorem spilt_calls : Calls spiltLog spiltW := callAll_calls spilt _ .init

end Demo

/-! Instances: three values were given to component 1, two of them are gone; the values the failing calls got are not
stored. -/
example : (Demo.spiltLog.map fun x => x.2.toOption.isSome) = [true, true, true, false, false, true, true, true, true, true] ∧
    Demo.spiltW.held 1 = [] ∧ Demo.spiltW.held 2 = [20] ∧ (Demo.spiltLog.flatMap fun x => x.1.returned 1 x.2) = [11] ∧
    (Demo.spiltLog.flatMap fun x => x.1.given 1 x.2) = [11, 10, 10] := by decide +kernel
example : ∃ gone : List Nat, ([] ++ [11] ++ gone).Perm [11, 10, 10] := by
  have := C59_calls Demo.spilt_calls 1
  rw [show Demo.spiltW.held 1 = [] by decide +kernel,
    show (Demo.spiltLog.flatMap fun x => x.1.returned 1 x.2) = [11] by decide +kernel,
    show (Demo.spiltLog.flatMap fun x => x.1.given 1 x.2) = [11, 10, 10] by decide +kernel] at this
  exact this
example : World.storageData 2 Demo.spiltW = (Demo.spiltW, .ok (some [20])) := by
  rw [C59_held Demo.spilt_calls, if_pos (by decide +kernel), show Demo.spiltW.held 2 = [20] by decide +kernel]
/-! A detach hands back the value, an attach overwrites one, a removal drops one. -/
example : ((exec (.detach 2 1) Demo.w).1.held 1 ++ [11]).Perm (Demo.w.held 1) := by
  have := C59_exact (w := Demo.w) (op := .detach 2 1) (o := .val (some 11)) (Prod.ext rfl (by decide +kernel)) (by simp) 1
  simpa [Spec.Op.returned, Spec.Op.given, Spec.Op.replaced] using this
example : ((exec (.attach 2 1 77) Demo.w).1.held 1 ++ [11]).Perm (Demo.w.held 1 ++ [77]) := by
  have := C59_exact (w := Demo.w) (op := .attach 2 1 77) (o := .unit) (Prod.ext rfl (by decide +kernel)) (by simp) 1
  rw [show Spec.Op.replaced Demo.w 1 (.attach 2 1 77) .unit = [11] by decide +kernel] at this
  simpa [Spec.Op.returned, Spec.Op.given] using this
example : ((exec (.removeEntity [3, 2, 1] 2) Demo.w).1.held 1 ++ [11]).Perm (Demo.w.held 1) := by
  have := C59_removal Demo.trace.any (noRebatch_iff (by decide +kernel)) (order := [3, 2, 1]) (id := 2) (o := .unit)
    (orderOk_iff (by decide +kernel)) (Prod.ext rfl (by decide +kernel)) 1
  rwa [show (Demo.w.value 1 2).toList = [11] by decide +kernel] at this
/-! The whole account of component 1 of the demonstration history, and of the undisciplined one. -/
example : Demo.w.held 1 = [11] ∧ Hist.returned 1 Demo.tr = [10] ∧ dropped 1 Demo.tr = [12] ∧
    Hist.given 1 Demo.tr = [12, 11, 10] := by decide +kernel
example : (Demo.w.held 1 ++ Hist.returned 1 Demo.tr ++ dropped 1 Demo.tr).Perm (Hist.given 1 Demo.tr) :=
  C59_balance Demo.trace.any (noRebatch_iff (by decide +kernel)) 1
example : (Demo.wildW.held 1 ++ Hist.returned 1 Demo.wildTr ++ dropped 1 Demo.wildTr).Perm (Hist.given 1 Demo.wildTr) :=
  C59_balance Demo.wildTrace Demo.wild_noRebatch 1
/-! Several threads. -/
example : ∃ gone : List Nat, (Demo.busyMid.world.held 1 ++ Demo.busyMid.returned 1 ++ gone).Perm
    (Demo.groupW.held 1 ++ Demo.busyMid.named 1) := C59_shared Demo.busyMid_sched 1
example : Demo.busyEnd.world.held 1 = [61] ∧ Demo.busyEnd.returned 1 = [51] ∧ Demo.groupW.held 1 = [11, 51] ∧
    Demo.busyEnd.named 1 = [61] := by decide +kernel
example : (Demo.busyEnd.world.held 1 ++ Hist.returned 1 (Demo.busyLog.map Prod.snd ++ Demo.groupTr) ++
    dropped 1 (Demo.busyLog.map Prod.snd ++ Demo.groupTr)).Perm (Hist.given 1 (Demo.busyLog.map Prod.snd ++ Demo.groupTr)) :=
  C59_phases Demo.mixed 1

end Xecs
