import Verif.Proofs.Enumeration
import Verif.Props.Order
/-
C63: the order in which the component hash map enumerates the registered types is not observable.
-/
set_option autoImplicit false
namespace Xecs
open Spec World Hist
variable {V : Type} {tr : List (Op V × Out V)} {w w' : World V}

/-- C63. In any world whatsoever: if `remove_entity` succeeds when the types are enumerated in one order, then it succeeds,
and leaves the very same world, when they are enumerated in any other order. -/
theorem C63_call {order order' : List TypeId} (hp : order.Perm order') (hn : order.Nodup) {id : EntityId} {o : Out V}
    (h : exec (.removeEntity order id) w = (w', .ok o)) : exec (.removeEntity order' id) w = (w', .ok o) := by
  simp only [exec, bind_pure_ok] at h ⊢
  obtain ⟨u, h, rfl⟩ := h
  exact ⟨(), remove_perm_ok hp hn h, rfl⟩

/-- C63. After any calls, the order is irrelevant even if the removal fails: result and world are the same. -/
theorem C63_any (h : AnyTrace tr w) (hn : NoRebatch tr) {order order' : List TypeId} {id : EntityId}
    (h1 : OrderOk tr (.removeEntity order id)) (h2 : OrderOk tr (.removeEntity order' id)) :
    exec (.removeEntity order id) w = exec (.removeEntity order' id) w := by
  have hp : order.Perm order' := (List.perm_ext_iff_of_nodup h1.1 h2.1).2 fun t => (h1.2 t).trans (h2.2 t).symm
  have : World.removeEntity order id w = World.removeEntity order' id w :=
    remove_perm hp h1.1 fun t st hst => ((any_look h hn).at_some hst).2.2.1
  simp only [exec, M.bind_apply, this]

/-- C63. Two runs of a program that differ only in how hash maps are enumerated return the same results and end in the
same world. -/
theorem C63_program {ops ops' : List (Op V)} (hs : SameCalls ops ops') : ∀ {w w' : World V} {os : List (Out V)},
    (∀ order id, Op.removeEntity order id ∈ ops → order.Nodup) →
    performs ops w = (w', .ok os) → performs ops' w = (w', .ok os) := by
  induction hs with
  | nil => intro w w' os _ h; exact h
  | cons hc hs ih =>
    rename_i op op' ops ops'
    intro w w' os hn h
    have hn' : ∀ order id, Op.removeEntity order id ∈ ops → order.Nodup := fun o i hm => hn o i (List.mem_cons_of_mem _ hm)
    simp only [performs] at h ⊢
    rcases he : exec op w with ⟨w1, r⟩
    rw [he] at h
    cases r with
    | error e => simp at h
    | ok o =>
      simp only at h
      have he' : exec op' w = (w1, .ok o) := by
        cases hc with
        | same => exact he
        | remove id hp => exact C63_call hp (hn _ _ (List.mem_cons_self ..)) he
      rw [he']
      simp only
      rcases hp : performs ops w1 with ⟨w2, r2⟩
      rw [hp] at h
      cases r2 with
      | error e => simp at h
      | ok os' => rw [ih hn' hp]; exact h

/-! ### Examples -/

namespace Demo

/-- Entities with two components each, removed while the types are enumerated one way … -/
def enumCalls : List (Op Nat) :=
  [.register 1, .register 2, .register 3, .createEntities 3, .attach 1 1 11, .attach 1 2 12, .attach 2 1 21, .attach 2 3 23,
   .makeGroup .part 1 2, .removeEntity [1, 2, 3] 1, .removeEntity [3, 1, 2] 2]

/-- … and the other. -/
def enumCalls' : List (Op Nat) :=
  [.register 1, .register 2, .register 3, .createEntities 3, .attach 1 1 11, .attach 1 2 12, .attach 2 1 21, .attach 2 3 23,
   .makeGroup .part 1 2, .removeEntity [2, 3, 1] 1, .removeEntity [3, 2, 1] 2]

theorem enumSame : SameCalls enumCalls enumCalls' :=
  .cons (.same _) <| .cons (.same _) <| .cons (.same _) <| .cons (.same _) <| .cons (.same _) <| .cons (.same _) <|
  .cons (.same _) <| .cons (.same _) <| .cons (.same _) <| .cons (.remove 1 (by decide)) <| .cons (.remove 2 (by decide)) .nil

end Demo

example : ∃ w os, performs Demo.enumCalls World.new = (w, .ok os) ∧ performs Demo.enumCalls' World.new = (w, .ok os) ∧ os.length = 11 := by
  have h : ∃ os, (performs Demo.enumCalls World.new).2 = .ok os ∧ os.length = 11 := by
    have : (match (performs Demo.enumCalls World.new).2 with | .ok os => os.length == 11 | .error _ => false) = true := by decide +kernel
    split at this
    · rename_i os e; exact ⟨os, e, by simpa using this⟩
    · cases this
  obtain ⟨os, h, hl⟩ := h
  have h' : performs Demo.enumCalls World.new = ((performs Demo.enumCalls World.new).1, .ok os) := Prod.ext rfl h
  refine ⟨_, os, h', C63_program Demo.enumSame ?_ h', hl⟩
  intro order id hm
  simp only [Demo.enumCalls, List.mem_cons, List.not_mem_nil, or_false, reduceCtorEq, false_or, Op.removeEntity.injEq] at hm
  rcases hm with ⟨rfl, _⟩ | ⟨rfl, _⟩ <;> decide

example : exec (.removeEntity [1, 2] 3) Demo.orderW = exec (.removeEntity [2, 1] 3) Demo.orderW :=
  C63_any Demo.orderTrace (noRebatch_iff (by decide +kernel)) (orderOk_iff (by decide +kernel)) (orderOk_iff (by decide +kernel))

end Xecs
