import Verif.Spec.Linear
import Verif.Spec.Phases
/-
Threads that work on different entities.

`told` replays the calls one thread has made on its entities, one after the other and undisturbed, on the contents of the
world: what they do and what they return.
-/
set_option autoImplicit false
namespace Xecs
variable {V : Type}

/-- A chain of operations on the handle of `id`, one after the other: the contents afterwards, and the results. -/
def HOp.effects (id : EntityId) : List (HOp V) → Shared V → Shared V × List (Ret V)
  | [], a => (a, [])
  | o :: ops, a => ((effects id ops (o.effect a id).1).1, (o.effect a id).2 :: (effects id ops (o.effect a id).1).2)

namespace ApiCall

/-- The call works on one of the entities `E` that exist already: a chain of operations on its handle, a read or a write. -/
def worksOn (E : EntityId → Bool) : ApiCall V → Bool
  | .on id _ => E id
  | .read _ id => E id
  | .write _ id _ => E id
  | _ => false

/-- The call changes none of the entities `E`. (With `new` = false, entities it creates get no components.) -/
def leavesAlone (new : Bool) (E : EntityId → Bool) : ApiCall V → Prop
  | .on id _ => E id = false
  | .write _ id _ => E id = false
  | .remove id => E id = false
  | .fill start stop _ => ∀ e, start ≤ e → e < stop → E e = false
  | .create s => new = true ∨ s = []
  | .createMany _ bs => new = true ∨ bs = []
  | _ => True

/-- What a call that works on one entity does, undisturbed, and what it returns. -/
def undisturbed (a : Shared V) : ApiCall V → Shared V × List (Ret V)
  | .on id s => HOp.effects id s a
  | .read t id => (a, [.val (a.value t id)])
  | .write t id v => (if (a.value t id).isSome then a.put t id (some v) else a, [.bool (a.value t id).isSome])
  | _ => (a, [])

end ApiCall

/-- The contents after the calls `cs` (latest first), one after the other, from the contents `a`. -/
def replay (a : Shared V) : List (ApiCall V) → Shared V
  | [] => a
  | c :: cs => (c.undisturbed (replay a cs)).1

/-- The calls `cs` (latest first) with what each returns, if they are made one after the other from the contents `a`. -/
def replies (a : Shared V) : List (ApiCall V) → List (ApiCall V × Option (List (Ret V)))
  | [] => []
  | c :: cs => (c, some (c.undisturbed (replay a cs)).2) :: replies a cs

/-- The finished calls of thread `i` on the entities `E` according to a log (latest first), with their results. -/
def worked (i : Nat) (E : EntityId → Bool) (log : List (Nat × ApiCall V × Option (List (Ret V)))) :
    List (ApiCall V × Option (List (Ret V))) :=
  (ofThread i log).filter fun x => x.1.worksOn E

/-- The calls among them. -/
def workedCalls (i : Nat) (E : EntityId → Bool) (log : List (Nat × ApiCall V × Option (List (Ret V)))) : List (ApiCall V) :=
  (worked i E log).map Prod.fst

/-- Clients `may` to whom the entities `E` are thread `i`'s: all calls leave them alone, except that thread `i` may
work on them. -/
def Sys.respecting (i : Nat) (E : EntityId → Bool) (new : Bool) (may : Sys V → Nat → ApiCall V → Prop) :
    Sys V → Nat → ApiCall V → Prop :=
  fun σ j c => may σ j c ∧ ((j = i ∧ c.worksOn E = true) ∨ c.leavesAlone new E)

/-- Each thread works on entities of its own: entity `e` is thread `own e`'s. -/
def Sys.parted (own : EntityId → Nat) : Sys V → Nat → ApiCall V → Prop :=
  fun _ j c => c.worksOn (fun e => own e == j) = true

end Xecs
