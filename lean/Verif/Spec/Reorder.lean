import Verif.Spec.History
/-
Reordering operations on different entities.
-/
set_option autoImplicit false
namespace Xecs
open Spec
variable {V : Type}

/-- The entity an operation is about, for the operations on one entity. -/
def Spec.Op.entity : Op V → Option EntityId
  | .exist id => some id
  | .attach id _ _ => some id
  | .detach id _ => some id
  | .read _ id => some id
  | .write _ id _ => some id
  | .removeEntity _ id => some id
  | _ => none

/-- Operations on one entity, done with success: what is detached was there, and `exist` said yes. (Whether detaching
something absent panics, and what `exist` says of removed entities, depends on other entities.) -/
def Movable : Op V × Out V → Prop
  | (.attach _ _ _, _) => True
  | (.read _ _, _) => True
  | (.write _ _ _, _) => True
  | (.removeEntity _ _, _) => True
  | (.detach _ _, .val (some _)) => True
  | (.exist _, .bool true) => True
  | _ => False

/-- What `l` does to the entity `id`, in its order. -/
def doneTo (id : EntityId) (l : List (Op V × Out V)) : List (Op V × Out V) := l.filter fun x => x.1.entity == some id

/-- `l'` arises from `l` by reordering operations on different entities. -/
def Reordered (l l' : List (Op V × Out V)) : Prop :=
  (∀ x ∈ l, Movable x) ∧ (∀ x ∈ l', Movable x) ∧ ∀ id, doneTo id l = doneTo id l'

/-- The entities `l` removes, latest first. -/
def removedIds (l : List (Op V × Out V)) : List EntityId :=
  l.filterMap fun x => match x.1 with | .removeEntity _ id => some id | _ => none

/-- `Continues tr w l w'`: after the history `tr` leading to `w`, the calls `l` (latest first), all allowed, return what
`l` says and lead to `w'`. -/
inductive Continues (tr : List (Op V × Out V)) (w : World V) : List (Op V × Out V) → World V → Prop
  | nil : Continues tr w [] w
  | cons {l : List (Op V × Out V)} {w1 w2 : World V} {op : Op V} {o : Out V} : Continues tr w l w1 →
      Hist.Allowed (l ++ tr) op → exec op w1 = (w2, .ok o) → Continues tr w ((op, o) :: l) w2

end Xecs
