import Verif.Spec.Order
import Verif.Model.Query
/-
What a non-owning group remembers, and what a query on it yields, read off the history.
-/
set_option autoImplicit false
namespace Xecs.Hist
open Spec
variable {V : Type}

/-- The members of the non-owning group over `a` and `b`, in the order the group keeps them: when it is made, those having both
components, as they come in the shorter list (in the second one, if the lists are equally long); an attach that completes a
pair adds the entity at the end; a detach or removal takes it out, the last one taking its place. Batch attaches add nobody. -/
def members (a b : TypeId) : List (Op V × Out V) → List EntityId
  | [] => []
  | (.makeGroup k a' b', _) :: tr =>
    if k = .non ∧ a' = a ∧ b' = b then
      if (slots a tr).length < (slots b tr).length then (slots a tr).filter fun x => decide (x ∈ slots b tr)
      else (slots b tr).filter fun x => decide (x ∈ slots a tr)
    else members a b tr
  | (.attach id t v, o) :: tr =>
    if madeGroup .non a b tr = true ∧ (t = a ∨ t = b) ∧ id ∉ members a b tr ∧
        id ∈ slots a ((.attach id t v, o) :: tr) ∧ id ∈ slots b ((.attach id t v, o) :: tr) then members a b tr ++ [id]
    else members a b tr
  | (.detach id t, _) :: tr => if t = a ∨ t = b then swapOut id (members a b tr) else members a b tr
  | (.removeEntity _ id, _) :: tr => swapOut id (members a b tr)
  | _ :: tr => members a b tr

/-- The places of the entity's two components in their lists when it joined the group. -/
def seat (a b : TypeId) (id : EntityId) : List (Op V × Out V) → Nat × Nat
  | [] => (0, 0)
  | x :: tr => if id ∈ members a b tr then seat a b id tr else ((slots a (x :: tr)).idxOf id, (slots b (x :: tr)).idxOf id)

/-- The component that is now at place `i` of the list of `t`. -/
def valueAt (t : TypeId) (i : Nat) (tr : List (Op V × Out V)) : Option V :=
  match (slots t tr)[i]? with
  | some id => lastValue t id tr
  | none => none

/-- What a query on the group should yield for its members, one after the other: the components that are *now* at the places
where the members' components were when they joined. A place that no longer exists is read nevertheless: undefined behaviour. -/
def yielded (a b : TypeId) (tr : List (Op V × Out V)) : List EntityId → R (List (EntityId × Item V))
  | [] => .ok []
  | id :: ids =>
    match valueAt a (seat a b id tr).1 tr, valueAt b (seat a b id tr).2 tr with
    | some x, some y =>
      match yielded a b tr ids with
      | .ok l => .ok ((id, .pair (.leaf x) (.leaf y)) :: l)
      | .error e => .error e
    | _, _ => .error .ub

end Xecs.Hist
