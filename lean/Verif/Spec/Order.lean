import Verif.Spec.Results
/-
Vocabulary for the order of iteration.
-/
set_option autoImplicit false
namespace Xecs
open Spec
variable {V : Type}

/-- The list without `id`, whose place the last element takes (`Vec::swap_remove`). -/
def swapOut (id : EntityId) (l : List EntityId) : List EntityId :=
  match l.getLast? with
  | some z => if id ∈ l then (l.set (l.idxOf id) z).dropLast else l
  | none => l

namespace Hist

/-- The entities having the component `t`, in the order they should be visited in: new ones come last, a detached one
is replaced by the last one. -/
def slots (t : TypeId) : List (Op V × Out V) → List EntityId
  | [] => []
  | (.attach id t' _, _) :: tr => if t' = t ∧ id ∉ slots t tr then slots t tr ++ [id] else slots t tr
  | (.attachBatch start stop t' _, _) :: tr =>
    if t' = t then slots t tr ++ List.range' start (stop - start) else slots t tr
  | (.detach id t', _) :: tr => if t' = t then swapOut id (slots t tr) else slots t tr
  | (.removeEntity _ id, _) :: tr => swapOut id (slots t tr)
  | _ :: tr => slots t tr

end Hist

/-- No group in the world (`has_group`) owns the type. -/
def World.Unowned (w : World V) (t : TypeId) : Prop :=
  ∀ (k : Kind) (a b : TypeId), w.hasGroup k a b = true → Hist.groupOwns (ofKind k, a, b) t = false

end Xecs
