import Verif.Spec.Answer
import Verif.Spec.Results
/-
What a query yields when its groups need not list everybody who has both components: batch attaches bypass groups.
-/
set_option autoImplicit false
namespace Xecs
open Spec
variable {V : Type}

namespace Query

/-- The part of a query that is iterated: the first one of a tuple, what a `Without` keeps. -/
def leader : Query → Query
  | with2 a _ => leader a
  | with3 a _ _ => leader a
  | with4 a _ _ _ => leader a
  | with5 a _ _ _ _ => leader a
  | withoutL _ b => leader b
  | withoutR a _ => leader a
  | q => q

/-- What a query answers for `id` when `c t id` is the component `t` of `id` and `j k a b id` says whether `id` is in
the group: an owning group is asked by looking for both components, a non-owning one also looks whether `id` is in it. -/
def probed (c : TypeId → EntityId → Option V) (j : Kind → TypeId → TypeId → EntityId → Bool) :
    Query → EntityId → Option (Item V)
  | comp _ t, id => (c t id).map .leaf
  | with2 a b, id =>
    match probed c j a id, probed c j b id with
    | some x, some y => some (.pair x y)
    | _, _ => none
  | with3 a b d, id =>
    match probed c j a id, probed c j b id, probed c j d id with
    | some x, some y, some z => some (.pair x (.pair y z))
    | _, _, _ => none
  | with4 a b d e, id =>
    match probed c j a id, probed c j b id, probed c j d id, probed c j e id with
    | some x, some y, some z, some u => some (.pair x (.pair y (.pair z u)))
    | _, _, _, _ => none
  | with5 a b d e f, id =>
    match probed c j a id, probed c j b id, probed c j d id, probed c j e id, probed c j f id with
    | some x, some y, some z, some u, some v => some (.pair x (.pair y (.pair z (.pair u v))))
    | _, _, _, _, _ => none
  | withoutL a b, id => if (probed c j a id).isSome then none else probed c j b id
  | withoutR a b, id => if (probed c j b id).isSome then none else probed c j a id
  | group .non _ _ a b, id => if j .non a b id then bothOf (c a id) (c b id) else none
  | group _ _ _ a b, id => bothOf (c a id) (c b id)

/-- Is `id` among those the iterated part goes through, as far as groups are concerned? -/
def led (j : Kind → TypeId → TypeId → EntityId → Bool) (q : Query) (id : EntityId) : Bool :=
  match q.leader with
  | group k _ _ a b => j k a b id
  | _ => true

end Query

namespace Hist

/-- Who is in which group according to the history. -/
def inGroup (tr : List (Op V × Out V)) (k : Kind) (a b : TypeId) (id : EntityId) : Bool := joined (ofKind k, a, b) id tr

end Hist
end Xecs
