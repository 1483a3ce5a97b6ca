import Verif.Spec.History
import Verif.Spec.Query
/-
The meaning of queries over a plain component map, and which queries a history makes available. From the
model of the code only the *syntax* of query types and the tuple shape `Item` are used.
-/
set_option autoImplicit false
namespace Xecs
open Spec
variable {V : Type}

namespace Query

/-- What a query answers for `id` when `c t id` is the component `t` of `id`: tuples are intersections,
`Without` is difference, and all three group queries over `A, B` mean "has `A` and `B`". -/
def answer (c : TypeId → EntityId → Option V) : Query → EntityId → Option (Item V)
  | comp _ t, id => (c t id).map .leaf
  | with2 a b, id =>
    match answer c a id, answer c b id with
    | some x, some y => some (.pair x y)
    | _, _ => none
  | with3 a b d, id =>
    match answer c a id, answer c b id, answer c d id with
    | some x, some y, some z => some (.pair x (.pair y z))
    | _, _, _ => none
  | with4 a b d e, id =>
    match answer c a id, answer c b id, answer c d id, answer c e id with
    | some x, some y, some z, some u => some (.pair x (.pair y (.pair z u)))
    | _, _, _, _ => none
  | with5 a b d e f, id =>
    match answer c a id, answer c b id, answer c d id, answer c e id, answer c f id with
    | some x, some y, some z, some u, some v => some (.pair x (.pair y (.pair z (.pair u v))))
    | _, _, _, _, _ => none
  | withoutL a b, id => if (answer c a id).isSome then none else answer c b id
  | withoutR a b, id => if (answer c b id).isSome then none else answer c a id
  | group _ _ _ a b, id =>
    match c a id, c b id with
    | some x, some y => some (.pair (.leaf x) (.leaf y))
    | _, _ => none

end Query

namespace Hist

/-- A property of all single-component and group parts of a query. -/
def Parts (pc : TypeId → Prop) (pg : Kind → TypeId → TypeId → Prop) : Query → Prop
  | .comp _ t => pc t
  | .with2 a b => Parts pc pg a ∧ Parts pc pg b
  | .with3 a b c => Parts pc pg a ∧ Parts pc pg b ∧ Parts pc pg c
  | .with4 a b c d => Parts pc pg a ∧ Parts pc pg b ∧ Parts pc pg c ∧ Parts pc pg d
  | .with5 a b c d e => Parts pc pg a ∧ Parts pc pg b ∧ Parts pc pg c ∧ Parts pc pg d ∧ Parts pc pg e
  | .withoutL a b => Parts pc pg a ∧ Parts pc pg b
  | .withoutR a b => Parts pc pg a ∧ Parts pc pg b
  | .group k _ _ a b => pg k a b

/-- Everything the query names exists: the types are registered, the groups made. -/
def Exists (tr : List (Op V × Out V)) : Query → Prop :=
  Parts (fun t => registered t tr = true)
    (fun k a b => registered a tr = true ∧ registered b tr = true ∧ madeGroup (ofKind k) a b tr = true)

/-- A simple sufficient condition for `Undisturbed`: since each non-owning group named by the query was made, neither of its
components was detached and no entity having one of them was removed, and no owning group over its types
was ever made. -/
def Unmoved (tr : List (Op V × Out V)) : Query → Prop :=
  Parts (fun _ => True)
    (fun k a b => k = .non → movedSince a b tr = false ∧ ownedEver a tr = false ∧ ownedEver b tr = false)

/-- No non-owning group named by the query has been invalidated: since it was made, no component of its types
was moved in its storage (`disturbed`). (The code caches storage positions in non-owning groups and does not
update them.) -/
def Undisturbed (tr : List (Op V × Out V)) : Query → Prop :=
  Parts (fun _ => True) (fun k a b => k = .non → disturbed a b tr = false)

/-- No component type of a group named by the query was batch-attached since the group was made. (The code
does not update groups on batch attach.) -/
def Unbatched (tr : List (Op V × Out V)) : Query → Prop :=
  Parts (fun _ => True) (fun k a b => batchSince (ofKind k) a b tr = false)

end Hist
end Xecs
