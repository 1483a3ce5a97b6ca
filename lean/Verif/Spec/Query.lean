import Verif.Spec.Spec
import Verif.Model.Query
/-
The meaning of queries over the abstract state. From the model only the *syntax* of query types
(`Query`, `Mode`, `Kind`) and the tuple shape `Item` are used.
-/
set_option autoImplicit false
namespace Xecs.Spec
open Xecs
variable {V : Type}

/-- The kind in the specification of a group kind in a query type. -/
def ofKind : Kind → SKind
  | .full => .full
  | .part => .part
  | .non => .non

namespace State

/-- The group a group query refers to. -/
def group? (s : State V) (k : Kind) (a b : TypeId) : Option SGroup :=
  s.groups.find? fun g => g.kind == ofKind k && g.a == a && g.b == b

/-- Is `id` a member of the group? -/
def member (s : State V) (k : Kind) (a b : TypeId) (id : EntityId) : Bool :=
  match s.group? k a b with
  | some g => g.mem id
  | none => false

/-- Both components. -/
def pairOf (s : State V) (a b : TypeId) (id : EntityId) : Option (Item V) :=
  match s.get a id, s.get b id with
  | some x, some y => some (.pair (.leaf x) (.leaf y))
  | _, _ => none

/-- What `from_id(id)` of a query answers. -/
def point (s : State V) : Query → EntityId → Option (Item V)
  | .comp _ t, id => (s.get t id).map .leaf
  | .with2 a b, id =>
    match point s a id, point s b id with
    | some x, some y => some (.pair x y)
    | _, _ => none
  | .with3 a b c, id =>
    match point s a id, point s b id, point s c id with
    | some x, some y, some z => some (.pair x (.pair y z))
    | _, _, _ => none
  | .with4 a b c d, id =>
    match point s a id, point s b id, point s c id, point s d id with
    | some x, some y, some z, some u => some (.pair x (.pair y (.pair z u)))
    | _, _, _, _ => none
  | .with5 a b c d e, id =>
    match point s a id, point s b id, point s c id, point s d id, point s e id with
    | some x, some y, some z, some u, some v => some (.pair x (.pair y (.pair z (.pair u v))))
    | _, _, _, _, _ => none
  | .withoutL a b, id => if (point s a id).isSome then none else point s b id
  | .withoutR a b, id => if (point s b id).isSome then none else point s a id
  | .group .full _ _ a b, id => s.pairOf a b id
  | .group .part _ _ a b, id => s.pairOf a b id
  | .group .non _ _ a b, id => if s.member .non a b id then s.pairOf a b id else none

/-- What iterating a query yields for `id` (`none`: nothing). It differs from `point` only for owning
groups: iteration goes through the members of the group. -/
def yields (s : State V) : Query → EntityId → Option (Item V)
  | .comp _ t, id => (s.get t id).map .leaf
  | .with2 a b, id =>
    match yields s a id, point s b id with
    | some x, some y => some (.pair x y)
    | _, _ => none
  | .with3 a b c, id =>
    match yields s a id, point s b id, point s c id with
    | some x, some y, some z => some (.pair x (.pair y z))
    | _, _, _ => none
  | .with4 a b c d, id =>
    match yields s a id, point s b id, point s c id, point s d id with
    | some x, some y, some z, some u => some (.pair x (.pair y (.pair z u)))
    | _, _, _, _ => none
  | .with5 a b c d e, id =>
    match yields s a id, point s b id, point s c id, point s d id, point s e id with
    | some x, some y, some z, some u, some v => some (.pair x (.pair y (.pair z (.pair u v))))
    | _, _, _, _, _ => none
  | .withoutL a b, id => if (point s a id).isSome then none else yields s b id
  | .withoutR a b, id => if (point s b id).isSome then none else yields s a id
  | .group k _ _ a b, id => if s.member k a b id then s.pairOf a b id else none

/-- Everything the query mentions exists: types registered, groups made. -/
def Defined (s : State V) : Query → Prop
  | .comp _ t => (s.comp t).isSome = true
  | .with2 a b => Defined s a ∧ Defined s b
  | .with3 a b c => Defined s a ∧ Defined s b ∧ Defined s c
  | .with4 a b c d => Defined s a ∧ Defined s b ∧ Defined s c ∧ Defined s d
  | .with5 a b c d e => Defined s a ∧ Defined s b ∧ Defined s c ∧ Defined s d ∧ Defined s e
  | .withoutL a b => Defined s a ∧ Defined s b
  | .withoutR a b => Defined s a ∧ Defined s b
  | .group k _ _ a b => (s.comp a).isSome = true ∧ (s.comp b).isSome = true ∧ (s.group? k a b).isSome = true

/-- Every non-owning group the query mentions has up-to-date cached positions. -/
def FreshIn (s : State V) : Query → Prop
  | .comp _ _ => True
  | .with2 a b => FreshIn s a ∧ FreshIn s b
  | .with3 a b c => FreshIn s a ∧ FreshIn s b ∧ FreshIn s c
  | .with4 a b c d => FreshIn s a ∧ FreshIn s b ∧ FreshIn s c ∧ FreshIn s d
  | .with5 a b c d e => FreshIn s a ∧ FreshIn s b ∧ FreshIn s c ∧ FreshIn s d ∧ FreshIn s e
  | .withoutL a b => FreshIn s a ∧ FreshIn s b
  | .withoutR a b => FreshIn s a ∧ FreshIn s b
  | .group k _ _ a b => k = .non → ∀ g, s.group? k a b = some g → g.fresh = true

end State
end Xecs.Spec

namespace Xecs.Query

/-- The component accesses of a query type, in order (also those of `Without` parts). -/
def accesses : Query → List (TypeId × Mode)
  | comp m t => [(t, m)]
  | with2 a b => accesses a ++ accesses b
  | with3 a b c => accesses a ++ accesses b ++ accesses c
  | with4 a b c d => accesses a ++ accesses b ++ accesses c ++ accesses d
  | with5 a b c d e => accesses a ++ accesses b ++ accesses c ++ accesses d ++ accesses e
  | withoutL a b => accesses a ++ accesses b
  | withoutR a b => accesses a ++ accesses b
  | group _ ma mb a b => [(a, ma), (b, mb)]

/-- The component accesses whose references appear in the items. -/
def shown : Query → List (TypeId × Mode)
  | comp m t => [(t, m)]
  | with2 a b => shown a ++ shown b
  | with3 a b c => shown a ++ (shown b ++ shown c)
  | with4 a b c d => shown a ++ (shown b ++ (shown c ++ shown d))
  | with5 a b c d e => shown a ++ (shown b ++ (shown c ++ (shown d ++ shown e)))
  | withoutL _ b => shown b
  | withoutR a _ => shown a
  | group _ ma mb a b => [(a, ma), (b, mb)]

/-- Two accesses that may not coexist: same component type, one of them mutable. -/
def Clash (x y : TypeId × Mode) : Prop := x.1 = y.1 ∧ (x.2 = .mut ∨ y.2 = .mut)

/-- The query asks for no component both mutably and a second time. -/
def Conflictless (q : Query) : Prop := q.accesses.Pairwise fun x y => ¬ Clash x y

end Xecs.Query
