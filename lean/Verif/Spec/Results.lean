import Verif.Spec.Answer
import Verif.Model.IterState
/-
Vocabulary for stating what queries return.
-/
set_option autoImplicit false
namespace Xecs
open Spec
variable {V : Type}

/-- `world.query::<Q>().with_id()`, collected, every reference replaced by the value it points to (`none`
for a dangling reference). -/
def World.results (w : World V) (q : Query) : R (List (EntityId × Option (Item V))) := do
  let l ← w.queryAll q
  .ok (l.map fun x => (x.1, w.derefItem x.2))

/-- Iterating the query with ids yields exactly the list `l`, in this order: no fault, and every reference
is valid. -/
def Yields (w : World V) (q : Query) (l : List (EntityId × Item V)) : Prop :=
  w.results q = .ok (l.map fun x => (x.1, some x.2))

/-- `l` lists exactly the pairs `(id, x)` with `f id = some x`, every id once. -/
def Lists {α : Type} (l : List (EntityId × α)) (f : EntityId → Option α) : Prop :=
  (l.map Prod.fst).Nodup ∧ ∀ id x, (id, x) ∈ l ↔ f id = some x

namespace Query

/-- The query mentions no group. -/
def Groupless : Query → Prop := Hist.Parts (fun _ => True) (fun _ _ _ => False)

end Query

namespace Hist

/-- The component map according to the history. -/
def values (tr : List (Op V × Out V)) (t : TypeId) (id : EntityId) : Option V := lastValue t id tr

end Hist

/-- The pair of two components, if both are there: what a group query over them yields. -/
def bothOf : Option V → Option V → Option (Item V)
  | some x, some y => some (.pair (.leaf x) (.leaf y))
  | _, _ => none

/-- The references in an item, in order. -/
def Item.locs : Item Loc → List Loc
  | .leaf l => [l]
  | .pair x y => x.locs ++ y.locs

/-- The references handed out by a call on an iterator. -/
def refsOf : Option (Item Loc) → List Loc
  | some x => x.locs
  | none => []

/-- Two references may exist at the same time: they point to different components, or neither is mutable. -/
def Compatible (l m : Loc) : Prop := l.ty = m.ty → l.slot = m.slot → l.mode = .ref ∧ m.mode = .ref

/-! ### Sessions: arbitrary use of one iterator -/

/-- A call on a query iterator. -/
inductive Call where
  | next
  | nextWithId
  | fromId (id : EntityId)
  deriving DecidableEq, Repr

/-- What a call on a query iterator returned. -/
inductive Reply where
  | item (x : Option (Item Loc))
  | withId (x : Option (EntityId × Item Loc))
  | atId (x : Option (Item Loc))
  deriving DecidableEq, Repr

/-- The references in a reply. -/
def Reply.locs : Reply → List Loc
  | .item x => refsOf x
  | .withId x => refsOf (x.map Prod.snd)
  | .atId x => refsOf x

/-- Is the reply an item of the iteration? -/
def Reply.yields : Reply → Bool
  | .item (some _) => true
  | .withId (some _) => true
  | _ => false

/-- One call on an iterator, and the iterator afterwards (src/query/mod.rs:76-81, trait `QueryIterator`). -/
def Iter.call (w : World V) (it : Iter) : Call → R (Reply × Iter)
  | .next => do
    let (x, it) ← it.next w
    .ok (.item x, it)
  | .nextWithId => do
    let (x, it) ← it.nextWithId w
    .ok (.withId x, it)
  | .fromId id => do
    let (x, it) ← it.fromId w id
    .ok (.atId x, it)

/-- A sequence of calls on an iterator. -/
def Iter.session (w : World V) (it : Iter) : List Call → R (List Reply × Iter)
  | [] => .ok ([], it)
  | c :: cs => do
    let (r, it) ← it.call w c
    let (rs, it) ← it.session w cs
    .ok (r :: rs, it)

/-- The replies a well-behaved iterator over the list `all` gives when `todo` is still to come: `next` and
`next_with_id` take the next element, and keep returning `None` at the end; `from_id` looks the id up and
takes nothing. -/
def expected (all : List (EntityId × Item Loc)) : List Call → List (EntityId × Item Loc) → List Reply
  | [], _ => []
  | .next :: cs, [] => .item none :: expected all cs []
  | .next :: cs, x :: todo => .item (some x.2) :: expected all cs todo
  | .nextWithId :: cs, [] => .withId none :: expected all cs []
  | .nextWithId :: cs, x :: todo => .withId (some x) :: expected all cs todo
  | .fromId id :: cs, todo => .atId (all.lookup id) :: expected all cs todo

/-- What the calls hand out, with the entities it belongs to: `next` and `next_with_id` the next element, `from_id` what it
finds. -/
def served (all : List (EntityId × Item Loc)) : List Call → List (EntityId × Item Loc) → List (EntityId × Item Loc)
  | [], _ => []
  | .next :: cs, [] => served all cs []
  | .next :: cs, x :: todo => x :: served all cs todo
  | .nextWithId :: cs, [] => served all cs []
  | .nextWithId :: cs, x :: todo => x :: served all cs todo
  | .fromId id :: cs, todo => (all.lookup id).toList.map (fun x => (id, x)) ++ served all cs todo

/-- How many of the calls advance the iterator. -/
def advances : List Call → Nat
  | [] => 0
  | .fromId _ :: cs => advances cs
  | _ :: cs => advances cs + 1

/-- The first component in an item. -/
def Item.head {α : Type} : Item α → α
  | .leaf v => v
  | .pair x _ => x.head

/-- Client code: assign a new value through every mutable reference among `ls`; the value depends on the
component type. -/
def World.store (g : TypeId → V) (w : World V) : List Loc → World V
  | [] => w
  | l :: ls => (if l.mode = .mut then w.assign l (g l.ty) else w).store g ls

/-- Client code: `for (id, x) in world.query::<Q>().with_id() { .. }` whose body assigns, through each mutable
reference of type `t` in the item, the value `g id x t` computed from the id and all values in the item. The
iterator runs on the world as it is being changed. The first argument bounds the number of rounds. -/
def World.updateLoop (g : EntityId → Item V → TypeId → V) : Nat → World V → Iter → R (World V)
  | 0, _, _ => .error .deadlock
  | fuel + 1, w, it => do
    let (r, it) ← it.nextWithId w
    match r with
    | none => .ok w
    | some (id, x) =>
      match w.derefItem x with
      | some v => updateLoop g fuel (w.store (g id v) x.locs) it
      | none => .error .ub

/-- The component map after such a loop: for every entity the query yields, its components of the types the
query gives mutable access to are replaced; everything else is as it was. -/
def updated (q : Query) (g : EntityId → Item V → TypeId → V) (c : TypeId → EntityId → Option V) (t : TypeId)
    (id : EntityId) : Option V :=
  match q.answer c id with
  | some x => if (t, .mut) ∈ q.shown then some (g id x t) else c t id
  | none => c t id

/-- Client code: attach the values one by one to the ids `start, start+1, ...`. -/
def World.attachEach (start : EntityId) (t : TypeId) : List V → M V Unit
  | [] => pure ()
  | v :: vs => do
    World.attach start t v
    attachEach (start + 1) t vs

namespace Spec.Op

/-- May this call change component `t` of entity `id`? -/
def Concerns (t : TypeId) (id : EntityId) : Op V → Prop
  | .attach id' t' _ => id' = id ∧ t' = t
  | .detach id' t' => id' = id ∧ t' = t
  | .write t' id' _ => id' = id ∧ t' = t
  | .removeEntity _ id' => id' = id
  | .attachBatch start stop t' _ => t' = t ∧ start ≤ id ∧ id < stop
  | _ => False

end Spec.Op

namespace Hist

/-- No group over `t` was bypassed by a batch attach since it was made. -/
def InSync (t : TypeId) (tr : List (Op V × Out V)) : Prop :=
  ∀ g ∈ groupsMade tr, t = g.2.1 ∨ t = g.2.2 → batchSince g.1 g.2.1 g.2.2 tr = false

instance (t : TypeId) (tr : List (Op V × Out V)) : Decidable (InSync t tr) :=
  inferInstanceAs (Decidable (∀ g ∈ _, _))

end Hist

end Xecs
