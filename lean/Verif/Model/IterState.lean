import Verif.Model.Query
/-
Query iterators with their complete mutable state.

`Model/Query` runs an iterator with a single index. Here every leaf iterator of a nested iterator keeps its
own `index` field, and `from_id`, `next` and `next_with_id` all return the updated iterator, as the
`&mut self` methods of the code do. Proofs/IterState shows that the two agree.
-/
set_option autoImplicit false
namespace Xecs

/-- The `index` fields inside an iterator: one for each `IterRef`/`IterMut`/group iterator; the iterators of
composite queries contain the iterators of their parts (`iter_a`, `iter_b`, ..; src/query/with.rs:17-20, 77-81,
155-160, 247-253, src/query/without.rs:22-25, 77-80). -/
inductive Ix where
  | leaf (index : Nat)
  | pair (x y : Ix)
  deriving DecidableEq, Repr

/-- An iterator: what it points to, and its indices. -/
structure Iter where
  plan : Plan
  ix : Ix
  deriving DecidableEq, Repr

namespace Plan
variable {V : Type}

/-- The indices of a new iterator: all 0 (`index : 0`: src/query/mod.rs:120, 219, and each group query;
the composite iterators just hold the new iterators of their parts). -/
def start : Plan → Ix
  | comp _ _ => .leaf 0
  | with2 a b => .pair (start a) (start b)
  | with3 a b c => .pair (start a) (.pair (start b) (start c))
  | with4 a b c d => .pair (start a) (.pair (start b) (.pair (start c) (start d)))
  | with5 a b c d e => .pair (start a) (.pair (start b) (.pair (start c) (.pair (start d) (start e))))
  | withoutL a b => .pair (start a) (start b)
  | withoutR a b => .pair (start a) (start b)
  | full _ _ _ _ _ => .leaf 0
  | part _ _ _ _ _ => .leaf 0
  | non _ _ _ _ _ => .leaf 0

/-- The index that `next` moves: that of the leaf reached through the driving parts. -/
def lead : Plan → Ix → Nat
  | with2 a _, .pair x _ => lead a x
  | with3 a _ _, .pair x _ => lead a x
  | with4 a _ _ _, .pair x _ => lead a x
  | with5 a _ _ _ _, .pair x _ => lead a x
  | withoutL _ b, .pair _ y => lead b y
  | withoutR a _, .pair x _ => lead a x
  | _, .leaf i => i
  | _, .pair _ _ => 0

/-- `from_id(&mut self, id)` (citations at `Plan.fromId`), with the iterator it leaves behind. The leaf
iterators look into the storage and do not touch their index (src/query/mod.rs:160-167, 259-266, the group
queries cited at `Plan.fromId`); the composite ones call `from_id` of their parts, in order, as long as
these succeed. -/
def fromIdMut (w : World V) : Plan → Ix → EntityId → R (Option (Item Loc) × Ix)
  | with2 a b, .pair x y, id => do
    let (r, x) ← fromIdMut w a x id
    match r with
    | some u =>
      let (r, y) ← fromIdMut w b y id
      match r with
      | some v => .ok (some (.pair u v), .pair x y)
      | none => .ok (none, .pair x y)
    | none => .ok (none, .pair x y)
  | with3 a b c, .pair x (.pair y z), id => do
    let (r, x) ← fromIdMut w a x id
    match r with
    | some u =>
      let (r, y) ← fromIdMut w b y id
      match r with
      | some v =>
        let (r, z) ← fromIdMut w c z id
        match r with
        | some t => .ok (some (.pair u (.pair v t)), .pair x (.pair y z))
        | none => .ok (none, .pair x (.pair y z))
      | none => .ok (none, .pair x (.pair y z))
    | none => .ok (none, .pair x (.pair y z))
  | with4 a b c d, .pair x (.pair y (.pair z k)), id => do
    let (r, x) ← fromIdMut w a x id
    match r with
    | some u =>
      let (r, y) ← fromIdMut w b y id
      match r with
      | some v =>
        let (r, z) ← fromIdMut w c z id
        match r with
        | some t =>
          let (r, k) ← fromIdMut w d k id
          match r with
          | some s => .ok (some (.pair u (.pair v (.pair t s))), .pair x (.pair y (.pair z k)))
          | none => .ok (none, .pair x (.pair y (.pair z k)))
        | none => .ok (none, .pair x (.pair y (.pair z k)))
      | none => .ok (none, .pair x (.pair y (.pair z k)))
    | none => .ok (none, .pair x (.pair y (.pair z k)))
  | with5 a b c d e, .pair x (.pair y (.pair z (.pair k l))), id => do
    let (r, x) ← fromIdMut w a x id
    match r with
    | some u =>
      let (r, y) ← fromIdMut w b y id
      match r with
      | some v =>
        let (r, z) ← fromIdMut w c z id
        match r with
        | some t =>
          let (r, k) ← fromIdMut w d k id
          match r with
          | some s =>
            let (r, l) ← fromIdMut w e l id
            match r with
            | some q => .ok (some (.pair u (.pair v (.pair t (.pair s q)))), .pair x (.pair y (.pair z (.pair k l))))
            | none => .ok (none, .pair x (.pair y (.pair z (.pair k l))))
          | none => .ok (none, .pair x (.pair y (.pair z (.pair k l))))
        | none => .ok (none, .pair x (.pair y (.pair z (.pair k l))))
      | none => .ok (none, .pair x (.pair y (.pair z (.pair k l))))
    | none => .ok (none, .pair x (.pair y (.pair z (.pair k l))))
  | withoutL a b, .pair x y, id => do
    let (r, x) ← fromIdMut w a x id
    match r with
    | none =>
      let (r, y) ← fromIdMut w b y id
      .ok (r, .pair x y)
    | some _ => .ok (none, .pair x y)
  | withoutR a b, .pair x y, id => do
    let (r, y) ← fromIdMut w b y id
    match r with
    | none =>
      let (r, x) ← fromIdMut w a x id
      .ok (r, .pair x y)
    | some _ => .ok (none, .pair x y)
  | p, .leaf i, id => do .ok (← p.fromId w id, .leaf i)
  | _, _, _ => .error .panic

/-- The loop of the composite iterators (see `Plan.drive`): `next` advances the driving part, `keep` asks
the other parts; both return the part they leave behind. -/
def driveMut {σ τ : Type} (next : σ → R (Option (EntityId × Item Loc) × σ))
    (keep : EntityId → Item Loc → τ → R (Option (Item Loc) × τ)) :
    Nat → σ → τ → R (Option (EntityId × Item Loc) × σ × τ)
  | 0, _, _ => .error .deadlock
  | fuel + 1, x, y => do
    let (r, x) ← next x
    match r with
    | some (id, u) =>
      let (r, y) ← keep id u y
      match r with
      | some v => .ok (some (id, v), x, y)
      | none => driveMut next keep fuel x y
    | none => .ok (none, x, y)

/-- `next_with_id(&mut self)` (citations at `Plan.nextWithId`), with the iterator it leaves behind. -/
def nextWithIdMut (w : World V) : Plan → Ix → R (Option (EntityId × Item Loc) × Ix)
  | with2 a b, .pair x y => do
    let (r, x, y) ← driveMut (nextWithIdMut w a) (fun id u y => do
      let (r, y) ← fromIdMut w b y id
      match r with
      | some v => .ok (some (.pair u v), y)
      | none => .ok (none, y)) (remaining w a (lead a x) + 1) x y
    .ok (r, .pair x y)
  | with3 a b c, .pair x y => do
    let (r, x, y) ← driveMut (nextWithIdMut w a) (fun id u y => do
      match y with
      | .pair y z =>
        let (r, y) ← fromIdMut w b y id
        match r with
        | some v =>
          let (r, z) ← fromIdMut w c z id
          match r with
          | some t => .ok (some (.pair u (.pair v t)), .pair y z)
          | none => .ok (none, .pair y z)
        | none => .ok (none, .pair y z)
      | _ => .error .panic) (remaining w a (lead a x) + 1) x y
    .ok (r, .pair x y)
  | with4 a b c d, .pair x y => do
    let (r, x, y) ← driveMut (nextWithIdMut w a) (fun id u y => do
      match y with
      | .pair y (.pair z k) =>
        let (r, y) ← fromIdMut w b y id
        match r with
        | some v =>
          let (r, z) ← fromIdMut w c z id
          match r with
          | some t =>
            let (r, k) ← fromIdMut w d k id
            match r with
            | some s => .ok (some (.pair u (.pair v (.pair t s))), .pair y (.pair z k))
            | none => .ok (none, .pair y (.pair z k))
          | none => .ok (none, .pair y (.pair z k))
        | none => .ok (none, .pair y (.pair z k))
      | _ => .error .panic) (remaining w a (lead a x) + 1) x y
    .ok (r, .pair x y)
  | with5 a b c d e, .pair x y => do
    let (r, x, y) ← driveMut (nextWithIdMut w a) (fun id u y => do
      match y with
      | .pair y (.pair z (.pair k l)) =>
        let (r, y) ← fromIdMut w b y id
        match r with
        | some v =>
          let (r, z) ← fromIdMut w c z id
          match r with
          | some t =>
            let (r, k) ← fromIdMut w d k id
            match r with
            | some s =>
              let (r, l) ← fromIdMut w e l id
              match r with
              | some q => .ok (some (.pair u (.pair v (.pair t (.pair s q)))), .pair y (.pair z (.pair k l)))
              | none => .ok (none, .pair y (.pair z (.pair k l)))
            | none => .ok (none, .pair y (.pair z (.pair k l)))
          | none => .ok (none, .pair y (.pair z (.pair k l)))
        | none => .ok (none, .pair y (.pair z (.pair k l)))
      | _ => .error .panic) (remaining w a (lead a x) + 1) x y
    .ok (r, .pair x y)
  | withoutL a b, .pair x y => do
    let (r, y, x) ← driveMut (nextWithIdMut w b) (fun id u x => do
      let (r, x) ← fromIdMut w a x id
      match r with
      | none => .ok (some u, x)
      | some _ => .ok (none, x)) (remaining w b (lead b y) + 1) y x
    .ok (r, .pair x y)
  | withoutR a b, .pair x y => do
    let (r, x, y) ← driveMut (nextWithIdMut w a) (fun id u y => do
      let (r, y) ← fromIdMut w b y id
      match r with
      | none => .ok (some u, y)
      | some _ => .ok (none, y)) (remaining w a (lead a x) + 1) x y
    .ok (r, .pair x y)
  | p, .leaf i => do
    let (r, i) ← p.nextWithId w i
    .ok (r, .leaf i)
  | _, _ => .error .panic

/-- `next(&mut self)` (citations at `Plan.next`), with the iterator it leaves behind. The loops of the
composite iterators are those of `next_with_id`, without the id. -/
def nextMut (w : World V) (p : Plan) (x : Ix) : R (Option (Item Loc) × Ix) :=
  match x with
  | .leaf i => do
    let (r, i) ← p.next w i
    .ok (r, .leaf i)
  | .pair _ _ => do
    let (r, x) ← nextWithIdMut w p x
    .ok (r.map Prod.snd, x)

end Plan

namespace Iter
variable {V : Type}

/-- `QueryIterator::from_id` -/
def fromId (w : World V) (it : Iter) (id : EntityId) : R (Option (Item Loc) × Iter) := do
  let (r, x) ← it.plan.fromIdMut w it.ix id
  .ok (r, ⟨it.plan, x⟩)

/-- `QueryIterator::next_with_id` (and `Iterator::next` of the result of `with_id()`,
src/query/mod.rs:320-325). -/
def nextWithId (w : World V) (it : Iter) : R (Option (EntityId × Item Loc) × Iter) := do
  let (r, x) ← it.plan.nextWithIdMut w it.ix
  .ok (r, ⟨it.plan, x⟩)

/-- `Iterator::next` -/
def next (w : World V) (it : Iter) : R (Option (Item Loc) × Iter) := do
  let (r, x) ← it.plan.nextMut w it.ix
  .ok (r, ⟨it.plan, x⟩)

/-- `Iterator::size_hint` -/
def sizeHint (w : World V) (it : Iter) : R (Nat × Option Nat) := it.plan.sizeHint w (it.plan.lead it.ix)

end Iter

/-- `world.query::<Q>()` (src/world.rs:349-353): a new iterator. -/
def World.iter {V : Type} (w : World V) (q : Query) : R Iter := do
  let (p, _) ← w.query q
  .ok ⟨p, p.start⟩

end Xecs
