import Verif.Model.World
/-
Model of src/query/{mod,with,without}.rs and src/group/*/query.rs.

An item is a tuple of references. A reference is modelled by the component type, the slot (index into the
storage's `data`) and whether it is mutable.
-/
set_option autoImplicit false
namespace Xecs

/-- `&T` or `&mut T`. -/
inductive Mode where
  | ref
  | mut
  deriving DecidableEq, Repr

/-- A reference to a component: storage, slot, mutability. -/
structure Loc where
  ty : TypeId
  slot : Nat
  mode : Mode
  deriving DecidableEq, Repr

/-- Items of queries: a single reference, or tuples. `(a,b,c)` is represented as `pair a (pair b c)`,
and so on for 4 and 5. -/
inductive Item (α : Type) where
  | leaf (x : α)
  | pair (x y : Item α)
  deriving DecidableEq, Repr

/-- The query types that implement `Queryable`. -/
inductive Query where
  /-- `&T`, `&mut T` (src/query/mod.rs:104-126, 203-225) -/
  | comp (m : Mode) (t : TypeId)
  /-- `(A,B)` (src/query/with.rs:4-15) -/
  | with2 (a b : Query)
  /-- `(A,B,C)` (src/query/with.rs:57-75) -/
  | with3 (a b c : Query)
  /-- `(A,B,C,D)` (src/query/with.rs:131-153) -/
  | with4 (a b c d : Query)
  /-- `(A,B,C,D,E)` (src/query/with.rs:219-245) -/
  | with5 (a b c d e : Query)
  /-- `(Without<A>,B)` (src/query/without.rs:9-20) -/
  | withoutL (a b : Query)
  /-- `(A,Without<B>)` (src/query/without.rs:64-75) -/
  | withoutR (a b : Query)
  /-- `FullOwning<..>`, `PartialOwning<..>`, `NonOwning<..>` with each of `&`/`&mut`
  (four impls in each of src/group/*/query.rs) -/
  | group (k : Kind) (ma mb : Mode) (a b : TypeId)
  deriving DecidableEq, Repr

/-- The unchanging part of an iterator: which storages it points to, and for group iterators the group
length read when the query was made (full/partial) or the group it points to (non-owning). The changing
part is one index, that of the leftmost driving iterator: the other sub-iterators are only ever used
through `from_id`, which does not advance them, so their own index stays 0. -/
inductive Plan where
  /-- `IterRef`/`IterMut` (src/query/mod.rs:98-102, 197-201) -/
  | comp (m : Mode) (t : TypeId)
  /-- `WithIter` (src/query/with.rs:17-20) -/
  | with2 (a b : Plan)
  /-- `WithIter3` (src/query/with.rs:77-81) -/
  | with3 (a b c : Plan)
  /-- `WithIter4` (src/query/with.rs:155-160) -/
  | with4 (a b c d : Plan)
  /-- `WithIter5` (src/query/with.rs:247-253) -/
  | with5 (a b c d e : Plan)
  /-- `WithoutIterLeft` (src/query/without.rs:22-25) -/
  | withoutL (a b : Plan)
  /-- `WithoutIterRight` (src/query/without.rs:77-80) -/
  | withoutR (a b : Plan)
  /-- src/group/full_owning/query.rs:6-17 (and 139-150, 273-284, 406-417) -/
  | full (length : Nat) (ma mb : Mode) (a b : TypeId)
  /-- src/group/partial_owning/query.rs:6-17 (and 147-158, 290-301, 431-442) -/
  | part (length : Nat) (ma mb : Mode) (a b : TypeId)
  /-- src/group/non_owning/query.rs:6-17 (and 171-182, 336-347, 502-513); `pos` = position of the group -/
  | non (pos : Nat) (ma mb : Mode) (a b : TypeId)
  deriving DecidableEq, Repr

namespace Query
variable {V : Type}

/-- Guards on component storages held by the querying thread. -/
abbrev Held := List (TypeId × Mode)

/-- Take a storage guard (`raw_storage_read`/`raw_storage_write`, src/world.rs:163-177, then `unwrap`,
then `downcast`): panics if the type is not registered, blocks for ever if this query already holds a
guard on the same storage and one of the two is a write guard. -/
def lock (w : World V) (held : Held) (m : Mode) (t : TypeId) : R Held := do
  let st ← unwrapR (w.comps t)
  if held.any (fun h => h.1 == t && (h.2 == .mut || m == .mut)) then .error .deadlock
  else
    let _ ← World.downcast st t
    .ok (held ++ [(t, m)])

/-- `world.group(..)` (src/world.rs:319-331): the position of the group. -/
def findGroup (w : World V) (k : Kind) (a b : TypeId) : Option Nat :=
  w.groups.findIdx? fun g => g.same (Group.fresh k a b)

/-- `Queryable::query`: builds the iterator, taking the guards in order.
src/query/mod.rs:107-125, 206-224; src/query/with.rs:7-14, 65-74, 141-152, 231-244;
src/query/without.rs:12-19, 67-74; src/group/full_owning/query.rs:22-53 (and 155-186, 289-320, 422-453),
src/group/partial_owning/query.rs:22-53 (and 163-194, 306-337, 447-478),
src/group/non_owning/query.rs:22-58 (and 187-223, 352-388, 518-554). -/
def prepare (w : World V) (held : Held) : Query → R (Plan × Held)
  | comp m t => do
    assertR (w.hasRegistered t)
    .ok (.comp m t, ← lock w held m t)
  | with2 a b => do
    let (ia, held) ← prepare w held a
    let (ib, held) ← prepare w held b
    .ok (.with2 ia ib, held)
  | with3 a b c => do
    let (ia, held) ← prepare w held a
    let (ib, held) ← prepare w held b
    let (ic, held) ← prepare w held c
    .ok (.with3 ia ib ic, held)
  | with4 a b c d => do
    let (ia, held) ← prepare w held a
    let (ib, held) ← prepare w held b
    let (ic, held) ← prepare w held c
    let (id, held) ← prepare w held d
    .ok (.with4 ia ib ic id, held)
  | with5 a b c d e => do
    let (ia, held) ← prepare w held a
    let (ib, held) ← prepare w held b
    let (ic, held) ← prepare w held c
    let (id, held) ← prepare w held d
    let (ie, held) ← prepare w held e
    .ok (.with5 ia ib ic id ie, held)
  | withoutL a b => do
    let (ia, held) ← prepare w held a
    let (ib, held) ← prepare w held b
    .ok (.withoutL ia ib, held)
  | withoutR a b => do
    let (ia, held) ← prepare w held a
    let (ib, held) ← prepare w held b
    .ok (.withoutR ia ib, held)
  | group k ma mb a b => do
    assertR (w.hasRegistered a && w.hasRegistered b)
    let held ← lock w held ma a
    let held ← lock w held mb b
    assertR (w.hasGroup k a b)
    let pos ← unwrapR (findGroup w k a b)
    let g ← getR w.groups pos
    match k with
    | .full => .ok (.full g.len ma mb a b, held)
    | .part => .ok (.part g.len ma mb a b, held)
    | .non => .ok (.non pos ma mb a b, held)

end Query

namespace Plan
variable {V : Type}

/-- The sparse set an iterator points to (a raw pointer kept valid by the guard). -/
def setOf (w : World V) (t : TypeId) : R (SparseSet V) := do
  .ok (← unwrapR (w.comps t)).set

/-- The sparse set of the non-owning group an iterator points to. -/
def groupSetOf (w : World V) (pos : Nat) : R (SparseSet (Nat × Nat)) := do
  match ← getR w.groups pos with
  | .non s _ _ => .ok s
  | _ => .error .panic

/-- `sparse_set.get(id)`/`get_mut(id)` as a reference: the slot, with the bounds check of
`self.data[index]`. -/
def refOf (s : SparseSet V) (t : TypeId) (m : Mode) (id : EntityId) : R (Option (Item Loc)) :=
  match s.getIndex id with
  | some index => do
    let _ ← getR s.data index
    .ok (some (.leaf ⟨t, index, m⟩))
  | none => .ok none

/-- `data().get_unchecked(i)` as a reference. -/
def refAt (s : SparseSet V) (t : TypeId) (m : Mode) (i : Nat) : R (Item Loc) := do
  let _ ← getU s.data i
  .ok (.leaf ⟨t, i, m⟩)

/-- The part common to src/group/full_owning/query.rs:91-105 and src/group/partial_owning/query.rs:97-110
(and their `&mut` variants): both components by id. -/
def refBoth (w : World V) (ma mb : Mode) (a b : TypeId) (id : EntityId) : R (Option (Item Loc)) := do
  let A ← setOf w a
  let B ← setOf w b
  match ← refOf A a ma id with
  | some x =>
    match ← refOf B b mb id with
    | some y => .ok (some (.pair x y))
    | none => .ok none
  | none => .ok none

/-- `QueryIterator::from_id`: src/query/mod.rs:160-167, 259-266; src/query/with.rs:36-43, 105-114,
188-199, 285-298; src/query/without.rs:41-48, 96-103; src/group/full_owning/query.rs:91-105 (and 224-238, 358-372,
491-505); src/group/partial_owning/query.rs:97-110 (and 238-251, 381-394, 522-535); src/group/non_owning/query.rs:106-127
(and 271-292, 436-457, 602-623). -/
def fromId (w : World V) : Plan → EntityId → R (Option (Item Loc))
  | comp m t, id => do refOf (← setOf w t) t m id
  | with2 a b, id => do
    match ← fromId w a id with
    | some x =>
      match ← fromId w b id with
      | some y => .ok (some (.pair x y))
      | none => .ok none
    | none => .ok none
  | with3 a b c, id => do
    match ← fromId w a id with
    | some x =>
      match ← fromId w b id with
      | some y =>
        match ← fromId w c id with
        | some z => .ok (some (.pair x (.pair y z)))
        | none => .ok none
      | none => .ok none
    | none => .ok none
  | with4 a b c d, id => do
    match ← fromId w a id with
    | some x =>
      match ← fromId w b id with
      | some y =>
        match ← fromId w c id with
        | some z =>
          match ← fromId w d id with
          | some u => .ok (some (.pair x (.pair y (.pair z u))))
          | none => .ok none
        | none => .ok none
      | none => .ok none
    | none => .ok none
  | with5 a b c d e, id => do
    match ← fromId w a id with
    | some x =>
      match ← fromId w b id with
      | some y =>
        match ← fromId w c id with
        | some z =>
          match ← fromId w d id with
          | some u =>
            match ← fromId w e id with
            | some v => .ok (some (.pair x (.pair y (.pair z (.pair u v)))))
            | none => .ok none
          | none => .ok none
        | none => .ok none
      | none => .ok none
    | none => .ok none
  | withoutL a b, id => do
    match ← fromId w a id with
    | none => fromId w b id
    | some _ => .ok none
  | withoutR a b, id => do
    match ← fromId w b id with
    | none => fromId w a id
    | some _ => .ok none
  | full _ ma mb a b, id => refBoth w ma mb a b id
  | part _ ma mb a b, id => refBoth w ma mb a b id
  | non pos ma mb a b, id => do
    let G ← groupSetOf w pos
    let A ← setOf w a
    let B ← setOf w b
    match ← G.get id with
    | some (ia, ib) => .ok (some (.pair (← refAt A a ma ia) (← refAt B b mb ib)))
    | none => .ok none

/-- An upper bound on the number of calls to the driving iterator before it is exhausted. Only used to
give the `while let` loops below a bound; that the bound is never hit is a theorem
(`nextWithId_fuel`). -/
def remaining (w : World V) : Plan → Nat → Nat
  | comp _ t, i => match w.comps t with | some st => st.set.len - i | none => 0
  | with2 a _, i => remaining w a i
  | with3 a _ _, i => remaining w a i
  | with4 a _ _ _, i => remaining w a i
  | with5 a _ _ _ _, i => remaining w a i
  | withoutL _ b, i => remaining w b i
  | withoutR a _, i => remaining w a i
  | full length _ _ _ _, i => length - i
  | part length _ _ _ _, i => length - i
  | non pos _ _ _ _, i => match w.groups[pos]? with | some (.non s _ _) => s.len - i | _ => 0

/-- The loop shared by all composite iterators (`while let Some((id,a)) = self.iter_a.next_with_id() {
.. if keep { return Some(..) } } None`, for example src/query/with.rs:46-51): `next` advances the driving
iterator, `keep` decides on an item. Running out of the first argument (never, see `remaining`) would be
non-termination. -/
def drive (next : Nat → R (Option (EntityId × Item Loc) × Nat))
    (keep : EntityId → Item Loc → R (Option (Item Loc))) :
    Nat → Nat → R (Option (EntityId × Item Loc) × Nat)
  | 0, _ => .error .deadlock
  | fuel + 1, i => do
    let (r, i') ← next i
    match r with
    | some (id, x) =>
      match ← keep id x with
      | some y => .ok (some (id, y), i')
      | none => drive next keep fuel i'
    | none => .ok (none, i')

/-- `QueryIterator::next_with_id`: src/query/mod.rs:169-191, 268-290; src/query/with.rs:45-52, 116-125,
201-212, 300-313; src/query/without.rs:50-57, 105-112; src/group/full_owning/query.rs:107-132 (and 240-265, 374-399,
507-532); src/group/partial_owning/query.rs:112-139 (and 253-280, 396-423, 537-564); src/group/non_owning/query.rs:129-163
(and 294-328, 459-493, 625-659). Returns the result and the new index. The four `&`/`&mut` variants of each
group iterator differ only in the mutability of the references (`ma`, `mb`). -/
def nextWithId (w : World V) : Plan → Nat → R (Option (EntityId × Item Loc) × Nat)
  | comp m t, i => do
    let s ← setOf w t
    if i < s.len then
      let id ← getU s.entities i
      let x ← refAt s t m i
      .ok (some (id, x), i + 1)
    else .ok (none, i)
  | with2 a b, i =>
    drive (nextWithId w a) (fun id x => do
      match ← fromId w b id with
      | some y => .ok (some (.pair x y))
      | none => .ok none) (remaining w a i + 1) i
  | with3 a b c, i =>
    drive (nextWithId w a) (fun id x => do
      match ← fromId w b id with
      | some y =>
        match ← fromId w c id with
        | some z => .ok (some (.pair x (.pair y z)))
        | none => .ok none
      | none => .ok none) (remaining w a i + 1) i
  | with4 a b c d, i =>
    drive (nextWithId w a) (fun id x => do
      match ← fromId w b id with
      | some y =>
        match ← fromId w c id with
        | some z =>
          match ← fromId w d id with
          | some u => .ok (some (.pair x (.pair y (.pair z u))))
          | none => .ok none
        | none => .ok none
      | none => .ok none) (remaining w a i + 1) i
  | with5 a b c d e, i =>
    drive (nextWithId w a) (fun id x => do
      match ← fromId w b id with
      | some y =>
        match ← fromId w c id with
        | some z =>
          match ← fromId w d id with
          | some u =>
            match ← fromId w e id with
            | some v => .ok (some (.pair x (.pair y (.pair z (.pair u v)))))
            | none => .ok none
          | none => .ok none
        | none => .ok none
      | none => .ok none) (remaining w a i + 1) i
  | withoutL a b, i =>
    drive (nextWithId w b) (fun id x => do
      match ← fromId w a id with
      | none => .ok (some x)
      | some _ => .ok none) (remaining w b i + 1) i
  | withoutR a b, i =>
    drive (nextWithId w a) (fun id x => do
      match ← fromId w b id with
      | none => .ok (some x)
      | some _ => .ok none) (remaining w a i + 1) i
  | full length ma mb a b, i => do
    if i < length then
      let A ← setOf w a
      let B ← setOf w b
      let id ← getU A.entities i
      let x ← refAt A a ma i
      let y ← refAt B b mb i
      .ok (some (id, .pair x y), i + 1)
    else .ok (none, i)
  | part length ma mb a b, i => do
    if i < length then
      let A ← setOf w a
      let B ← setOf w b
      let id ← getU A.entities i
      let x ← refAt A a ma i
      let y ← unwrapR (← refOf B b mb id)
      .ok (some (id, .pair x y), i + 1)
    else .ok (none, i)
  | non pos ma mb a b, i => do
    let G ← groupSetOf w pos
    if i < G.len then
      let id ← getU G.entities i
      let (ia, ib) ← getU G.data i
      let A ← setOf w a
      let B ← setOf w b
      let x ← refAt A a ma ia
      let y ← refAt B b mb ib
      .ok (some (id, .pair x y), i + 1)
    else .ok (none, i)

/-- The composite `Iterator::next` loops (for example src/query/with.rs:26-31) return the item without the
id; the id found by the shared loop `drive` is dropped. -/
def dropId (r : R (Option (EntityId × Item Loc) × Nat)) : R (Option (Item Loc) × Nat) := do
  let (o, i) ← r
  .ok (o.map Prod.snd, i)

/-- `Iterator::next`: src/query/mod.rs:132-149, 231-248; src/query/with.rs:25-32, 89-98, 169-180,
263-276; src/query/without.rs:30-37, 85-92; src/group/full_owning/query.rs:59-80 (and 192-213, 326-347, 459-480);
src/group/partial_owning/query.rs:59-86 (and 200-227, 343-370, 484-511); src/group/non_owning/query.rs:64-95 (and 229-260,
394-425, 560-591). The composite iterators drive their part with `next_with_id`; their loops are written
out again here, as in the code. -/
def next (w : World V) : Plan → Nat → R (Option (Item Loc) × Nat)
  | comp m t, i => do
    let s ← setOf w t
    if i < s.len then
      let x ← refAt s t m i
      .ok (some x, i + 1)
    else .ok (none, i)
  | full length ma mb a b, i => do
    if i < length then
      let A ← setOf w a
      let B ← setOf w b
      let x ← refAt A a ma i
      let y ← refAt B b mb i
      .ok (some (.pair x y), i + 1)
    else .ok (none, i)
  | part length ma mb a b, i => do
    if i < length then
      let A ← setOf w a
      let B ← setOf w b
      let id ← getU A.entities i
      let x ← refAt A a ma i
      let y ← unwrapR (← refOf B b mb id)
      .ok (some (.pair x y), i + 1)
    else .ok (none, i)
  | non pos ma mb a b, i => do
    let G ← groupSetOf w pos
    if i < G.len then
      let (ia, ib) ← getU G.data i
      let A ← setOf w a
      let B ← setOf w b
      let x ← refAt A a ma ia
      let y ← refAt B b mb ib
      .ok (some (.pair x y), i + 1)
    else .ok (none, i)
  | with2 a b, i =>
    dropId <| drive (nextWithId w a) (fun id x => do
      match ← fromId w b id with
      | some y => .ok (some (.pair x y))
      | none => .ok none) (remaining w a i + 1) i
  | with3 a b c, i =>
    dropId <| drive (nextWithId w a) (fun id x => do
      match ← fromId w b id with
      | some y =>
        match ← fromId w c id with
        | some z => .ok (some (.pair x (.pair y z)))
        | none => .ok none
      | none => .ok none) (remaining w a i + 1) i
  | with4 a b c d, i =>
    dropId <| drive (nextWithId w a) (fun id x => do
      match ← fromId w b id with
      | some y =>
        match ← fromId w c id with
        | some z =>
          match ← fromId w d id with
          | some u => .ok (some (.pair x (.pair y (.pair z u))))
          | none => .ok none
        | none => .ok none
      | none => .ok none) (remaining w a i + 1) i
  | with5 a b c d e, i =>
    dropId <| drive (nextWithId w a) (fun id x => do
      match ← fromId w b id with
      | some y =>
        match ← fromId w c id with
        | some z =>
          match ← fromId w d id with
          | some u =>
            match ← fromId w e id with
            | some v => .ok (some (.pair x (.pair y (.pair z (.pair u v)))))
            | none => .ok none
          | none => .ok none
        | none => .ok none
      | none => .ok none) (remaining w a i + 1) i
  | withoutL a b, i =>
    dropId <| drive (nextWithId w b) (fun id x => do
      match ← fromId w a id with
      | none => .ok (some x)
      | some _ => .ok none) (remaining w b i + 1) i
  | withoutR a b, i =>
    dropId <| drive (nextWithId w a) (fun id x => do
      match ← fromId w b id with
      | none => .ok (some x)
      | some _ => .ok none) (remaining w a i + 1) i

/-- `usize` subtraction `a - b`; underflow panics (debug build). -/
def subR (a b : Nat) : R Nat := if b ≤ a then .ok (a - b) else .error .panic

/-- `Iterator::size_hint`: src/query/mod.rs:151-154, 250-253, 327-329 (`IdIter` forwards);
src/group/full_owning/query.rs:82-85, src/group/partial_owning/query.rs:88-91, src/group/non_owning/query.rs:97-100 (and the `&mut`
variants). The composite iterators use the default `(0, None)`. -/
def sizeHint (w : World V) : Plan → Nat → R (Nat × Option Nat)
  | comp _ t, i => do
    let rem ← subR (← setOf w t).len i
    .ok (rem, some rem)
  | full length _ _ _ _, i => do
    let rem ← subR length i
    .ok (rem, some rem)
  | part length _ _ _ _, i => do
    let rem ← subR length i
    .ok (rem, some rem)
  | non pos _ _ _ _, i => do
    let rem ← subR (← groupSetOf w pos).len i
    .ok (rem, some rem)
  | _, _ => .ok (0, none)

/-- Call `next_with_id` until it returns `None` (or `fuel` calls): what
`world.query::<Q>().with_id().collect()` does. -/
def collectFrom (w : World V) (p : Plan) : Nat → Nat → R (List (EntityId × Item Loc))
  | 0, _ => .error .deadlock
  | fuel + 1, i => do
    let (r, i') ← nextWithId w p i
    match r with
    | some x => .ok (x :: (← collectFrom w p fuel i'))
    | none => .ok []

end Plan

namespace World
variable {V : Type}

/-- `world.query::<Q>()` (src/world.rs:349-353): the iterator and the guards it holds. -/
def query (w : World V) (q : Query) : R (Plan × Query.Held) := q.prepare w []

/-- `world.query::<Q>().with_id().collect::<Vec<_>>()`. -/
def queryAll (w : World V) (q : Query) : R (List (EntityId × Item Loc)) := do
  let (p, _) ← w.query q
  p.collectFrom w (p.remaining w 0 + 1) 0

/-- The component a reference points to. -/
def deref (w : World V) (l : Loc) : Option V := (w.comps l.ty).bind fun st => st.set.data[l.slot]?

/-- Replace every reference of an item by the value it points to. -/
def derefItem (w : World V) : Item Loc → Option (Item V)
  | .leaf l => (w.deref l).map .leaf
  | .pair x y => do return .pair (← derefItem w x) (← derefItem w y)

/-- Assignment through a mutable reference. -/
def assign (w : World V) (l : Loc) (v : V) : World V :=
  match w.comps l.ty with
  | some st => w.setSet l.ty { st.set with data := st.set.data.set l.slot v }
  | none => w

end World
end Xecs
