import Verif.Model.Group
import Verif.Model.EntityManager
/-
Model of src/world.rs and of the handles in src/entity.rs, src/component.rs, src/resource.rs, used by one
thread. (Several threads: Model/Threads.lean.)

Every operation returns the world afterwards *and* a result, so the state left behind by a panic is
visible. Each critical section (one batch of work done under its locks) is written twice: as a function that
returns the new world, which is convenient in proofs, and statement by statement (name ending in `X`), which
determines what a section that faults half-way leaves behind. Proofs/ExactWorld.lean proves that the section
as a whole is the version statement by statement.
-/
set_option autoImplicit false
namespace Xecs

/-- `Box<dyn ComponentStorage>` (src/world.rs:15-16): a sparse set together with the component type it
was created for. The tag exists only in the model; it lets `downcast` detect a wrong cast. -/
structure Storage (V : Type) where
  ty : TypeId
  set : SparseSet V

/-- `Box<dyn Resource>` (src/world.rs:18): a value with the type it was created for. -/
structure ResBox (V : Type) where
  ty : TypeId
  val : V

/-- src/world.rs:13-19 `World`. The two hash maps are modelled as partial functions; where the code
iterates over one (`remove_entity`), the iteration order is an explicit argument. -/
structure World (V : Type) where
  em : EntityManager
  comps : TypeId → Option (Storage V)
  groups : List Group
  res : TypeId → Option (ResBox V)

/-- A world operation: new world and result. -/
def M (V : Type) (α : Type) := World V → World V × R α

namespace M
variable {V : Type} {α β : Type}

instance : Monad (M V) where
  pure a := fun w => (w, .ok a)
  bind m f := fun w =>
    match m w with
    | (w', .ok a) => f a w'
    | (w', .error e) => (w', .error e)

/-- Run a computation that only reads the world. -/
def read (f : World V → R α) : M V α := fun w => (w, f w)

/-- Fault without having changed anything. -/
def still : M V α := fun w => (w, .error .panic)

/-- Run one critical section `f`. On a fault the world is left as `x`, the same section statement by
statement, leaves it; `x` is omitted where the section changes the world, if at all, by its last statement. -/
def crit (f : World V → R (World V × α)) (x : M V α := still) : M V α := fun w =>
  match f w with
  | .ok (w', a) => (w', .ok a)
  | .error e => ((x w).1, .error e)

/-- `assert!`. -/
def assert (b : Bool) : M V Unit := fun w => (w, assertR b)

/-- `for x in xs { body(x) }`. -/
def forEach {γ : Type} : List γ → (γ → M V Unit) → M V Unit
  | [], _ => pure ()
  | x :: xs, f => do f x; forEach xs f

end M

namespace World
variable {V : Type}

/-- src/world.rs:23-30 `World::new`. -/
def new : World V :=
  { em := EntityManager.new, comps := fun _ => none, groups := [], res := fun _ => none }

/-- Replace the sparse set stored under `t` (mutation through the write guard). -/
def setSet (w : World V) (t : TypeId) (s : SparseSet V) : World V :=
  { w with comps := fun u => if u = t then (w.comps t).map (fun st => Storage.mk st.ty s) else w.comps u }

/-- src/component.rs:57-62 `downcast_ref`/`downcast_mut` on a storage: undefined behaviour if the box
holds another type. -/
def downcast (st : Storage V) (t : TypeId) : R (SparseSet V) :=
  if st.ty = t then .ok st.set else .error .ub

/-- src/resource.rs:9-14 `downcast_ref`/`downcast_mut` on a resource. -/
def downcastRes (r : ResBox V) (t : TypeId) : R V :=
  if r.ty = t then .ok r.val else .error .ub

/-- src/world.rs:69-72 `has_registered`. -/
def hasRegistered (w : World V) (t : TypeId) : Bool := (w.comps t).isSome

/-- src/world.rs:61-64: insert an empty storage for type `t`. -/
def insertStorage (w : World V) (t : TypeId) : World V :=
  { w with comps := fun u => if u = t then some (Storage.mk t SparseSet.new) else w.comps u }

/-- src/world.rs:57-66 `register`. -/
def register (t : TypeId) : M V Unit := do
  M.assert (!(← M.read (fun w => .ok (w.hasRegistered t))))
  M.crit fun w => .ok (w.insertStorage t, ())

/-- src/world.rs:203-206 `exist`. -/
def exist (id : EntityId) : M V Bool := M.read fun w => w.em.has id

/-- src/world.rs:247-254 `entity`: `Some` handle iff the entity table says the id is in use. The handle is
represented by the id. -/
def entity (id : EntityId) : M V (Option EntityId) := do
  if ← exist id then pure (some id) else pure none

/-- Work on the entity table behind its write guard, statement by statement. -/
def onTable {α : Type} (m : Stm EntityManager α) : M V α := fun w => ({ w with em := (m w.em).1 }, (m w.em).2)

/-- `entity_manager.write().allocate()`, src/world.rs:78-80. -/
def allocate (w : World V) : R (World V × EntityId) := do
  let (em, id) ← w.em.allocate
  .ok ({ w with em := em }, id)

/-- `entity_manager.write().remove(id)`, src/world.rs:156-157. -/
def release (id : EntityId) (w : World V) : R (World V × Unit) := do
  .ok ({ w with em := ← w.em.remove id }, ())

/-- src/world.rs:76-82 `create_entity`. The returned handle is represented by its id. -/
def createEntity : M V EntityId := do
  let id ← M.crit allocate (onTable EntityManager.allocateX)
  let h ← entity id
  M.read fun _ => unwrapR h

/-- src/world.rs:87-94 `create_entities`; the handle is represented by its id range `(start, end)`. -/
def createEntities (n : Nat) : M V (EntityId × EntityId) :=
  M.crit fun w => .ok ({ w with em := (w.em.allocateN n).1 }, (w.em.allocateN n).2)

/-- The two storage guards a group operation takes, first `a` then `b` (for example
src/entity.rs:57-58, 63-64, 69-70): `raw_storage_{read,write}(type).unwrap()`. If both are the same
storage and one of them is taken for writing, the thread blocks on itself. -/
def lockPair (w : World V) (g : Group) : R (SparseSet V × SparseSet V) := do
  let A ← unwrapR (w.comps g.tyA)
  if g.tyA = g.tyB ∧ g.kind ≠ .non then .error .deadlock
  else
    let B ← unwrapR (w.comps g.tyB)
    .ok (A.set, B.set)

/-- Write back the group number `k` and its two storages. -/
def putPair (w : World V) (k : Nat) (r : Group × SparseSet V × SparseSet V) : World V :=
  { (w.setSet r.1.tyA r.2.1).setSet r.1.tyB r.2.2 with groups := w.groups.set k r.1 }

/-- src/world.rs:333-346 `groups(type_id)`: the (positions of the) groups one of whose types is `t`. -/
def groupsOf (w : World V) (t : TypeId) : List Nat :=
  (List.range w.groups.length).filter fun k =>
    match w.groups[k]? with
    | some g => g.tyA == t || g.tyB == t
    | none => false

/-- Work on the storage of type `t` behind its write guard, statement by statement (`downcast_mut` first). -/
def onStore {α : Type} (t : TypeId) (m : Stm (SparseSet V) α) : M V α := fun w =>
  match (do downcast (← unwrapR (w.comps t)) t : R (SparseSet V)) with
  | .ok s => (w.setSet t (m s).1, (m s).2)
  | .error e => (w, .error e)

/-- The same without `downcast_mut`, through the methods of `dyn ComponentStorage`. -/
def onRaw {α : Type} (t : TypeId) (m : Stm (SparseSet V) α) : M V α := fun w =>
  match unwrapR (w.comps t) with
  | .ok st => (w.setSet t (m st.set).1, (m st.set).2)
  | .error e => (w, .error e)

/-- Work on the group number `k` and its two storages behind their guards, statement by statement. -/
def onPair {α : Type} (k : Nat) (m : Stm (Group.Trio V) α) : M V α := fun w =>
  match (do let g ← getR w.groups k; let p ← w.lockPair g; .ok (g, p) : R (Group.Trio V)) with
  | .ok x => (w.putPair k (m x).1, (m x).2)
  | .error e => (w, .error e)

/-- src/entity.rs:45-51: the storage part of `attach`. -/
def attachStore (t : TypeId) (id : EntityId) (v : V) (w : World V) : R (World V × Unit) := do
  let s ← downcast (← unwrapR (w.comps t)) t
  .ok (w.setSet t (← s.add id v), ())

/-- `attachStore`, statement by statement. -/
def attachStoreX (t : TypeId) (id : EntityId) (v : V) : M V Unit := onStore t (SparseSet.addX id v)

/-- src/entity.rs:54-73: one iteration of the group loop of `attach`. -/
def groupAdd (k : Nat) (id : EntityId) (w : World V) : R (World V × Unit) := do
  let g ← getR w.groups k
  let (A, B) ← w.lockPair g
  .ok (w.putPair k (← g.add id A B), ())

/-- `groupAdd`, statement by statement. -/
def groupAddX (k : Nat) (id : EntityId) : M V Unit := onPair k (Group.addX id)

/-- src/entity.rs:87-106: one iteration of the group loop of `detach`. -/
def groupRemove (k : Nat) (id : EntityId) (w : World V) : R (World V × Unit) := do
  let g ← getR w.groups k
  let (A, B) ← w.lockPair g
  .ok (w.putPair k (← g.remove id A B), ())

/-- `groupRemove`, statement by statement. -/
def groupRemoveX (k : Nat) (id : EntityId) : M V Unit := onPair k (Group.removeX id)

/-- src/entity.rs:38-76 `Entity::attach` on the entity `id`. -/
def entityAttach (id : EntityId) (t : TypeId) (v : V) : M V Unit := do
  M.assert (← M.read (fun w => .ok (w.hasRegistered t)))
  M.crit (attachStore t id v) (attachStoreX t id v)
  let ks ← M.read (fun w => .ok (w.groupsOf t))
  M.forEach ks fun k => M.crit (groupAdd k id) (groupAddX k id)

/-- src/entity.rs:110-116: the storage part of `detach`. -/
def detachStore (t : TypeId) (id : EntityId) (w : World V) : R (World V × Option V) := do
  let s ← downcast (← unwrapR (w.comps t)) t
  let (s', r) ← s.remove id
  .ok (w.setSet t s', r)

/-- `detachStore`, statement by statement. -/
def detachStoreX (t : TypeId) (id : EntityId) : M V (Option V) := onStore t (SparseSet.removeX id)

/-- src/entity.rs:81-117 `Entity::detach` on the entity `id`. -/
def entityDetach (id : EntityId) (t : TypeId) : M V (Option V) := do
  M.assert (← M.read (fun w => .ok (w.hasRegistered t)))
  let ks ← M.read (fun w => .ok (w.groupsOf t))
  M.forEach ks fun k => M.crit (groupRemove k id) (groupRemoveX k id)
  M.crit (detachStore t id) (detachStoreX t id)

/-- src/world.rs:183-187 `attach_component`. -/
def attach (id : EntityId) (t : TypeId) (v : V) : M V Unit := do
  let h ← entity id
  let id ← M.read fun _ => unwrapR h
  entityAttach id t v

/-- src/world.rs:196-200 `detach_component`. -/
def detach (id : EntityId) (t : TypeId) : M V (Option V) := do
  let h ← entity id
  let id ← M.read fun _ => unwrapR h
  entityDetach id t

/-- src/entity.rs:169-182: the storage part of `Entities::attach`. -/
def batchStore (start stop : EntityId) (t : TypeId) (vs : List V) (w : World V) : R (World V × Unit) := do
  let s ← downcast (← unwrapR (w.comps t)) t
  .ok (w.setSet t (← s.addBatch (List.range' start (stop - start)) vs), ())

/-- `batchStore`, statement by statement. -/
def batchStoreX (start stop : EntityId) (t : TypeId) (vs : List V) : M V Unit :=
  onStore t (SparseSet.addBatchX (List.range' start (stop - start)) vs)

/-- src/entity.rs:161-184 `Entities::attach` on the handle with id range `start..end`. -/
def attachBatch (start stop : EntityId) (t : TypeId) (vs : List V) : M V Unit := do
  M.assert (vs.length == stop - start)
  M.crit (batchStore start stop t vs) (batchStoreX start stop t vs)

/-- src/world.rs:103-109: does this group have to be updated when `id` is removed? -/
def needRemove (w : World V) (id : EntityId) (g : Group) : R Bool := do
  let A ← unwrapR (w.comps g.tyA)
  let B ← unwrapR (w.comps g.tyB)
  g.inGroup id A.set B.set

/-- src/world.rs:101-113: positions of the groups that contain `id`, all computed before any removal;
`k` is the position of the first group of the list. -/
def needRemoveList (w : World V) (id : EntityId) : Nat → List Group → R (List Nat)
  | _, [] => .ok []
  | k, g :: gs => do
    let b ← w.needRemove id g
    let rest ← needRemoveList w id (k + 1) gs
    .ok (if b then k :: rest else rest)

/-- src/world.rs:116-138: remove `id` from the group number `k` and from the storages the group owns. -/
def groupErase (k : Nat) (id : EntityId) (w : World V) : R (World V × Unit) := do
  let g ← getR w.groups k
  let (A, B) ← w.lockPair g
  let (g', A', B') ← g.remove id A B
  match g with
  | .full .. => .ok (w.putPair k (g', ← A'.removeUnwrap id, ← B'.removeUnwrap id), ())
  | .part .. => .ok (w.putPair k (g', ← A'.removeUnwrap id, B'), ())
  | .non .. => .ok (w.putPair k (g', A', B'), ())

/-- `groupErase`, statement by statement. -/
def groupEraseX (k : Nat) (id : EntityId) : M V Unit := onPair k do
  let g ← Stm.read fun x => .ok x.1
  Group.removeX id
  match g with
  | .full .. => do Group.onA (SparseSet.removeUnwrapX id); Group.onB (SparseSet.removeUnwrapX id)
  | .part .. => Group.onA (SparseSet.removeUnwrapX id)
  | .non .. => pure ()

/-- src/world.rs:142-150: of the storages enumerated in `order`, those that contain `id`. -/
def storagesWith (w : World V) (id : EntityId) (order : List TypeId) : List TypeId :=
  order.filter fun t =>
    match w.comps t with
    | some st => st.set.exist id
    | none => false

/-- src/world.rs:152: remove `id` from one storage. -/
def storeErase (t : TypeId) (id : EntityId) (w : World V) : R (World V × Unit) := do
  let st ← unwrapR (w.comps t)
  .ok (w.setSet t (← st.set.removeUnwrap id), ())

/-- `storeErase`, statement by statement. -/
def storeEraseX (t : TypeId) (id : EntityId) : M V Unit := onRaw t (SparseSet.removeUnwrapX id)

/-- src/world.rs:97-159 `remove_entity`. `order` is the order in which `self.components.values()`
enumerates the component types. -/
def removeEntity (order : List TypeId) (id : EntityId) : M V Unit := do
  M.assert (← exist id)
  let ks ← M.read fun w => w.needRemoveList id 0 w.groups
  M.forEach ks fun k => M.crit (groupErase k id) (groupEraseX k id)
  let ts ← M.read fun w => .ok (w.storagesWith id order)
  M.forEach ts fun t => M.crit (storeErase t id) (storeEraseX t id)
  M.crit (release id) (onTable (EntityManager.removeX id))

/-- src/entity.rs:130-133 `Entity::manaully_drop`: releases the handle and calls `remove_entity`. -/
def entityManuallyDrop (order : List TypeId) (id : EntityId) : M V Unit := removeEntity order id

/-- src/world.rs:308-317 `has_group`. -/
def hasGroup (w : World V) (k : Kind) (a b : TypeId) : Bool :=
  w.groups.any fun g => g.same (Group.fresh k a b)

/-- src/world.rs:264-279: no existing group owns a type that the new group would own. -/
def ownershipFree (w : World V) (g : Group) : Bool :=
  w.groups.all fun h => h.owning.all fun t => !g.owned t

/-- src/world.rs:283-303: `make` on the group at position `k`. -/
def groupMake (k : Nat) (w : World V) : R (World V × Unit) := do
  let g ← getR w.groups k
  let (A, B) ← w.lockPair g
  .ok (w.putPair k (← g.make A B), ())

/-- `groupMake`, statement by statement. -/
def groupMakeX (k : Nat) : M V Unit := onPair k Group.makeX

/-- src/world.rs:260-304 `make_group`. The group is pushed (line 281) before its storages are looked up
(lines 287-302), so it stays in the world if the look-up panics. -/
def makeGroup (k : Kind) (a b : TypeId) : M V Unit := do
  M.assert (!(← M.read fun w => .ok (w.hasGroup k a b)))
  M.assert (← M.read fun w => .ok (w.ownershipFree (Group.fresh k a b)))
  let pos ← M.crit fun w =>
    .ok ({ w with groups := w.groups ++ [Group.fresh k a b] }, w.groups.length)
  M.crit (groupMake pos) (groupMakeX pos)

/-- src/world.rs:209-213 `components_read` followed by src/component.rs:85-88 `count`
(for `components_write`: 148-151). -/
def storageCount (t : TypeId) : M V (Option Nat) := M.read fun w =>
  match w.comps t with
  | some st => do .ok (some (← downcast st t).len)
  | none => .ok none

/-- src/world.rs:209-213 `components_read` followed by src/component.rs:119-122 `data`
(for `components_write`: 198-201). -/
def storageData (t : TypeId) : M V (Option (List V)) := M.read fun w =>
  match w.comps t with
  | some st => do .ok (some (← downcast st t).data)
  | none => .ok none

/-- src/world.rs:209-213 `components_read` followed by src/component.rs:99-102 `get`
(for `components_write`: 162-165). -/
def storageGet (t : TypeId) (id : EntityId) : M V (Option V) := M.read fun w =>
  match w.comps t with
  | some st => do (← downcast st t).get id
  | none => .ok none

/-- src/world.rs:209-213 `components_read` followed by src/component.rs:91-94 `exist`
(for `components_write`: 154-157). -/
def storageExist (t : TypeId) (id : EntityId) : M V (Option Bool) := M.read fun w =>
  match w.comps t with
  | some st => do .ok (some ((← downcast st t).exist id))
  | none => .ok none

/-- src/world.rs:209-213 `components_read` followed by src/component.rs:113-116 `is_empty`
(for `components_write`: 176-179; src/sparse_set.rs:173-175). -/
def storageIsEmpty (t : TypeId) : M V (Option Bool) := M.read fun w =>
  match w.comps t with
  | some st => do .ok (some ((← downcast st t).len == 0))
  | none => .ok none

/-- src/world.rs:216-220 `components_write`, then src/component.rs:184-187 `get_mut` (a bounds-checked
access, src/sparse_set.rs:146-155) and assignment of `v` through it. Returns whether there was a component. -/
def storageSet (t : TypeId) (id : EntityId) (v : V) : M V Bool := M.crit fun w =>
  match w.comps t with
  | some st => do
    let s ← downcast st t
    match s.getIndex id with
    | some index => .ok (w.setSet t { s with data := ← setR s.data index v }, true)
    | none => .ok (w, false)
  | none => .ok (w, false)

/-- src/world.rs:216-220 `components_write`, then src/component.rs:204-207 `data_mut` and assignment of `v`
to its element `i` (a bounds-checked access by the caller). Returns whether the type is registered. -/
def storageSetAt (t : TypeId) (i : Nat) (v : V) : M V Bool := M.crit fun w =>
  match w.comps t with
  | some st => do
    let s ← downcast st t
    .ok (w.setSet t { s with data := ← setR s.data i v }, true)
  | none => .ok (w, false)

/-- src/world.rs:209-213 `components_read` (or 216-220 `components_write`) followed by src/component.rs:107-110 (170-173)
`get_unchecked`, an `unsafe` method. `none` if the type is not registered. -/
def storageGetUnchecked (t : TypeId) (id : EntityId) : M V (Option V) := M.read fun w =>
  match w.comps t with
  | some st => do .ok (some (← (← downcast st t).getUnchecked id))
  | none => .ok none

/-- src/world.rs:216-220 `components_write`, then src/component.rs:192-195 `get_unchecked_mut`, an `unsafe` method, and
assignment of `v` through it. Returns whether the type is registered. -/
def storageSetUnchecked (t : TypeId) (id : EntityId) (v : V) : M V Bool := M.crit fun w =>
  match w.comps t with
  | some st => do .ok (w.setSet t (← (← downcast st t).setUnchecked id v), true)
  | none => .ok (w, false)

/-- src/world.rs:223-232 `entity_component_read`, dereferenced (src/component.rs:232-238). -/
def componentRead (t : TypeId) (id : EntityId) : M V (Option V) := M.read fun w =>
  match w.comps t with
  | some st => do
    let s ← downcast st t
    if s.exist id then .ok (some (← s.getUnchecked id)) else .ok none
  | none => .ok none

/-- src/world.rs:235-244 `entity_component_write`, then `*guard = v` (src/component.rs:272-278). Returns
whether a guard was obtained. -/
def componentWrite (t : TypeId) (id : EntityId) (v : V) : M V Bool := M.crit fun w =>
  match w.comps t with
  | some st => do
    let s ← downcast st t
    if s.exist id then .ok (w.setSet t (← s.setUnchecked id v), true) else .ok (w, false)
  | none => .ok (w, false)

/-- src/world.rs:33-36 `register_resource`: inserts, replacing an earlier value. -/
def registerResource (t : TypeId) (v : V) : M V Unit := M.crit fun w =>
  .ok ({ w with res := fun u => if u = t then some (ResBox.mk t v) else w.res u }, ())

/-- src/world.rs:39-44 `resource_read`, dereferenced (src/resource.rs:35-39). -/
def resourceRead (t : TypeId) : M V (Option V) := M.read fun w =>
  match w.res t with
  | some r => do .ok (some (← downcastRes r t))
  | none => .ok none

/-- src/world.rs:47-52 `resource_write`, then `*guard = v` (src/resource.rs:90-94). Returns whether a
guard was obtained. -/
def resourceWrite (t : TypeId) (v : V) : M V Bool := M.crit fun w =>
  match w.res t with
  | some r => do
    let _ ← downcastRes r t
    .ok ({ w with res := fun u => if u = t then some (ResBox.mk r.ty v) else w.res u }, true)
  | none => .ok (w, false)

end World
end Xecs
