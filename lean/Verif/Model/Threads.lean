import Verif.Model.Query
/-
Model of several threads using one `&World` (src/world.rs, src/entity.rs: every method that takes `&self`).

Each call is a program that takes and drops guards of the `parking_lot::RwLock`s of the world, and between
that does its work. A piece of work done under guards (`Act`) is one step: the steps of other threads that
could be interleaved with it concern other locks. Methods that need `&mut World` (`register`,
`register_resource`, `make_group`) cannot run while the world is shared, so the set of component types, of
resources and of groups, and the kind and types of each group, do not change (`Config`).
-/
set_option autoImplicit false
namespace Xecs

/-- The locks of a world: src/world.rs:13-19 (`entity_manager`, one `RwLock` per entry of `components`, per
element of `groups`, per entry of `resources`). -/
inductive Lock where
  | em
  | store (t : TypeId)
  | group (k : Nat)
  | res (t : TypeId)
  deriving DecidableEq, Repr

/-- A guard: the lock, and whether it is a `RwLockReadGuard` (`ref`) or a `RwLockWriteGuard` (`mut`). -/
abbrev Guard := Lock × Mode

/-- Two guards that may not exist at the same time. -/
def Guard.clash (g h : Guard) : Prop := g.1 = h.1 ∧ (g.2 = .mut ∨ h.2 = .mut)

instance Guard.decClash (g h : Guard) : Decidable (g.clash h) := by unfold Guard.clash; exact inferInstance

/-- The unchanging part of a group (src/group/mod.rs:39-61): its kind and its types. -/
structure Shape where
  kind : Kind
  a : TypeId
  b : TypeId
  deriving DecidableEq, Repr

namespace Shape

/-- Is `t` one of the two types (src/world.rs:337-340)? -/
def touches (g : Shape) (t : TypeId) : Bool := g.a == t || g.b == t

/-- The guard a group operation takes on the first storage (src/entity.rs:57, 63, 69 and the corresponding
lines of `detach` and `remove_entity`). -/
def modeA (g : Shape) : Mode := match g.kind with | .full => .mut | .part => .mut | .non => .ref

/-- The guard a group operation takes on the second storage (src/entity.rs:58, 64, 70, ...). -/
def modeB (g : Shape) : Mode := match g.kind with | .full => .mut | .part => .ref | .non => .ref

end Shape

/-- What does not change while a world is shared: the groups' kinds and types, the component types in the
order in which `self.components.values()` enumerates them, and which resources exist. -/
structure Config where
  groups : List Shape
  order : List TypeId
  res : TypeId → Bool

/-- The kind and types of a group. -/
def Group.shape (g : Group) : Shape := ⟨g.kind, g.tyA, g.tyB⟩

/-- The configuration of a world. -/
def Config.of {V : Type} (w : World V) (order : List TypeId) : Config :=
  { groups := w.groups.map Group.shape, order := order, res := fun t => (w.res t).isSome }

/-- src/world.rs:69-72 `has_registered`. -/
def Config.registered (cfg : Config) (t : TypeId) : Bool := cfg.order.contains t

/-- The groups with their positions. -/
def Config.indexed (cfg : Config) : List (Nat × Shape) := cfg.groups.mapIdx fun i g => (i, g)

/-- What a piece of work, or a call, returns. -/
inductive Ret (V : Type) where
  | unit
  | bool (b : Bool)
  | id (n : EntityId)
  | range (start stop : EntityId)
  | val (v : Option V)
  | count (n : Option Nat)
  | items (l : List (EntityId × Option (Item V)))
  deriving DecidableEq

/-- The pieces of work the methods do under guards. -/
inductive Act (V : Type) where
  /-- `entity_manager.has(id)`, src/world.rs:205, 249 -/
  | has (id : EntityId)
  /-- `entity_manager.allocate()`, src/world.rs:79 -/
  | allocate
  /-- `entity_manager.allocate_n(n)`, src/world.rs:90 -/
  | allocateN (n : Nat)
  /-- `entity_manager.remove(id)`, src/world.rs:157 -/
  | emRemove (id : EntityId)
  /-- src/entity.rs:50 -/
  | attachStore (t : TypeId) (id : EntityId) (v : V)
  /-- src/entity.rs:116 -/
  | detachStore (t : TypeId) (id : EntityId)
  /-- src/entity.rs:176-182 -/
  | batchStore (start stop : EntityId) (t : TypeId) (vs : List V)
  /-- `storage.has(id)`, src/world.rs:145 -/
  | storeHas (t : TypeId) (id : EntityId)
  /-- `storage.remove(id)`, src/world.rs:152 -/
  | storeErase (t : TypeId) (id : EntityId)
  /-- reading one component, src/world.rs:223-232 and src/component.rs:232-238 -/
  | storeRead (t : TypeId) (id : EntityId)
  /-- writing one component, src/world.rs:235-244 and src/component.rs:272-278 -/
  | storeWrite (t : TypeId) (id : EntityId) (v : V)
  /-- `count()`, src/component.rs:85-88 -/
  | storeCount (t : TypeId)
  /-- `data.add(id, ..)`, src/entity.rs:59, 65, 71 -/
  | groupAdd (k : Nat) (id : EntityId)
  /-- `data.remove(id, ..)`, src/entity.rs:92, 98, 104 -/
  | groupRemove (k : Nat) (id : EntityId)
  /-- `group.in_group(id, ..)`, src/world.rs:108 -/
  | groupHas (k : Nat) (id : EntityId)
  /-- src/world.rs:121-123, 129-130, 136 -/
  | groupErase (k : Nat) (id : EntityId)
  /-- reading a resource, src/resource.rs:35-39 -/
  | resRead (t : TypeId)
  /-- writing a resource, src/resource.rs:90-94 -/
  | resWrite (t : TypeId) (v : V)
  /-- going through all items of a query with their ids (src/query, src/group/*/query.rs) -/
  | collect (q : Query)
  deriving DecidableEq

namespace Act
variable {V : Type}

/-- What a piece of work does: the critical sections of Model/World.lean. -/
def run : Act V → M V (Ret V)
  | has id => do pure (.bool (← World.exist id))
  | allocate => do
    let id ← M.crit World.allocate (World.onTable EntityManager.allocateX)
    pure (.id id)
  | allocateN n => do
    let r ← World.createEntities n
    pure (.range r.1 r.2)
  | emRemove id => do
    M.crit (World.release id) (World.onTable (EntityManager.removeX id))
    pure .unit
  | attachStore t id v => do M.crit (World.attachStore t id v) (World.attachStoreX t id v); pure .unit
  | detachStore t id => do pure (.val (← M.crit (World.detachStore t id) (World.detachStoreX t id)))
  | batchStore start stop t vs => do World.attachBatch start stop t vs; pure .unit
  | storeHas t id => do
    pure (.bool (← M.read fun w => do .ok ((← unwrapR (w.comps t)).set.exist id)))
  | storeErase t id => do M.crit (World.storeErase t id) (World.storeEraseX t id); pure .unit
  | storeRead t id => do pure (.val (← World.componentRead t id))
  | storeWrite t id v => do pure (.bool (← World.componentWrite t id v))
  | storeCount t => do pure (.count (← World.storageCount t))
  | groupAdd k id => do M.crit (World.groupAdd k id) (World.groupAddX k id); pure .unit
  | groupRemove k id => do M.crit (World.groupRemove k id) (World.groupRemoveX k id); pure .unit
  | groupHas k id => do
    pure (.bool (← M.read fun w => do w.needRemove id (← getR w.groups k)))
  | groupErase k id => do M.crit (World.groupErase k id) (World.groupEraseX k id); pure .unit
  | resRead t => do pure (.val (← World.resourceRead t))
  | resWrite t v => do pure (.bool (← World.resourceWrite t v))
  | collect q => do
    pure (.items (← M.read fun w => do
      let l ← w.queryAll q
      .ok (l.map fun x => (x.1, w.derefItem x.2))))

end Act

/-- The program of one thread: guards taken and dropped, work done, until the call returns or panics. -/
inductive Prog (V : Type) where
  | done (rs : List (Ret V))
  | panic
  | acq (l : Lock) (m : Mode) (p : Prog V)
  | rel (l : Lock) (m : Mode) (p : Prog V)
  | act (a : Act V) (f : Ret V → Prog V)

/-- What one does with an `Entity` handle (src/entity.rs:31-134). -/
inductive HOp (V : Type) where
  | attach (t : TypeId) (v : V)
  | detach (t : TypeId)
  | read (t : TypeId)
  | write (t : TypeId) (v : V)
  deriving DecidableEq

/-- The calls on a shared world. A handle, a component guard or a query iterator is dropped at the end of
the statement that created it. -/
inductive ApiCall (V : Type) where
  /-- `world.create_entity()`, then a chain of calls on the handle, then `into_id()` -/
  | create (script : List (HOp V))
  /-- `world.entity(id).unwrap()`, then a chain of calls on the handle; with one `attach` this is
  `attach_component` (src/world.rs:183-187), with one `detach` it is `detach_component` (196-200) -/
  | on (id : EntityId) (script : List (HOp V))
  /-- `world.create_entities(n)`, then a chain of batch attaches, then `into_ids()` -/
  | createMany (n : Nat) (batches : List (TypeId × List V))
  /-- A chain of batch attaches on an `Entities` handle for `start..stop` obtained earlier (src/entity.rs:161-184), then
  `into_ids()`. In the crate such a handle can only be kept from `create_entities` (Model/Keeping, `viaHandles`); here, where
  nothing is kept, the call stands for its use: it holds the handle's guard on the entity table until it is over. -/
  | fill (start stop : EntityId) (batches : List (TypeId × List V))
  /-- `world.remove_entity(id)` -/
  | remove (id : EntityId)
  | exist (id : EntityId)
  | read (t : TypeId) (id : EntityId)
  | write (t : TypeId) (id : EntityId) (v : V)
  | count (t : TypeId)
  | resRead (t : TypeId)
  | resWrite (t : TypeId) (v : V)
  /-- `world.query::<Q>().with_id().collect()` -/
  | query (q : Query)
  deriving DecidableEq

namespace Prog
variable {V : Type}

/-- `raw_storage_{read,write}(t).unwrap()`: src/world.rs:163-177. -/
def store (cfg : Config) (t : TypeId) (m : Mode) (p : Prog V) : Prog V :=
  if cfg.registered t then .acq (.store t) m p else .panic

/-- src/world.rs:333-346 `groups(t)`: look at each group under a read guard, keep a write guard on those
that have the type `t`. -/
def lockGroups (t : TypeId) : List (Nat × Shape) → Prog V → Prog V
  | [], p => p
  | (k, g) :: rest, p =>
    .acq (.group k) .ref <| .rel (.group k) .ref <|
      if g.touches t then .acq (.group k) .mut (lockGroups t rest p) else lockGroups t rest p

/-- One iteration of a loop over groups with write guards: take the two storage guards, do the work, drop
the two guards and the group's. src/entity.rs:54-74, 87-107; src/world.rs:116-138. -/
def groupStep (cfg : Config) (k : Nat) (g : Shape) (a : Act V) (p : Prog V) : Prog V :=
  store cfg g.a g.modeA <| store cfg g.b g.modeB <| .act a fun _ =>
    .rel (.store g.b) g.modeB <| .rel (.store g.a) g.modeA <| .rel (.group k) .mut p

/-- The loop over the groups whose write guards are held. -/
def groupLoop (cfg : Config) (a : Nat → Act V) : List (Nat × Shape) → Prog V → Prog V
  | [], p => p
  | (k, g) :: rest, p => groupStep cfg k g (a k) (groupLoop cfg a rest p)

/-- The groups that have the type `t`. -/
def touching (cfg : Config) (t : TypeId) : List (Nat × Shape) := cfg.indexed.filter fun x => x.2.touches t

/-- src/entity.rs:38-76 `Entity::attach` (the entity table's read guard is held by the handle). -/
def attach (cfg : Config) (id : EntityId) (t : TypeId) (v : V) (p : Prog V) : Prog V :=
  if cfg.registered t then
    .acq (.store t) .mut <| .act (.attachStore t id v) fun _ => .rel (.store t) .mut <|
      lockGroups t cfg.indexed <| groupLoop cfg (fun k => .groupAdd k id) (touching cfg t) p
  else .panic

/-- src/entity.rs:81-117 `Entity::detach`. -/
def detach (cfg : Config) (id : EntityId) (t : TypeId) (p : Ret V → Prog V) : Prog V :=
  if cfg.registered t then
    lockGroups t cfg.indexed <| groupLoop cfg (fun k => .groupRemove k id) (touching cfg t) <|
      .acq (.store t) .mut <| .act (.detachStore t id) fun r => .rel (.store t) .mut (p r)
  else .panic

/-- `entity_component_read`, used and dropped: src/world.rs:223-232 (no guard if the type is not
registered). -/
def read (cfg : Config) (t : TypeId) (id : EntityId) (p : Ret V → Prog V) : Prog V :=
  if cfg.registered t then
    .acq (.store t) .ref <| .act (.storeRead t id) fun r => .rel (.store t) .ref (p r)
  else p (.val none)

/-- `entity_component_write`, used and dropped: src/world.rs:235-244. -/
def write (cfg : Config) (t : TypeId) (id : EntityId) (v : V) (p : Ret V → Prog V) : Prog V :=
  if cfg.registered t then
    .acq (.store t) .mut <| .act (.storeWrite t id v) fun r => .rel (.store t) .mut (p r)
  else p (.bool false)

/-- A chain of calls on a handle; `acc` collects the results. -/
def script (cfg : Config) (id : EntityId) : List (HOp V) → List (Ret V) → (List (Ret V) → Prog V) → Prog V
  | [], acc, p => p acc
  | .attach t v :: ops, acc, p => attach cfg id t v (script cfg id ops (acc ++ [.unit]) p)
  | .detach t :: ops, acc, p => detach cfg id t fun r => script cfg id ops (acc ++ [r]) p
  | .read t :: ops, acc, p => read cfg t id fun r => script cfg id ops (acc ++ [r]) p
  | .write t v :: ops, acc, p => write cfg t id v fun r => script cfg id ops (acc ++ [r]) p

/-- src/world.rs:247-254 `entity(id)`, unwrapped: the read guard on the entity table stays with the
handle; then the chain, then the handle is dropped. -/
def handle (cfg : Config) (id : EntityId) (ops : List (HOp V)) (acc : List (Ret V)) : Prog V :=
  .acq .em .ref <| .act (.has id) fun
    | .bool true => script cfg id ops acc fun rs => .rel .em .ref (.done rs)
    | _ => .panic

/-- src/entity.rs:161-184: a chain of batch attaches on an `Entities` handle. -/
def batches (cfg : Config) (start stop : EntityId) : List (TypeId × List V) → Prog V → Prog V
  | [], p => p
  | (t, vs) :: rest, p =>
    if vs.length == stop - start then
      store cfg t .mut <| .act (.batchStore start stop t vs) fun _ => .rel (.store t) .mut <|
        batches cfg start stop rest p
    else .panic

/-- src/world.rs:100-113: find the groups that contain `id`, keeping their write guards. -/
def scanGroups (cfg : Config) (id : EntityId) : List (Nat × Shape) → List (Nat × Shape) →
    (List (Nat × Shape) → Prog V) → Prog V
  | [], acc, p => p acc
  | (k, g) :: rest, acc, p =>
    .acq (.group k) .ref <| store cfg g.a .ref <| store cfg g.b .ref <| .act (.groupHas k id) fun r =>
      .rel (.store g.b) .ref <| .rel (.store g.a) .ref <| .rel (.group k) .ref <|
        match r with
        | .bool true => .acq (.group k) .mut (scanGroups cfg id rest (acc ++ [(k, g)]) p)
        | _ => scanGroups cfg id rest acc p

/-- src/world.rs:141-150: find the storages that contain `id`, keeping their write guards. -/
def scanStores (id : EntityId) : List TypeId → List TypeId → (List TypeId → Prog V) → Prog V
  | [], acc, p => p acc
  | t :: rest, acc, p =>
    .acq (.store t) .ref <| .act (.storeHas t id) fun r => .rel (.store t) .ref <|
      match r with
      | .bool true => .acq (.store t) .mut (scanStores id rest (acc ++ [t]) p)
      | _ => scanStores id rest acc p

/-- src/world.rs:151-153: remove `id` from the storages, dropping each guard. -/
def eraseStores (id : EntityId) : List TypeId → Prog V → Prog V
  | [], p => p
  | t :: rest, p => .act (.storeErase t id) fun _ => .rel (.store t) .mut (eraseStores id rest p)

/-- src/world.rs:97-159 `remove_entity`. -/
def remove (cfg : Config) (id : EntityId) : Prog V :=
  .acq .em .ref <| .act (.has id) fun
    | .bool true => .rel .em .ref <|
      scanGroups cfg id cfg.indexed [] fun gs =>
        groupLoop cfg (fun k => .groupErase k id) gs <|
          scanStores id cfg.order [] fun ts =>
            eraseStores id ts <|
              .acq .em .mut <| .act (.emRemove id) fun _ => .rel .em .mut (.done [.unit])
    | _ => .panic

/-- src/world.rs:308-331: looking for a group, each group compared under a read guard. -/
def visitGroups : List Nat → Prog V → Prog V
  | [], p => p
  | k :: rest, p => .acq (.group k) .ref <| .rel (.group k) .ref (visitGroups rest p)

/-- The position of a group (src/world.rs:319-331). -/
def position (cfg : Config) (g : Shape) : Option Nat := cfg.groups.findIdx? fun h => h == g

/-- `Queryable::query` (files and lines as in `Query.prepare`): storage guards in order; for a group query
then `has_group` and `group` (src/world.rs:308-331), and the read guard on the group is kept. -/
def openQuery (cfg : Config) : Query → Prog V → Prog V
  | .comp m t, p => store cfg t m p
  | .with2 a b, p => openQuery cfg a (openQuery cfg b p)
  | .with3 a b c, p => openQuery cfg a (openQuery cfg b (openQuery cfg c p))
  | .with4 a b c d, p => openQuery cfg a (openQuery cfg b (openQuery cfg c (openQuery cfg d p)))
  | .with5 a b c d e, p =>
    openQuery cfg a (openQuery cfg b (openQuery cfg c (openQuery cfg d (openQuery cfg e p))))
  | .withoutL a b, p => openQuery cfg a (openQuery cfg b p)
  | .withoutR a b, p => openQuery cfg a (openQuery cfg b p)
  | .group k ma mb a b, p =>
    if cfg.registered a && cfg.registered b then
      store cfg a ma <| store cfg b mb <|
        match position cfg ⟨k, a, b⟩ with
        | some pos => visitGroups (List.range (pos + 1)) <| visitGroups (List.range (pos + 1)) <|
            .acq (.group pos) .ref p
        | none => visitGroups (List.range cfg.groups.length) .panic
    else .panic

/-- The guards an open query holds, in the order they were taken. -/
def queryGuards (cfg : Config) : Query → List Guard
  | .comp m t => [(.store t, m)]
  | .with2 a b => queryGuards cfg a ++ queryGuards cfg b
  | .with3 a b c => queryGuards cfg a ++ queryGuards cfg b ++ queryGuards cfg c
  | .with4 a b c d => queryGuards cfg a ++ queryGuards cfg b ++ queryGuards cfg c ++ queryGuards cfg d
  | .with5 a b c d e =>
    queryGuards cfg a ++ queryGuards cfg b ++ queryGuards cfg c ++ queryGuards cfg d ++ queryGuards cfg e
  | .withoutL a b => queryGuards cfg a ++ queryGuards cfg b
  | .withoutR a b => queryGuards cfg a ++ queryGuards cfg b
  | .group k ma mb a b =>
    [(.store a, ma), (.store b, mb)] ++
      match position cfg ⟨k, a, b⟩ with
      | some pos => [(.group pos, .ref)]
      | none => []

/-- Drop guards. -/
def releaseAll : List Guard → Prog V → Prog V
  | [], p => p
  | (l, m) :: rest, p => .rel l m (releaseAll rest p)

end Prog

/-- The program of a call. -/
def ApiCall.prog {V : Type} (cfg : Config) : ApiCall V → Prog V
  /- src/world.rs:76-82: the write guard is dropped before `entity(id)` takes the read guard -/
  | .create script => .acq .em .mut <| .act .allocate fun
    | .id id => .rel .em .mut (Prog.handle cfg id script [.id id])
    | _ => .panic
  | .on id script => Prog.handle cfg id script []
  /- src/world.rs:87-94 -/
  | .createMany n batches => .acq .em .mut <| .act (.allocateN n) fun
    | .range start stop => .rel .em .mut <| .acq .em .ref <|
        Prog.batches cfg start stop batches <| .rel .em .ref (.done [.range start stop])
    | _ => .panic
  | .fill start stop batches => .acq .em .ref <|
      Prog.batches cfg start stop batches <| .rel .em .ref (.done [.range start stop])
  | .remove id => Prog.remove cfg id
  /- src/world.rs:203-206 -/
  | .exist id => .acq .em .ref <| .act (.has id) fun r => .rel .em .ref (.done [r])
  | .read t id => Prog.read cfg t id fun r => .done [r]
  | .write t id v => Prog.write cfg t id v fun r => .done [r]
  /- src/world.rs:209-213 -/
  | .count t =>
    if cfg.registered t then
      .acq (.store t) .ref <| .act (.storeCount t) fun r => .rel (.store t) .ref (.done [r])
    else .done [.count none]
  /- src/world.rs:39-44 -/
  | .resRead t =>
    if cfg.res t then .acq (.res t) .ref <| .act (.resRead t) fun r => .rel (.res t) .ref (.done [r])
    else .done [.val none]
  /- src/world.rs:47-52 -/
  | .resWrite t v =>
    if cfg.res t then .acq (.res t) .mut <| .act (.resWrite t v) fun r => .rel (.res t) .mut (.done [r])
    else .done [.bool false]
  /- src/world.rs:349-353 -/
  | .query q => Prog.openQuery cfg q <| .act (.collect q) fun r =>
      Prog.releaseAll (Prog.queryGuards cfg q) (.done [r])

/-- A thread: the call it is executing (`none`: between calls), the rest of its program, the guards it
holds, and the entity its call works on (for `create_entity`: known once the id is allocated). -/
structure Thread (V : Type) where
  call : Option (ApiCall V)
  prog : Prog V
  held : List Guard
  subject : Option EntityId

/-- A thread between calls. -/
def Thread.idle {V : Type} : Thread V := { call := none, prog := .done [], held := [], subject := none }

/-- The entity a call names. -/
def ApiCall.subject {V : Type} : ApiCall V → Option EntityId
  | .on id _ => some id
  | .remove id => some id
  | _ => none

/-- The entity a call works on after a piece of work: an id just allocated; none once it is removed. -/
def Act.subjectAfter {V : Type} : Act V → Ret V → Option EntityId → Option EntityId
  | .allocate, .id id, _ => some id
  | .emRemove _, _, _ => none
  | _, _, s => s

/-- A shared world with its threads; `log` lists the finished calls, latest first, with the thread and the
results (`none`: the call panicked). -/
structure Sys (V : Type) where
  world : World V
  threads : List (Thread V)
  log : List (Nat × ApiCall V × Option (List (Ret V)))

namespace Sys
variable {V : Type}

/-- `n` threads start sharing the world. -/
def init (w : World V) (n : Nat) : Sys V := { world := w, threads := List.replicate n .idle, log := [] }

/-- May a guard on `l` be taken now? `RwLock`: no guard on `l` is held, by any thread, that may not coexist
with it. -/
def Free (σ : Sys V) (l : Lock) (m : Mode) : Prop :=
  ∀ th ∈ σ.threads, ∀ g ∈ th.held, ¬ Guard.clash (l, m) g

/-- Replace thread number `i`. -/
def setThread (σ : Sys V) (i : Nat) (th : Thread V) : Sys V := { σ with threads := σ.threads.set i th }

/-- The call of thread `i` is over: its guards are dropped (they already are after a normal return; a panic
drops them while unwinding; `parking_lot` locks are not poisoned). -/
def finish (σ : Sys V) (i : Nat) (c : ApiCall V) (r : Option (List (Ret V))) : Sys V :=
  { σ.setThread i .idle with log := (i, c, r) :: σ.log }

/-- One step of one thread. `may σ i c` says which calls `c` the client code of thread `i` may start in the
state `σ`. -/
inductive Step (cfg : Config) (may : Sys V → Nat → ApiCall V → Prop) : Sys V → Sys V → Prop
  | start {σ : Sys V} {i : Nat} {th : Thread V} {c : ApiCall V} : σ.threads[i]? = some th → th.call = none →
      may σ i c →
      Step cfg may σ (σ.setThread i { call := some c, prog := c.prog cfg, held := [], subject := c.subject })
  | acq {σ : Sys V} {i : Nat} {th : Thread V} {l : Lock} {m : Mode} {p : Prog V} :
      σ.threads[i]? = some th → th.prog = .acq l m p → σ.Free l m →
      Step cfg may σ (σ.setThread i { th with prog := p, held := (l, m) :: th.held })
  | rel {σ : Sys V} {i : Nat} {th : Thread V} {l : Lock} {m : Mode} {p : Prog V} :
      σ.threads[i]? = some th → th.prog = .rel l m p →
      Step cfg may σ (σ.setThread i { th with prog := p, held := th.held.erase (l, m) })
  | act {σ : Sys V} {i : Nat} {th : Thread V} {a : Act V} {f : Ret V → Prog V} {w : World V} {r : Ret V} :
      σ.threads[i]? = some th → th.prog = .act a f → a.run σ.world = (w, .ok r) →
      Step cfg may σ ({ σ with world := w }.setThread i
        { th with prog := f r, subject := a.subjectAfter r th.subject })
  | fault {σ : Sys V} {i : Nat} {th : Thread V} {a : Act V} {f : Ret V → Prog V} {w : World V} {e : Fault}
      {c : ApiCall V} :
      σ.threads[i]? = some th → th.prog = .act a f → a.run σ.world = (w, .error e) → th.call = some c →
      Step cfg may σ ({ σ with world := w }.finish i c none)
  | panic {σ : Sys V} {i : Nat} {th : Thread V} {c : ApiCall V} : σ.threads[i]? = some th → th.prog = .panic →
      th.call = some c → Step cfg may σ (σ.finish i c none)
  | ret {σ : Sys V} {i : Nat} {th : Thread V} {c : ApiCall V} {rs : List (Ret V)} : σ.threads[i]? = some th →
      th.prog = .done rs → th.call = some c → Step cfg may σ (σ.finish i c (some rs))

/-- Any number of steps. -/
inductive Sched (cfg : Config) (may : Sys V → Nat → ApiCall V → Prop) (σ : Sys V) : Sys V → Prop
  | refl : Sched cfg may σ σ
  | step {σ' σ'' : Sys V} : Sched cfg may σ σ' → Step cfg may σ' σ'' → Sched cfg may σ σ''

end Sys
end Xecs
