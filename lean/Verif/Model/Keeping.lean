import Verif.Model.Threads
/-
Threads that keep what they got: `Entity` handles, storage guards, query iterators and resource guards are values
which a client may hold on to while it makes other calls (also calls that wait for what it holds itself). Model/Threads
drops them at the end of the statement that created them; here they live until the client drops them.
-/
set_option autoImplicit false
namespace Xecs

/-- Something a client keeps. -/
inductive Keep where
  /-- an `Entity` handle (src/entity.rs:10-17) -/
  | handle (id : EntityId)
  /-- an `Entities` handle (src/entity.rs:137-144) -/
  | handles (start stop : EntityId)
  /-- a `StorageRead`/`StorageWrite` (src/component.rs:66-69, 129-132), or a `ComponentRead`/`ComponentWrite`
  (src/component.rs:213-216, 244-247), which holds the same guard -/
  | store (t : TypeId) (m : Mode)
  /-- an open query (src/query/mod.rs, src/group/*/query.rs) -/
  | view (q : Query)
  /-- a `ResourceRead`/`ResourceWrite` (src/resource.rs:18-21, 64-67) -/
  | res (t : TypeId) (m : Mode)
  deriving DecidableEq

/-- The guards in it. -/
def Keep.guards (cfg : Config) : Keep → List Guard
  | .handle _ => [(.em, .ref)]
  | .handles _ _ => [(.em, .ref)]
  | .store t m => [(.store t, m)]
  | .view q => Prog.queryGuards cfg q
  | .res t m => [(.res t, m)]

/-- The calls of a client that keeps things. -/
inductive KCall (V : Type) where
  /-- a call as in Model/Threads: what it creates is dropped when it is over -/
  | call (c : ApiCall V)
  /-- `let e = world.entity(id).unwrap()`, src/world.rs:247-254 -/
  | openHandle (id : EntityId)
  /-- `let e = world.create_entity()`, src/world.rs:76-82 -/
  | createHandle
  /-- `let es = world.create_entities(n).attach(..)...`, src/world.rs:87-94 -/
  | createHandles (n : Nat) (batches : List (TypeId × List V))
  /-- `let s = world.components_read::<T>()` or `components_write`, src/world.rs:209-220; also `entity_component_read`
  and `entity_component_write` (223-244), as far as the guard goes. Nothing is kept if the type is not registered. -/
  | openStore (t : TypeId) (m : Mode)
  /-- `let q = world.query::<Q>()`, src/world.rs:349-353; the result lists the items, with ids -/
  | openView (q : Query)
  /-- `let r = world.resource_read::<T>()` or `resource_write`, src/world.rs:39-52 -/
  | openRes (t : TypeId) (m : Mode)
  /-- calls on an `Entity` handle that was kept -/
  | viaHandle (id : EntityId) (script : List (HOp V))
  /-- batch attaches on an `Entities` handle that was kept: `let es = es.attach(..)...`, src/entity.rs:161-184. (The method
  consumes the handle and returns it; if it panics the handle is lost, which the model shows as a `drop` that may follow.) -/
  | viaHandles (start stop : EntityId) (batches : List (TypeId × List V))
  /-- reading a component through a guard that was kept: `StorageRead::get` (src/component.rs:99-102), an item of a
  query, ... -/
  | storeGet (t : TypeId) (id : EntityId)
  /-- writing a component through a guard that was kept: `StorageWrite::get_mut` (src/component.rs:184-187), an item of
  a query, ... -/
  | storeSet (t : TypeId) (id : EntityId) (v : V)
  /-- `count()` on a storage guard that was kept, src/component.rs:85-88, 148-151 -/
  | storeLen (t : TypeId)
  /-- reading a resource through a guard that was kept -/
  | resGet (t : TypeId)
  /-- writing a resource through a guard that was kept -/
  | resSet (t : TypeId) (v : V)
  /-- dropping something -/
  | drop (k : Keep)
  deriving DecidableEq

namespace KCall
variable {V : Type}

/-- The program of a call. Guards that the client keeps are not dropped at the end; guards that it has kept are not
taken again. (A kept guard's type is registered; the tests in `storeGet`... only make the programs meaningful by
themselves.) -/
def prog (cfg : Config) : KCall V → Prog V
  | call c => c.prog cfg
  | openHandle id => .acq .em .ref <| .act (.has id) fun
    | .bool true => .done []
    | _ => .panic
  | createHandle => .acq .em .mut <| .act .allocate fun
    | .id id => .rel .em .mut <| .acq .em .ref <| .act (.has id) fun
      | .bool true => .done [.id id]
      | _ => .panic
    | _ => .panic
  | createHandles n batches => .acq .em .mut <| .act (.allocateN n) fun
    | .range start stop => .rel .em .mut <| .acq .em .ref <|
        Prog.batches cfg start stop batches <| .done [.range start stop]
    | _ => .panic
  | openStore t m => if cfg.registered t then .acq (.store t) m (.done [.bool true]) else .done [.bool false]
  | openView q => Prog.openQuery cfg q <| .act (.collect q) fun r => .done [r]
  | openRes t m => if cfg.res t then .acq (.res t) m (.done [.bool true]) else .done [.bool false]
  | viaHandle id script => Prog.script cfg id script [] fun rs => .done rs
  | viaHandles start stop batches => Prog.batches cfg start stop batches <| .done [.range start stop]
  | storeGet t id => if cfg.registered t then .act (.storeRead t id) fun r => .done [r] else .done [.val none]
  | storeSet t id v => if cfg.registered t then .act (.storeWrite t id v) fun r => .done [r] else .done [.bool false]
  | storeLen t => if cfg.registered t then .act (.storeCount t) fun r => .done [r] else .done [.count none]
  | resGet t => if cfg.res t then .act (.resRead t) fun r => .done [r] else .done [.val none]
  | resSet t v => if cfg.res t then .act (.resWrite t v) fun r => .done [r] else .done [.bool false]
  | drop k => Prog.releaseAll (k.guards cfg) (.done [])

/-- What the client has got when the call returns `rs`. -/
def keeps (cfg : Config) : KCall V → List (Ret V) → List Keep
  | openHandle id, _ => [.handle id]
  | createHandle, [.id id] => [.handle id]
  | createHandles _ _, [.range start stop] => [.handles start stop]
  | openStore t m, _ => if cfg.registered t then [.store t m] else []
  | openView q, _ => [.view q]
  | openRes t m, _ => if cfg.res t then [.res t m] else []
  | _, _ => []

/-- What is left of the things kept once the call has begun. -/
def leaves : KCall V → List Keep → List Keep
  | drop k, kept => kept.erase k
  | _, kept => kept

/-- May a client that keeps `kept` make the call? It needs the handle or guard that the call goes through. -/
def Permitted (cfg : Config) (kept : List Keep) : KCall V → Prop
  | viaHandle id _ => .handle id ∈ kept
  | viaHandles start stop _ => .handles start stop ∈ kept
  | storeGet t _ => ∃ k ∈ kept, (.store t, .ref) ∈ k.guards cfg ∨ (.store t, .mut) ∈ k.guards cfg
  | storeLen t => ∃ k ∈ kept, (.store t, .ref) ∈ k.guards cfg ∨ (.store t, .mut) ∈ k.guards cfg
  | storeSet t _ _ => ∃ k ∈ kept, (.store t, .mut) ∈ k.guards cfg
  | resGet t => ∃ k ∈ kept, (.res t, .ref) ∈ k.guards cfg ∨ (.res t, .mut) ∈ k.guards cfg
  | resSet t _ => ∃ k ∈ kept, (.res t, .mut) ∈ k.guards cfg
  | drop k => k ∈ kept
  | _ => True

/-- The entity a call names. -/
def subject : KCall V → Option EntityId
  | call c => c.subject
  | openHandle id => some id
  | viaHandle id _ => some id
  | _ => none

end KCall

/-- A thread, as in Model/Threads, and what it keeps. -/
structure KThread (V : Type) where
  call : Option (KCall V)
  prog : Prog V
  held : List Guard
  subject : Option EntityId
  kept : List Keep

/-- A thread that keeps nothing, between calls. -/
def KThread.idle {V : Type} : KThread V := { call := none, prog := .done [], held := [], subject := none, kept := [] }

/-- A shared world with its threads and the finished calls, as in Model/Threads. -/
structure KSys (V : Type) where
  world : World V
  threads : List (KThread V)
  log : List (Nat × KCall V × Option (List (Ret V)))

namespace KSys
variable {V : Type}

/-- `n` threads start sharing the world. -/
def init (w : World V) (n : Nat) : KSys V := { world := w, threads := List.replicate n .idle, log := [] }

/-- May a guard on `l` be taken now? -/
def Free (σ : KSys V) (l : Lock) (m : Mode) : Prop :=
  ∀ th ∈ σ.threads, ∀ g ∈ th.held, ¬ Guard.clash (l, m) g

/-- Replace thread number `i`. -/
def setThread (σ : KSys V) (i : Nat) (th : KThread V) : KSys V := { σ with threads := σ.threads.set i th }

/-- The call of thread `i` is over; `th` is what becomes of the thread. -/
def finish (σ : KSys V) (i : Nat) (th : KThread V) (c : KCall V) (r : Option (List (Ret V))) : KSys V :=
  { σ.setThread i th with log := (i, c, r) :: σ.log }

/-- One step of one thread. A panic drops the guards the call has taken; what the client kept before, it keeps (and may
drop next, if the panic unwinds further). -/
inductive Step (cfg : Config) (may : KSys V → Nat → KCall V → Prop) : KSys V → KSys V → Prop
  | start {σ : KSys V} {i : Nat} {th : KThread V} {c : KCall V} : σ.threads[i]? = some th → th.call = none →
      c.Permitted cfg th.kept → may σ i c →
      Step cfg may σ (σ.setThread i { th with
        call := some c, prog := c.prog cfg, subject := c.subject, kept := c.leaves th.kept })
  | acq {σ : KSys V} {i : Nat} {th : KThread V} {l : Lock} {m : Mode} {p : Prog V} :
      σ.threads[i]? = some th → th.prog = .acq l m p → σ.Free l m →
      Step cfg may σ (σ.setThread i { th with prog := p, held := (l, m) :: th.held })
  | rel {σ : KSys V} {i : Nat} {th : KThread V} {l : Lock} {m : Mode} {p : Prog V} :
      σ.threads[i]? = some th → th.prog = .rel l m p →
      Step cfg may σ (σ.setThread i { th with prog := p, held := th.held.erase (l, m) })
  | act {σ : KSys V} {i : Nat} {th : KThread V} {a : Act V} {f : Ret V → Prog V} {w : World V} {r : Ret V} :
      σ.threads[i]? = some th → th.prog = .act a f → a.run σ.world = (w, .ok r) →
      Step cfg may σ ({ σ with world := w }.setThread i
        { th with prog := f r, subject := a.subjectAfter r th.subject })
  | fault {σ : KSys V} {i : Nat} {th : KThread V} {a : Act V} {f : Ret V → Prog V} {w : World V} {e : Fault}
      {c : KCall V} :
      σ.threads[i]? = some th → th.prog = .act a f → a.run σ.world = (w, .error e) → th.call = some c →
      Step cfg may σ ({ σ with world := w }.finish i { th with
        call := none, prog := .done [], held := th.kept.flatMap (Keep.guards cfg), subject := none } c none)
  | panic {σ : KSys V} {i : Nat} {th : KThread V} {c : KCall V} : σ.threads[i]? = some th → th.prog = .panic →
      th.call = some c →
      Step cfg may σ (σ.finish i { th with
        call := none, prog := .done [], held := th.kept.flatMap (Keep.guards cfg), subject := none } c none)
  | ret {σ : KSys V} {i : Nat} {th : KThread V} {c : KCall V} {rs : List (Ret V)} : σ.threads[i]? = some th →
      th.prog = .done rs → th.call = some c →
      Step cfg may σ (σ.finish i { th with
        call := none, prog := .done [], subject := none, kept := c.keeps cfg rs ++ th.kept } c (some rs))

/-- Any number of steps. -/
inductive Sched (cfg : Config) (may : KSys V → Nat → KCall V → Prop) (σ : KSys V) : KSys V → Prop
  | refl : Sched cfg may σ σ
  | step {σ' σ'' : KSys V} : Sched cfg may σ σ' → Step cfg may σ' σ'' → Sched cfg may σ σ''

end KSys
end Xecs
