import Verif.Model.Threads
import Verif.Spec.Results
import Verif.Spec.Query
/-
Vocabulary for the properties of shared worlds.
-/
set_option autoImplicit false
namespace Xecs
variable {V : Type}

/-- The range of entities that the program is about to attach a batch of components to. -/
def Prog.fills : Prog V → Option (EntityId × EntityId)
  | .acq _ _ p => p.fills
  | .rel _ _ p => p.fills
  | .act (.batchStore start stop _ _) _ => some (start, stop)
  | _ => none

/-- The data a piece of work touches, as a list of (lock protecting it, `mut` if it is modified). -/
def Act.footprint (cfg : Config) : Act V → List Guard
  | .has _ => [(.em, .ref)]
  | .allocate => [(.em, .mut)]
  | .allocateN _ => [(.em, .mut)]
  | .emRemove _ => [(.em, .mut)]
  | .attachStore t _ _ => [(.store t, .mut)]
  | .detachStore t _ => [(.store t, .mut)]
  | .batchStore _ _ t _ => [(.store t, .mut)]
  | .storeHas t _ => [(.store t, .ref)]
  | .storeErase t _ => [(.store t, .mut)]
  | .storeRead t _ => [(.store t, .ref)]
  | .storeWrite t _ _ => [(.store t, .mut)]
  | .storeCount t => [(.store t, .ref)]
  | .groupAdd k _ => pair .mut k
  | .groupRemove k _ => pair .mut k
  | .groupErase k _ => pair .mut k
  | .groupHas k _ =>
    match cfg.groups[k]? with
    | some g => [(.group k, .ref), (.store g.a, .ref), (.store g.b, .ref)]
    | none => [(.group k, .ref)]
  | .resRead t => [(.res t, .ref)]
  | .resWrite t _ => [(.res t, .mut)]
  | .collect q => Prog.queryGuards cfg q
where
  /-- A group and its two storages. -/
  pair (m : Mode) (k : Nat) : List Guard :=
    match cfg.groups[k]? with
    | some g => [(.group k, m), (.store g.a, g.modeA), (.store g.b, g.modeB)]
    | none => [(.group k, m)]

/-- Does holding the guards `held` permit the access `g`? A write guard permits reading too. -/
def Covers (held : List Guard) (g : Guard) : Prop := g ∈ held ∨ (g.1, Mode.mut) ∈ held

/-- The piece of work a program starts with. -/
def Prog.work : Prog V → Option (Act V)
  | .act a _ => some a
  | _ => none

namespace Sys

/-- No two guards exist that may not coexist: neither two guards of one thread nor guards of different
threads. (`p`, `q` are positions in the threads' lists of guards.) -/
def Exclusive (σ : Sys V) : Prop :=
  ∀ (i j p q : Nat) (thi thj : Thread V) (g h : Guard), σ.threads[i]? = some thi → σ.threads[j]? = some thj →
    thi.held[p]? = some g → thj.held[q]? = some h → (i, p) ≠ (j, q) → ¬ g.clash h

/-- The client may start any call at any time. -/
def anything : Sys V → Nat → ApiCall V → Prop := fun _ _ _ => True

/-- The world at position `l` of two worlds is the same (the kind and types of a group are not protected by
its lock, they never change). -/
def SameAt (w w' : World V) : Lock → Prop
  | .em => w.em = w'.em
  | .store t => w.comps t = w'.comps t
  | .group k => w.groups[k]? = w'.groups[k]?
  | .res t => w.res t = w'.res t

/-- Any number of steps, with `P` holding all along. -/
inductive SchedWhile (cfg : Config) (may : Sys V → Nat → ApiCall V → Prop) (P : Sys V → Prop) (σ : Sys V) :
    Sys V → Prop
  | refl : P σ → SchedWhile cfg may P σ σ
  | step {σ' σ'' : Sys V} : SchedWhile cfg may P σ σ' → Step cfg may σ' σ'' → P σ'' →
      SchedWhile cfg may P σ σ''

/-- Thread number `i` holds a read guard on the entity table: this is what an `Entity` or `Entities` handle
consists of (src/entity.rs:10-17, 137-144). -/
def HoldsHandle (i : Nat) (σ : Sys V) : Prop :=
  ∃ th, σ.threads[i]? = some th ∧ (Lock.em, Mode.ref) ∈ th.held

/-- Thread number `i` is about to do the piece of work `a`. -/
def AboutTo (i : Nat) (a : Act V) (σ : Sys V) : Prop :=
  (σ.threads[i]?.bind fun th => th.prog.work) = some a

/-- Does thread number `i` execute the call `c`? -/
def Runs (i : Nat) (c : ApiCall V) (σ : Sys V) : Prop := ∃ th, σ.threads[i]? = some th ∧ th.call = some c

/-- Is every thread between calls? -/
def Quiet (σ : Sys V) : Prop := ∀ th ∈ σ.threads, th.call = none

end Sys

/-- `order` enumerates the registered component types, each once. -/
def Enumerates (w : World V) (order : List TypeId) : Prop :=
  order.Nodup ∧ ∀ t, t ∈ order ↔ w.hasRegistered t = true

/-- The entity modified by a piece of work done through a handle. -/
def Act.through : Act V → Option EntityId
  | .attachStore _ id _ => some id
  | .detachStore _ id => some id
  | .groupAdd _ id => some id
  | .groupRemove _ id => some id
  | _ => none

/-- Clients that do not remove entities. -/
def Sys.noRemoval : Sys V → Nat → ApiCall V → Prop := fun _ _ c => ∀ id, c ≠ .remove id

/-- The entity ids in a return value. -/
def Ret.ids : Ret V → List EntityId
  | .id n => [n]
  | .range start stop => List.range' start (stop - start)
  | _ => []

/-- The ids a finished call has handed out: `create_entity` and `create_entities` return them first. -/
def issuedBy : ApiCall V × Option (List (Ret V)) → List EntityId
  | (.create _, some (r :: _)) => r.ids
  | (.createMany _ _, some (r :: _)) => r.ids
  | _ => []

/-- The ids handed out so far by finished calls. -/
def Sys.issued (σ : Sys V) : List EntityId := σ.log.flatMap fun x => issuedBy x.2

/-! ### Disciplined clients -/

/-- Does a group of this shape own the storage of `t`? -/
def Shape.owns (g : Shape) (t : TypeId) : Bool :=
  match g.kind with
  | .full => t == g.a || t == g.b
  | .part => t == g.a
  | .non => false

/-- The component `t` of entity `id`: what `entity_component_read` shows. -/
def World.value (w : World V) (t : TypeId) (id : EntityId) : Option V :=
  match (World.componentRead t id w).2 with
  | .ok v => v
  | .error _ => none

/-- Does the call work on one existing entity through a handle, without detaching anything? -/
def ApiCall.soft : ApiCall V → Bool
  | .on _ script => script.all fun o => match o with | .detach _ => false | _ => true
  | _ => false

/-- Are all component types that the call attaches or detaches through a handle registered? -/
def ApiCall.proper (cfg : Config) : ApiCall V → Bool
  | .on _ script => script.all fun o => match o with
    | .attach t _ => cfg.registered t
    | .detach t => cfg.registered t
    | _ => true
  | _ => true

namespace Sys

/-- No thread is working on entity `id`. -/
def NoneOn (σ : Sys V) (id : EntityId) : Prop := ∀ th ∈ σ.threads, th.subject ≠ some id

/-- Only threads that do not detach are working on entity `id`. -/
def OnlySoftOn (σ : Sys V) (id : EntityId) : Prop :=
  ∀ th ∈ σ.threads, th.subject = some id → (th.call.map ApiCall.soft) = some true

/-- The groups that contain `id` can be updated one after the other when `id` is removed: none of them owns a
type of a later one. -/
def Removable (cfg : Config) (σ : Sys V) (id : EntityId) : Prop :=
  ∀ (i j : Nat) gi gj, i < j → cfg.groups[i]? = some gi → cfg.groups[j]? = some gj →
    (∀ t, (t = gi.a ∨ t = gi.b ∨ t = gj.a ∨ t = gj.b) → (σ.world.value t id).isSome = true) →
    gi.owns gj.a = false ∧ gi.owns gj.b = false

/-- Clients that coordinate their work on each entity. A thread works on an entity (through a handle, or by
removing it) only if the entity is alive and no other thread is working on it; except that several threads may
attach components to one entity at the same time. An entity is not removed while it is in two groups of which
one owns a type of the other. Ranges of entities are created without batch attaches. Everything else is
unrestricted: creating entities, reading and writing components and resources, and queries. -/
def disciplined (cfg : Config) (σ : Sys V) (_ : Nat) (c : ApiCall V) : Prop :=
  match c with
  | .on id _ => id ∈ σ.world.em.entities ∧ (σ.NoneOn id ∨ (c.soft = true ∧ σ.OnlySoftOn id))
  | .remove id => id ∈ σ.world.em.entities ∧ σ.NoneOn id ∧ σ.Removable cfg id
  | .createMany _ batches => batches = []
  | .fill _ _ _ => False
  | _ => True

/-- Clients that attach components to entities alive -- any thread to any entity at any time --, read and write
components and resources, and run queries. They do not detach components, and neither create nor remove
entities. -/
def attaching (σ : Sys V) (_ : Nat) (c : ApiCall V) : Prop :=
  match c with
  | .on id _ => id ∈ σ.world.em.entities ∧ c.soft = true
  | .create _ => False
  | .createMany _ _ => False
  | .fill _ _ _ => False
  | .remove _ => False
  | _ => True

/-! ### Deadlock -/

/-- Thread `i` is waiting for a lock. `parking_lot`'s locks are fair: a writer waits while the lock is held; a
reader waits while the lock is write-locked, and may also have to wait while another thread is waiting to write,
even if the lock is only read-locked. -/
def Blocked (σ : Sys V) (i : Nat) : Prop :=
  ∃ th l m p, σ.threads[i]? = some th ∧ th.prog = .acq l m p ∧
    (¬ σ.Free l m ∨ (m = .ref ∧ ∃ thj ∈ σ.threads, ∃ p', thj.prog = .acq l .mut p'))

/-- Thread `i` is executing a call. -/
def Running (σ : Sys V) (i : Nat) : Prop := ∃ th, σ.threads[i]? = some th ∧ th.call ≠ none

/-- Some call is running, and every running call is waiting for a lock. -/
def Deadlock (σ : Sys V) : Prop := (∃ i, σ.Running i) ∧ ∀ i, σ.Running i → σ.Blocked i

/-- The client starts no calls any more. -/
def nothing : Sys V → Nat → ApiCall V → Prop := fun _ _ _ => False

/-- Clients that attach, detach, create, remove, read, write and query, and whose storage accesses respect an order
`ρ` of the component types: queries name no groups and name their types in ascending order; entities are removed
only if the world's (arbitrary) order of storages is ascending. -/
def updating (cfg : Config) (ρ : TypeId → Nat) (_ : Sys V) (_ : Nat) (c : ApiCall V) : Prop :=
  match c with
  | .remove _ => cfg.order.Pairwise fun t u => ρ t < ρ u
  | .query q => q.Groupless ∧ q.accesses.Pairwise fun x y => ρ x.1 < ρ y.1
  | _ => True

/-- Does the call only read and write through the handle? -/
def plain (script : List (HOp V)) : Bool := script.all fun o => match o with | .read _ => true | .write _ _ => true | _ => false

/-- Clients that create entities, read and write components and resources, and query, also groups; queries name
their types in ascending order. They attach only to entities they create, in batches; they neither detach nor
remove. -/
def scanning (ρ : TypeId → Nat) (_ : Sys V) (_ : Nat) (c : ApiCall V) : Prop :=
  match c with
  | .remove _ => False
  | .on _ script => plain script = true
  | .create script => plain script = true
  | .query (.group _ _ _ a b) => ρ a < ρ b
  | .query q => q.Groupless ∧ q.accesses.Pairwise fun x y => ρ x.1 < ρ y.1
  | _ => True

end Sys

end Xecs

/-! ### Running a given schedule

Used for examples and counterexamples: concrete schedules are computed. -/
namespace Xecs
variable {V : Type}

/-- One choice of a scheduler: let thread `i` start a call, or let it do its next step. -/
inductive Choice (V : Type) where
  | start (i : Nat) (c : ApiCall V)
  | go (i : Nat)

/-- Is the lock free, as a Boolean. -/
def Sys.freeb (σ : Sys V) (l : Lock) (m : Mode) : Bool :=
  σ.threads.all fun th => th.held.all fun g => decide (¬ Guard.clash (l, m) g)

/-- Perform a choice; `none` if it is not possible. -/
def Sys.perform (cfg : Config) (mayb : Sys V → Nat → ApiCall V → Bool) (σ : Sys V) : Choice V → Option (Sys V)
  | .start i c =>
    match σ.threads[i]? with
    | none => none
    | some th =>
      match th.call with
      | some _ => none
      | none =>
        if mayb σ i c then
          some (σ.setThread i { call := some c, prog := c.prog cfg, held := [], subject := c.subject })
        else none
  | .go i =>
    match σ.threads[i]? with
    | none => none
    | some th =>
      match th.prog with
      | .acq l m p =>
        if σ.freeb l m then some (σ.setThread i { th with prog := p, held := (l, m) :: th.held }) else none
      | .rel l m p => some (σ.setThread i { th with prog := p, held := th.held.erase (l, m) })
      | .act a f =>
        match a.run σ.world with
        | (w, .ok r) =>
          some ({ σ with world := w }.setThread i
            { th with prog := f r, subject := a.subjectAfter r th.subject })
        | (w, .error _) =>
          match th.call with
          | some c => some ({ σ with world := w }.finish i c none)
          | none => none
      | .panic =>
        match th.call with
        | some c => some (σ.finish i c none)
        | none => none
      | .done rs =>
        match th.call with
        | some c => some (σ.finish i c (some rs))
        | none => none

/-- Perform a list of choices. -/
def Sys.performAll (cfg : Config) (mayb : Sys V → Nat → ApiCall V → Bool) : Sys V → List (Choice V) → Option (Sys V)
  | σ, [] => some σ
  | σ, c :: cs => (σ.perform cfg mayb c).bind fun σ' => Sys.performAll cfg mayb σ' cs

/-- Does `P` hold in every state met when performing a list of choices? -/
def Sys.allAlong (cfg : Config) (mayb : Sys V → Nat → ApiCall V → Bool) (P : Sys V → Bool) :
    Sys V → List (Choice V) → Bool
  | σ, [] => P σ
  | σ, c :: cs => P σ && match σ.perform cfg mayb c with
    | some σ' => Sys.allAlong cfg mayb P σ' cs
    | none => false

/-- `n` steps of thread `i`. -/
def goes (i n : Nat) : List (Choice V) := List.replicate n (.go i)

/-- Every thread is waiting for a lock that is not free: none can ever do a step again. -/
def Sys.stuckb (σ : Sys V) : Bool :=
  σ.threads.all fun th =>
    match th.prog with
    | .acq l m _ => !σ.freeb l m
    | _ => false

/-- `Sys.Deadlock`, as a Boolean. -/
def Sys.deadlockb (σ : Sys V) : Bool :=
  (σ.threads.any fun th => th.call.isSome) &&
  σ.threads.all fun th => th.call.isNone ||
    match th.prog with
    | .acq l m _ => !σ.freeb l m || (m == .ref && σ.threads.any fun thj =>
        match thj.prog with | .acq l' .mut _ => l' == l | _ => false)
    | _ => false

end Xecs
