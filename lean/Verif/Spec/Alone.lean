import Verif.Spec.Threads
/-
Vocabulary for calls that run while no other thread is executing a call: what they do in terms of the
sequential operations of Model/World.lean, and which guards they take.
-/
set_option autoImplicit false
namespace Xecs
variable {V : Type}

/-! ### The sequential meaning of a call -/

/-- One call on an `Entity` handle of entity `id`. -/
def HOp.alone (id : EntityId) : HOp V → M V (Ret V)
  | .attach t v => do World.entityAttach id t v; pure .unit
  | .detach t => do pure (.val (← World.entityDetach id t))
  | .read t => do pure (.val (← World.componentRead t id))
  | .write t v => do pure (.bool (← World.componentWrite t id v))

/-- A chain of calls on an `Entity` handle: the results, in order. -/
def HOp.aloneAll (id : EntityId) : List (HOp V) → M V (List (Ret V))
  | [] => pure []
  | o :: os => do
    let r ← o.alone id
    let rs ← aloneAll id os
    pure (r :: rs)

/-- `world.entity(id).unwrap()` -/
def World.entityUnwrap (id : EntityId) : M V EntityId := do
  let h ← World.entity id
  M.read fun _ => unwrapR h

/-- What a call does when nothing else happens: the sequential operations of Model/World.lean. -/
def ApiCall.alone (order : List TypeId) : ApiCall V → M V (List (Ret V))
  | .create script => do
    let id ← World.createEntity
    let rs ← HOp.aloneAll id script
    pure (.id id :: rs)
  | .on id script => do
    let id ← World.entityUnwrap id
    HOp.aloneAll id script
  | .createMany n batches => do
    let r ← World.createEntities n
    M.forEach batches fun b => World.attachBatch r.1 r.2 b.1 b.2
    pure [.range r.1 r.2]
  | .fill start stop batches => do
    M.forEach batches fun b => World.attachBatch start stop b.1 b.2
    pure [.range start stop]
  | .remove id => do World.removeEntity order id; pure [.unit]
  | .exist id => do pure [.bool (← World.exist id)]
  | .read t id => do pure [.val (← World.componentRead t id)]
  | .write t id v => do pure [.bool (← World.componentWrite t id v)]
  | .count t => do pure [.count (← World.storageCount t)]
  | .resRead t => do pure [.val (← World.resourceRead t)]
  | .resWrite t v => do pure [.bool (← World.resourceWrite t v)]
  | .query q => do pure [.items (← M.read fun w => w.results q)]

/-! ### The guards a call takes -/

/-- The guards one call on a handle takes (and drops again). `attach` and `detach` of a component of type `t`:
write access to its storage; a look at every group; for every group that has the type `t`, write access to the
group, and access to its storages -- write access to those it owns. -/
def HOp.needs (cfg : Config) : HOp V → List Guard
  | .attach t _ => touch t
  | .detach t => touch t
  | .read t => if cfg.registered t then [(.store t, .ref)] else []
  | .write t _ => if cfg.registered t then [(.store t, .mut)] else []
where
  touch (t : TypeId) : List Guard :=
    [(.store t, .mut)] ++ cfg.indexed.map (fun x => (.group x.1, .ref)) ++
      (cfg.indexed.filter fun x => x.2.touches t).flatMap fun x =>
        [(.group x.1, .mut), (.store x.2.a, x.2.modeA), (.store x.2.b, x.2.modeB)]

/-- The guards starting a query takes: those on the storages it names; for a group, also read guards on the
groups made before it (while looking for it) and on the group itself. -/
def Query.needs (cfg : Config) : Query → List Guard
  | .comp m t => [(.store t, m)]
  | .with2 a b => a.needs cfg ++ b.needs cfg
  | .with3 a b c => a.needs cfg ++ b.needs cfg ++ c.needs cfg
  | .with4 a b c d => a.needs cfg ++ b.needs cfg ++ c.needs cfg ++ d.needs cfg
  | .with5 a b c d e => a.needs cfg ++ b.needs cfg ++ c.needs cfg ++ d.needs cfg ++ e.needs cfg
  | .withoutL a b => a.needs cfg ++ b.needs cfg
  | .withoutR a b => a.needs cfg ++ b.needs cfg
  | .group k ma mb a b =>
    [(.store a, ma), (.store b, mb)] ++
      (List.range ((cfg.groups.idxOf ⟨k, a, b⟩) + 1)).map fun i => (.group i, .ref)

/-- Does the world list `id` in the group at position `k`? -/
def World.groupLists (w : World V) (id : EntityId) (k : Nat) : Bool :=
  match w.groups[k]? with
  | some g => match w.needRemove id g with
    | .ok b => b
    | .error _ => false
  | none => false

/-- The guards a call takes before it returns, in the world `w`. Removing an entity: the entity table, first for
reading, at the end for writing; read access to all groups and storages, and write access to the groups that
list the entity and to the storages that hold a component of it. -/
def ApiCall.needs (cfg : Config) (w : World V) : ApiCall V → List Guard
  | .create script => [(.em, .mut), (.em, .ref)] ++ script.flatMap (HOp.needs cfg)
  | .on _ script => [(.em, .ref)] ++ script.flatMap (HOp.needs cfg)
  | .createMany _ batches => [(.em, .mut), (.em, .ref)] ++ batches.map fun b => (.store b.1, .mut)
  | .fill _ _ batches => (.em, .ref) :: batches.map fun b => (.store b.1, .mut)
  | .remove id => [(.em, .ref), (.em, .mut)] ++
      cfg.indexed.map (fun x => (.group x.1, .ref)) ++
      (cfg.indexed.filter fun x => w.groupLists id x.1).map (fun x => (.group x.1, .mut)) ++
      cfg.order.map (fun t => (.store t, .ref)) ++
      (cfg.order.filter fun t => match w.comps t with
        | some st => st.set.exist id
        | none => false).map (fun t => (.store t, .mut))
  | .exist _ => [(.em, .ref)]
  | .read t _ => if cfg.registered t then [(.store t, .ref)] else []
  | .write t _ _ => if cfg.registered t then [(.store t, .mut)] else []
  | .count t => if cfg.registered t then [(.store t, .ref)] else []
  | .resRead t => if cfg.res t then [(.res t, .ref)] else []
  | .resWrite t _ => if cfg.res t then [(.res t, .mut)] else []
  | .query q => q.needs cfg

/-! ### One call, everybody else idle -/

namespace Sys

/-- `n` threads share the world; thread `i` has just started the call `c` while it keeps the guards `kept`
(of handles, component guards or iterators that it has not dropped); all others are between calls and keep
nothing. -/
def calling (cfg : Config) (w : World V) (n i : Nat) (c : ApiCall V) (kept : List Guard) : Sys V :=
  (Sys.init w n).setThread i { call := some c, prog := c.prog cfg, held := kept, subject := c.subject }

/-- The call is over, with the result `r` (`none`: it panicked), leaving the world `w`. -/
def over (w : World V) (n i : Nat) (c : ApiCall V) (r : Option (List (Ret V))) : Sys V :=
  { world := w, threads := List.replicate n .idle, log := [(i, c, r)] }

/-- If no thread starts another call, the system inevitably gets from `σ` to `σ'`: from wherever it gets, it
can go on to `σ'`, and there it stays. -/
def Inevitably (cfg : Config) (σ σ' : Sys V) : Prop :=
  (∀ σ1, σ.Sched cfg nothing σ1 → σ1.Sched cfg nothing σ') ∧ ∀ σ2, ¬ σ'.Step cfg nothing σ2

/-- The call of thread `i` never returns, and it leaves the world as `w` while it waits for ever. -/
def Hangs (cfg : Config) (σ : Sys V) (i : Nat) (c : ApiCall V) (w : World V) : Prop :=
  ∃ σ', σ.Inevitably cfg σ' ∧ σ'.world = w ∧ σ'.Runs i c ∧ σ'.Blocked i

end Sys

/-- May the guard `g` be taken while the guards `kept` are held? -/
def Guard.fits (g : Guard) (kept : List Guard) : Prop := ∀ h ∈ kept, ¬ g.clash h

end Xecs
