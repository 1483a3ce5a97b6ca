import Verif.Spec.Threads
import Verif.Spec.Answer
import Verif.Spec.Keeping
/-
Clients that work on one entity from several threads at the same time.
-/
set_option autoImplicit false
namespace Xecs
variable {V : Type}

/-- The chain of operations a call performs through the handle of one entity, existing or created by it. -/
def ApiCall.chain : ApiCall V → Option (List (HOp V))
  | .on _ ops => some ops
  | .create ops => some ops
  | _ => none

/-- The batches of components a call attaches. -/
def ApiCall.batches : ApiCall V → List (TypeId × List V)
  | .createMany _ bs => bs
  | .fill _ _ bs => bs
  | _ => []

/-- Does the chain detach a type of the group? -/
def Shape.cutBy (g : Shape) (ops : List (HOp V)) : Bool :=
  ops.any fun o => match o with
    | .detach t => g.touches t
    | _ => false

/-- Does the chain attach a type of the group? -/
def Shape.fedBy (g : Shape) (ops : List (HOp V)) : Bool :=
  ops.any fun o => match o with
    | .attach t _ => g.touches t
    | _ => false

/-- Two chains that must not be performed on one entity at the same time: one of them detaches a type of a group, and
the other attaches a type of the same group. -/
def Conflicting (cfg : Config) (ops ops' : List (HOp V)) : Prop :=
  ∃ g ∈ cfg.groups, (g.cutBy ops = true ∧ g.fedBy ops' = true) ∨ (g.fedBy ops = true ∧ g.cutBy ops' = true)

namespace Sys

/-- Entity `id` has just been created by a call that creates a range of entities and has still components to attach to
them: nobody has been told about the entity yet. -/
def Filling (σ : Sys V) (id : EntityId) : Prop :=
  ∃ th ∈ σ.threads, ∃ start stop, th.prog.fills = some (start, stop) ∧ start ≤ id ∧ id < stop

/-- The calls at work on entity `id` are chains that do not conflict with `ops`. -/
def Peaceful (cfg : Config) (σ : Sys V) (id : EntityId) (ops : List (HOp V)) : Prop :=
  ∀ th ∈ σ.threads, th.subject = some id →
    ∃ c ops', th.call = some c ∧ c.chain = some ops' ∧ ¬ Conflicting cfg ops ops'

/-- Considerate clients: any number of threads may attach and detach components of one entity at the same time,
as long as none of them detaches a type of a group while another one attaches a type of the same group.
An entity is removed only while no other thread works on it, and not while it is in two groups of which one owns a
type of the other. Ranges of entities may be created together with their components, each type once; until all
components are there, nobody attaches to, detaches from or removes one of these entities. The same holds for batches
attached to a range of entities later, through its handle; these entities have no components of the types attached, and
nobody works on them. Everything else is
unrestricted: creating entities, reading and writing components and resources, and queries. -/
def considerate (cfg : Config) (σ : Sys V) (_ : Nat) (c : ApiCall V) : Prop :=
  match c with
  | .on id ops => id ∈ σ.world.em.entities ∧ ¬ σ.Filling id ∧ σ.Peaceful cfg id ops
  | .remove id => id ∈ σ.world.em.entities ∧ ¬ σ.Filling id ∧ σ.NoneOn id ∧ σ.Removable cfg id
  | .createMany _ batches => (batches.map Prod.fst).Nodup
  | .fill start stop batches => start ≤ stop ∧ (batches.map Prod.fst).Nodup ∧ ∀ id, start ≤ id → id < stop →
      id ∈ σ.world.em.entities ∧ ¬ σ.Filling id ∧ σ.NoneOn id ∧ ∀ b ∈ batches, σ.world.value b.1 id = none
  | _ => True

/-- Batches of components of type `t` have been attached by a call that has returned. -/
def Batched (σ : Sys V) (t : TypeId) : Prop :=
  ∃ i c r vs, (i, c, r) ∈ σ.log ∧ (t, vs) ∈ ApiCall.batches c

/-- No batches of components of the types of the query's groups have been attached. -/
def Unbatched (σ : Sys V) (q : Query) : Prop :=
  Hist.Parts (fun _ => True) (fun _ a b => ¬ σ.Batched a ∧ ¬ σ.Batched b) q

end Sys

/-- The same for clients that keep things. -/
def KSys.Batched (σ : KSys V) (t : TypeId) : Prop :=
  ∃ i c c' r vs, (i, c, r) ∈ σ.log ∧ c.plain = some c' ∧ (t, vs) ∈ c'.batches

/-- No batches of components of the types of the query's groups have been attached. -/
def KSys.Unbatched (σ : KSys V) (q : Query) : Prop :=
  Hist.Parts (fun _ => True) (fun _ a b => ¬ σ.Batched a ∧ ¬ σ.Batched b) q

end Xecs
