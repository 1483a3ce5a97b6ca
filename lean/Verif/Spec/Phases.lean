import Verif.Spec.History
import Verif.Spec.Results
import Verif.Spec.Considerate
/-
Histories in which the world is sometimes used by one owner and sometimes shared by several threads.

A shared phase is described by its record: the changes made to the world, in the order in which they were made, each
with the thread that made it. Each change is written as the call on an unshared world that makes the same change.
-/
set_option autoImplicit false
namespace Xecs
open Spec
variable {V : Type}

/-- The change of the world that a piece of work makes, as a call on an unshared world with the value it returns;
`none` if it is not such a change. The groups are brought up to date by separate pieces of work, after an attach and
before a detach; and the components of a removed entity are dropped before the entity itself. `order` is the order in
which the storages are enumerated. -/
def Act.change (order : List TypeId) : Act V → Ret V → Option (Op V × Out V)
  | .allocate, .id n => some (.createEntity, .id n)
  | .allocateN n, .range a b => some (.createEntities n, .range a b)
  | .emRemove id, _ => some (.removeEntity order id, .unit)
  | .attachStore t id v, _ => some (.attach id t v, .unit)
  | .batchStore start stop t vs, _ => some (.attachBatch start stop t vs, .unit)
  | .detachStore t id, .val (some v) => some (.detach id t, .val (some v))
  | .storeWrite t id v, .bool true => some (.write t id v, .bool true)
  | .resWrite t v, .bool true => some (.resourceWrite t v, .bool true)
  | _, _ => none

namespace Sys

/-- In the step from `σ` to `σ'`, thread `i` does the piece of work `a`, which yields `r`. -/
def Works (σ : Sys V) (i : Nat) (a : Act V) (r : Ret V) (σ' : Sys V) : Prop :=
  ∃ th f w, σ.threads[i]? = some th ∧ th.prog = .act a f ∧ a.run σ.world = (w, .ok r) ∧
    σ' = { σ with world := w }.setThread i { th with prog := f r, subject := a.subjectAfter r th.subject }

/-- The change made in the step from `σ` to `σ'`, with the thread that makes it. -/
def Makes (order : List TypeId) (σ σ' : Sys V) : Option (Nat × Op V × Out V) → Prop
  | some (i, x) => ∃ a r, σ.Works i a r σ' ∧ a.change order r = some x
  | none => ∀ i a r, σ.Works i a r σ' → a.change order r = none

/-- A schedule with the changes made, latest first. -/
inductive Record (cfg : Config) (may : Sys V → Nat → ApiCall V → Prop) (σ : Sys V) :
    List (Nat × Op V × Out V) → Sys V → Prop
  | refl : Record cfg may σ [] σ
  | step {l : List (Nat × Op V × Out V)} {σ' σ'' : Sys V} {x : Option (Nat × Op V × Out V)} :
      Record cfg may σ l σ' → Step cfg may σ' σ'' → Makes cfg.order σ' σ'' x → Record cfg may σ (x.toList ++ l) σ''

end Sys

/-- What an operation on a handle that returned `r` has done to the entity. -/
def HOp.did (id : EntityId) : HOp V → Ret V → List (Op V × Out V)
  | .attach t v, _ => [(.attach id t v, .unit)]
  | .detach t, .val (some v) => [(.detach id t, .val (some v))]
  | .write t v, .bool true => [(.write t id v, .bool true)]
  | _, _ => []

/-- What a chain of operations on a handle has done, given its results; if there are fewer results than operations: what
the first ones have done. -/
def HOp.allDid (id : EntityId) : List (HOp V) → List (Ret V) → List (Op V × Out V)
  | o :: os, r :: rs => o.did id r ++ allDid id os rs
  | _, _ => []

/-- What a call with the results `rs` has done, in order; with incomplete results: the first things it has done. -/
def ApiCall.did (order : List TypeId) : ApiCall V → List (Ret V) → List (Op V × Out V)
  | .create script, .id n :: rs => (.createEntity, .id n) :: HOp.allDid n script rs
  | .on id script, rs => HOp.allDid id script rs
  | .createMany n batches, .range a b :: _ => (.createEntities n, .range a b) ::
      batches.map fun x => (.attachBatch a b x.1 x.2, .unit)
  | .fill start stop batches, _ :: _ => batches.map fun x => (.attachBatch start stop x.1 x.2, .unit)
  | .remove id, _ :: _ => [(.removeEntity order id, .unit)]
  | .write t id v, .bool true :: _ => [(.write t id v, .bool true)]
  | .resWrite t v, .bool true :: _ => [(.resourceWrite t v, .bool true)]
  | _, _ => []

/-- The finished calls `log` of a thread (latest first) have made the changes `l` (latest first). Of a call that panicked
one does not know the results, so only that it has done the first of the things it should do. -/
inductive Told (order : List TypeId) : List (ApiCall V × Option (List (Ret V))) → List (Op V × Out V) → Prop
  | nil : Told order [] []
  | cons {log : List (ApiCall V × Option (List (Ret V)))} {l : List (Op V × Out V)} {c : ApiCall V}
      {r : Option (List (Ret V))} (part : List (Op V × Out V)) : Told order log l →
      (∃ rs, part <+: c.did order rs) → (∀ rs, r = some rs → part = c.did order rs) →
      Told order ((c, r) :: log) (part.reverse ++ l)

/-- The part of a list of pairs that belongs to thread `i`. -/
def ofThread {α : Type} (i : Nat) (l : List (Nat × α)) : List α := l.filterMap fun x => if x.1 = i then some x.2 else none

/-- `Mixed tr w`: from `World::new()`, the calls recorded in `tr` have led the code to `w`, as in `Trace`; but parts of
`tr` are the changes made by several threads sharing the world in a considerate way, until all their calls were
over. -/
inductive Mixed : List (Op V × Out V) → World V → Prop
  | init : Mixed [] World.new
  | ok {tr : List (Op V × Out V)} {w w' : World V} {op : Op V} {o : Out V} :
      Mixed tr w → Hist.Allowed tr op → exec op w = (w', .ok o) → Mixed ((op, o) :: tr) w'
  | fails {tr : List (Op V × Out V)} {w w' : World V} {op : Op V} {e : Fault} :
      Mixed tr w → Hist.Allowed tr op → exec op w = (w', .error e) → Mixed tr w'
  | phase {tr : List (Op V × Out V)} {w : World V} {order : List TypeId} {n : Nat} {l : List (Nat × Op V × Out V)}
      {σ : Sys V} :
      Mixed tr w → Enumerates w order →
      (Sys.init w n).Record (Config.of w order) (Sys.considerate (Config.of w order)) l σ → σ.Quiet →
      Mixed (l.map Prod.snd ++ tr) σ.world

namespace Hist

/-- No non-owning group is named by the query. -/
def NoNon : Query → Prop := Parts (fun _ => True) (fun k _ _ => k ≠ .non)

/-- After the history `tr` leading to `w`, the query `q` is one the theorems speak about: everything it names exists, and
one of the following holds. It names no group (then the history may be anything without repeated batch attach). Or the
history consists of allowed calls and the groups it names are not affected by the known defects of batch attach and of
non-owning groups. Or parts of the history are the work of several threads; then the simpler, stronger condition on
non-owning groups (`Unmoved`) is required. -/
inductive Ready (tr : List (Op V × Out V)) (w : World V) (q : Query) : Prop
  | plain : AnyTrace tr w → NoRebatch tr → q.Groupless → Exists tr q → Ready tr w q
  | grouped : Trace tr w → Exists tr q → Undisturbed tr q → Unbatched tr q → Ready tr w q
  | shared : Mixed tr w → Exists tr q → Unmoved tr q → Unbatched tr q → Ready tr w q

end Hist

end Xecs
