import Verif.Spec.Linear
import Verif.Spec.Keeping
/-
Vocabulary for how much work a call does (C74): locking, unlocking and pieces of work done under guards are one step each, and
so are starting the call and returning from it.
-/
set_option autoImplicit false
namespace Xecs
variable {V : Type}

/-- The most steps that an operation on an `Entity` handle takes in a world with `groups` groups: for `attach` and `detach`
one storage is locked, used and unlocked; each group is locked for a look, unlocked and perhaps locked for work, and each locked
group takes two storages, works, and gives up all three. -/
def HOp.cost (groups : Nat) : HOp V → Nat
  | .attach _ _ => 3 + 9 * groups
  | .detach _ => 3 + 9 * groups
  | .read _ => 3
  | .write _ _ => 3

/-- The most steps that taking and giving up the locks of a query takes in a world with `groups` groups; a group query looks
for its group twice. -/
def Query.cost (groups : Nat) : Query → Nat
  | .comp _ _ => 2
  | .with2 a b => a.cost groups + b.cost groups
  | .with3 a b c => a.cost groups + b.cost groups + c.cost groups
  | .with4 a b c d => a.cost groups + b.cost groups + c.cost groups + d.cost groups
  | .with5 a b c d e => a.cost groups + b.cost groups + c.cost groups + d.cost groups + e.cost groups
  | .withoutL a b => a.cost groups + b.cost groups
  | .withoutR a b => a.cost groups + b.cost groups
  | .group _ _ _ _ _ => 6 + 4 * groups

/-- The most steps that a call takes, its start and its end included. It depends on the call itself, on the number of groups
and, for a removal, on the number of component types -- not on entities, components, or other threads. -/
def ApiCall.cost (cfg : Config) : ApiCall V → Nat
  | .create script => 8 + (script.map (HOp.cost cfg.groups.length)).sum
  | .on _ script => 5 + (script.map (HOp.cost cfg.groups.length)).sum
  | .createMany _ batches => 7 + 3 * batches.length
  | .fill _ _ batches => 4 + 3 * batches.length
  | .remove _ => 8 + 14 * cfg.groups.length + 6 * cfg.order.length
  | .exist _ => 5
  | .read _ _ => 5
  | .write _ _ _ => 5
  | .count _ => 5
  | .resRead _ => 5
  | .resWrite _ _ => 5
  | .query q => 3 + q.cost cfg.groups.length

/-- The most steps that a call of a client that keeps things takes. -/
def KCall.cost (cfg : Config) : KCall V → Nat
  | .call c => c.cost cfg
  | .openHandle _ => 4
  | .createHandle => 7
  | .createHandles _ batches => 6 + 3 * batches.length
  | .openStore _ _ => 3
  | .openView q => 3 + q.cost cfg.groups.length
  | .openRes _ _ => 3
  | .viaHandle _ script => 2 + (script.map (HOp.cost cfg.groups.length)).sum
  | .viaHandles _ _ batches => 2 + 3 * batches.length
  | .storeGet _ _ => 3
  | .storeSet _ _ _ => 3
  | .storeLen _ => 3
  | .resGet _ => 3
  | .resSet _ _ => 3
  | .drop k => 2 + (k.guards cfg).length

namespace Sys

/-- Steps from `σ` on, and which thread made each, latest first: the one that is not as before. -/
inductive Turns (cfg : Config) (may : Sys V → Nat → ApiCall V → Prop) (σ : Sys V) : List Nat → Sys V → Prop
  | refl : Turns cfg may σ [] σ
  | step {is : List Nat} {i : Nat} {σ' σ'' : Sys V} : Turns cfg may σ is σ' → Step cfg may σ' σ'' →
      σ''.threads[i]? ≠ σ'.threads[i]? → Turns cfg may σ (i :: is) σ''

/-- The finished calls of thread `i`. -/
def finished (σ : Sys V) (i : Nat) : List (ApiCall V) := (σ.log.filter fun x => x.1 == i).map fun x => x.2.1

/-- The calls that thread `i` has begun: the finished ones and the one that it is executing, if any. -/
def begun (σ : Sys V) (i : Nat) : List (ApiCall V) := (σ.running i).toList ++ σ.finished i

end Sys

namespace KSys

/-- As for `Sys`. -/
inductive Turns (cfg : Config) (may : KSys V → Nat → KCall V → Prop) (σ : KSys V) : List Nat → KSys V → Prop
  | refl : Turns cfg may σ [] σ
  | step {is : List Nat} {i : Nat} {σ' σ'' : KSys V} : Turns cfg may σ is σ' → Step cfg may σ' σ'' →
      σ''.threads[i]? ≠ σ'.threads[i]? → Turns cfg may σ (i :: is) σ''

/-- The finished calls of thread `i`. -/
def finished (σ : KSys V) (i : Nat) : List (KCall V) := (σ.log.filter fun x => x.1 == i).map fun x => x.2.1

/-- The calls that thread `i` has begun. -/
def begun (σ : KSys V) (i : Nat) : List (KCall V) := (σ.running i).toList ++ σ.finished i

end KSys
end Xecs
