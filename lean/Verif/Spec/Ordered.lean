import Verif.Spec.Keeping
/-
Clients that keep handles, guards and queries, and take locks in order.
-/
set_option autoImplicit false
namespace Xecs
variable {V : Type}

/-! ### Which locks a call may take -/

/-- All groups. -/
def Config.groupLocks (cfg : Config) : List Lock := (List.range cfg.groups.length).map .group

/-- The storages of the groups that have the type `t`. -/
def Config.partners (cfg : Config) (t : TypeId) : List Lock :=
  (cfg.groups.filter fun g => g.touches t).flatMap fun g => [.store g.a, .store g.b]

/-- For a call on a handle: the storage; if components come or go, also the groups and the storages of those groups
that have the type. -/
def HOp.locks (cfg : Config) : HOp V → List Lock
  | .attach t _ => .store t :: (cfg.groupLocks ++ cfg.partners t)
  | .detach t => .store t :: (cfg.groupLocks ++ cfg.partners t)
  | .read t => [.store t]
  | .write t _ => [.store t]

/-- For a query: the storages, and the groups if it names any. -/
def Query.locks (cfg : Config) : Query → List Lock
  | .comp _ t => [.store t]
  | .with2 a b => locks cfg a ++ locks cfg b
  | .with3 a b c => locks cfg a ++ locks cfg b ++ locks cfg c
  | .with4 a b c d => locks cfg a ++ locks cfg b ++ locks cfg c ++ locks cfg d
  | .with5 a b c d e => locks cfg a ++ locks cfg b ++ locks cfg c ++ locks cfg d ++ locks cfg e
  | .withoutL a b => locks cfg a ++ locks cfg b
  | .withoutR a b => locks cfg a ++ locks cfg b
  | .group _ _ _ a b => .store a :: .store b :: cfg.groupLocks

/-- For a call. -/
def ApiCall.locks (cfg : Config) : ApiCall V → List Lock
  | .create script => .em :: script.flatMap (HOp.locks cfg)
  | .on _ script => .em :: script.flatMap (HOp.locks cfg)
  | .createMany _ batches => .em :: batches.map fun b => .store b.1
  | .fill _ _ batches => .em :: batches.map fun b => .store b.1
  | .remove _ => .em :: (cfg.groupLocks ++ cfg.groups.flatMap (fun g => [.store g.a, .store g.b]) ++
      cfg.order.map .store)
  | .exist _ => [.em]
  | .read t _ => [.store t]
  | .write t _ _ => [.store t]
  | .count t => [.store t]
  | .resRead t => [.res t]
  | .resWrite t _ => [.res t]
  | .query q => q.locks cfg

/-- For a call of a client that keeps things: none if it goes through a guard that is kept, and none for dropping. -/
def KCall.locks (cfg : Config) : KCall V → List Lock
  | .call c => c.locks cfg
  | .openHandle _ => [.em]
  | .createHandle => [.em]
  | .createHandles _ batches => .em :: batches.map fun b => .store b.1
  | .openStore t _ => [.store t]
  | .openView q => q.locks cfg
  | .openRes t _ => [.res t]
  | .viaHandle _ script => script.flatMap (HOp.locks cfg)
  | .viaHandles _ _ batches => batches.map fun b => .store b.1
  | .storeGet _ _ => []
  | .storeSet _ _ _ => []
  | .storeLen _ => []
  | .resGet _ => []
  | .resSet _ _ => []
  | .drop _ => []

/-! ### Two orders -/

namespace Lock

/-- The entity table, the groups by age, the storages by `ρ` of their type, the resources by `ρ`. -/
def groupsFirst (ρ : TypeId → Nat) : Lock → Nat × Nat
  | .em => (0, 0)
  | .group k => (1, k)
  | .store t => (2, ρ t)
  | .res t => (3, ρ t)

/-- The entity table, the storages by `ρ` of their type, the resources by `ρ`, the groups. -/
def storesFirst (ρ : TypeId → Nat) : Lock → Nat × Nat
  | .em => (0, 0)
  | .store t => (1, ρ t)
  | .res t => (2, ρ t)
  | .group _ => (3, 0)

/-- Strictly before, in the lexicographic order. -/
def Before (rank : Lock → Nat × Nat) (l l' : Lock) : Prop :=
  (rank l).1 < (rank l').1 ∨ ((rank l).1 = (rank l').1 ∧ (rank l).2 < (rank l').2)

/-- Is it a group? -/
def isGroup : Lock → Bool
  | .group _ => true
  | _ => false

end Lock

namespace KSys

/-- A client that keeps things takes a lock only after all those it keeps: every lock the call may take comes after every
lock of something that is kept. -/
def Later (cfg : Config) (rank : Lock → Nat × Nat) (σ : KSys V) (i : Nat) (c : KCall V) : Prop :=
  ∀ l ∈ c.locks cfg, ∀ th, σ.threads[i]? = some th → ∀ k ∈ th.kept, ∀ g ∈ k.guards cfg, Lock.Before rank g.1 l

/-- The same, with groups not counted: for clients that take no group for writing. -/
def LaterScan (cfg : Config) (rank : Lock → Nat × Nat) (σ : KSys V) (i : Nat) (c : KCall V) : Prop :=
  ∀ l ∈ c.locks cfg, l.isGroup = false → ∀ th, σ.threads[i]? = some th → ∀ k ∈ th.kept, ∀ g ∈ k.guards cfg,
    g.1.isGroup = false → Lock.Before rank g.1 l

/-- The clients of `Sys.updating` that keep things, and take locks in order. -/
def updating (cfg : Config) (ρ : TypeId → Nat) (σ : KSys V) (i : Nat) (c : KCall V) : Prop :=
  keeping (Sys.updating cfg ρ) σ i c ∧ σ.Later cfg (Lock.groupsFirst ρ) i c

/-- The clients of `Sys.scanning` that keep things, and take locks in order. -/
def scanning (cfg : Config) (ρ : TypeId → Nat) (σ : KSys V) (i : Nat) (c : KCall V) : Prop :=
  keeping (Sys.scanning ρ) σ i c ∧ σ.LaterScan cfg (Lock.storesFirst ρ) i c

/-- Clients that only drop what they keep. -/
def dropping (_ : KSys V) (_ : Nat) (c : KCall V) : Prop := ∃ k, c = .drop k

/-! ### Waiting -/

/-- Thread `i` is executing a call and wants a lock that thread `j` holds a conflicting guard on; or it wants to read,
and thread `j` is waiting to write (a fair lock lets the writer go first). -/
def Waits (σ : KSys V) (i j : Nat) : Prop :=
  ∃ thi thj l m p, σ.threads[i]? = some thi ∧ σ.threads[j]? = some thj ∧ thi.call ≠ none ∧ thi.prog = .acq l m p ∧
    ((∃ g ∈ thj.held, Guard.clash (l, m) g) ∨ (m = .ref ∧ ∃ p', thj.prog = .acq l .mut p'))

/-- Threads that all wait for one another (or themselves). -/
def Circle (σ : KSys V) (S : Nat → Prop) : Prop := (∃ i, S i) ∧ ∀ i, S i → ∃ j, S j ∧ σ.Waits i j

/-- Thread `i` is executing a call and wants a lock that thread `j` holds a conflicting guard on. -/
def HeldUp (σ : KSys V) (i j : Nat) : Prop :=
  ∃ thi thj l m p, σ.threads[i]? = some thi ∧ σ.threads[j]? = some thj ∧ thi.call ≠ none ∧ thi.prog = .acq l m p ∧
    ∃ g ∈ thj.held, Guard.clash (l, m) g

/-- All threads are between calls and keep nothing. -/
def AtRest (σ : KSys V) : Prop := ∀ th ∈ σ.threads, th.call = none ∧ th.kept = []

end KSys
end Xecs
