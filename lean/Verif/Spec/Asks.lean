import Verif.Spec.Alone
import Verif.Spec.Ordered
/-
Vocabulary for threads waiting for themselves: the locks a call may ask for, whatever the world and whatever other
threads do meanwhile.
-/
set_option autoImplicit false
namespace Xecs
variable {V : Type}

/-- The guards a call may ask for before it returns. Removing an entity may ask for all groups and storages, for reading
and for writing. -/
def ApiCall.asks (cfg : Config) : ApiCall V → List Guard
  | .remove _ => [(.em, .ref), (.em, .mut)] ++
      cfg.indexed.flatMap (fun x => [(.group x.1, .ref), (.group x.1, .mut)]) ++
      cfg.indexed.flatMap (fun x => [(.store x.2.a, .ref), (.store x.2.a, x.2.modeA), (.store x.2.b, .ref),
        (.store x.2.b, x.2.modeB)]) ++
      cfg.order.flatMap (fun t => [(.store t, .ref), (.store t, .mut)])
  | c => c.needs cfg World.new

/-- The guards a call of a client that keeps things may ask for; those it has kept are not asked for again. -/
def KCall.asks (cfg : Config) : KCall V → List Guard
  | call c => c.asks cfg
  | openHandle _ => [(.em, .ref)]
  | createHandle => [(.em, .mut), (.em, .ref)]
  | createHandles _ batches => [(.em, .mut), (.em, .ref)] ++ batches.map fun b => (.store b.1, .mut)
  | openStore t m => [(.store t, m)]
  | openView q => q.needs cfg
  | openRes t m => [(.res t, m)]
  | viaHandle _ script => script.flatMap (HOp.needs cfg)
  | viaHandles _ _ batches => batches.map fun b => (.store b.1, .mut)
  | _ => []

/-- The query a call opens, if any. -/
def KCall.opens : KCall V → Option Query
  | call (.query q) => some q
  | openView q => some q
  | _ => none

/-- How many groups a query names. -/
def Query.groupParts : Query → Nat
  | comp _ _ => 0
  | with2 a b => groupParts a + groupParts b
  | with3 a b c => groupParts a + groupParts b + groupParts c
  | with4 a b c d => groupParts a + groupParts b + groupParts c + groupParts d
  | with5 a b c d e => groupParts a + groupParts b + groupParts c + groupParts d + groupParts e
  | withoutL a b => groupParts a + groupParts b
  | withoutR a b => groupParts a + groupParts b
  | group _ _ _ _ _ => 1

/-- The query names every component type at most once and at most one group: it takes no lock twice. -/
def Query.Single (q : Query) : Prop := (q.accesses.map Prod.fst).Nodup ∧ q.groupParts ≤ 1

instance (q : Query) : Decidable q.Single := inferInstanceAs (Decidable (_ ∧ _))

/-- Thread number `i` waits for a lock and itself holds a guard that stops it: it will wait forever. (For threads that keep
guards between calls: `KSys.Waits i i`.) -/
def Sys.WaitsForItself (σ : Sys V) (i : Nat) : Prop :=
  ∃ th l m p, σ.threads[i]? = some th ∧ th.prog = .acq l m p ∧ ∃ g ∈ th.held, Guard.clash (l, m) g

/-- Thread number `i` is about to take a lock of which it holds a guard already, for reading or for writing. Even if both are
for reading this is dangerous: a writer that comes in between waits for the first guard and the second for the writer. -/
def Sys.LocksAgain (σ : Sys V) (i : Nat) : Prop :=
  ∃ th l m p, σ.threads[i]? = some th ∧ th.prog = .acq l m p ∧ ∃ m', (l, m') ∈ th.held

@[inherit_doc Sys.LocksAgain]
def KSys.LocksAgain (τ : KSys V) (i : Nat) : Prop :=
  ∃ th l m p, τ.threads[i]? = some th ∧ th.prog = .acq l m p ∧ ∃ m', (l, m') ∈ th.held

/-- Clients whose queries have no conflicting parts. -/
def Sys.unconflicting (_ : Sys V) (_ : Nat) (c : ApiCall V) : Prop := ∀ q, c = .query q → q.Conflictless

/-- Clients whose queries name every component type at most once and at most one group. -/
def Sys.singly (_ : Sys V) (_ : Nat) (c : ApiCall V) : Prop := ∀ q, c = .query q → q.Single

/-- Clients that keep handles and guards, whose queries have no conflicting parts, and that make no call asking for a lock
that clashes with a guard the same thread has kept. -/
def KSys.unconflicting (cfg : Config) (τ : KSys V) (i : Nat) (c : KCall V) : Prop :=
  (∀ q, c.opens = some q → q.Conflictless) ∧ ∀ g ∈ c.asks cfg, ∀ h, τ.KeepsGuard cfg i h → ¬ g.clash h

/-- Clients that keep handles and guards, whose queries name every component type at most once and at most one group, and
that make no call asking for a lock of which the same thread has kept a guard. -/
def KSys.singly (cfg : Config) (τ : KSys V) (i : Nat) (c : KCall V) : Prop :=
  (∀ q, c.opens = some q → q.Single) ∧ ∀ g ∈ c.asks cfg, ∀ h, τ.KeepsGuard cfg i h → g.1 ≠ h.1

end Xecs
