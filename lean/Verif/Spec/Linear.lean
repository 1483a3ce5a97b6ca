import Verif.Spec.Threads
import Verif.Spec.Alone
/-
Atomicity of calls on a shared world.

`Atomic` describes an idealised world in which every operation takes effect at one moment between the call and the
return: this is linearizability, except that a call made of several operations (a chain on a handle, a list of batch
attaches) takes effect operation by operation, and that a removal drops the components of the entity one after the
other before the entity itself is gone.
-/
set_option autoImplicit false
namespace Xecs
variable {V : Type}

/-- What clients can find out about a world: which types are registered, which entities are alive, who has which
component, and the resources. -/
structure Shared (V : Type) where
  registered : TypeId → Bool
  alive : EntityId → Bool
  value : TypeId → EntityId → Option V
  res : TypeId → Option V

/-- The observable contents of a world. -/
def World.shared (w : World V) : Shared V :=
  { registered := w.hasRegistered
    alive := fun e => w.em.entities.contains e
    value := w.value
    res := fun t => match (World.resourceRead t w).2 with | .ok v => v | .error _ => none }

namespace Shared

/-- Give entity `id` the component `o` of type `t` (`none`: take it away). -/
def put (a : Shared V) (t : TypeId) (id : EntityId) (o : Option V) : Shared V :=
  { a with value := fun u e => if u = t ∧ e = id then o else a.value u e }

/-- Give the entities `start`, `start + 1`, ... the components `vs`. -/
def putAll (a : Shared V) (t : TypeId) (start : EntityId) (vs : List V) : Shared V :=
  { a with value := fun u e => if u = t ∧ start ≤ e ∧ e < start + vs.length then vs[e - start]? else a.value u e }

/-- Take from entity `id` the components of the types `d`. -/
def drop (a : Shared V) (id : EntityId) (d : TypeId → Bool) : Shared V :=
  { a with value := fun u e => if e = id ∧ d u = true then none else a.value u e }

/-- Change the resource `t`. -/
def putRes (a : Shared V) (t : TypeId) (v : V) : Shared V :=
  { a with res := fun u => if u = t then some v else a.res u }

end Shared

/-- What an operation on a handle does to the entity, and what it returns. -/
def HOp.effect (a : Shared V) (id : EntityId) : HOp V → Shared V × Ret V
  | .attach t v => (a.put t id (some v), .unit)
  | .detach t => (a.put t id none, .val (a.value t id))
  | .read t => (a, .val (a.value t id))
  | .write t v => (if (a.value t id).isSome then a.put t id (some v) else a, .bool (a.value t id).isSome)

/-- How far a call has got. -/
inductive Phase (V : Type) where
  /-- no call is running -/
  | idle
  /-- called, nothing done yet -/
  | called (c : ApiCall V)
  /-- working through a chain on the handle of `id`; `done` are the results so far -/
  | chain (c : ApiCall V) (id : EntityId) (todo : List (HOp V)) (done : List (Ret V))
  /-- attaching batches to the entities `start..stop` -/
  | batch (c : ApiCall V) (start stop : EntityId) (todo : List (TypeId × List V))
  /-- removing `id` -/
  | removing (c : ApiCall V) (id : EntityId)
  /-- about to return -/
  | over (c : ApiCall V) (rs : List (Ret V))

namespace Phase

/-- The running call. -/
def call : Phase V → Option (ApiCall V)
  | idle => none
  | called c => some c
  | chain c _ _ _ => some c
  | batch c _ _ _ => some c
  | removing c _ => some c
  | over c _ => some c

/-- The results, if everything has been done. -/
def result : Phase V → Option (List (Ret V))
  | over _ rs => some rs
  | chain _ _ [] rs => some rs
  | batch _ start stop [] => some [.range start stop]
  | _ => none

end Phase

/-- The answers a query may give. Without groups: each entity that matches the query, once, with the components it has.
For one owning group (only if `life`): no entity twice, and only entities having both components, with these
components. -/
structure Fits (life : Prop) (a : Shared V) (q : Query) (r : Ret V) : Prop where
  plain : q.Groupless → ∃ l, r = .items (l.map fun x => (x.1, some x.2)) ∧ Lists l (q.answer a.value)
  grouped : life → ∀ k ma mb t u, q = .group k ma mb t u → k ≠ .non →
    ∃ l : List (EntityId × Item V), r = .items (l.map fun x => (x.1, some x.2)) ∧ (l.map Prod.fst).Nodup ∧ ∀ x ∈ l, q.answer a.value x.1 = some x.2

/-- The moments at which something takes effect. With `life`, also creations, removals and `exist` are constrained. -/
inductive Point (life : Prop) : Shared V → Phase V → Shared V → Phase V → Prop
  /-- An entity is created; its id was not in use. -/
  | create {a : Shared V} {s : List (HOp V)} {id : EntityId} {al : EntityId → Bool} :
      (life → a.alive id = false ∧ ∀ e, al e = (a.alive e || e == id)) →
      Point life a (.called (.create s)) { a with alive := al } (.chain (.create s) id s [.id id])
  /-- A handle is obtained; the entity is alive. -/
  | on {a : Shared V} {id : EntityId} {s : List (HOp V)} : (life → a.alive id = true) →
      Point life a (.called (.on id s)) a (.chain (.on id s) id s [])
  /-- One operation on the handle. -/
  | op {a : Shared V} {c : ApiCall V} {id : EntityId} {o : HOp V} {ops : List (HOp V)} {rs : List (Ret V)} :
      Point life a (.chain c id (o :: ops) rs) (o.effect a id).1 (.chain c id ops (rs ++ [(o.effect a id).2]))
  /-- A range of `n` entities is created; none of the ids was in use. -/
  | createMany {a : Shared V} {n : Nat} {bs : List (TypeId × List V)} {start : EntityId} {al : EntityId → Bool} :
      (life → (∀ e, start ≤ e → e < start + n → a.alive e = false) ∧
        ∀ e, al e = (a.alive e || (decide (start ≤ e) && decide (e < start + n)))) →
      Point life a (.called (.createMany n bs)) { a with alive := al } (.batch (.createMany n bs) start (start + n) bs)
  /-- The handle of a range of entities is at hand. -/
  | fill {a : Shared V} {start stop : EntityId} {bs : List (TypeId × List V)} :
      Point life a (.called (.fill start stop bs)) a (.batch (.fill start stop bs) start stop bs)
  /-- One batch attach: the entities are alive and have no component of the type. -/
  | batch {a : Shared V} {c : ApiCall V} {start stop : EntityId} {t : TypeId} {vs : List V} {bs : List (TypeId × List V)} :
      vs.length = stop - start → (∀ e, start ≤ e → e < stop → a.value t e = none) →
      (life → ∀ e, start ≤ e → e < stop → a.alive e = true) →
      Point life a (.batch c start stop ((t, vs) :: bs)) (a.putAll t start vs) (.batch c start stop bs)
  /-- A removal begins; the entity is alive. -/
  | remove {a : Shared V} {id : EntityId} : (life → a.alive id = true) →
      Point life a (.called (.remove id)) a (.removing (.remove id) id)
  /-- A removal drops some components. -/
  | drop {a : Shared V} {c : ApiCall V} {id : EntityId} {d : TypeId → Bool} :
      Point life a (.removing c id) (a.drop id d) (.removing c id)
  /-- The entity, which has lost all components, is gone. -/
  | gone {a : Shared V} {c : ApiCall V} {id : EntityId} {al : EntityId → Bool} :
      (life → a.alive id = true ∧ (∀ t, a.value t id = none) ∧ ∀ e, al e = (a.alive e && e != id)) →
      Point life a (.removing c id) { a with alive := al } (.over c [.unit])
  /-- A living entity is reported to exist. (For others, see C10.) -/
  | exist {a : Shared V} {id : EntityId} {b : Bool} : (life → a.alive id = true → b = true) →
      Point life a (.called (.exist id)) a (.over (.exist id) [.bool b])
  | read {a : Shared V} {t : TypeId} {id : EntityId} :
      Point life a (.called (.read t id)) a (.over (.read t id) [.val (a.value t id)])
  | write {a : Shared V} {t : TypeId} {id : EntityId} {v : V} :
      Point life a (.called (.write t id v)) (if (a.value t id).isSome then a.put t id (some v) else a)
        (.over (.write t id v) [.bool (a.value t id).isSome])
  /-- `l` are the entities having the component. -/
  | count {a : Shared V} {t : TypeId} {l : List EntityId} : l.Nodup → (∀ e, e ∈ l ↔ (a.value t e).isSome = true) →
      Point life a (.called (.count t)) a (.over (.count t) [.count (if a.registered t then some l.length else none)])
  | resRead {a : Shared V} {t : TypeId} :
      Point life a (.called (.resRead t)) a (.over (.resRead t) [.val (a.res t)])
  | resWrite {a : Shared V} {t : TypeId} {v : V} :
      Point life a (.called (.resWrite t v)) (if (a.res t).isSome then a.putRes t v else a)
        (.over (.resWrite t v) [.bool (a.res t).isSome])
  | query {a : Shared V} {q : Query} {r : Ret V} : Fits life a q r →
      Point life a (.called (.query q)) a (.over (.query q) [r])

/-- What is observed of an execution: calls and returns (`none`: the call panicked). -/
inductive Event (V : Type) where
  | call (i : Nat) (c : ApiCall V)
  | ret (i : Nat) (c : ApiCall V) (r : Option (List (Ret V)))

/-- Executions of the idealised world that starts with the contents `a0`: the history so far (latest event first), the
phase of each thread, and the contents. -/
inductive Atomic (life : Prop) (a0 : Shared V) : List (Event V) → (Nat → Phase V) → Shared V → Prop
  | init : Atomic life a0 [] (fun _ => .idle) a0
  | call {h : List (Event V)} {ph : Nat → Phase V} {a : Shared V} {i : Nat} (c : ApiCall V) : Atomic life a0 h ph a →
      ph i = .idle → Atomic life a0 (.call i c :: h) (fun j => if j = i then .called c else ph j) a
  | point {h : List (Event V)} {ph : Nat → Phase V} {a a' : Shared V} {i : Nat} {p : Phase V} : Atomic life a0 h ph a →
      Point life a (ph i) a' p → Atomic life a0 h (fun j => if j = i then p else ph j) a'
  | ret {h : List (Event V)} {ph : Nat → Phase V} {a : Shared V} {i : Nat} {c : ApiCall V} {rs : List (Ret V)} :
      Atomic life a0 h ph a → (ph i).call = some c → (ph i).result = some rs →
      Atomic life a0 (.ret i c (some rs) :: h) (fun j => if j = i then .idle else ph j) a
  /-- A call that panics stops where it is. -/
  | panic {h : List (Event V)} {ph : Nat → Phase V} {a : Shared V} {i : Nat} {c : ApiCall V} :
      Atomic life a0 h ph a → (ph i).call = some c →
      Atomic life a0 (.ret i c none :: h) (fun j => if j = i then .idle else ph j) a

/-- The returns in a history, latest first. -/
def returns (h : List (Event V)) : List (Nat × ApiCall V × Option (List (Ret V))) :=
  h.filterMap fun e => match e with | .ret i c r => some (i, c, r) | .call _ _ => none

namespace Sys

/-- The call thread `i` is executing. -/
def running (σ : Sys V) (i : Nat) : Option (ApiCall V) := σ.threads[i]?.bind fun th => th.call

/-- What is observed of a step from `σ` to `σ'`. -/
def Shows (σ σ' : Sys V) : Option (Event V) → Prop
  | some (.call i c) => σ.running i = none ∧ σ'.running i = some c
  | some (.ret i c r) => σ'.log = (i, c, r) :: σ.log
  | none => σ'.log = σ.log ∧ ∀ i, σ'.running i = σ.running i

/-- A schedule with what is observed of it, latest event first; `P` holds all along. -/
inductive History (cfg : Config) (may : Sys V → Nat → ApiCall V → Prop) (P : Sys V → Prop) (σ : Sys V) :
    List (Event V) → Sys V → Prop
  | refl : P σ → History cfg may P σ [] σ
  | step {h : List (Event V)} {σ' σ'' : Sys V} {e : Option (Event V)} : History cfg may P σ h σ' →
      Step cfg may σ' σ'' → Shows σ' σ'' e → P σ'' → History cfg may P σ (e.toList ++ h) σ''

/-- No thread is about to attach a batch of components that an entity of the range already has. -/
def BatchesFit (σ : Sys V) : Prop :=
  ∀ i start stop t vs, σ.AboutTo i (.batchStore start stop t vs) → ∀ e, start ≤ e → e < stop → σ.world.value t e = none

end Sys
end Xecs
