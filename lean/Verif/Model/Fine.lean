import Verif.Model.Threads
/-
Threads that can be interleaved between any two statements.

In Model/Threads a piece of work done under guards is one step. Here it is a program of single statements
(`Stm (World V) (Ret V)`), and other threads may act between any two of them.
-/
set_option autoImplicit false
namespace Xecs
variable {V : Type}

namespace World
variable {α : Type}

/-- Work on the entity table behind its guard. -/
def tableStm (m : Stm EntityManager α) : Stm (World V) α := Stm.on (fun w => w.em) (fun w e => { w with em := e }) m

/-- Work on the storage of type `t` behind its write guard (`downcast_mut` first), see `onStore`. -/
def storeStm (t : TypeId) (m : Stm (SparseSet V) α) : Stm (World V) α := do
  let s ← Stm.read fun w => do downcast (← unwrapR (w.comps t)) t
  Stm.on (fun w => match w.comps t with | some st => st.set | none => s) (fun w s => w.setSet t s) m

/-- The same without `downcast_mut`, see `onRaw`. -/
def rawStm (t : TypeId) (m : Stm (SparseSet V) α) : Stm (World V) α := do
  let st ← Stm.read fun w => unwrapR (w.comps t)
  Stm.on (fun w => match w.comps t with | some st => st.set | none => st.set) (fun w s => w.setSet t s) m

/-- The group number `k` and its two storages. -/
def trio (w : World V) (k : Nat) : R (Group.Trio V) := do
  let g ← getR w.groups k
  let p ← w.lockPair g
  .ok (g, p)

/-- Work on the group number `k` and its two storages behind their guards, see `onPair`. -/
def pairStm (k : Nat) (m : Stm (Group.Trio V) α) : Stm (World V) α := do
  let x ← Stm.read fun w => w.trio k
  Stm.on (fun w => match w.trio k with | .ok y => y | .error _ => x) (fun w y => w.putPair k y) m

end World

/-- The pieces of work statement by statement: the versions ending in `X` of Model/World (files and lines there). What
only reads, or changes the world by its last statement, is one statement. -/
def Act.stm : Act V → Stm (World V) (Ret V)
  | .allocate => do
    let id ← World.tableStm EntityManager.allocateX
    pure (.id id)
  | .emRemove id => do
    World.tableStm (EntityManager.removeX id)
    pure .unit
  | .attachStore t id v => do World.storeStm t (SparseSet.addX id v); pure .unit
  | .detachStore t id => do pure (.val (← World.storeStm t (SparseSet.removeX id)))
  | .batchStore start stop t vs => do
    Stm.read fun _ => assertR (vs.length == stop - start)
    World.storeStm t (SparseSet.addBatchX (List.range' start (stop - start)) vs)
    pure .unit
  | .storeErase t id => do World.rawStm t (SparseSet.removeUnwrapX id); pure .unit
  | .groupAdd k id => do World.pairStm k (Group.addX id); pure .unit
  | .groupRemove k id => do World.pairStm k (Group.removeX id); pure .unit
  | .groupErase k id => do
    World.pairStm k do
      let g ← Stm.read fun x => .ok x.1
      Group.removeX id
      match g with
      | .full .. => do Group.onA (SparseSet.removeUnwrapX id); Group.onB (SparseSet.removeUnwrapX id)
      | .part .. => Group.onA (SparseSet.removeUnwrapX id)
      | .non .. => pure ()
    pure .unit
  | a => .step (fun w => (a.run w).1) fun w => .ret (a.run w).2

/-- A shared world whose threads may be in the middle of a piece of work. -/
structure FSys (V : Type) where
  /-- The threads, the finished calls, and for bookkeeping the world as it would be if every piece of work that is over
  had been done in one go when it was over. No step depends on the latter; only `may`, which says what clients may do,
  can refer to it. -/
  sys : Sys V
  /-- The world as it is. -/
  mem : World V
  /-- What is left of the piece of work that thread number `i` is in the middle of. -/
  rest : Nat → Option (Stm (World V) (Ret V))

namespace FSys

/-- `n` threads start sharing the world. -/
def init (w : World V) (n : Nat) : FSys V := { sys := Sys.init w n, mem := w, rest := fun _ => none }

/-- Replace what is left of the work of thread `i`. -/
def setRest (φ : FSys V) (i : Nat) (m : Option (Stm (World V) (Ret V))) : FSys V :=
  { φ with rest := fun j => if j = i then m else φ.rest j }

/-- One step of one thread, as `Sys.Step`, except that a piece of work is begun, done statement by statement, and ended.
`impl a` is the piece of work `a` as statements. -/
inductive Step (cfg : Config) (impl : Act V → Stm (World V) (Ret V)) (may : Sys V → Nat → ApiCall V → Prop) :
    FSys V → FSys V → Prop
  | start {φ : FSys V} {i : Nat} {th : Thread V} {c : ApiCall V} : φ.sys.threads[i]? = some th → th.call = none →
      may φ.sys i c → Step cfg impl may φ { φ with
        sys := φ.sys.setThread i { call := some c, prog := c.prog cfg, held := [], subject := c.subject } }
  | acq {φ : FSys V} {i : Nat} {th : Thread V} {l : Lock} {m : Mode} {p : Prog V} :
      φ.sys.threads[i]? = some th → th.prog = .acq l m p → φ.sys.Free l m →
      Step cfg impl may φ { φ with sys := φ.sys.setThread i { th with prog := p, held := (l, m) :: th.held } }
  | rel {φ : FSys V} {i : Nat} {th : Thread V} {l : Lock} {m : Mode} {p : Prog V} :
      φ.sys.threads[i]? = some th → th.prog = .rel l m p →
      Step cfg impl may φ { φ with sys := φ.sys.setThread i { th with prog := p, held := th.held.erase (l, m) } }
  | begin {φ : FSys V} {i : Nat} {th : Thread V} {a : Act V} {f : Ret V → Prog V} :
      φ.sys.threads[i]? = some th → th.prog = .act a f → φ.rest i = none →
      Step cfg impl may φ (φ.setRest i (some (impl a)))
  | work {φ : FSys V} {i : Nat} {u : World V → World V} {k : World V → Stm (World V) (Ret V)} :
      φ.rest i = some (.step u k) →
      Step cfg impl may φ { φ.setRest i (some (k φ.mem)) with mem := u φ.mem }
  | done {φ : FSys V} {i : Nat} {th : Thread V} {a : Act V} {f : Ret V → Prog V} {r : Ret V} :
      φ.rest i = some (.ret (.ok r)) → φ.sys.threads[i]? = some th → th.prog = .act a f →
      Step cfg impl may φ { φ.setRest i none with
        sys := Sys.setThread { φ.sys with world := (a.run φ.sys.world).1 } i
          { th with prog := f r, subject := a.subjectAfter r th.subject } }
  | fault {φ : FSys V} {i : Nat} {th : Thread V} {a : Act V} {f : Ret V → Prog V} {e : Fault} {c : ApiCall V} :
      φ.rest i = some (.ret (.error e)) → φ.sys.threads[i]? = some th → th.prog = .act a f → th.call = some c →
      Step cfg impl may φ { φ.setRest i none with sys := Sys.finish { φ.sys with world := (a.run φ.sys.world).1 } i c none }
  | panic {φ : FSys V} {i : Nat} {th : Thread V} {c : ApiCall V} : φ.sys.threads[i]? = some th → th.prog = .panic →
      th.call = some c → Step cfg impl may φ { φ with sys := φ.sys.finish i c none }
  | ret {φ : FSys V} {i : Nat} {th : Thread V} {c : ApiCall V} {rs : List (Ret V)} : φ.sys.threads[i]? = some th →
      th.prog = .done rs → th.call = some c → Step cfg impl may φ { φ with sys := φ.sys.finish i c (some rs) }

/-- Any number of steps. -/
inductive Sched (cfg : Config) (impl : Act V → Stm (World V) (Ret V)) (may : Sys V → Nat → ApiCall V → Prop) (φ : FSys V) :
    FSys V → Prop
  | refl : Sched cfg impl may φ φ
  | step {φ' φ'' : FSys V} : Sched cfg impl may φ φ' → Step cfg impl may φ' φ'' → Sched cfg impl may φ φ''

end FSys
end Xecs
