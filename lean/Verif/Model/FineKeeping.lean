import Verif.Model.Fine
import Verif.Model.Keeping
/-
Model/Fine for clients that keep handles, guards and iterators (Model/Keeping): threads can be interleaved between any two
statements.
-/
set_option autoImplicit false
namespace Xecs
variable {V : Type}

/-- A shared world whose threads may be in the middle of a piece of work, and may keep handles, guards and iterators. -/
structure KFSys (V : Type) where
  /-- The threads, the finished calls, and for bookkeeping the world as it would be if every piece of work that is over
  had been done in one go when it was over. No step depends on the latter; only `may`, which says what clients may do,
  can refer to it. -/
  sys : KSys V
  /-- The world as it is. -/
  mem : World V
  /-- What is left of the piece of work that thread number `i` is in the middle of. -/
  rest : Nat → Option (Stm (World V) (Ret V))

namespace KFSys

/-- `n` threads start sharing the world. -/
def init (w : World V) (n : Nat) : KFSys V := { sys := KSys.init w n, mem := w, rest := fun _ => none }

/-- Replace what is left of the work of thread `i`. -/
def setRest (φ : KFSys V) (i : Nat) (m : Option (Stm (World V) (Ret V))) : KFSys V :=
  { φ with rest := fun j => if j = i then m else φ.rest j }

/-- One step of one thread, as `KSys.Step`, except that a piece of work is begun, done statement by statement, and ended.
`impl a` is the piece of work `a` as statements. -/
inductive Step (cfg : Config) (impl : Act V → Stm (World V) (Ret V)) (may : KSys V → Nat → KCall V → Prop) :
    KFSys V → KFSys V → Prop
  | start {φ : KFSys V} {i : Nat} {th : KThread V} {c : KCall V} : φ.sys.threads[i]? = some th → th.call = none →
      c.Permitted cfg th.kept → may φ.sys i c → Step cfg impl may φ { φ with
        sys := φ.sys.setThread i { th with
          call := some c, prog := c.prog cfg, subject := c.subject, kept := c.leaves th.kept } }
  | acq {φ : KFSys V} {i : Nat} {th : KThread V} {l : Lock} {m : Mode} {p : Prog V} :
      φ.sys.threads[i]? = some th → th.prog = .acq l m p → φ.sys.Free l m →
      Step cfg impl may φ { φ with sys := φ.sys.setThread i { th with prog := p, held := (l, m) :: th.held } }
  | rel {φ : KFSys V} {i : Nat} {th : KThread V} {l : Lock} {m : Mode} {p : Prog V} :
      φ.sys.threads[i]? = some th → th.prog = .rel l m p →
      Step cfg impl may φ { φ with sys := φ.sys.setThread i { th with prog := p, held := th.held.erase (l, m) } }
  | begin {φ : KFSys V} {i : Nat} {th : KThread V} {a : Act V} {f : Ret V → Prog V} :
      φ.sys.threads[i]? = some th → th.prog = .act a f → φ.rest i = none →
      Step cfg impl may φ (φ.setRest i (some (impl a)))
  | work {φ : KFSys V} {i : Nat} {u : World V → World V} {k : World V → Stm (World V) (Ret V)} :
      φ.rest i = some (.step u k) →
      Step cfg impl may φ { φ.setRest i (some (k φ.mem)) with mem := u φ.mem }
  | done {φ : KFSys V} {i : Nat} {th : KThread V} {a : Act V} {f : Ret V → Prog V} {r : Ret V} :
      φ.rest i = some (.ret (.ok r)) → φ.sys.threads[i]? = some th → th.prog = .act a f →
      Step cfg impl may φ { φ.setRest i none with
        sys := KSys.setThread { φ.sys with world := (a.run φ.sys.world).1 } i
          { th with prog := f r, subject := a.subjectAfter r th.subject } }
  | fault {φ : KFSys V} {i : Nat} {th : KThread V} {a : Act V} {f : Ret V → Prog V} {e : Fault} {c : KCall V} :
      φ.rest i = some (.ret (.error e)) → φ.sys.threads[i]? = some th → th.prog = .act a f → th.call = some c →
      Step cfg impl may φ { φ.setRest i none with
        sys := KSys.finish { φ.sys with world := (a.run φ.sys.world).1 } i { th with call := none, prog := .done [], held := th.kept.flatMap (Keep.guards cfg), subject := none } c none }
  | panic {φ : KFSys V} {i : Nat} {th : KThread V} {c : KCall V} : φ.sys.threads[i]? = some th → th.prog = .panic →
      th.call = some c → Step cfg impl may φ { φ with
        sys := φ.sys.finish i { th with call := none, prog := .done [], held := th.kept.flatMap (Keep.guards cfg), subject := none } c none }
  | ret {φ : KFSys V} {i : Nat} {th : KThread V} {c : KCall V} {rs : List (Ret V)} : φ.sys.threads[i]? = some th →
      th.prog = .done rs → th.call = some c → Step cfg impl may φ { φ with
        sys := φ.sys.finish i { th with call := none, prog := .done [], subject := none, kept := c.keeps cfg rs ++ th.kept } c (some rs) }

/-- Any number of steps. -/
inductive Sched (cfg : Config) (impl : Act V → Stm (World V) (Ret V)) (may : KSys V → Nat → KCall V → Prop) (φ : KFSys V) :
    KFSys V → Prop
  | refl : Sched cfg impl may φ φ
  | step {φ' φ'' : KFSys V} : Sched cfg impl may φ φ' → Step cfg impl may φ' φ'' → Sched cfg impl may φ φ''

end KFSys
end Xecs
