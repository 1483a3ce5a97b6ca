import Verif.Spec.History
import Verif.Spec.Keeping
import Verif.Spec.Phases
/-
Worlds that can be reached in any way: calls of a single owner and phases in which the world is shared, with nothing
excluded but batch attaches to entities that have the component.
-/
set_option autoImplicit false
namespace Xecs
open Spec
variable {V : Type}

/-- No entity of a batch attach has the component already. -/
def Hist.Fits (w : World V) : Op V → Prop
  | .attachBatch start stop t _ => ∀ e, start ≤ e → e < stop → w.value t e = none
  | _ => True

/-- `Reached w`: from `World::new()`, some calls have led the code to `w`. Any calls, with any ids, types and groups,
whether they return or panic (also half way through, leaving groups half updated and entities half removed); and any
number of phases in which any number of threads share the world and do anything, some calls of theirs panicking, until
all calls are over; the threads may keep handles, guards and open queries. Only batch attaches that return are to go to
entities that do not have the component (in shared phases, all batch attaches). -/
inductive Reached : World V → Prop
  | init : Reached World.new
  | ok {w w' : World V} {op : Op V} {o : Out V} : Reached w → Hist.Fits w op → exec op w = (w', .ok o) → Reached w'
  | fails {w w' : World V} {op : Op V} {e : Fault} : Reached w → exec op w = (w', .error e) → Reached w'
  | phase {w : World V} {order : List TypeId} {n : Nat} {may : Sys V → Nat → ApiCall V → Prop} {σ : Sys V} :
      Reached w → Enumerates w order → (Sys.init w n).SchedWhile (Config.of w order) may Sys.BatchesFit σ → σ.Quiet →
      Reached σ.world
  | keeping {w : World V} {order : List TypeId} {n : Nat} {may : Sys V → Nat → ApiCall V → Prop} {τ : KSys V} :
      Reached w → Enumerates w order → Sys.Blind may →
      (KSys.init w n).SchedWhile (Config.of w order) (KSys.keeping may) KSys.BatchesFit τ → τ.Quiet →
      Reached τ.world

/-- The component `t` of `id` after the calls `tr`, if it was `value t id` before. -/
def Hist.valueSince (value : TypeId → EntityId → Option V) (t : TypeId) (id : EntityId) : List (Op V × Out V) → Option V
  | [] => value t id
  | (op, o) :: tr => Hist.updated op o (fun t id => valueSince value t id tr) t id

/-- `Since w tr w'`: the calls `tr` (newest first, each with the value it returned), interspersed with calls that failed
without changing a component, have led from `w` to `w'`. -/
inductive Hist.Since (w : World V) : List (Op V × Out V) → World V → Prop
  | start : Since w [] w
  | ok {tr : List (Op V × Out V)} {w1 w2 : World V} {op : Op V} {o : Out V} : Since w tr w1 → Hist.Fits w1 op →
      (∀ order id, op = .removeEntity order id → Enumerates w1 order) → exec op w1 = (w2, .ok o) →
      Since w ((op, o) :: tr) w2
  | fails {tr : List (Op V × Out V)} {w1 w2 : World V} {op : Op V} {e : Fault} : Since w tr w1 →
      exec op w1 = (w2, .error e) →
      (∀ t id, (World.componentRead t id w2).2 = (World.componentRead t id w1).2) → Since w tr w2

/-- The query names no group, its types are registered, and it does not ask for a component mutably that it asks for
twice. -/
def Query.Usable (w : World V) (q : Query) : Prop :=
  Hist.Parts (fun t => w.hasRegistered t = true) (fun _ _ _ => False) q ∧ q.Conflictless

end Xecs
