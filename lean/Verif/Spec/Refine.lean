import Verif.Spec.Spec
import Verif.Model.Query
/-
How the model of the code is driven by the operations of the specification, and the notion of reachable
world used by the property theorems.
-/
set_option autoImplicit false
namespace Xecs
open Spec
variable {V : Type}

/-- The kind of the code's group for a kind of the specification. -/
def toKind : SKind → Kind
  | .full => .full
  | .part => .part
  | .non => .non

/-- Run one operation on the model of the code. -/
def exec : Op V → M V (Out V)
  | .register t => do World.register t; pure .unit
  | .createEntity => do pure (.id (← World.createEntity))
  | .createEntities n => do
    let r ← World.createEntities n
    pure (.range r.1 r.2)
  | .removeEntity order id => do World.removeEntity order id; pure .unit
  | .exist id => do pure (.bool (← World.exist id))
  | .attach id t v => do World.attach id t v; pure .unit
  | .detach id t => do pure (.val (← World.detach id t))
  | .attachBatch a b t vs => do World.attachBatch a b t vs; pure .unit
  | .makeGroup k a b => do World.makeGroup (toKind k) a b; pure .unit
  | .read t id => do pure (.val (← World.componentRead t id))
  | .write t id v => do pure (.bool (← World.componentWrite t id v))
  | .count t => do pure (.count (← World.storageCount t))
  | .registerResource t v => do World.registerResource t v; pure .unit
  | .resourceRead t => do pure (.val (← World.resourceRead t))
  | .resourceWrite t v => do pure (.bool (← World.resourceWrite t v))

/-- `Reach w s`: starting from `World::new()`, some sequence of specified operations (calls that panic for
a specified reason included) leads the code to world `w` and the specification to state `s`. -/
inductive Reach : World V → State V → Prop
  | init : Reach World.new Spec.init
  | ok {w : World V} {s s' : State V} {op : Op V} {o : Out V} : Reach w s → s.WellFormed op →
      s.step op = .ok s' o → Reach (exec op w).1 s'
  | panics {w : World V} {s : State V} {op : Op V} : Reach w s → s.WellFormed op →
      s.step op = .panics → Reach (exec op w).1 s

end Xecs
