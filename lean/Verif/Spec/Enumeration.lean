import Verif.Spec.History
/-
Vocabulary for the iteration order of the component hash map, which the model makes an argument of `removeEntity`.
-/
set_option autoImplicit false
namespace Xecs
open Spec
variable {V : Type}

/-- The same call, but for the order in which the component types are enumerated. -/
inductive SameCall : Op V → Op V → Prop
  | same (op : Op V) : SameCall op op
  | remove {order order' : List TypeId} (id : EntityId) (h : order.Perm order') :
      SameCall (.removeEntity order id) (.removeEntity order' id)

/-- The same calls, but for enumeration orders. -/
inductive SameCalls : List (Op V) → List (Op V) → Prop
  | nil : SameCalls [] []
  | cons {op op' : Op V} {ops ops' : List (Op V)} : SameCall op op' → SameCalls ops ops' → SameCalls (op :: ops) (op' :: ops')

/-- Makes the calls one after the other and collects their results; stops at the first one that fails. -/
def performs : List (Op V) → World V → World V × R (List (Out V))
  | [], w => (w, .ok [])
  | op :: ops, w =>
    match exec op w with
    | (w', .error e) => (w', .error e)
    | (w', .ok o) =>
      match performs ops w' with
      | (w'', .error e) => (w'', .error e)
      | (w'', .ok os) => (w'', .ok (o :: os))

end Xecs
