import Verif.Spec.Results
/-
When a call panics, in terms of the history.
-/
set_option autoImplicit false
namespace Xecs.Hist
open Spec
variable {V : Type}

/-- The documented reasons for a call to panic: a type registered twice or not registered, an entity that does
not exist, a batch of the wrong length, a group that exists or conflicts with one over ownership. -/
def Documented (tr : List (Op V × Out V)) : Op V → Prop
  | .register t => registered t tr = true
  | .removeEntity _ id => alive id tr = false
  | .attach id t _ => alive id tr = false ∨ registered t tr = false
  | .detach id t => alive id tr = false ∨ registered t tr = false
  | .attachBatch start stop t vs => vs.length ≠ stop - start ∨ registered t tr = false
  | .makeGroup k a b => ∃ g ∈ groupsMade tr, g = (k, a, b) ∨ ∃ t, groupOwns g t = true ∧ groupOwns (k, a, b) t = true
  | _ => False

/-- The other reasons: asking whether an id exists that was never handed out, and detaching a component the
entity does not have when the id is one more than the largest one the component was ever attached to. -/
def Undocumented (tr : List (Op V × Out V)) : Op V → Prop
  | .exist id => handedOut id tr = false
  | .detach id t => alive id tr = true ∧ registered t tr = true ∧ lastValue t id tr = none ∧ id = highest t tr
  | _ => False

/-- The call only mentions things that were handed out: `exist` an id that was handed out, `detach` a component
the entity has. -/
def Sensible (tr : List (Op V × Out V)) : Op V → Prop
  | .exist id => handedOut id tr = true
  | .detach id t => (lastValue t id tr).isSome = true
  | _ => True

end Xecs.Hist
