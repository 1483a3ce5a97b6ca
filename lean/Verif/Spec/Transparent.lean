import Verif.Spec.History
/-
Histories without their groups.
-/
set_option autoImplicit false
namespace Xecs
open Spec
variable {V : Type}

/-- Is the call a `make_group`? -/
def Spec.Op.grouping : Op V → Bool
  | .makeGroup _ _ _ => true
  | _ => false

/-- What is left of a history if the calls of `make_group` are left out. -/
def ungrouped (tr : List (Op V × Out V)) : List (Op V × Out V) := tr.filter fun x => !x.1.grouping

end Xecs
