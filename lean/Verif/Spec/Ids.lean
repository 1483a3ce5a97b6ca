import Verif.Spec.History
/-
Vocabulary for the size of ids.
-/
set_option autoImplicit false
namespace Xecs.Hist
open Spec
variable {V : Type}

/-- How many entities live: those created, less those removed. -/
def population (tr : List (Op V × Out V)) : Nat := created tr - removals tr

/-- The largest number of entities that have lived at the same time. -/
def peak : List (Op V × Out V) → Nat
  | [] => 0
  | x :: tr => max (population (x :: tr)) (peak tr)

/-- The largest number of free ids there were when ids were asked for by `create_entities`, which does not reuse any. -/
def unused : List (Op V × Out V) → Nat
  | [] => 0
  | (.createEntities _, _) :: tr => max (recyclable tr).length (unused tr)
  | _ :: tr => unused tr

end Xecs.Hist
