import Verif.Spec.Threads
/-
Vocabulary for the account of component values: which values are stored, which are moved into a call, which a call
hands back, and which are overwritten or die with their entity.
-/
set_option autoImplicit false
namespace Xecs
open Spec
variable {V : Type}

/-- All values stored for the component type `t`: the slice `components_read::<T>().data()` (nothing if the type is not
registered). -/
def World.held (w : World V) (t : TypeId) : List V :=
  match w.comps t with
  | some st => st.set.data
  | none => []

/-- The values of type `t` moved into the world's hands by a call: what is attached, also if the call then fails; what
is assigned through a component guard, if there was one. -/
def Spec.Op.given (t : TypeId) : Op V → R (Out V) → List V
  | .attach _ t' v, _ => if t' = t then [v] else []
  | .attachBatch _ _ t' vs, _ => if t' = t then vs else []
  | .write t' _ v, .ok (.bool true) => if t' = t then [v] else []
  | _, _ => []

/-- The values of type `t` that a call hands back to the caller for good (a `detach`). -/
def Spec.Op.returned (t : TypeId) : Op V → R (Out V) → List V
  | .detach _ t', .ok (.val (some v)) => if t' = t then [v] else []
  | _, _ => []

/-- The values of type `t` that a call overwrites: what could be read where it wrote. -/
def Spec.Op.replaced (w : World V) (t : TypeId) : Op V → Out V → List V
  | .attach id t' _, _ => if t' = t then (w.value t id).toList else []
  | .write t' id _, .bool true => if t' = t then (w.value t id).toList else []
  | _, _ => []

/-- `Calls l w`: from `World::new()` the calls `l` (newest first), each with what it returned or how it failed, have led
the code to the world `w`. No other condition. -/
inductive Calls : List (Op V × R (Out V)) → World V → Prop
  | init : Calls [] World.new
  | call {l : List (Op V × R (Out V))} {w w' : World V} {op : Op V} {r : R (Out V)} :
      Calls l w → exec op w = (w', r) → Calls ((op, r) :: l) w'

namespace Hist

/-- All values of type `t` given to the world so far. -/
def given (t : TypeId) (tr : List (Op V × Out V)) : List V := tr.flatMap fun x => x.1.given t (.ok x.2)

/-- All values of type `t` handed back so far. -/
def returned (t : TypeId) (tr : List (Op V × Out V)) : List V := tr.flatMap fun x => x.1.returned t (.ok x.2)

/-- All values of type `t` that were overwritten, or belonged to an entity that was removed. -/
def dropped (t : TypeId) : List (Op V × Out V) → List V
  | [] => []
  | (.attach id t' _, _) :: tr => (if t' = t then (lastValue t id tr).toList else []) ++ dropped t tr
  | (.write t' id _, .bool true) :: tr => (if t' = t then (lastValue t id tr).toList else []) ++ dropped t tr
  | (.removeEntity _ id, _) :: tr => (lastValue t id tr).toList ++ dropped t tr
  | _ :: tr => dropped t tr

end Hist

/-! ### Several threads -/

/-- The values of type `t` a call on a handle moves in. -/
def HOp.named (t : TypeId) : HOp V → List V
  | .attach t' v => if t' = t then [v] else []
  | .write t' v => if t' = t then [v] else []
  | _ => []

/-- The values of type `t` named in a call: an upper bound for what it may store. -/
def ApiCall.named (t : TypeId) : ApiCall V → List V
  | .create script => script.flatMap (HOp.named t)
  | .on _ script => script.flatMap (HOp.named t)
  | .createMany _ batches => batches.flatMap fun b => if b.1 = t then b.2 else []
  | .fill _ _ batches => batches.flatMap fun b => if b.1 = t then b.2 else []
  | .write t' _ v => if t' = t then [v] else []
  | _ => []

/-- The value of type `t` a call on a handle hands back. -/
def HOp.returned (t : TypeId) : HOp V → Ret V → List V
  | .detach t', .val (some v) => if t' = t then [v] else []
  | _, _ => []

/-- The values of type `t` a chain of calls on a handle hands back, given its results. -/
def HOp.returnedAll (t : TypeId) : List (HOp V) → List (Ret V) → List V
  | o :: os, r :: rs => o.returned t r ++ returnedAll t os rs
  | _, _ => []

/-- The values of type `t` a finished call handed back. -/
def ApiCall.returned (t : TypeId) : ApiCall V → Option (List (Ret V)) → List V
  | .create script, some (_ :: rs) => HOp.returnedAll t script rs
  | .on _ script, some rs => HOp.returnedAll t script rs
  | _, _ => []

namespace Sys

/-- The values of type `t` handed back by the finished calls. -/
def returned (σ : Sys V) (t : TypeId) : List V := σ.log.flatMap fun x => x.2.1.returned t x.2.2

/-- The values of type `t` named in the calls made so far, finished or not. -/
def named (σ : Sys V) (t : TypeId) : List V :=
  (σ.log.flatMap fun x => x.2.1.named t) ++ σ.threads.flatMap fun th => match th.call with
    | some c => c.named t
    | none => []

end Sys
end Xecs
