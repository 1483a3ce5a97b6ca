import Verif.Spec.Refine
/-
Histories: what happened so far, newest first, as pairs of a call and the value the *code* returned. The
functions below read facts off a history directly, without the abstract state.
-/
set_option autoImplicit false
namespace Xecs
open Spec
variable {V : Type}

/-- `Run tr w s`: from `World::new()`, the calls recorded in `tr` (newest first, with the results returned
by the code), interspersed with calls that panic for a specified reason, lead the code to world `w` and
the specification to state `s`. -/
inductive Run : List (Op V × Out V) → World V → State V → Prop
  | init : Run [] World.new Spec.init
  | ok {tr : List (Op V × Out V)} {w w' : World V} {s s' : State V} {op : Op V} {o o' : Out V} :
      Run tr w s → s.WellFormed op → s.step op = .ok s' o' → exec op w = (w', .ok o) →
      Run ((op, o) :: tr) w' s'
  | panics {tr : List (Op V × Out V)} {w : World V} {s : State V} {op : Op V} :
      Run tr w s → s.WellFormed op → s.step op = .panics → Run tr (exec op w).1 s

namespace Hist

/-- The component `t` of `id` according to the history: the value most recently attached or written, `none`
if it was never attached or has been detached or the entity removed since. -/
def lastValue (t : TypeId) (id : EntityId) : List (Op V × Out V) → Option V
  | [] => none
  | (.attach id' t' v, _) :: tr => if id' = id ∧ t' = t then some v else lastValue t id tr
  | (.write t' id' v, .bool true) :: tr => if id' = id ∧ t' = t then some v else lastValue t id tr
  | (.detach id' t', _) :: tr => if id' = id ∧ t' = t then none else lastValue t id tr
  | (.removeEntity _ id', _) :: tr => if id' = id then none else lastValue t id tr
  | (.attachBatch start stop t' vs, _) :: tr =>
    if t' = t ∧ start ≤ id ∧ id < stop then vs[id - start]? else lastValue t id tr
  | _ :: tr => lastValue t id tr

/-- What a call that returned `o` makes of the components `value`. -/
def updated (op : Op V) (o : Out V) (value : TypeId → EntityId → Option V) (t : TypeId) (id : EntityId) : Option V :=
  match op, o with
  | .attach id' t' v, _ => if id' = id ∧ t' = t then some v else value t id
  | .write t' id' v, .bool true => if id' = id ∧ t' = t then some v else value t id
  | .detach id' t', _ => if id' = id ∧ t' = t then none else value t id
  | .removeEntity _ id', _ => if id' = id then none else value t id
  | .attachBatch start stop t' vs, _ => if t' = t ∧ start ≤ id ∧ id < stop then vs[id - start]? else value t id
  | _, _ => value t id

/-- Has `id` been handed out and not removed since? -/
def alive (id : EntityId) : List (Op V × Out V) → Bool
  | [] => false
  | (.createEntity, .id n) :: tr => n == id || alive id tr
  | (.createEntities _, .range a b) :: tr => (decide (a ≤ id) && decide (id < b)) || alive id tr
  | (.removeEntity _ id', _) :: tr => !(id' == id) && alive id tr
  | _ :: tr => alive id tr

/-- Was `id` ever handed out? -/
def handedOut (id : EntityId) : List (Op V × Out V) → Bool
  | [] => false
  | (.createEntity, .id n) :: tr => n == id || handedOut id tr
  | (.createEntities _, .range a b) :: tr => (decide (a ≤ id) && decide (id < b)) || handedOut id tr
  | _ :: tr => handedOut id tr

/-- The removed ids not handed out again, most recently removed first. -/
def recyclable : List (Op V × Out V) → List EntityId
  | [] => []
  | (.removeEntity _ id, _) :: tr => id :: recyclable tr
  | (.createEntity, .id n) :: tr => (recyclable tr).erase n
  | _ :: tr => recyclable tr

/-- How many entities were created. -/
def created : List (Op V × Out V) → Nat
  | [] => 0
  | (.createEntity, _) :: tr => created tr + 1
  | (.createEntities n, _) :: tr => created tr + n
  | _ :: tr => created tr

/-- How many entities were removed. -/
def removals : List (Op V × Out V) → Nat
  | [] => 0
  | (.removeEntity _ _, _) :: tr => removals tr + 1
  | _ :: tr => removals tr

/-- Was `t` registered? -/
def registered (t : TypeId) : List (Op V × Out V) → Bool
  | [] => false
  | (.register t', _) :: tr => t' == t || registered t tr
  | _ :: tr => registered t tr

/-- The resource of type `t`: the value last registered or written. -/
def lastResource (t : TypeId) : List (Op V × Out V) → Option V
  | [] => none
  | (.registerResource t' v, _) :: tr => if t' = t then some v else lastResource t tr
  | (.resourceWrite t' v, .bool true) :: tr => if t' = t then some v else lastResource t tr
  | _ :: tr => lastResource t tr

/-- Was the group made? -/
def madeGroup (k : SKind) (a b : TypeId) : List (Op V × Out V) → Bool
  | [] => false
  | (.makeGroup k' a' b', _) :: tr => (k' == k && a' == a && b' == b) || madeGroup k a b tr
  | _ :: tr => madeGroup k a b tr

/-- Was one of the group's types batch-attached after the group was made (or at all, if it was not)? -/
def batchSince (k : SKind) (a b : TypeId) : List (Op V × Out V) → Bool
  | [] => false
  | (.makeGroup k' a' b', _) :: tr => if k' = k ∧ a' = a ∧ b' = b then false else batchSince k a b tr
  | (.attachBatch _ _ t _, _) :: tr => t == a || t == b || batchSince k a b tr
  | _ :: tr => batchSince k a b tr

/-- Was, since the non-owning group `(a, b)` was made, a component of type `a` or `b` detached, or an entity
having one of them removed? -/
def movedSince (a b : TypeId) : List (Op V × Out V) → Bool
  | [] => false
  | (.makeGroup k' a' b', _) :: tr => if k' = .non ∧ a' = a ∧ b' = b then false else movedSince a b tr
  | (.detach _ t, .val (some _)) :: tr => t == a || t == b || movedSince a b tr
  | (.removeEntity _ id, _) :: tr =>
    (lastValue a id tr).isSome || (lastValue b id tr).isSome || movedSince a b tr
  | _ :: tr => movedSince a b tr

/-- Was a group made that owns `t`? -/
def ownedEver (t : TypeId) : List (Op V × Out V) → Bool
  | [] => false
  | (.makeGroup .full a b, _) :: tr => t == a || t == b || ownedEver t tr
  | (.makeGroup .part a _, _) :: tr => t == a || ownedEver t tr
  | _ :: tr => ownedEver t tr

/-- The groups made so far, oldest first. -/
def groupsMade : List (Op V × Out V) → List (SKind × TypeId × TypeId)
  | [] => []
  | (.makeGroup k a b, _) :: tr => groupsMade tr ++ [(k, a, b)]
  | _ :: tr => groupsMade tr

/-- Does a group of this kind over these types own `t`? -/
def groupOwns (g : SKind × TypeId × TypeId) (t : TypeId) : Bool :=
  match g with
  | (.full, a, b) => t == a || t == b
  | (.part, a, _) => t == a
  | (.non, _, _) => false

/-- Has `id`, after the history `tr`, components of both types? -/
def hasBoth (a b : TypeId) (id : EntityId) (tr : List (Op V × Out V)) : Bool :=
  (lastValue a id tr).isSome && (lastValue b id tr).isSome

/-- Is `id` in the group: did it have both components when the group was made or when one of them was attached
individually (not by batch attach) later, and was neither of them detached, nor the entity removed, since? -/
def joined (g : SKind × TypeId × TypeId) (id : EntityId) : List (Op V × Out V) → Bool
  | [] => false
  | (.makeGroup k a b, _) :: tr => if (k, a, b) = g then hasBoth a b id tr else joined g id tr
  | (.attach id' t v, o) :: tr =>
    joined g id tr || (id' == id && (t == g.2.1 || t == g.2.2) && hasBoth g.2.1 g.2.2 id ((.attach id' t v, o) :: tr))
  | (.detach id' t, .val (some _)) :: tr => joined g id tr && !(id' == id && (t == g.2.1 || t == g.2.2))
  | (.removeEntity _ id', _) :: tr => joined g id tr && !(id' == id)
  | _ :: tr => joined g id tr

/-- Did something, since the non-owning group over `a` and `b` was made, move components of type `a` or `b` in
their storages: one of them was detached, an entity having one removed, a group owning one of the types
was made, or an entity joined or (by a detach) left such a group? -/
def disturbed (a b : TypeId) : List (Op V × Out V) → Bool
  | [] => false
  | (.makeGroup k' a' b', _) :: tr =>
    if k' = .non ∧ a' = a ∧ b' = b then false
    else groupOwns (k', a', b') a || groupOwns (k', a', b') b || disturbed a b tr
  | (.attach id t v, o) :: tr =>
    ((groupsMade tr).any fun g => (groupOwns g a || groupOwns g b) && (t == g.2.1 || t == g.2.2) && !joined g id tr &&
      hasBoth g.2.1 g.2.2 id ((.attach id t v, o) :: tr)) || disturbed a b tr
  | (.detach id t, .val (some _)) :: tr =>
    t == a || t == b || ((groupsMade tr).any fun g => (groupOwns g a || groupOwns g b) && (t == g.2.1 || t == g.2.2) &&
      joined g id tr) || disturbed a b tr
  | (.removeEntity _ id, _) :: tr => (lastValue a id tr).isSome || (lastValue b id tr).isSome || disturbed a b tr
  | _ :: tr => disturbed a b tr

/-- One more than the largest id `t` was ever attached to (0 if none). -/
def highest (t : TypeId) : List (Op V × Out V) → Nat
  | [] => 0
  | (.attach id t' _, _) :: tr => if t' = t then max (highest t tr) (id + 1) else highest t tr
  | (.attachBatch start stop t' _, _) :: tr =>
    if t' = t ∧ start < stop then max (highest t tr) stop else highest t tr
  | _ :: tr => highest t tr

/-- Removing `id` is not affected by the code's bug with overlapping groups: there are no two groups, the
older one owning a type of the newer one, such that `id` has all their components. -/
def RemoveSafe (id : EntityId) (tr : List (Op V × Out V)) : Prop :=
  (groupsMade tr).Pairwise fun g h =>
    (groupOwns g h.2.1 || groupOwns g h.2.2) = true →
      ¬ ((lastValue g.2.1 id tr).isSome ∧ (lastValue g.2.2 id tr).isSome ∧
         (lastValue h.2.1 id tr).isSome ∧ (lastValue h.2.2 id tr).isSome)

/-- `id` is a possible entity id that is not the oldest removed and not yet reused one (the code takes
that one to be alive). -/
def Usable (id : EntityId) (tr : List (Op V × Out V)) : Prop :=
  id ≠ 0 ∧ (recyclable tr).getLast? ≠ some id

/-- The calls covered by the history theorems: everything except the calls for which Verif/Findings shows
the code to misbehave. -/
def Allowed (tr : List (Op V × Out V)) : Op V → Prop
  | .exist id => Usable id tr
  | .attach id _ _ => Usable id tr
  | .detach id _ => Usable id tr
  | .removeEntity order id =>
    Usable id tr ∧ (order.Nodup ∧ ∀ t, t ∈ order ↔ registered t tr = true) ∧
      (alive id tr = true → RemoveSafe id tr)
  | .attachBatch start stop t vs =>
    start ≤ stop ∧ (∀ x, start ≤ x → x < stop → alive x tr = true) ∧
      (vs.length = stop - start → ∀ x, start ≤ x → x < stop → lastValue t x tr = none)
  | .makeGroup k a b => registered a tr = true ∧ registered b tr = true ∧ (k ≠ .non → a ≠ b)
  | _ => True

/-- The enumeration order passed to `removeEntity` lists every registered type exactly once. (In the code
it is the iteration order of a hash map.) -/
def OrderOk (tr : List (Op V × Out V)) : Op V → Prop
  | .removeEntity order _ => order.Nodup ∧ ∀ t, t ∈ order ↔ registered t tr = true
  | _ => True

/-- No batch attach was applied to an entity that already had the component. -/
def NoRebatch : List (Op V × Out V) → Prop
  | [] => True
  | (.attachBatch start stop t _, _) :: tr =>
    (∀ x, start ≤ x → x < stop → lastValue t x tr = none) ∧ NoRebatch tr
  | _ :: tr => NoRebatch tr

/-- Only living entities were removed. -/
def RemovesLive : List (Op V × Out V) → Prop
  | [] => True
  | (.removeEntity _ id, _) :: tr => alive id tr = true ∧ RemovesLive tr
  | _ :: tr => RemovesLive tr

/-- Components were only attached to living entities. -/
def AttachesLive : List (Op V × Out V) → Prop
  | [] => True
  | (.attach id _ _, _) :: tr => alive id tr = true ∧ AttachesLive tr
  | (.attachBatch start stop _ _, _) :: tr =>
    (∀ x, start ≤ x → x < stop → alive x tr = true) ∧ AttachesLive tr
  | _ :: tr => AttachesLive tr

end Hist

/-- `Trace tr w`: from `World::new()`, the calls recorded in `tr` (newest first, each with the value the
code returned), interspersed with panicking calls, have led the code to world `w`; all calls are
`Allowed`. -/
inductive Trace : List (Op V × Out V) → World V → Prop
  | init : Trace [] World.new
  | ok {tr : List (Op V × Out V)} {w w' : World V} {op : Op V} {o : Out V} :
      Trace tr w → Hist.Allowed tr op → exec op w = (w', .ok o) → Trace ((op, o) :: tr) w'
  | fails {tr : List (Op V × Out V)} {w w' : World V} {op : Op V} {e : Fault} :
      Trace tr w → Hist.Allowed tr op → exec op w = (w', .error e) → Trace tr w'

/-- Apart from what was there before, `o` may be the component `t` of `id` after `op` was begun and not completed. -/
def Spec.Op.half : Op V → TypeId → EntityId → Option V → Prop
  | .attach id' t' v, t, id, o => t = t' ∧ id = id' ∧ o = some v
  | .removeEntity _ id', _, id, o => id = id' ∧ o = none
  | _, _, _, _ => False

/-- `Wild tr w`: from `World::new()`, the calls recorded in `tr` (newest first, each with the value the code
returned), interspersed with calls that failed in whatever way, leaving behind whatever they leave behind,
have led the code to world `w`. No other condition: any ids, any types, any groups. -/
inductive Wild : List (Op V × Out V) → World V → Prop
  | init : Wild [] World.new
  | ok {tr : List (Op V × Out V)} {w w' : World V} {op : Op V} {o : Out V} :
      Wild tr w → exec op w = (w', .ok o) → Wild ((op, o) :: tr) w'
  | fails {tr : List (Op V × Out V)} {w w' : World V} {op : Op V} {e : Fault} :
      Wild tr w → exec op w = (w', .error e) → Wild tr w'

/-- `AnyTrace tr w`: as `Wild`, but the failing calls changed no component (they may have rearranged the
storages and left groups half updated), and removals enumerate the registered types. Still any ids, any types,
any groups. -/
inductive AnyTrace : List (Op V × Out V) → World V → Prop
  | init : AnyTrace [] World.new
  | ok {tr : List (Op V × Out V)} {w w' : World V} {op : Op V} {o : Out V} :
      AnyTrace tr w → Hist.OrderOk tr op → exec op w = (w', .ok o) → AnyTrace ((op, o) :: tr) w'
  | fails {tr : List (Op V × Out V)} {w w' : World V} {op : Op V} {e : Fault} :
      AnyTrace tr w → exec op w = (w', .error e) →
      (∀ t id, (World.componentRead t id w').2 = (World.componentRead t id w).2) → AnyTrace tr w'

end Xecs
