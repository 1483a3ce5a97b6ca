import Verif.Model.Prelude
/-
The abstract specification: what a user of the crate may rely on, without sparse sets, free lists or
packed groups. It does not refer to the model of the code (only to the shared names in Prelude).

`unspecified` marks the calls for which the code does something no user could want; each such region is
justified by a theorem in Verif/Findings. `panics` means: the call panics and the world is unchanged.
-/
set_option autoImplicit false
namespace Xecs.Spec
open Xecs

/-- The three group kinds. -/
inductive SKind where
  | full
  | part
  | non
  deriving DecidableEq, Repr

/-- A group: its kind, its two component types, its members; `fresh` says whether a *non-owning* group's
iterator may be used (it caches storage positions, which other operations invalidate). -/
structure SGroup where
  kind : SKind
  a : TypeId
  b : TypeId
  mem : EntityId → Bool
  fresh : Bool

namespace SGroup

/-- Does the group own the storage of `t`? -/
def owns (g : SGroup) (t : TypeId) : Bool :=
  match g.kind with
  | .full => t == g.a || t == g.b
  | .part => t == g.a
  | .non => false

/-- Is `t` one of the group's two types? -/
def touches (g : SGroup) (t : TypeId) : Bool := t == g.a || t == g.b

end SGroup

/-- The abstract state of a world. -/
structure State (V : Type) where
  /-- the smallest id never handed out -/
  next : EntityId
  /-- removed ids not handed out again, most recently removed first -/
  free : List EntityId
  /-- for each registered type, which entity has which component -/
  comp : TypeId → Option (EntityId → Option V)
  /-- for each type, one more than the largest id it was ever attached to (0 if none). Only needed to say
  exactly which `detach` of an absent component panics. -/
  hw : TypeId → Nat
  groups : List SGroup
  res : TypeId → Option V

variable {V : Type}

/-- An empty world. -/
def init : State V :=
  { next := 1, free := [], comp := fun _ => none, hw := fun _ => 0, groups := [], res := fun _ => none }

namespace State

/-- Is `id` the id of an existing entity: handed out and not removed since? -/
def live (s : State V) (id : EntityId) : Bool := decide (0 < id) && decide (id < s.next) && !s.free.contains id

/-- Is `id` the removed id at the bottom of the free stack (the least recently removed one)? The code
wrongly believes this id to be alive. -/
def zombie (s : State V) (id : EntityId) : Bool := s.free.getLast? == some id

/-- The component `t` of entity `id`. -/
def get (s : State V) (t : TypeId) (id : EntityId) : Option V :=
  match s.comp t with
  | some f => f id
  | none => none

/-- Does entity `id` have a component of type `t`? -/
def has (s : State V) (t : TypeId) (id : EntityId) : Bool := (s.get t id).isSome

/-- Does `id` have both components of the group? -/
def both (s : State V) (g : SGroup) (id : EntityId) : Bool := s.has g.a id && s.has g.b id

/-- Overwrite one component map. -/
def setComp (s : State V) (t : TypeId) (f : EntityId → Option V) : State V :=
  { s with comp := fun u => if u = t then some f else s.comp u }

end State

/-- Outputs of operations. -/
inductive Out (V : Type) where
  | unit
  | bool (b : Bool)
  | id (n : EntityId)
  | range (start stop : EntityId)
  | val (v : Option V)
  | count (n : Option Nat)
  deriving DecidableEq, Repr

/-- The operations of a `World` (queries are treated separately, in Spec/Query.lean). -/
inductive Op (V : Type) where
  | register (t : TypeId)
  | createEntity
  | createEntities (n : Nat)
  /-- `order`: the order in which the hash map of storages happens to be enumerated -/
  | removeEntity (order : List TypeId) (id : EntityId)
  | exist (id : EntityId)
  | attach (id : EntityId) (t : TypeId) (v : V)
  | detach (id : EntityId) (t : TypeId)
  /-- `Entities::attach` on the handle for the ids `start..stop` -/
  | attachBatch (start stop : EntityId) (t : TypeId) (vs : List V)
  | makeGroup (k : SKind) (a b : TypeId)
  | read (t : TypeId) (id : EntityId)
  | write (t : TypeId) (id : EntityId) (v : V)
  | count (t : TypeId)
  | registerResource (t : TypeId) (v : V)
  | resourceRead (t : TypeId)
  | resourceWrite (t : TypeId) (v : V)

/-- Result of an operation according to the specification. -/
inductive Outcome (V : Type) where
  | ok (s : State V) (o : Out V)
  | panics
  | unspecified

namespace State

/-- Operations that need an existing entity panic for a dead one. -/
def needLive (s : State V) (id : EntityId) (k : Outcome V) : Outcome V :=
  if s.live id then k else if id = 0 ∨ s.zombie id then .unspecified else .panics

/-- The effect of attaching `v : t` to `id`. -/
def attached (s : State V) (id : EntityId) (t : TypeId) (f : EntityId → Option V) (v : V) : State V :=
  let s' := { s.setComp t (fun x => if x = id then some v else f x) with
    hw := fun u => if u = t then max (s.hw t) (id + 1) else s.hw u }
  { s' with groups := s.groups.map fun g =>
      { g with
        mem := fun x => g.mem x || (x == id && g.touches t && s'.both g id)
        fresh := g.fresh && !(s.groups.any fun h =>
          h.touches t && !h.mem id && s'.both h id && (h.owns g.a || h.owns g.b)) } }

/-- The effect of detaching `t` from `id`. -/
def detached (s : State V) (id : EntityId) (t : TypeId) (f : EntityId → Option V) : State V :=
  { s.setComp t (fun x => if x = id then none else f x) with
    groups := s.groups.map fun g =>
      { g with
        mem := fun x => g.mem x && !(x == id && g.touches t)
        fresh := g.fresh && !g.touches t && !(s.groups.any fun h =>
          h.touches t && h.mem id && (h.owns g.a || h.owns g.b)) } }

/-- The effect of removing entity `id`. -/
def removed (s : State V) (id : EntityId) : State V :=
  { s with
    free := id :: s.free
    comp := fun t => (s.comp t).map fun f x => if x = id then none else f x
    groups := s.groups.map fun g =>
      { g with
        mem := fun x => g.mem x && !(x == id)
        fresh := g.fresh && !s.has g.a id && !s.has g.b id } }

/-- No group that contains `id` owns a type of a later group that also contains `id`. If it does, the code
corrupts the later group when `id` is removed. -/
def orderSafe (id : EntityId) : List SGroup → Bool
  | [] => true
  | g :: gs => (gs.all fun h => !(g.mem id && h.mem id && (g.owns h.a || g.owns h.b))) && orderSafe id gs

/-- The effect of attaching `vs` to the ids `start, start+1, ...`. Existing groups do not notice. -/
def batchAttached (s : State V) (start : EntityId) (t : TypeId) (f : EntityId → Option V) (vs : List V) :
    State V :=
  { s.setComp t (fun x => if start ≤ x ∧ x < start + vs.length then vs[x - start]? else f x) with
    hw := fun u => if u = t ∧ 0 < vs.length then max (s.hw t) (start + vs.length) else s.hw u }

/-- The effect of making a group. -/
def grouped (s : State V) (k : SKind) (a b : TypeId) : State V :=
  let new : SGroup := ⟨k, a, b, fun x => s.has a x && s.has b x, true⟩
  { s with groups := s.groups.map (fun g => { g with fresh := g.fresh && !(new.owns g.a || new.owns g.b) })
      ++ [new] }

/-- The number of entities that have `t`. -/
def countOf (s : State V) (t : TypeId) : Nat := ((List.range s.next).filter fun id => s.has t id).length

/-- The specification of every operation. -/
def step (s : State V) : Op V → Outcome V
  | .register t =>
    match s.comp t with
    | some _ => .panics
    | none => .ok (s.setComp t fun _ => none) .unit
  | .createEntity =>
    match s.free with
    | [] => .ok { s with next := s.next + 1 } (.id s.next)
    | id :: rest => .ok { s with free := rest } (.id id)
  | .createEntities n => .ok { s with next := s.next + n } (.range s.next (s.next + n))
  | .removeEntity _ id =>
    s.needLive id (if orderSafe id s.groups then .ok (s.removed id) .unit else .unspecified)
  | .exist id =>
    if s.live id then .ok s (.bool true)
    else if id = 0 ∨ s.zombie id then .unspecified
    else if id < s.next then .ok s (.bool false)
    else .panics
  | .attach id t v =>
    s.needLive id <|
      match s.comp t with
      | none => .panics
      | some f => .ok (s.attached id t f v) .unit
  | .detach id t =>
    s.needLive id <|
      match s.comp t with
      | none => .panics
      | some f =>
        match f id with
        | some v => .ok (s.detached id t f) (.val (some v))
        | none => if id = s.hw t then .panics else .ok s (.val none)
  | .attachBatch start stop t vs =>
    if start ≤ stop ∧ (List.range' start (stop - start)).all (fun x => s.live x) then
      if vs.length = stop - start then
        match s.comp t with
        | none => .panics
        | some f =>
          if (List.range' start (stop - start)).all (fun x => (f x).isNone) then
            .ok (s.batchAttached start t f vs) .unit
          else .unspecified
      else .panics
    else .unspecified
  | .makeGroup k a b =>
    if s.groups.any (fun g => (g.kind == k && g.a == a && g.b == b) ||
        (g.owns a && (SGroup.mk k a b (fun _ => false) false).owns a) ||
        (g.owns b && (SGroup.mk k a b (fun _ => false) false).owns b)) then .panics
    else if (s.comp a).isNone ∨ (s.comp b).isNone ∨ (k ≠ .non ∧ a = b) then .unspecified
    else .ok (s.grouped k a b) .unit
  | .read t id => .ok s (.val (s.get t id))
  | .write t id v =>
    match s.comp t with
    | none => .ok s (.bool false)
    | some f =>
      match f id with
      | none => .ok s (.bool false)
      | some _ => .ok (s.setComp t fun x => if x = id then some v else f x) (.bool true)
  | .count t =>
    match s.comp t with
    | none => .ok s (.count none)
    | some _ => .ok s (.count (some (s.countOf t)))
  | .registerResource t v => .ok { s with res := fun u => if u = t then some v else s.res u } .unit
  | .resourceRead t => .ok s (.val (s.res t))
  | .resourceWrite t v =>
    match s.res t with
    | none => .ok s (.bool false)
    | some _ => .ok { s with res := fun u => if u = t then some v else s.res u } (.bool true)

/-- The enumeration order given to `removeEntity` lists every registered type exactly once. -/
def WellFormed (s : State V) : Op V → Prop
  | .removeEntity order _ => order.Nodup ∧ ∀ t, t ∈ order ↔ s.comp t ≠ none
  | _ => True

end State
end Xecs.Spec
