import Verif.Model.Prelude
/-
Model of `EntityManager` in src/entity.rs. Lines cited are lines of that file.
-/
set_option autoImplicit false
namespace Xecs

/-- src/entity.rs:195-201 `EntityFlag`. -/
inductive EntityFlag where
  | available (next : EntityId)
  | unavailable (index : Nat)
  deriving DecidableEq, Repr

/-- src/entity.rs:203-211 `EntityManager`. -/
structure EntityManager where
  flags : List EntityFlag
  entities : List EntityId
  deriving DecidableEq, Repr

namespace EntityManager

/-- src/entity.rs:214-219 `new`. -/
def new : EntityManager := { flags := [.unavailable 0], entities := [] }

/-- src/entity.rs:221-242 `allocate`. -/
def allocate (m : EntityManager) : R (EntityManager × EntityId) := do
  match ← getR m.flags 0 with
  | .available lastId =>
    let newId ← getR m.flags lastId
    let entities := m.entities ++ [lastId]
    let flags ← setR m.flags lastId (.unavailable (entities.length - 1))
    let flags ← setR flags 0 newId
    .ok ({ flags := flags, entities := entities }, lastId)
  | .unavailable _ =>
    let id := m.flags.length
    let entities := m.entities ++ [id]
    .ok ({ flags := m.flags ++ [.unavailable (entities.length - 1)], entities := entities }, id)

/-- src/entity.rs:246-264 `allocate_n`; returns the range `start_id..end_id`. The two `for` loops push
consecutive indices and consecutive ids. -/
def allocateN (m : EntityManager) (n : Nat) : EntityManager × (EntityId × EntityId) :=
  let startId := m.flags.length
  let startIndex := m.entities.length
  ({ flags := m.flags ++ (List.range' startIndex n).map .unavailable
     entities := m.entities ++ List.range' startId n },
   (startId, startId + n))

/-- src/entity.rs:267-279 `remove`. -/
def remove (m : EntityManager) (id : EntityId) : R EntityManager := do
  match ← getR m.flags id with
  | .unavailable index =>
    let last ← unwrapR m.entities.getLast?
    let flags ← setR m.flags last (.unavailable index)
    let (_, entities) ← swapRemoveR m.entities index
    let flags ← setR flags id (← getR flags 0)
    let flags ← setR flags 0 (.available id)
    .ok { flags := flags, entities := entities }
  | .available _ => .ok m

/-- src/entity.rs:281-287 `has`: bounds-checked indexing, so it panics for an id that was never
allocated. -/
def has (m : EntityManager) (id : EntityId) : R Bool := do
  match ← getR m.flags id with
  | .unavailable _ => .ok true
  | .available _ => .ok false

/-- src/entity.rs:295-297 `len`. -/
def len (m : EntityManager) : Nat := m.entities.length

/-- src/entity.rs:221-242 `allocate`, statement by statement. -/
def allocateX : Stm EntityManager EntityId := do
  match ← Stm.read fun m => getR m.flags 0 with
  | .available lastId =>
    let newId ← Stm.read fun m => getR m.flags lastId
    Stm.upd fun m => .ok { m with entities := m.entities ++ [lastId] }
    Stm.upd fun m => do .ok { m with flags := ← setR m.flags lastId (.unavailable (m.entities.length - 1)) }
    Stm.upd fun m => do .ok { m with flags := ← setR m.flags 0 newId }
    pure lastId
  | .unavailable _ =>
    let id ← Stm.read fun m => .ok m.flags.length
    Stm.upd fun m => .ok { m with entities := m.entities ++ [id] }
    Stm.upd fun m => .ok { m with flags := m.flags ++ [.unavailable (m.entities.length - 1)] }
    pure id

/-- src/entity.rs:267-279 `remove`, statement by statement. -/
def removeX (id : EntityId) : Stm EntityManager Unit := do
  match ← Stm.read fun m => getR m.flags id with
  | .unavailable index =>
    let last ← Stm.read fun m => unwrapR m.entities.getLast?
    Stm.upd fun m => do .ok { m with flags := ← setR m.flags last (.unavailable index) }
    Stm.upd fun m => do .ok { m with entities := (← swapRemoveR m.entities index).2 }
    Stm.upd fun m => do .ok { m with flags := ← setR m.flags id (← getR m.flags 0) }
    Stm.upd fun m => do .ok { m with flags := ← setR m.flags 0 (.available id) }
  | .available _ => pure ()

end EntityManager
end Xecs
