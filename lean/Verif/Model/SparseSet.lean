import Verif.Model.Prelude
/-
Model of src/sparse_set.rs. Lines cited below are lines of that file.
-/
set_option autoImplicit false
namespace Xecs

/-- src/sparse_set.rs:4-10 `SparseSet<E,T>`: `indices : Vec<Option<NonZeroUsize>>` (the dense index plus
one), `entities : Vec<E>`, `data : Vec<T>`. `E` is always `EntityId` in the crate. -/
structure SparseSet (V : Type _) where
  indices : List (Option Nat)
  entities : List EntityId
  data : List V
  deriving DecidableEq, Repr

namespace SparseSet
variable {V : Type _}

/-- src/sparse_set.rs:16-22 `new`. -/
def new : SparseSet V := { indices := [], entities := [], data := [] }

/-- src/sparse_set.rs:24-28 `clear`. -/
def clear (_s : SparseSet V) : SparseSet V := { indices := [], entities := [], data := [] }

/-- src/sparse_set.rs:33-35 and 58-60: `while self.indices.len() <= entity { self.indices.push(None) }`. -/
def enlarge (l : List (Option Nat)) (e : Nat) : List (Option Nat) :=
  if l.length ≤ e then enlarge (l ++ [none]) e else l
termination_by e + 1 - l.length
decreasing_by simp only [List.length_append, List.length_cons, List.length_nil]; omega

/-- src/sparse_set.rs:30-46 `add`. -/
def add (s : SparseSet V) (entity : EntityId) (data : V) : R (SparseSet V) := do
  let indices := enlarge s.indices entity
  match ← getR indices entity with
  | some index =>
    -- already exists: overwrite
    let data' ← setR s.data (index - 1) data
    .ok { s with indices := indices, data := data' }
  | none =>
    let indices' ← setR indices entity (some (s.entities.length + 1))
    .ok { indices := indices', entities := s.entities ++ [entity], data := s.data ++ [data] }

/-- src/sparse_set.rs:55-65, the loop of `add_batch` that records the dense indices:
`k` is `start_index + index`. -/
def addBatchLoop (indices : List (Option Nat)) (k : Nat) : List EntityId → R (List (Option Nat))
  | [] => .ok indices
  | e :: es => do
    let indices' ← setR (enlarge indices e) e (some (k + 1))
    addBatchLoop indices' (k + 1) es

/-- src/sparse_set.rs:48-66 `add_batch`. -/
def addBatch (s : SparseSet V) (entities : List EntityId) (data : List V) : R (SparseSet V) := do
  assertR (entities.length == data.length)
  let indices ← addBatchLoop s.indices s.entities.length entities
  .ok { indices := indices, entities := s.entities ++ entities, data := s.data ++ data }

/-- src/sparse_set.rs:68-81 `remove`. Note the test `indices.len() < entity` on line 70: for
`entity == indices.len()` the code goes on to the bounds-checked `self.indices[entity]` and panics. -/
def remove (s : SparseSet V) (entity : EntityId) : R (SparseSet V × Option V) := do
  if s.indices.length < entity then
    .ok (s, none)
  else
    match ← getR s.indices entity with
    | some index1 =>
      let index := index1 - 1
      let ei ← getR s.entities index
      let el ← unwrapR s.entities.getLast?
      let indices ← swapR s.indices ei el
      let indices ← setR indices entity none
      let (_, entities) ← swapRemoveR s.entities index
      let (v, data) ← swapRemoveR s.data index
      .ok ({ indices := indices, entities := entities, data := data }, some v)
    | none => .ok (s, none)

/-- src/sparse_set.rs:116-118 `len`. -/
def len (s : SparseSet V) : Nat := s.entities.length

/-- src/sparse_set.rs:83-96 `swap_by_index`. -/
def swapByIndex (s : SparseSet V) (indexA indexB : Nat) : R (SparseSet V) := do
  if indexA = indexB then
    .ok s
  else if indexA ≥ s.len then .error .panic
  else if indexB ≥ s.len then .error .panic
  else
    let entityA ← getR s.entities indexA
    let entityB ← getR s.entities indexB
    let indices ← swapR s.indices entityA entityB
    let entities ← swapR s.entities indexA indexB
    let data ← swapR s.data indexA indexB
    .ok { indices := indices, entities := entities, data := data }

/-- src/sparse_set.rs:120-127 `exist`. -/
def exist (s : SparseSet V) (entity : EntityId) : Bool :=
  match s.indices[entity]? with
  | some o => o.isSome
  | none => false

/-- src/sparse_set.rs:98-114 `swap_by_entity` (unused in the crate outside its tests). -/
def swapByEntity (s : SparseSet V) (entityA entityB : EntityId) : R (SparseSet V) := do
  assertR (s.exist entityA)
  assertR (s.exist entityB)
  if entityA = entityB then .ok s
  else
    let ia ← unwrapR (← getR s.indices entityA)
    let ib ← unwrapR (← getR s.indices entityB)
    let indices ← swapR s.indices entityA entityB
    let entities ← swapR s.entities (ia - 1) (ib - 1)
    let data ← swapR s.data (ia - 1) (ib - 1)
    .ok { indices := indices, entities := entities, data := data }

/-- src/sparse_set.rs:163-171 `get_index`. -/
def getIndex (s : SparseSet V) (entity : EntityId) : Option Nat :=
  match s.indices[entity]? with
  | some (some index) => some (index - 1)
  | _ => none

/-- src/sparse_set.rs:129-138 `get` (and 146-155 `get_mut`, which returns a mutable reference to the
same slot): the slot is looked up in `indices`, the access `self.data[index]` is bounds-checked. -/
def get (s : SparseSet V) (entity : EntityId) : R (Option V) :=
  match s.getIndex entity with
  | some index => do .ok (some (← getR s.data index))
  | none => .ok none

/-- src/sparse_set.rs:140-144 `get_unchecked` (and 157-161 `get_unchecked_mut`): both array reads are
unchecked, the `unwrap` panics on a vacant entry. -/
def getUnchecked (s : SparseSet V) (entity : EntityId) : R V := do
  let index ← unwrapR (← getU s.indices entity)
  getU s.data (index - 1)

/-- Assignment through the reference returned by src/sparse_set.rs:157-161 `get_unchecked_mut`. -/
def setUnchecked (s : SparseSet V) (entity : EntityId) (v : V) : R (SparseSet V) := do
  let index ← unwrapR (← getU s.indices entity)
  let _ ← getU s.data (index - 1)
  .ok { s with data := s.data.set (index - 1) v }

/-- src/component.rs:38-40 `ComponentStorage::id`: `self.entities().get(index).cloned()`. -/
def idAt (s : SparseSet V) (index : Nat) : Option EntityId := s.entities[index]?

/-- src/component.rs:42-44 `ComponentStorage::remove`: `self.remove(entity_id).unwrap()`. -/
def removeUnwrap (s : SparseSet V) (entity : EntityId) : R (SparseSet V) := do
  let (s', r) ← s.remove entity
  let _ ← unwrapR r
  .ok s'

/-!
The mutating methods once more, statement by statement, so that the set a panic leaves behind is known
exactly. Proofs/Exact.lean proves that both versions return the same result and, if they do not fault, the
same set.
-/

section Statements
variable {V : Type}

/-- src/sparse_set.rs:30-46 `add`, statement by statement. -/
def addX (entity : EntityId) (data : V) : Stm (SparseSet V) Unit := do
  Stm.upd fun s => .ok { s with indices := enlarge s.indices entity }
  match ← Stm.read fun s => getR s.indices entity with
  | some index => Stm.upd fun s => do .ok { s with data := ← setR s.data (index - 1) data }
  | none =>
    Stm.upd fun s => do .ok { s with indices := ← setR s.indices entity (some (s.entities.length + 1)) }
    Stm.upd fun s => .ok { s with entities := s.entities ++ [entity] }
    Stm.upd fun s => .ok { s with data := s.data ++ [data] }

/-- src/sparse_set.rs:48-66 `add_batch`, statement by statement. -/
def addBatchX (entities : List EntityId) (data : List V) : Stm (SparseSet V) Unit := do
  Stm.read fun _ => assertR (entities.length == data.length)
  let start ← Stm.read fun s => .ok s.entities.length
  Stm.upd fun s => .ok { s with entities := s.entities ++ entities }
  Stm.upd fun s => .ok { s with data := s.data ++ data }
  Stm.forEach (entities.mapIdx fun index entity => (index, entity)) fun x => do
    Stm.upd fun s => .ok { s with indices := enlarge s.indices x.2 }
    Stm.upd fun s => do .ok { s with indices := ← setR s.indices x.2 (some (start + x.1 + 1)) }

/-- src/sparse_set.rs:68-81 `remove`, statement by statement. -/
def removeX (entity : EntityId) : Stm (SparseSet V) (Option V) := do
  if ← Stm.read fun s => .ok (decide (s.indices.length < entity)) then pure none
  else
    match ← Stm.read fun s => getR s.indices entity with
    | some index1 =>
      let index := index1 - 1
      Stm.upd fun s => do
        let ei ← getR s.entities index
        let el ← unwrapR s.entities.getLast?
        .ok { s with indices := ← swapR s.indices ei el }
      Stm.upd fun s => do .ok { s with indices := ← setR s.indices entity none }
      Stm.upd fun s => do .ok { s with entities := (← swapRemoveR s.entities index).2 }
      let v ← Stm.read fun s => do .ok (← swapRemoveR s.data index).1
      Stm.upd fun s => do .ok { s with data := (← swapRemoveR s.data index).2 }
      pure (some v)
    | none => pure none

/-- src/sparse_set.rs:83-96 `swap_by_index`, statement by statement. -/
def swapByIndexX (indexA indexB : Nat) : Stm (SparseSet V) Unit := do
  if indexA = indexB then pure ()
  else
    Stm.read fun s => if indexA ≥ s.len then .error .panic else .ok ()
    Stm.read fun s => if indexB ≥ s.len then .error .panic else .ok ()
    let entityA ← Stm.read fun s => getR s.entities indexA
    let entityB ← Stm.read fun s => getR s.entities indexB
    Stm.upd fun s => do .ok { s with indices := ← swapR s.indices entityA entityB }
    Stm.upd fun s => do .ok { s with entities := ← swapR s.entities indexA indexB }
    Stm.upd fun s => do .ok { s with data := ← swapR s.data indexA indexB }

/-- src/component.rs:42-44 `ComponentStorage::remove`, statement by statement. -/
def removeUnwrapX (entity : EntityId) : Stm (SparseSet V) Unit := do
  let r ← removeX entity
  let _ ← Stm.read fun _ => unwrapR r

end Statements

end SparseSet
end Xecs
