import Verif.Model.SparseSet
/-
Model of src/group/mod.rs and src/group/{full_owning,partial_owning,non_owning}/mod.rs.
The storages `comp_a`, `comp_b` are `Box<dyn ComponentStorage>`; the functions below take the underlying
sparse sets and return the new ones.
-/
set_option autoImplicit false
namespace Xecs

/-- The three group kinds (src/group/mod.rs:39-44). -/
inductive Kind where
  | full
  | part
  | non
  deriving DecidableEq, Repr

/-- src/group/mod.rs:39-44 `Group`, with the fields of `FullOwningData`
(src/group/full_owning/mod.rs:15-19), `PartialOwningData` (src/group/partial_owning/mod.rs:7-11) and `NonOwningData`
(src/group/non_owning/mod.rs:15-19). -/
inductive Group where
  | full (length : Nat) (a b : TypeId)
  | part (length : Nat) (a b : TypeId)
  | non (set : SparseSet (Nat × Nat)) (a b : TypeId)
  deriving DecidableEq, Repr

namespace Group
variable {V : Type _}

/-- The variant of a group. -/
def kind : Group → Kind
  | full .. => .full
  | part .. => .part
  | non .. => .non

/-- First component of `types()` (src/group/mod.rs:55-61). -/
def tyA : Group → TypeId
  | full _ a _ => a
  | part _ a _ => a
  | non _ a _ => a

/-- Second component of `types()` (src/group/mod.rs:55-61). -/
def tyB : Group → TypeId
  | full _ _ b => b
  | part _ _ b => b
  | non _ _ b => b

/-- `Into<Group>`: src/group/full_owning/mod.rs:160-168, src/group/partial_owning/mod.rs:133-141, src/group/non_owning/mod.rs:136-144:
an empty group of the requested kind. -/
def fresh (k : Kind) (a b : TypeId) : Group :=
  match k with
  | .full => full 0 a b
  | .part => part 0 a b
  | .non => non SparseSet.new a b

/-- src/group/mod.rs:47-53 `len`. -/
def len : Group → Nat
  | full l _ _ => l
  | part l _ _ => l
  | non s _ _ => s.len

/-- src/group/mod.rs:71-77 `owning`: src/group/full_owning/mod.rs:40-42, src/group/partial_owning/mod.rs:32-34,
src/group/non_owning/mod.rs:39-41. -/
def owning : Group → List TypeId
  | full _ a b => [a, b]
  | part _ a _ => [a]
  | non .. => []

/-- src/group/mod.rs:63-69 `owned`: src/group/full_owning/mod.rs:36-38, src/group/partial_owning/mod.rs:28-30,
src/group/non_owning/mod.rs:35-37. -/
def owned : Group → TypeId → Bool
  | full _ a b, t => t == a || t == b
  | part _ a _, t => t == a
  | non .., _ => false

/-- `PartialEq` for `Group`: derived on the enum (src/group/mod.rs:39), and comparing only the two types
in each variant (src/group/full_owning/mod.rs:21-25, src/group/partial_owning/mod.rs:13-17, src/group/non_owning/mod.rs:21-25). -/
def same (g h : Group) : Bool :=
  g.kind == h.kind && g.tyA == h.tyA && g.tyB == h.tyB

/-- `in_components`: src/group/full_owning/mod.rs:44-49, src/group/partial_owning/mod.rs:36-41, src/group/non_owning/mod.rs:43-48
(identical in the three kinds). -/
def inComponents (_g : Group) (id : EntityId) (A B : SparseSet V) : Bool :=
  A.exist id && B.exist id

/-- `in_group`: src/group/full_owning/mod.rs:51-68, src/group/partial_owning/mod.rs:43-60, src/group/non_owning/mod.rs:49-58. -/
def inGroup (g : Group) (id : EntityId) (A B : SparseSet V) : R Bool :=
  if !g.inComponents id A B then .ok false
  else
    match g with
    | full length _ _ => do
      let indexA ← unwrapR (A.getIndex id)
      let indexB ← unwrapR (B.getIndex id)
      .ok (decide (indexA < length) && decide (indexB < length))
    | part length _ _ => do
      let indexA ← unwrapR (A.getIndex id)
      .ok (decide (indexA < length))
    | non set _ _ => .ok (set.exist id)

/-- `add`: src/group/full_owning/mod.rs:70-90, src/group/partial_owning/mod.rs:62-80, src/group/non_owning/mod.rs:59-76. Returns the
updated group and storages. -/
def add (g : Group) (id : EntityId) (A B : SparseSet V) :
    R (Group × SparseSet V × SparseSet V) := do
  if !g.inComponents id A B then .ok (g, A, B)
  else if ← g.inGroup id A B then .ok (g, A, B)
  else
    match g with
    | full length a b =>
      let indexA ← unwrapR (A.getIndex id)
      let indexB ← unwrapR (B.getIndex id)
      let A' ← A.swapByIndex indexA length
      let B' ← B.swapByIndex indexB length
      .ok (full (length + 1) a b, A', B')
    | part length a b =>
      let indexA ← unwrapR (A.getIndex id)
      let A' ← A.swapByIndex indexA length
      .ok (part (length + 1) a b, A', B)
    | non set a b =>
      let indexA ← unwrapR (A.getIndex id)
      let indexB ← unwrapR (B.getIndex id)
      let set' ← set.add id (indexA, indexB)
      .ok (non set' a b, A, B)

/-- `remove`: src/group/full_owning/mod.rs:92-109, src/group/partial_owning/mod.rs:82-97, src/group/non_owning/mod.rs:78-89.
`length -= 1` cannot underflow: `in_group` implies `index < length`. -/
def remove (g : Group) (id : EntityId) (A B : SparseSet V) :
    R (Group × SparseSet V × SparseSet V) := do
  if !(← g.inGroup id A B) then .ok (g, A, B)
  else
    match g with
    | full length a b =>
      let indexA ← unwrapR (A.getIndex id)
      let indexB ← unwrapR (B.getIndex id)
      let A' ← A.swapByIndex indexA (length - 1)
      let B' ← B.swapByIndex indexB (length - 1)
      .ok (full (length - 1) a b, A', B')
    | part length a b =>
      let indexA ← unwrapR (A.getIndex id)
      let A' ← A.swapByIndex indexA (length - 1)
      .ok (part (length - 1) a b, A', B)
    | non set a b =>
      let (set', r) ← set.remove id
      let _ ← unwrapR r
      .ok (non set' a b, A, B)

/-- src/group/full_owning/mod.rs:120-129, loop over the (smaller) first storage; the list is the remaining range of
`index_a`. -/
def makeFullLoopA (length : Nat) (A B : SparseSet V) :
    List Nat → R (Nat × SparseSet V × SparseSet V)
  | [] => .ok (length, A, B)
  | indexA :: rest => do
    let id ← unwrapR (A.idAt indexA)
    match B.getIndex id with
    | some indexB =>
      let A' ← A.swapByIndex indexA length
      let B' ← B.swapByIndex indexB length
      makeFullLoopA (length + 1) A' B' rest
    | none => makeFullLoopA length A B rest

/-- src/group/full_owning/mod.rs:131-140, loop over the second storage. -/
def makeFullLoopB (length : Nat) (A B : SparseSet V) :
    List Nat → R (Nat × SparseSet V × SparseSet V)
  | [] => .ok (length, A, B)
  | indexB :: rest => do
    let id ← unwrapR (B.idAt indexB)
    match A.getIndex id with
    | some indexA =>
      let A' ← A.swapByIndex indexA length
      let B' ← B.swapByIndex indexB length
      makeFullLoopB (length + 1) A' B' rest
    | none => makeFullLoopB length A B rest

/-- src/group/partial_owning/mod.rs:104-112, loop of `make`. -/
def makePartLoop (length : Nat) (A B : SparseSet V) : List Nat → R (Nat × SparseSet V)
  | [] => .ok (length, A)
  | index :: rest => do
    let id ← unwrapR (A.idAt index)
    if B.exist id then
      let A' ← A.swapByIndex index length
      makePartLoop (length + 1) A' B rest
    else makePartLoop length A B rest

/-- src/group/non_owning/mod.rs:100-107, loop of `make` over the first storage. -/
def makeNonLoopA (set : SparseSet (Nat × Nat)) (A B : SparseSet V) :
    List Nat → R (SparseSet (Nat × Nat))
  | [] => .ok set
  | indexA :: rest => do
    let id ← unwrapR (A.idAt indexA)
    match B.getIndex id with
    | some indexB => makeNonLoopA (← set.add id (indexA, indexB)) A B rest
    | none => makeNonLoopA set A B rest

/-- src/group/non_owning/mod.rs:109-116, loop of `make` over the second storage. -/
def makeNonLoopB (set : SparseSet (Nat × Nat)) (A B : SparseSet V) :
    List Nat → R (SparseSet (Nat × Nat))
  | [] => .ok set
  | indexB :: rest => do
    let id ← unwrapR (B.idAt indexB)
    match A.getIndex id with
    | some indexA => makeNonLoopB (← set.add id (indexA, indexB)) A B rest
    | none => makeNonLoopB set A B rest

/-- `make`: src/group/full_owning/mod.rs:111-142, src/group/partial_owning/mod.rs:99-113, src/group/non_owning/mod.rs:91-118. -/
def make (g : Group) (A B : SparseSet V) : R (Group × SparseSet V × SparseSet V) := do
  match g with
  | full _ a b =>
    if A.len < B.len then
      let (length, A', B') ← makeFullLoopA 0 A B (List.range A.len)
      .ok (full length a b, A', B')
    else
      let (length, A', B') ← makeFullLoopB 0 A B (List.range B.len)
      .ok (full length a b, A', B')
  | part _ a b =>
    let (length, A') ← makePartLoop 0 A B (List.range A.len)
    .ok (part length a b, A', B)
  | non set a b =>
    if A.len < B.len then
      let set' ← makeNonLoopA set.clear A B (List.range A.len)
      .ok (non set' a b, A, B)
    else
      let set' ← makeNonLoopB set.clear A B (List.range B.len)
      .ok (non set' a b, A, B)

/-! The mutating methods statement by statement, on the group and its two storages. -/

/-- A group and the two storages behind the guards. -/
abbrev Trio (V : Type) := Group × SparseSet V × SparseSet V

section Statements
variable {V : Type}

/-- Work on the first storage. -/
def onA {α : Type} (m : Stm (SparseSet V) α) : Stm (Trio V) α :=
  Stm.on (fun x => x.2.1) (fun x A => (x.1, A, x.2.2)) m

/-- Work on the second storage. -/
def onB {α : Type} (m : Stm (SparseSet V) α) : Stm (Trio V) α :=
  Stm.on (fun x => x.2.2) (fun x B => (x.1, x.2.1, B)) m

/-- Assign to the group. -/
def set (g : Group) : Stm (Trio V) Unit := Stm.upd fun x => .ok (g, x.2)

/-- Work on the index set of a non-owning group. -/
def onSet {α : Type} : Stm (SparseSet (Nat × Nat)) α → SparseSet (Nat × Nat) → TypeId → TypeId → Stm (Trio V) α
  | .ret r, s, a, b => .step (fun x => (non s a b, x.2)) fun _ => .ret r
  | .step f k, s, a, b => .step (fun x => (non (f s) a b, x.2)) fun _ => onSet (k s) (f s) a b

/-- `add`, statement by statement: src/group/full_owning/mod.rs:70-90, src/group/partial_owning/mod.rs:62-80,
src/group/non_owning/mod.rs:59-76. -/
def addX (id : EntityId) : Stm (Trio V) Unit := do
  if !(← Stm.read fun x => .ok (x.1.inComponents id x.2.1 x.2.2)) then pure ()
  else if ← Stm.read fun x => x.1.inGroup id x.2.1 x.2.2 then pure ()
  else
    match ← Stm.read fun x => .ok x.1 with
    | full length a b =>
      let indexA ← Stm.read fun x => unwrapR (x.2.1.getIndex id)
      let indexB ← Stm.read fun x => unwrapR (x.2.2.getIndex id)
      onA (SparseSet.swapByIndexX indexA length)
      onB (SparseSet.swapByIndexX indexB length)
      set (full (length + 1) a b)
    | part length a b =>
      let indexA ← Stm.read fun x => unwrapR (x.2.1.getIndex id)
      onA (SparseSet.swapByIndexX indexA length)
      set (part (length + 1) a b)
    | non s a b =>
      let indexA ← Stm.read fun x => unwrapR (x.2.1.getIndex id)
      let indexB ← Stm.read fun x => unwrapR (x.2.2.getIndex id)
      onSet (SparseSet.addX id (indexA, indexB)) s a b

/-- `remove`, statement by statement: src/group/full_owning/mod.rs:92-109, src/group/partial_owning/mod.rs:82-97,
src/group/non_owning/mod.rs:78-89. Note that the length is decreased before the storages are rearranged. -/
def removeX (id : EntityId) : Stm (Trio V) Unit := do
  if !(← Stm.read fun x => x.1.inGroup id x.2.1 x.2.2) then pure ()
  else
    match ← Stm.read fun x => .ok x.1 with
    | full length a b =>
      let indexA ← Stm.read fun x => unwrapR (x.2.1.getIndex id)
      let indexB ← Stm.read fun x => unwrapR (x.2.2.getIndex id)
      set (full (length - 1) a b)
      onA (SparseSet.swapByIndexX indexA (length - 1))
      onB (SparseSet.swapByIndexX indexB (length - 1))
    | part length a b =>
      let indexA ← Stm.read fun x => unwrapR (x.2.1.getIndex id)
      set (part (length - 1) a b)
      onA (SparseSet.swapByIndexX indexA (length - 1))
    | non s a b =>
      onSet (SparseSet.removeUnwrapX id) s a b

/-- src/group/full_owning/mod.rs:120-129, statement by statement; the current length is read from the group. -/
def makeFullLoopAX (a b : TypeId) (indexA : Nat) : Stm (Trio V) Unit := do
  let id ← Stm.read fun x => unwrapR (x.2.1.idAt indexA)
  match ← Stm.read fun x => .ok (x.2.2.getIndex id) with
  | some indexB =>
    let length ← Stm.read fun x => .ok x.1.len
    onA (SparseSet.swapByIndexX indexA length)
    onB (SparseSet.swapByIndexX indexB length)
    set (full (length + 1) a b)
  | none => pure ()

/-- src/group/full_owning/mod.rs:131-140, statement by statement. -/
def makeFullLoopBX (a b : TypeId) (indexB : Nat) : Stm (Trio V) Unit := do
  let id ← Stm.read fun x => unwrapR (x.2.2.idAt indexB)
  match ← Stm.read fun x => .ok (x.2.1.getIndex id) with
  | some indexA =>
    let length ← Stm.read fun x => .ok x.1.len
    onA (SparseSet.swapByIndexX indexA length)
    onB (SparseSet.swapByIndexX indexB length)
    set (full (length + 1) a b)
  | none => pure ()

/-- src/group/partial_owning/mod.rs:104-112, statement by statement. -/
def makePartLoopX (a b : TypeId) (index : Nat) : Stm (Trio V) Unit := do
  let id ← Stm.read fun x => unwrapR (x.2.1.idAt index)
  if ← Stm.read fun x => .ok (x.2.2.exist id) then
    let length ← Stm.read fun x => .ok x.1.len
    onA (SparseSet.swapByIndexX index length)
    set (part (length + 1) a b)
  else pure ()

/-- Work on the index set of the group, if it is a non-owning one (`make` is called right after the group's
creation as a group of that kind). -/
def onNon {α : Type} (m : Stm (SparseSet (Nat × Nat)) α) : Stm (Trio V) α := do
  match ← Stm.read fun x => .ok x.1 with
  | non s a b => onSet m s a b
  | _ => Stm.read fun _ => .error .panic

/-- src/group/non_owning/mod.rs:100-107, statement by statement. -/
def makeNonLoopAX (indexA : Nat) : Stm (Trio V) Unit := do
  let id ← Stm.read fun x => unwrapR (x.2.1.idAt indexA)
  match ← Stm.read fun x => .ok (x.2.2.getIndex id) with
  | some indexB => onNon (SparseSet.addX id (indexA, indexB))
  | none => pure ()

/-- src/group/non_owning/mod.rs:109-116, statement by statement. -/
def makeNonLoopBX (indexB : Nat) : Stm (Trio V) Unit := do
  let id ← Stm.read fun x => unwrapR (x.2.2.idAt indexB)
  match ← Stm.read fun x => .ok (x.2.1.getIndex id) with
  | some indexA => onNon (SparseSet.addX id (indexA, indexB))
  | none => pure ()

/-- `make`, statement by statement: src/group/full_owning/mod.rs:111-142, src/group/partial_owning/mod.rs:99-113,
src/group/non_owning/mod.rs:91-118. -/
def makeX : Stm (Trio V) Unit := do
  let lenA ← Stm.read fun x => .ok x.2.1.len
  let lenB ← Stm.read fun x => .ok x.2.2.len
  match ← Stm.read fun x => .ok x.1 with
  | full _ a b =>
    set (full 0 a b)
    if lenA < lenB then Stm.forEach (List.range lenA) (makeFullLoopAX a b)
    else Stm.forEach (List.range lenB) (makeFullLoopBX a b)
  | part _ a b =>
    set (part 0 a b)
    Stm.forEach (List.range lenA) (makePartLoopX a b)
  | non s a b =>
    set (non s.clear a b)
    if lenA < lenB then Stm.forEach (List.range lenA) makeNonLoopAX
    else Stm.forEach (List.range lenB) makeNonLoopBX

end Statements

end Group
end Xecs
