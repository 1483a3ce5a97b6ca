import Verif.Spec.Play
/-
The crate's own unit tests, replayed on the model: every assertion of the `#[test]` functions of
src/sparse_set.rs, src/entity.rs, src/world.rs and src/query/mod.rs is an `example` here. They are tests of
the model's fidelity, not proofs of properties. Tests that only print are replayed and their printed lists
are pinned to what a hand run of the Rust code gives.
-/
set_option autoImplicit false
namespace Xecs.Upstream

/-- Run a list of steps that thread a sparse set. -/
def steps {σ : Type} (s : σ) : List (σ → R σ) → R σ
  | [] => .ok s
  | f :: fs => do steps (← f s) fs

abbrev S := SparseSet Char
def add (e : Nat) (c : Char) : S → R S := fun s => s.add e c
def rem (e : Nat) : S → R S := fun s => do .ok (← s.remove e).1
def lists (r : R S) : R (List Nat × List Char) := do let s ← r; .ok (s.entities, s.data)

/-! ### src/sparse_set.rs:205-236 `basic_test` -/

example : lists (steps .new [add 5 'a', add 3 'b']) = .ok ([5, 3], ['a', 'b']) := by decide +kernel

def basic : R S := steps .new [add 5 'a', add 3 'b', add 3 'c', add 1 'd']

example : lists basic = .ok ([5, 3, 1], ['a', 'c', 'd']) := by decide +kernel
example : (do (← basic).get 4) = .ok none := by decide +kernel
example : (do (← basic).get 1) = .ok (some 'd') := by decide +kernel
example : (do (← (← basic).setUnchecked 1 'f').get 1) = .ok (some 'f') := by decide +kernel
example : (do .ok ((← basic).getIndex 3)) = (.ok (some 1) : R (Option Nat)) := by decide +kernel
example : (do .ok (← (← basic).remove 2).2) = (.ok none : R (Option Char)) := by decide +kernel
example : (do .ok (← (← steps .new [add 5 'a', add 3 'b', add 3 'c', add 1 'd', rem 2]).remove 5).2) =
    (.ok (some 'a') : R (Option Char)) := by decide +kernel
example : lists (steps .new [add 5 'a', add 3 'b', add 3 'c', add 1 'd', rem 2, rem 5]) =
    .ok ([1, 3], ['d', 'c']) := by decide +kernel
example : (do .ok (← (← steps .new [add 5 'a', add 3 'b', add 3 'c', add 1 'd', rem 2, rem 5]).remove 1).2) =
    (.ok (some 'd') : R (Option Char)) := by decide +kernel
example : (do .ok (← (← steps .new [add 5 'a', add 3 'b', add 3 'c', add 1 'd', rem 2, rem 5, rem 1]).remove 3).2) =
    (.ok (some 'c') : R (Option Char)) := by decide +kernel
example : lists (steps .new [add 5 'a', add 3 'b', add 3 'c', add 1 'd', rem 2, rem 5, rem 1, rem 3]) =
    .ok ([], []) := by decide +kernel

/-! ### src/sparse_set.rs:239-258 `swap_test` -/

def four : List (S → R S) := [add 3 'a', add 5 'b', add 6 'c', add 2 'd']

example : lists (steps .new four) = .ok ([3, 5, 6, 2], ['a', 'b', 'c', 'd']) := by decide +kernel
example : lists (steps .new (four ++ [fun s => s.swapByIndex 1 2])) =
    .ok ([3, 6, 5, 2], ['a', 'c', 'b', 'd']) := by decide +kernel
example : lists (steps .new (four ++ [fun s => s.swapByIndex 1 2, fun s => s.swapByEntity 2 3])) =
    .ok ([2, 6, 5, 3], ['d', 'c', 'b', 'a']) := by decide +kernel

/-! ### src/sparse_set.rs:261-272 `batch` -/

example : lists (steps .new [fun s => s.addBatch [2, 5, 3, 4] ['a', 'b', 'c', 'd'],
    fun s => s.addBatch [1, 6] ['e', 'f']]) =
    .ok ([2, 5, 3, 4, 1, 6], ['a', 'b', 'c', 'd', 'e', 'f']) := by decide +kernel
example : (steps SparseSet.new [fun s => s.addBatch [2, 5, 3, 4] ['a', 'b', 'c', 'd'],
    fun s => s.addBatch [1, 6] ['e', 'f']]).map (·.indices) =
    .ok [none, some 5, some 1, some 3, some 4, some 2, some 6] := by decide +kernel

/-! ### src/entity.rs:305-353 `manager_test` -/

abbrev E := EntityManager
/-- Allocate `n` times, collecting the ids. -/
def allocs (m : E) : Nat → R (List Nat × E)
  | 0 => .ok ([], m)
  | n + 1 => do
    let (m, id) ← m.allocate
    let (l, m) ← allocs m n
    .ok (id :: l, m)

example : (allocs .new 5).map (fun x => (x.1, x.2.len)) = .ok ([1, 2, 3, 4, 5], 5) := by decide +kernel
example : (do let (_, m) ← allocs .new 5
              let m ← m.remove 3
              let m ← m.remove 5
              let m ← m.remove 1
              .ok (← allocs m 4).1) = (.ok [1, 5, 3, 6] : R (List Nat)) := by decide +kernel

/-! ### src/entity.rs:356-374 `create_entities` -/

example : (EntityManager.new.allocateN 5).2 = (1, 6) := by decide +kernel
example : (EntityManager.new.allocateN 5).1.entities = [1, 2, 3, 4, 5] := by decide +kernel
example : (((EntityManager.new.allocateN 5).1.allocateN 3).1.entities.drop 5).take 3 = [6, 7, 8] := by decide +kernel

/-! ### src/world.rs -/

/-- Component and resource values of the tests: `u32`, `char`, `()`/`Tag`. -/
inductive Val where
  | n (x : Nat)
  | c (x : Char)
  | unit
  deriving DecidableEq

/-- `u32`, `char`, `()`/`Tag`. -/
def u32 : Nat := 1
def chr : Nat := 2
def tag : Nat := 3

abbrev W := M Val

/-- `create_entity().attach(..).attach(..)...into_id()` -/
def spawn (l : List (Nat × Val)) : W Nat := do
  let id ← World.createEntity
  M.forEach l fun x => World.entityAttach id x.1 x.2
  pure id

/-- What the program returns, started in an empty world. -/
def run {α : Type} (m : W α) : R α := (m World.new).2

/-- `world.query::<q>().with_id().collect()`, the references read. -/
def ask (q : Query) : W (List (Nat × Option (Item Val))) := M.read fun w => w.results q

/-- src/world.rs:379-403 `component_test` -/
example : run (do
    World.register chr
    let id1 ← World.createEntity
    let id2 ← World.createEntity
    let _ ← World.createEntity
    World.attach id1 chr (.c 'c')
    World.attach id2 chr (.c 'a')
    let before ← World.storageData chr
    World.removeEntity [chr] id1
    let after ← World.storageData chr
    pure (before, after)) = .ok (some [.c 'c', .c 'a'], some [.c 'a']) := by decide +kernel

/-- src/world.rs:406-473 `group_test`: the world before the groups are made -/
def groupTest : W (Nat × Nat × Nat) := do
  World.register u32
  World.register chr
  World.register tag
  let _ ← spawn [(u32, .n 1), (tag, .unit)]
  let id2 ← spawn [(u32, .n 2)]
  let id3 ← spawn [(u32, .n 3), (chr, .c 'a'), (tag, .unit)]
  let _ ← spawn [(u32, .n 4), (chr, .c 'b')]
  let _ ← spawn [(u32, .n 5), (chr, .c 'c')]
  let _ ← spawn [(u32, .n 6)]
  let id7 ← spawn [(chr, .c 'd'), (tag, .unit)]
  pure (id2, id3, id7)

/-- The ids listed by `print::<T>` for the three types. -/
def ids : W (List (List Nat)) := M.read fun w => do
  let a ← w.results (.comp .ref u32)
  let b ← w.results (.comp .ref chr)
  let c ← w.results (.comp .ref tag)
  .ok [a.map (·.1), b.map (·.1), c.map (·.1)]

example : run (do let x ← groupTest; let l ← ids; pure (x, l)) =
    .ok ((2, 3, 7), [[1, 2, 3, 4, 5, 6], [3, 4, 5, 7], [1, 3, 7]]) := by decide +kernel

/-- src/world.rs:406-473 `group_test`: the calls it makes all return; the lists printed after each step -/
def groupTest' : W (List (List (List Nat))) := do
  let (id2, id3, id7) ← groupTest
  World.makeGroup .full u32 chr
  World.makeGroup .non u32 chr
  World.makeGroup .part tag u32
  let l1 ← ids
  World.attach id2 chr (.c 'b')
  let l2 ← ids
  World.attach id7 u32 (.n 2)
  let l3 ← ids
  let _ ← World.detach id3 u32
  let l4 ← ids
  pure [l1, l2, l3, l4]

example : run groupTest' = .ok
    [[[3, 4, 5, 2, 1, 6], [3, 4, 5, 7], [1, 3, 7]],
     [[3, 4, 5, 2, 1, 6], [3, 4, 5, 2, 7], [1, 3, 7]],
     [[3, 4, 5, 2, 7, 6, 1], [3, 4, 5, 2, 7], [1, 3, 7]],
     [[7, 4, 5, 2, 1, 6], [7, 4, 5, 2, 3], [1, 7, 3]]] := by decide +kernel

/-- src/world.rs:494-514 `resource_test` (`Test { name, age }` reduced to its age) -/
example : run (do
    World.registerResource 9 (Val.n 12)
    let a ← World.resourceRead 9
    let b ← World.resourceWrite 9 (.n 13)
    let c ← World.resourceRead 9
    pure (a, b, c)) = .ok (some (.n 12), true, some (.n 13)) := by decide +kernel

/-- src/world.rs:517-540 `entity_component_test`, and 543-568 `entity_test`, which does the same through the
handle -/
example : run (do
    World.register u32
    let _ ← spawn [(u32, .n 5)]
    let id ← spawn [(u32, .n 7)]
    let _ ← spawn [(u32, .n 2)]
    let h ← World.entity id
    let a ← World.componentRead u32 id
    let b ← World.componentWrite u32 id (.n 3)
    let c ← World.componentRead u32 id
    pure (h, a, b, c)) = .ok (some 2, some (.n 7), true, some (.n 3)) := by decide +kernel

/-- src/world.rs:571-603 `enitites_test` -/
example : run (do
    World.register u32
    World.register chr
    let _ ← spawn [(u32, .n 2), (chr, .c 'a')]
    let r ← World.createEntities 5
    World.attachBatch r.1 r.2 u32 [.n 1, .n 2, .n 3, .n 4, .n 5]
    World.attachBatch r.1 r.2 chr [.c 'a', .c 'b', .c 'c', .c 'd', .c 'e']
    let a ← World.storageData u32
    let b ← World.storageData chr
    World.removeEntity [u32, chr] 4
    let id ← World.createEntity
    pure (r, a, b, id)) =
    .ok ((2, 7), some [.n 2, .n 1, .n 2, .n 3, .n 4, .n 5],
      some [.c 'a', .c 'a', .c 'b', .c 'c', .c 'd', .c 'e'], 4) := by decide +kernel

/-! ### src/query/mod.rs -/

/-- The world of both query tests. -/
def queryTest : W Unit := do
  World.register u32
  World.register chr
  World.register tag
  let _ ← spawn [(u32, .n 1)]
  let _ ← spawn [(u32, .n 2), (chr, .c 'c')]
  let _ ← spawn [(u32, .n 3), (tag, .unit)]
  let _ ← spawn [(u32, .n 4), (chr, .c 'b')]
  let _ ← spawn [(u32, .n 5), (chr, .c 'q'), (tag, .unit)]
  let _ ← spawn [(u32, .n 6), (chr, .c 'w')]
  let _ ← spawn [(u32, .n 7)]
  let _ ← spawn [(u32, .n 8), (chr, .c 's'), (tag, .unit)]

def num (x : Nat) : Item Val := .leaf (.n x)
def numChar (x : Nat) (y : Char) : Item Val := .pair (.leaf (.n x)) (.leaf (.c y))

/-- src/query/mod.rs:341-380 `basic_test` -/
example : run (do queryTest; ask (.with2 (.comp .ref u32) (.comp .ref chr))) =
    .ok [(2, some (numChar 2 'c')), (4, some (numChar 4 'b')), (5, some (numChar 5 'q')),
      (6, some (numChar 6 'w')), (8, some (numChar 8 's'))] := by decide +kernel
example : run (do queryTest; ask (.with2 (.comp .ref u32) (.with2 (.comp .mut chr) (.comp .ref tag)))) =
    .ok [(5, some (.pair (.leaf (.n 5)) (.pair (.leaf (.c 'q')) (.leaf .unit)))),
      (8, some (.pair (.leaf (.n 8)) (.pair (.leaf (.c 's')) (.leaf .unit))))] := by decide +kernel

/-- src/query/mod.rs:383-413 `without_test` -/
example : run (do queryTest; ask (.withoutR (.comp .ref u32) (.comp .ref chr))) =
    .ok [(1, some (num 1)), (3, some (num 3)), (7, some (num 7))] := by decide +kernel
example : run (do queryTest; ask (.withoutL (.with2 (.comp .ref chr) (.comp .ref tag)) (.comp .ref u32))) =
    .ok [(1, some (num 1)), (2, some (num 2)), (3, some (num 3)), (4, some (num 4)), (6, some (num 6)),
      (7, some (num 7))] := by decide +kernel
example : run (do queryTest; ask (.withoutL (.comp .ref tag) (.withoutR (.comp .ref u32) (.comp .ref chr)))) =
    .ok [(1, some (num 1)), (7, some (num 7))] := by decide +kernel

end Xecs.Upstream
