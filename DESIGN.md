# Formal model of xstater/xecs in Lean 4 — design

## 1. Trusted base

* **Kernel and axioms.** Lean 4.33.0's kernel. Every theorem depends on at most `propext`, `Classical.choice`
  and `Quot.sound`; the exact list per claimed theorem is in `AXIOMS.md` (output of `#print axioms`). There are no
  axioms of our own, no unfinished proofs, no `native_decide`, no `bv_decide`. No Mathlib module is imported.
  Concrete examples are checked with `decide +kernel`, i.e. by kernel evaluation.
* **The reading of the code.** The model was written from `/repo/src/*.rs`; each definition in `Verif/Model/*`
  cites the file and lines it models and says where it simplifies. Nothing ties model and code together
  mechanically; `Verif/Tests/Upstream.lean` replays the crate's own unit tests on the model and checks the
  asserted results.
* **Rust, std and parking_lot facts assumed, not modelled.** `Vec`, slices and `HashMap` behave as documented
  (`HashMap`: finite map with an arbitrary iteration order; every theorem about `remove_entity` quantifies over
  the order); distinct types have distinct `TypeId`s; `RwLock` gives reader/writer exclusion, is not poisoned by
  panics, and drops guards during unwinding; allocation does not fail and `usize` arithmetic does
  not overflow (for allowed histories C71 proves that counters stay below the peak number of entities).

## 2. What is modelled

| Rust | Lean module | notes |
|---|---|---|
| `sparse_set.rs` | `Model/SparseSet` | all functions the crate uses, literally: three vectors; bounds-checked indexing gives `Fault.panic`, unchecked access out of bounds `Fault.ub` |
| `entity.rs` `EntityManager` | `Model/EntityManager` | the free list threaded through the flags, literally |
| `group/mod.rs`, `group/*/mod.rs` | `Model/Group` | `make`, `add`, `remove`, `in_group`, `types`, `owning`, equality, for the three kinds |
| `world.rs`, `entity.rs` handles, `component.rs`, `resource.rs` | `Model/World` | every public operation. `M V α = World → World × (α or fault)`: the state after a panic is visible. Faults: `panic`, `ub` (undefined behaviour), `deadlock` (blocked on a guard held by the same thread) |
| `query/*.rs`, `group/*/query.rs` | `Model/Query` | `Queryable::query` with its guards and panics; the iterators' `next`, `next_with_id`, `from_id`, `size_hint`, for all tuples, `Without`, and all group queries, as functions of one index; items are locations (type, slot, mutability) |
| the same, with the mutable state of every part | `Model/IterState` | `&mut self` literally: a tree of indices. Proved equal to the one-index form |
| several threads | `Model/Threads` | each call as a program of lock acquisitions, releases and pieces of work; `Sys.Step` interleaves the threads' steps in any order |
| clients keeping handles, guards, queries | `Model/Keeping` | the same programs, guards kept until dropped; calls through kept guards take no lock |

One abstract value type `V` stands for the values of all component and resource types. Each boxed storage carries
the `TypeId` it was created with, and a downcast to another type is `Fault.ub`; so type safety of the unsafe
downcasts is a theorem (C31), not an assumption.

**Sequential granularity.** A `World` method is a sequence of critical sections (what is done under one set of
guards). Each section is written twice: as a function that returns the state after it (`add`, `remove`, `make`, ...) and
statement by statement (`addX`, `removeX`, `makeX`, ..., in the monad `Stm` of Model/Prelude), so that the state a panic in
the middle of a section leaves behind is the one the code leaves. `Proofs/Exact` and `Proofs/ExactWorld` prove that the
two agree: running a section (`M.crit f x`) equals its statement-by-statement version `x`, in every world, well formed or
not. So the worlds of `Wild` histories are those the code reaches, and C50 says what a panicking call can damage.

**Reference and mutable variants.** The four variants (`&A,&B`, `&A,&mut B`, ...) of each group query in
`group/*/query.rs`, and `&T`/`&mut T` in `query/mod.rs`, were compared by a normalised diff: they differ only in
`ref`/`mut`, so each is modelled once with a mode per component.

**Thread granularity.** In `Model/Threads` and `Model/Keeping` pieces of work done under guards are atomic. For
`Model/Threads` this is not an assumption: `Model/Fine` lets threads be interrupted between any two statements, and C67
proves that this makes no observable difference. What remains assumed is that statements of different threads that touch
disjoint data, or only read, do not affect each other, which is what the Rust memory model guarantees of programs without
data races (C67_no_race). The same for `Model/Keeping`: `Model/FineKeeping` and C67_keeping_*.

**Not modelled.** `Debug` for `World` (it uses `try_read`, cannot block and changes nothing); the `System` trait (no
behaviour in the crate); memory layout (only slot numbers); `Drop` of component values; what the `unsafe` methods
`get_unchecked(_mut)` do after reading out of bounds (the model stops with `Fault.ub`); parking_lot's queueing beyond this: a reader may
have to wait while another thread waits to write (`Sys.Blocked`). In `Model/Threads` a handle, component guard or
iterator lives at most until the end of the call chain that created it; in `Model/Keeping` clients keep them as long as
they like, use them in later calls and drop them (C51–C53). This includes further batch attaches
through a kept `Entities` handle (`KCall.viaHandles`; `ApiCall.fill` is its counterpart for clients that keep nothing).
Guards are not sent from one thread to another
(they cannot be: `parking_lot` is used without its `send_guard` feature, so guards are not `Send`).

## 3. Specifications (what to read besides a theorem's statement)

* `Spec/History`: facts read off a history of calls and returned values: `lastValue`, `alive`, `recyclable`, `joined`, ...
  Three classes of histories. `Trace`: only *allowed* calls, i.e. everything except the calls for which `Findings`
  shows the code to misbehave (panicking calls included). `AnyTrace`: any calls at all on any ids and types; failing
  calls must not have changed any component (they may have rearranged storages). `Wild`: any calls at all and whatever failing ones leave behind.
* `Spec/Answer`, `Spec/Query`, `Spec/Results`: what a query should answer for an entity, given only the values
  entities have; lists of results; sessions of iterator calls.
* `Spec/Panics`: the documented reasons to panic, and the undocumented ones found.
* `Spec/Spec`, `Spec/Refine`: the abstract state machine of the refinement proof (most statements do not mention it).
* `Spec/Threads`: footprints of pieces of work, exclusion, disciplined clients, deadlock. `Spec/Alone`: the sequential
  meaning of a call and the guards it takes. `Spec/Linear`: the idealised world in which operations are atomic, and
  histories of calls and returns.
* `Spec/Phases`: the changes made during a shared phase and their record; `Mixed`: histories in which calls of a single owner
  and shared phases alternate; `Ready`: the queries the query theorems speak about.
* `Spec/Order`: the order of iteration as a function of the history.
* `Spec/Enumeration`: two programs that differ only in the order in which `remove_entity` enumerates the storages.
* `Spec/Seats`: what a non-owning group remembers and what a query on it yields, as functions of the history.
* `Spec/Considerate`: clients that work on one entity from several threads.
* `Spec/Ordered`, `Spec/Divided`: the locks of a call, the orders in which clients may take them, what a client changes and what it queries.
* `Spec/Bounded`, `Spec/Space`: how many entities are alive at once, and how large the world may become.
* `Spec/Asks`: the guards a call may ask for, and waiting for oneself.
* `Spec/Keeping`: the plain call corresponding to a call through something kept; kept guards; histories.
* `Spec/Play`, `Spec/Decide`: computing concrete histories and schedules for examples and counterexamples.

## 4. Proof method

* `Proofs/SparseSet`, `EntityManager`, `Group`: representation invariants and refinement of each data structure (map;
  set of live ids and free stack; packed prefix / position table).
* `Proofs/Refine`, `Step`, `Trace`: every operation from a related state returns the specification's output and
  re-establishes the relation, for all histories by induction; `Robust*`: the weaker invariants that survive arbitrary
  calls. `Proofs/Query`, `Iter`, `Setup`, `Session`: collecting an iterator = filtering the driving part.
* Threads: invariants over `Sys.Step` for arbitrary schedules and numbers of threads (`Guards`, `Frame`, `Claims`,
  `ThreadRel`, `Discipline`), a ranking of locks for deadlock freedom (`Deadlock`), and program-level reasoning for calls
  that run alone (`Flows`, `Alone*`, `Lone`). Atomicity is a simulation: `LinearRun` gives the effect of each piece of
  work on the observable contents, `Linear` what the rest of a program still has to do, `LinearSys` the invariant
  linking both worlds. For C54 a sequential history accompanies a shared phase (`Serial`, `Ghost`, `Phases*`), and `Told`
  accounts for each thread's changes.
* The property theorems are in `Props/*` (with a concrete non-trivial instance after each), the counterexamples in
  `Findings/Sequential` and next to the theorems they limit.

## 5. Properties

Where the English property is false of the code, the counterexample theorem proves that (as a concrete history or
schedule), and the `_partial` theorems prove it outside the failing cases.

| id | theorems say | proved by |
|---|---|---|
| C01, C04, C05, C12, C30 | reads are `lastValue`/`lastResource` of the history | refinement of the sparse set to a map; C01 for `AnyTrace` too |
| C02, C22–C26, C29 | the list a query yields, with ids, items and order | iterator = filtered driver; from_id = pointwise answer |
| C03 | detach; false at `id == indices.len()` (panic) | `SparseSet.remove`, boundary case exhibited |
| C06, C13, C14 | effect of make_group / remove_entity on all observables | packing-loop invariant; removal loop for every storage order |
| C07–C10, C42 | ids, recycling order, liveness | free-list invariant. C10: `exist` is wrong for the oldest free id and panics beyond the table |
| C11, C33, C34 | panics leave the world unchanged; exactly which calls panic; no UB | post-states of faulting operations; C34_exactly is an iff |
| C15–C17, C20, C21 | group queries are exact; false for batch attaches (C20), overlapping groups (C21), non-owning groups after moves (C17) | group invariants preserved by every operation |
| C18, C31, C32 | ownership, types, registration, for all histories whatsoever | invariants of `Wild` |
| C19 | make_group atomicity; false for unregistered types | post-state of the panic |
| C27, C47 | size hints; iteration ends | C47 in every world, even a corrupted one |
| C28 | no aliasing; false for `from_id` and for items outliving the iterator | locations of all items of a session pairwise compatible |
| C35, C36, C41 | guards exclude each other and cover all work; handles keep ids alive; self-conflicting queries | guard invariants over all schedules |
| C37, C38, C39 | concurrent creation, attaches, disciplined work | thread invariants relating groups and storages in the middle of calls; C39 false for detach racing with attach |
| C40 | no deadlock for ordered clients (updating; scanning; updating some groups and querying others); five deadlocks exhibited otherwise, three of them in every world with the types or group in question | lock ranking; `Proofs/Standstill` builds the schedules |
| C43 | batch attach over existing components; false later on | dense arrays keep the old entry |
| C44, C45, C46 | self-blocking; calls run alone; kept guards | Flows: the run of one thread's program; `C44_calls` (Props/Selfless) for every whole call, query drops included |
| C50 | what a panicking call leaves behind, for every call and history; the damage that is possible | statement-by-statement sections; the evolution of storages up to the failing statement (Proofs/Fails) |
| C48, C49 | linearizability: each operation takes effect at one moment; removals step by step (counterexample) | simulation of every schedule by the idealised `Atomic` world of Spec/Linear (Proofs/LinearRun, Linear, LinearSys) |
| C51, C52, C53 | guarantees of kept handles, guards and open queries; the guarantees of C37–C39, C48, C49 survive; waiting in a circle (or for oneself) is for ever | simulation of clients that keep things by clients that take the guard for each call (Proofs/Keeping*) |
| C54 | shared phases are as if sequential: for later calls, queries, and entities nobody works on | a sequential history accompanies the phase change by change; invariants `Track`, `Echo` (Proofs/Ghost, Phases*); for clients keeping guards through the simulation of C52 (Props/KeepingPhases) |
| C55 | `get_unchecked` within and outside its contract | evaluation under the storage invariant of `any_look`, `Mixed.look` |
| C56 | absence of undefined behaviour, any history and clients; counterexamples for the rest | a calculus of computations without `Fault.ub` over every section (Proofs/Sound), on top of the invariants of C48, C49, C52 |
| C57 | removals and creations in shared worlds, considerate clients (C65); counterexamples for the rest | from C54: the record of a shared phase is an allowed sequential history |
| C58 | calls that would return alone return in the shared world, considerate clients (C65); counterexamples for fruitless detach and non-owning groups | `Proofs/Firm` (what each call needs at each point), `Proofs/Steady` (the needs are preserved by every step of the others) |
| C59 | conservation of component values: per call in every world, exact over histories, any calls with any outcomes, shared worlds | `Spec/Conserve`; `Proofs/Conserve` (for every predicate the number of stored values satisfying it, through every section, statement by statement), `ConserveHist`, `ConserveShared` (the account of every thread's program) |
| C60 | size of ids: population, peak, blocks | `Spec/Ids`; from the invariant of the entity table (living ids and free list partition 1..n) |
| C61 | lock order for clients that keep things | `Spec/Ordered`, `Spec/Divided` (locks of a call, three orders, circles); invariant: whatever is held comes before what is waited for; drained by well-founded induction on the threads |
| C62 | iteration order | `Spec/Order` (`swapOut`, `slots` as a recursion over the history); every section of the model maps the entity list of an unowned storage by append, swap-remove or nothing (`Stirs`), then induction on the history; packing from the group invariant |
| C63 | enumeration order of the hash map | order is an argument of `removeEntity`; erasing from two different storages commutes, so by induction over permutations all orders give one world; well-formed storages never make an erase fail |
| C64 | exact answers of non-owning group queries | `Spec/Seats` (`members`, `seat`, `valueAt`, `yielded` as recursions over the history); invariant `View` of the group's index set carried through every section of attach, detach, remove, make_group; then induction over the iterator; corollaries: when it is defined, when it is right |
| C65 | several threads at work on one entity | `Spec/Considerate`; for every group the rest of a chain is in one of four stances (idle; only attaches and then offers; only detaches after taking out; both, alone), program predicates `Idles/Offers/Cuts/Solo` kept by every step; duties `Vows/Severs` give completeness when quiet; sharpness by a schedule; `C65_keeping_*` for clients that keep things, by the simulation of C52 |
| C66 | no thread waits for itself | `Spec/Asks` (the guards a call may ask for); program predicate `Clear R held`: each lock asked for is not related by `R` to a held guard (`R` = clashing, or same lock); proved for every program by structural recursion, kept by every step of a schedule; with kept guards by the ownership invariant of C51 |
| C67 | statement-level interleavings | `Model/Fine`: every piece of work is a program of single statements (`Act.stm`, from the statement-by-statement versions of the sections), threads can be interrupted between any two; `Spec/Fine`: statements stay within a footprint. Invariant: what is left of a thread's work, run on the present memory, has the result and effect of the whole piece of work on the settled world; steps of others preserve it because footprints of working threads do not clash (C35). The same for clients that keep handles, guards and iterators (`Model/FineKeeping`). That the code's statements stay within their footprints by a lens lemma and induction on the statements |
| C68 | calls no other thread can make panic | `Spec/Immune` lists them. Every program text in the list does only sections that succeed on every world in which storages are intact (`Fit`) and match the configuration; `Fit` holds along every schedule (C48's invariant); the group bookkeeping may be arbitrarily wrong. exist: the id table never shrinks and contains every id handed out |
| C69 | threads on different entities do not affect each other | `Spec/Isolation` replays one thread's calls on its entities undisturbed. From the linearization of C48/C49 (an idealised world where operations take effect at single moments): induction over it shows that what the thread has done so far is a prefix of the replay, and that points of other threads' calls do not touch the entities |
| C70 | operations on different entities can be reordered | `Spec/Reorder`: lists of calls with their results, per-entity projection. Each call's allowedness and result depends only on its entity's part of the history (refinement, `step_local`); induction over the reordered list. Queries via C54/C23 (results determined by the per-entity values), future via equality of the abstract states up to group membership |
| C71 | lists and counters of the world as functions of the peak number of living entities | count of the entity table; induction over histories (Proofs/Space); Mixed histories by their sequential image |
| C72 | two histories with the same calls apart from make_group | both refined by the specification; step outcomes depend on the groups in make_group only; induction builds the group-free history |
| C73 | invariant of all reachable worlds (storages well formed and typed) carried through failing calls and shared phases; the effect of one call on the component map proved for arbitrary storages (`LookF.step`), whatever the groups | `Spec/Reached`, `Proofs/Reached`, `Proofs/RobustTrace`, `Props/Recover` |
| C74 | programs of calls end within an explicit number of steps (structural induction); a thread's turns counted against the calls it has begun, invariant of every schedule (`Machine` covers both kinds of systems); pigeonhole for schedules without end | `Spec/Bounded`, `Proofs/Bounded`, `Props/Bounded` |
| C75 | exact lists after batch attaches: members of the leading group, components elsewhere; also after shared phases | state-level meaning (`State.yields`) unfolded into history-level membership (`run_joined`) | `Spec/Listed`, `Proofs/Listed`, `Props/Listed` |

## 6. Testing the theorems

`seeded/LOG.jsonl` records edits of the model that mimic realistic bugs, the claims they break and the theorems that
stopped proving.
