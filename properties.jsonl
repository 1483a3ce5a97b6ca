{"id": "C01", "title": "Component storage behaves like a map", "statement": "After any history, reading component T of entity e returns exactly the value most recently attached or written for (e,T), or None if none was ever attached or it has since been detached or e was removed; operations on other entities or other component types never change it.", "quantifier": "every history: any finite history of World calls of any length (register, create and remove entities, attach, detach, batch attach, reads and writes, make_group, resource calls), over any number of types, entities and groups, on any ids (alive, dead or never handed out) and types, in which no batch attach hit an entity that already had the component (that case is C43) and no failing call had modified a component storage before it failed; every entity id and type", "why_tests_cant": "The storage is a sparse set whose slots are permuted by swap-removal and group maintenance; only an induction over all histories rules out a slot/id mismatch.", "anchors": ["src/sparse_set.rs: SparseSet::add/remove/get/swap_by_index", "src/entity.rs: Entity::attach/detach", "src/world.rs: entity_component_read/entity_component_write"]}
{"id": "C02", "title": "Iterating a storage visits every component exactly once", "statement": "In every reachable world, query::<&T>().with_id() (and count()/data() of the storage guard) lists every entity that has T exactly once, with its current value, and nothing else.", "quantifier": "every history: any finite history of World calls of any length (register, create and remove entities, attach, detach, batch attach, reads and writes, make_group, resource calls), over any number of types, entities and groups, on any ids (alive, dead or never handed out) and types, in which no batch attach hit an entity that already had the component (that case is C43) and no failing call had modified a component storage before it failed; every type", "why_tests_cant": "Exactly-once over all histories needs the bijection between dense and sparse arrays as an invariant.", "anchors": ["src/query/mod.rs: IterRef/IterMut", "src/component.rs: StorageRead::count/data", "src/sparse_set.rs: SparseSet"]}
{"id": "C03", "title": "detach returns the component, or None when it is absent", "statement": "detach_component::<T>(e) on a live entity returns Some(v) with the current value and removes it when e has T, returns None and changes nothing when e lacks T, and never panics when T is registered and e exists.", "quantifier": "every world reached by an allowed history (as in C14), every living entity and registered component type; for detaches that return: every history of C01, every id", "why_tests_cant": "The panic in the absent case depends on the relation between the id and the largest id ever stored for T; tests hit it only by luck.", "anchors": ["src/sparse_set.rs: SparseSet::remove", "src/entity.rs: Entity::detach", "src/world.rs: detach_component"]}
{"id": "C04", "title": "Attach overwrites in place", "statement": "Attaching T to a living entity that already has T succeeds, replaces the value, and leaves every other component, the entity table, and the ids, slots and order yielded by every query unchanged (the order: provided no group over T was bypassed by a batch attach); an attach that returns increases the count of T by one if the entity lacked T and changes no count otherwise.", "quantifier": "values and order: every world reached by an allowed history (as in C14); counts: every history of C01 and every attach that returns", "why_tests_cant": "The overwrite path is taken only after arbitrary earlier histories and group permutations.", "anchors": ["src/sparse_set.rs: SparseSet::add", "src/entity.rs: Entity::attach"]}
{"id": "C05", "title": "Batch attach equals attaching one by one", "statement": "Batch attach of a registered type to consecutive living entities that lack it leaves the same component map as attaching vs[i] individually to the i-th id, namely vs[i] at the i-th id and everything else as before; it panics, changing nothing, when the number of values differs from the number of ids. In particular for create_entities(n).attach(vs).", "quantifier": "every world reached by an allowed history (as in C14), every block of ids, every n and list of values", "why_tests_cant": "Equivalence of two code paths over all sizes and all prior worlds.", "anchors": ["src/sparse_set.rs: SparseSet::add_batch", "src/entity.rs: Entities::attach"]}
{"id": "C06", "title": "Group maintenance never changes component data", "statement": "make_group, whether it succeeds or panics, and the group bookkeeping done inside attach/detach/remove, may reorder storages but never change which entity has which component value, which entities are alive, or any resource.", "quantifier": "every history: any finite history of World calls of any length (register, create and remove entities, attach, detach, batch attach, reads and writes, make_group, resource calls), over any number of types, entities and groups, on any ids (alive, dead or never handed out) and types, in which no batch attach hit an entity that already had the component (that case is C43) and no failing call had modified a component storage before it failed; every kind and pair of types of group", "why_tests_cant": "Quantifies over all permutations performed by group maintenance.", "anchors": ["src/group/full_owning/mod.rs: FullOwningData::make/add/remove", "src/group/partial_owning/mod.rs", "src/sparse_set.rs: swap_by_index"]}
{"id": "C07", "title": "Live entity ids are unique and non-zero", "statement": "create_entity never returns the id of an entity that is currently alive, and never id 0, in any history in which only living entities are removed.", "quantifier": "every history whatsoever: any finite history of World calls of any length (register, create and remove entities, attach, detach, batch attach, reads and writes, make_group, resource calls), over any number of types, entities and groups, on any ids and types, including failing calls and whatever they leave behind; provided remove_entity was only called on living entities", "why_tests_cant": "Free-list correctness is an invariant over unbounded allocate/remove histories.", "anchors": ["src/entity.rs: EntityManager::allocate/allocate_n/remove"]}
{"id": "C08", "title": "Id recycling order", "statement": "create_entity returns the most recently removed and not yet reused id if there is one (last-in-first-out), and otherwise the smallest id never handed out.", "quantifier": "every history whatsoever: any finite history of World calls of any length (register, create and remove entities, attach, detach, batch attach, reads and writes, make_group, resource calls), over any number of types, entities and groups, on any ids and types, including failing calls and whatever they leave behind; provided remove_entity was only called on living entities", "why_tests_cant": "The intrusive free list is threaded through the flag array; every interleaving of create/create_entities/remove matters.", "anchors": ["src/entity.rs: EntityManager::allocate/remove", "src/lib.rs: ID recycling docs"]}
{"id": "C09", "title": "create_entities returns a contiguous block of fresh ids", "statement": "create_entities(n) returns a range of exactly n consecutive ids, none of which was ever used before, all of them alive afterwards; previously live entities stay alive.", "quantifier": "every history whatsoever: any finite history of World calls of any length (register, create and remove entities, attach, detach, batch attach, reads and writes, make_group, resource calls), over any number of types, entities and groups, on any ids and types, including failing calls and whatever they leave behind; provided remove_entity was only called on living entities; every n", "why_tests_cant": "Quantifies over n and all histories, including ones with a non-empty free list.", "anchors": ["src/entity.rs: EntityManager::allocate_n", "src/world.rs: create_entities"]}
{"id": "C10", "title": "exist is exactly liveness", "statement": "World::exist(id) returns true iff id was created and not removed since, for every id including never-allocated ones, without panicking.", "quantifier": "every history whatsoever: any finite history of World calls of any length (register, create and remove entities, attach, detach, batch attach, reads and writes, make_group, resource calls), over any number of types, entities and groups, on any ids and types, including failing calls and whatever they leave behind; provided remove_entity was only called on living entities; every non-zero id", "why_tests_cant": "Needs every id and history; the tests never call exist after remove.", "anchors": ["src/world.rs: World::exist", "src/entity.rs: EntityManager::has/remove"]}
{"id": "C11", "title": "A removed entity cannot be used", "statement": "entity(id) returns None and attach/detach/remove_entity panic, leaving the world unchanged, when id is not alive.", "quantifier": "every history whatsoever: any finite history of World calls of any length (register, create and remove entities, attach, detach, batch attach, reads and writes, make_group, resource calls), over any number of types, entities and groups, on any ids and types, including failing calls and whatever they leave behind; provided remove_entity was only called on living entities; every id that is not alive", "why_tests_cant": "Use-after-remove can happen at any depth of the free list.", "anchors": ["src/world.rs: entity/attach_component/detach_component/remove_entity", "src/entity.rs: EntityManager::has"]}
{"id": "C12", "title": "A new entity has no components", "statement": "The ids returned by create_entity and create_entities have no component of any type, even when the id is recycled.", "quantifier": "every history: any finite history of World calls of any length (register, create and remove entities, attach, detach, batch attach, reads and writes, make_group, resource calls), over any number of types, entities and groups, on any ids (alive, dead or never handed out) and types, in which no batch attach hit an entity that already had the component (that case is C43) and no failing call had modified a component storage before it failed; in which components were attached only to, and only removals made of, living entities", "why_tests_cant": "Recycled ids could inherit leftovers from any earlier life.", "anchors": ["src/world.rs: create_entity/create_entities/remove_entity"]}
{"id": "C13", "title": "remove_entity removes everything of that entity and nothing else", "statement": "remove_entity(e) of a living entity, or manaully_drop of its handle, succeeds, whatever groups it is in; afterwards e has no component of any type and is not in the entity table, its id is the next to be reused, every other entity keeps all its components and stays alive; the result does not depend on the iteration order of the component hash map.", "quantifier": "every world reached by an allowed history (as in C14), every living entity, every hash-map iteration order; independence of the order: every world at all", "why_tests_cant": "Hash-map order is nondeterministic per run and types are unbounded.", "anchors": ["src/world.rs: remove_entity"]}
{"id": "C14", "title": "Making a full-owning group packs exactly the intersection", "statement": "make_group of an owning group over two different registered types, not conflicting with an existing group, succeeds, and immediately afterwards the group query yields exactly the entities having both A and B, each once, with their own A and B values, whatever the sizes and orders of the two storages (full-owning and partial-owning groups).", "quantifier": "every allowed history: any finite history of World calls of any length (register, create and remove entities, attach, detach, batch attach, reads and writes, make_group, resource calls), over any number of types, entities and groups, in which (i) ids passed to exist/attach/detach/remove_entity are non-zero and not the least recently removed id still waiting for reuse (the code takes that one to be alive, C10/C11), (ii) batch attaches go to living entities that lack the component (otherwise C43), (iii) removals of an entity that has all the components of two groups, the older of which owns a type of the newer, are excluded (C21), (iv) groups are over registered types, owning groups over two different types (otherwise C19/C44); calls may fail for any other reason in between; every pair of types, all four combinations of & and &mut", "why_tests_cant": "The two-pointer packing loop must be right for every permutation of both storages.", "anchors": ["src/group/full_owning/mod.rs: FullOwningData::make", "src/group/full_owning/query.rs"]}
{"id": "C15", "title": "Full-owning group queries stay correct", "statement": "In every later world, query::<FullOwning<..A,..B>> never panics, never reads out of bounds, and yields exactly the entities having both A and B, each once, each with its own values; if A or B was batch-attached since the group was made it still yields each entity at most once and only entities having both, with their own values (who is missing: C20).", "quantifier": "every allowed history (as in C14) in which the group was made", "why_tests_cant": "The unsafe get_unchecked reads are justified only by an invariant over all histories.", "anchors": ["src/group/full_owning/mod.rs", "src/group/full_owning/query.rs", "src/entity.rs: attach/detach"]}
{"id": "C16", "title": "Partial-owning group queries stay correct", "statement": "In every later world, query::<PartialOwning<..A,..B>> never panics, never reads out of bounds, and yields exactly the entities having both A and B, each once, each with its own values; if A or B was batch-attached since the group was made it still yields each entity at most once and only entities having both, with their own values (who is missing: C20).", "quantifier": "every allowed history (as in C14) in which the group was made", "why_tests_cant": "The unwrap in next() is justified only by an invariant over all histories.", "anchors": ["src/group/partial_owning/mod.rs", "src/group/partial_owning/query.rs"]}
{"id": "C17", "title": "Non-owning group queries stay correct", "statement": "In every reachable world, query::<NonOwning<..A,..B>> yields exactly the entities having both A and B, each once, with their own values, and never reads out of bounds.", "quantifier": "every allowed history (as in C14) in which the group was made", "why_tests_cant": "Cached slot numbers go stale only after specific reorderings; a bad read is undefined behaviour.", "anchors": ["src/group/non_owning/mod.rs", "src/group/non_owning/query.rs"]}
{"id": "C18", "title": "A component storage is owned by at most one group", "statement": "In every reachable world no component type is owned by two groups and no two groups are equal; make_group panics, changing nothing, exactly when the new group equals an existing one or would own an already owned type.", "quantifier": "no two equal groups or owners: every history whatsoever: any finite history of World calls of any length (register, create and remove entities, attach, detach, batch attach, reads and writes, make_group, resource calls), over any number of types, entities and groups, on any ids and types, including failing calls and whatever they leave behind; panic on conflict: every world at all; exactly then: every allowed history (as in C14), registered types, different ones for owning groups", "why_tests_cant": "Pairwise property of an unbounded set of groups.", "anchors": ["src/world.rs: make_group/has_group", "src/group/mod.rs: Group::owned/owning"]}
{"id": "C19", "title": "make_group is all-or-nothing", "statement": "If make_group panics (for example because a component is not registered) the world is left as it was.", "quantifier": "every world at all and every group", "why_tests_cant": "Needs the state after a panic, on every failing path.", "anchors": ["src/world.rs: make_group"]}
{"id": "C20", "title": "Groups see batch-attached entities", "statement": "Entities that obtain A and B through create_entities(n).attach(..) are yielded by every existing group query over A and B.", "quantifier": "every allowed history (as in C14), every group", "why_tests_cant": "A missing update shows only when a group exists before the batch.", "anchors": ["src/entity.rs: Entities::attach"]}
{"id": "C21", "title": "remove_entity keeps every group consistent", "statement": "After remove_entity(e) every group query yields exactly the remaining entities having both its components, whatever other groups share its component types.", "quantifier": "every world reached by an allowed history (as in C14), every living entity, any list of groups", "why_tests_cant": "Depends on the order and overlap of arbitrarily many groups.", "anchors": ["src/world.rs: remove_entity"]}
{"id": "C22", "title": "Group queries agree with plain queries", "statement": "query::<FullOwning<&A,&B>>, PartialOwning and NonOwning yield the same (id,(a,b)) pairs as query::<(&A,&B)>, up to order.", "quantifier": "every allowed history (as in C14) in which the group was made, its types were not batch-attached since (C20) and, if it is non-owning, it was not invalidated (C17); all combinations of & and &mut", "why_tests_cant": "Agreement of independent code paths in every world.", "anchors": ["src/group/full_owning/query.rs", "src/group/partial_owning/query.rs", "src/group/non_owning/query.rs", "src/query/with.rs"]}
{"id": "C23", "title": "Tuple queries are intersections", "statement": "query::<(A,B)>, (A,B,C), (A,B,C,D) and (A,B,C,D,E), arbitrarily nested, yield exactly the entities matched by all parts, each once, with every part's own item, in the order of the first part.", "quantifier": "every query, nested to any depth, that does not ask for a component twice with one of them mutable, over registered types and groups made; if it names no group: after every history of C01; if it names groups: after every allowed history (as in C14) provided no type of these groups was batch-attached since they were made (C20) and the non-owning ones among them were not invalidated (C17)", "why_tests_cant": "Query types nest without bound.", "anchors": ["src/query/with.rs: WithIter..WithIter5"]}
{"id": "C24", "title": "Without queries are differences", "statement": "query::<(A,Without<B>)> and (Without<B>,A), arbitrarily nested, yield exactly the entities matched by A and not by B, each once, in A's order.", "quantifier": "every query, nested to any depth, that does not ask for a component twice with one of them mutable, over registered types and groups made; if it names no group: after every history of C01; if it names groups: after every allowed history (as in C14) provided no type of these groups was batch-attached since they were made (C20) and the non-owning ones among them were not invalidated (C17)", "why_tests_cant": "Query types nest without bound.", "anchors": ["src/query/without.rs"]}
{"id": "C25", "title": "from_id agrees with iteration", "statement": "For every query q and id, q.from_id(id) is Some(item) iff iterating q yields (id,item), at any moment of the iteration; it never advances the iterator.", "quantifier": "every query, nested to any depth, that does not ask for a component twice with one of them mutable, over registered types and groups made; if it names no group: after every history of C01; if it names groups: after every allowed history (as in C14) provided no type of these groups was batch-attached since they were made (C20) and the non-owning ones among them were not invalidated (C17); every id, after every sequence of calls on the iterator", "why_tests_cant": "Relates two access paths for all ids and positions.", "anchors": ["src/query/mod.rs: QueryIterator::from_id", "src/group/full_owning/query.rs: from_id", "src/group/partial_owning/query.rs: from_id", "src/group/non_owning/query.rs: from_id"]}
{"id": "C26", "title": "with_id yields the same items as plain iteration", "statement": "Iterating q and iterating q.with_id() yield the same items in the same order, and mixing next and next_with_id calls in any pattern skips or repeats nothing.", "quantifier": "every query, nested to any depth, that does not ask for a component twice with one of them mutable, over registered types and groups made; if it names no group: after every history of C01; if it names groups: after every allowed history (as in C14) provided no type of these groups was batch-attached since they were made (C20) and the non-owning ones among them were not invalidated (C17); every pattern of next/next_with_id/from_id calls", "why_tests_cant": "Call patterns are unbounded.", "anchors": ["src/query/mod.rs: WithId/IdIter/next_with_id"]}
{"id": "C27", "title": "size_hint is exact and iterators terminate and stay exhausted", "statement": "For single-component and group queries, size_hint is (n,Some(n)) with n the number of items still to come, at every point; for every other query it is a correct lower and upper bound; every query iterator ends after finitely many calls and then returns None forever.", "quantifier": "every query, nested to any depth, that does not ask for a component twice with one of them mutable, over registered types and groups made; if it names no group: after every history of C01; if it names groups: after every allowed history (as in C14) provided no type of these groups was batch-attached since they were made (C20) and the non-owning ones among them were not invalidated (C17); at every position", "why_tests_cant": "Every position of every iterator.", "anchors": ["src/query/mod.rs: size_hint", "src/group/full_owning/query.rs: size_hint", "src/group/partial_owning/query.rs: size_hint", "src/group/non_owning/query.rs: size_hint"]}
{"id": "C28", "title": "Mutable items never alias", "statement": "No two items obtained from queries whose borrows overlap give mutable access to the same component while another reference to it is obtainable.", "quantifier": "every query, nested to any depth, that does not ask for a component twice with one of them mutable, over registered types and groups made; if it names no group: after every history of C01; if it names groups: after every allowed history (as in C14) provided no type of these groups was batch-attached since they were made (C20) and the non-owning ones among them were not invalidated (C17); every sequence of next/next_with_id/from_id calls, every pair of queries", "why_tests_cant": "Aliasing is undefined behaviour and not observable by a test run.", "anchors": ["src/query/mod.rs: IterMut", "src/group/full_owning/query.rs: IterMut*", "src/group/partial_owning/query.rs: IterMut*", "src/group/non_owning/query.rs: IterMut*", "src/query/mod.rs: QueryIterator::from_id"]}
{"id": "C29", "title": "Updating through a mutable query updates exactly the matched components", "statement": "A loop over a query with mutable parts that assigns to every mutable reference a value computed from the id and the item terminates without fault and replaces every component of a matched entity that the query gives mutable access to exactly once, by the value computed from the components before the loop, and changes nothing else; writing a single component (component_write, get_mut, data_mut()[i]) changes that component only, and succeeds iff it exists.", "quantifier": "every query, nested to any depth, that does not ask for a component twice with one of them mutable, over registered types and groups made; if it names no group: after every history of C01; if it names groups: after every allowed history (as in C14) provided no type of these groups was batch-attached since they were made (C20) and the non-owning ones among them were not invalidated (C17); every update function; single writes: every history of C01", "why_tests_cant": "All worlds and all functions.", "anchors": ["src/query/mod.rs: IterMut", "src/component.rs: ComponentWrite"]}
{"id": "C30", "title": "Resources behave like a map keyed by type", "statement": "resource_read::<R> returns the last value registered or written for R, None if never registered; registering or writing one resource never affects another, and resources never interact with components.", "quantifier": "every history whatsoever: any finite history of World calls of any length (register, create and remove entities, attach, detach, batch attach, reads and writes, make_group, resource calls), over any number of types, entities and groups, on any ids and types, including failing calls and whatever they leave behind; every type", "why_tests_cant": "Independence over all types and histories.", "anchors": ["src/world.rs: register_resource/resource_read/resource_write", "src/resource.rs"]}
{"id": "C31", "title": "Downcasts are always to the right type", "statement": "In every reachable world the storage found under a component type holds components of that type and the resource found under a type is of that type, so no unsafe downcast reinterprets memory.", "quantifier": "every history whatsoever: any finite history of World calls of any length (register, create and remove entities, attach, detach, batch attach, reads and writes, make_group, resource calls), over any number of types, entities and groups, on any ids and types, including failing calls and whatever they leave behind; every type", "why_tests_cant": "Type confusion is silent undefined behaviour.", "anchors": ["src/component.rs: downcast_ref/downcast_mut", "src/resource.rs: downcast_ref/downcast_mut"]}
{"id": "C32", "title": "register once", "statement": "register::<T> panics, changing nothing, iff T is already registered; after it T is registered for ever with no components, and no other component, entity or group changes.", "quantifier": "every history whatsoever: any finite history of World calls of any length (register, create and remove entities, attach, detach, batch attach, reads and writes, make_group, resource calls), over any number of types, entities and groups, on any ids and types, including failing calls and whatever they leave behind; every type", "why_tests_cant": "All histories.", "anchors": ["src/world.rs: register/has_registered"]}
{"id": "C33", "title": "Operations that are documented to panic leave the world intact", "statement": "When attach/detach/remove/batch attach/register/queries panic for a documented reason (type not registered, entity does not exist, wrong length, group missing), the world is exactly as before and remains fully usable.", "quantifier": "unregistered type, wrong length: every world at all; entity that does not exist: every history whatsoever: any finite history of World calls of any length (register, create and remove entities, attach, detach, batch attach, reads and writes, make_group, resource calls), over any number of types, entities and groups, on any ids and types, including failing calls and whatever they leave behind; provided remove_entity was only called on living entities, every id except the least recently removed one waiting for reuse (C10, C11); queries, and every other allowed call: every allowed history (as in C14)", "why_tests_cant": "Post-panic states are rarely tested; parking_lot locks do not poison, so other threads continue with that state.", "anchors": ["src/world.rs", "src/entity.rs"]}
{"id": "C34", "title": "No undefined behaviour or unexpected panic in disciplined use", "statement": "A client that keeps to allowed calls, asks exist only for ids it was given and detaches only components the entity has never meets undefined behaviour (out-of-bounds unchecked access, wrong downcast), never blocks on itself, and every call succeeds unless it has a documented reason to panic (then it panics and changes nothing); without the last two conditions the only further panics are exist of an id never handed out and detach of an absent component from the entity one past the largest id ever given the type. Iterating a query (as in C23) in any way never panics and hands out valid references only.", "quantifier": "every allowed history (as in C14) and every allowed next call; every query of C23 and every sequence of calls on its iterator", "why_tests_cant": "Absence of UB over all histories.", "anchors": ["src/sparse_set.rs: get_unchecked", "src/group/full_owning/query.rs", "src/group/partial_owning/query.rs", "src/group/non_owning/query.rs", "src/component.rs"]}
{"id": "C35", "title": "Reader/writer exclusion of guards", "statement": "At no moment of any schedule do two guards on the same component storage, resource, group or entity table coexist with one of them a write guard; every piece of work is done by a thread holding guards on all it touches (write guards on what it modifies), so no two threads about to work conflict and the order of their work does not matter; a call that returned has dropped all its guards.", "quantifier": "any number of threads, all schedules of API calls, any calls, from any world", "why_tests_cant": "Schedules cannot be enumerated by tests.", "anchors": ["src/world.rs: RwLock fields", "src/component.rs: StorageRead/StorageWrite"]}
{"id": "C36", "title": "An Entity handle keeps its id alive", "statement": "While any thread holds an Entity or Entities handle, no removal and no allocation of an entity takes effect; whenever a thread is about to attach or detach through a handle, exist holds of that entity.", "quantifier": "any number of threads, all schedules of API calls, any calls, from any world", "why_tests_cant": "Race windows.", "anchors": ["src/entity.rs: Entity::borrow_entity_manager", "src/world.rs: remove_entity"]}
{"id": "C37", "title": "Concurrent creation hands out distinct ids", "statement": "If any number of threads call create_entity or create_entities concurrently (doing anything else but removing entities), every such call that returns has succeeded and all ids handed out are distinct from one another and from those alive before, and alive.", "quantifier": "any number of threads, all schedules, starting after every history whatsoever: any finite history of World calls of any length (register, create and remove entities, attach, detach, batch attach, reads and writes, make_group, resource calls), over any number of types, entities and groups, on any ids and types, including failing calls and whatever they leave behind; provided remove_entity was only called on living entities", "why_tests_cant": "create_entity re-acquires the lock between allocation and handle creation.", "anchors": ["src/world.rs: create_entity", "src/entity.rs: EntityManager::allocate"]}
{"id": "C38", "title": "Concurrent attaches keep groups correct", "statement": "If any number of threads attach components to living entities (also to the same one), read, write and query concurrently, no attach panics, at every moment every group query succeeds, yields no entity twice and only entities having both components with the values shown, and when all calls have returned every query yields exactly the matching entities.", "quantifier": "any number of threads, all schedules, starting after an allowed history (as in C14) that may contain earlier phases of sharing; non-owning groups not invalidated by that history and sharing no type with an owning group; exactness: groups not bypassed by batch attaches in that history", "why_tests_cant": "attach releases the storage lock before it updates the groups.", "anchors": ["src/entity.rs: Entity::attach"]}
{"id": "C39", "title": "Concurrent attach/detach/remove keep groups consistent", "statement": "In every schedule of concurrent attach, detach and remove_entity calls no group ever lists an entity lacking one of its components.", "quantifier": "any number of threads, all schedules, starting after an allowed history (as in C14) that may contain earlier phases of sharing", "why_tests_cant": "detach and remove_entity are not atomic: check-then-act windows.", "anchors": ["src/entity.rs: Entity::detach", "src/world.rs: remove_entity"]}
{"id": "C40", "title": "No deadlock among well-ordered API calls", "statement": "Threads each running one API call at a time and holding no guards between calls never deadlock.", "quantifier": "any number of threads, all schedules, any world", "why_tests_cant": "Lock-order inversions show up only in rare schedules.", "anchors": ["src/world.rs", "src/entity.rs", "src/group/full_owning/query.rs", "src/group/partial_owning/query.rs", "src/group/non_owning/query.rs"]}
{"id": "C41", "title": "Self-conflicting requests", "statement": "A query that asks for the same component mutably and a second time (for example (&mut A,&A)) never returns an iterator, let alone two references (it panics or blocks on its own guard); every other query over registered types and groups made returns an iterator, holding exactly the guards its type asks for.", "quantifier": "every query type; rejection and guards: every world at all; success: after every history of C01 if it names no group, after every allowed history (as in C14) if it does", "why_tests_cant": "All query shapes.", "anchors": ["src/query/with.rs", "src/world.rs: raw_storage_read/raw_storage_write"]}
{"id": "C42", "title": "Entity count", "statement": "The number of live entities equals the number created minus the number removed, and the entity table lists each live id exactly once.", "quantifier": "every history whatsoever: any finite history of World calls of any length (register, create and remove entities, attach, detach, batch attach, reads and writes, make_group, resource calls), over any number of types, entities and groups, on any ids and types, including failing calls and whatever they leave behind; provided remove_entity was only called on living entities", "why_tests_cant": "Invariant over unbounded histories.", "anchors": ["src/entity.rs: EntityManager::entities/len"]}
{"id": "C43", "title": "Batch attach over existing components", "statement": "create_entities(n).attach::<T>(vs) (or two attaches of the same type through one Entities handle) on entities that already have T leaves those entities with the new values, exactly like attaching one by one, and keeps the storage consistent.", "quantifier": "every history: any finite history of World calls of any length (register, create and remove entities, attach, detach, batch attach, reads and writes, make_group, resource calls), over any number of types, entities and groups, on any ids (alive, dead or never handed out) and types, in which no batch attach hit an entity that already had the component (that case is C43) and no failing call had modified a component storage before it failed, then any batch attach", "why_tests_cant": "Corruption of the storage only shows after further operations of an unbounded history.", "anchors": ["src/entity.rs: Entities::attach", "src/component.rs: StorageWrite", "src/sparse_set.rs: SparseSet::add_batch"]}
{"id": "C44", "title": "A single thread never blocks on itself", "statement": "In a single-threaded program that keeps no guard between calls, no World call ever blocks on a lock that the same call already holds, provided no owning group of a type with itself is requested.", "quantifier": "every world at all without an owning group of a type with itself, every next call except making such a group (hence every such history, including failing calls); queries without conflicting parts: every history whatsoever: any finite history of World calls of any length (register, create and remove entities, attach, detach, batch attach, reads and writes, make_group, resource calls), over any number of types, entities and groups, on any ids and types, including failing calls and whatever they leave behind", "why_tests_cant": "A hang cannot be asserted by a test for all histories.", "anchors": ["src/world.rs", "src/entity.rs", "src/group/mod.rs"]}
{"id": "C45", "title": "A call that no other call overlaps behaves like the sequential one", "statement": "When one thread makes a call on a shared World while the other threads are between calls (creating an entity and a chain of calls on its handle, a chain on the handle of an existing entity, create_entities with batch attaches, remove_entity, exist, reads and writes of components, counts and resources, queries), the call inevitably returns what the single-threaded call returns and leaves the same world; it panics exactly if that one panics, leaving what that one leaves; and it never returns exactly if that one blocks on a lock it holds itself.", "quantifier": "every history of World calls whatsoever (any calls, any ids and types, including failing calls and whatever they leave behind), every number of threads, every thread, every call with every argument, every order in which the storages are visited", "why_tests_cant": "A test runs one call in one world; that the lock-level program of every call always terminates with the same effect as the sequential meaning needs all worlds and chains of arbitrary length.", "anchors": ["src/world.rs: World", "src/entity.rs: Entity, Entities", "src/component.rs", "src/query/mod.rs"]}
{"id": "C46", "title": "What a thread can do while it keeps a handle or guard", "statement": "A thread that keeps a handle, component guard or query iterator can make another call that takes no lock in conflict with the ones it keeps, and gets the normal result; a call that needs a conflicting lock hangs for ever. In particular creating or removing an entity while an Entity or Entities handle is alive hangs.", "quantifier": "every world reached by World calls on any ids and types (also calls that panicked half way) and by earlier phases of sharing, in which no batch attach hit an entity that already had the component, every call that returns normally by itself, every list of kept guards, every number of threads (others between calls)", "why_tests_cant": "A hang cannot be asserted by a test, and which calls hang depends on the groups made before and on which groups and storages hold the entity.", "anchors": ["src/entity.rs: Entity, Entities", "src/world.rs: World::create_entity, World::create_entities, World::entity, World::remove_entity", "src/component.rs: ComponentRead, ComponentWrite"]}
{"id": "C47", "title": "Iteration ends", "statement": "Every call of next, next_with_id or from_id on a query iterator returns, and however these are mixed an iterator yields only boundedly many items; collect() of a query ends unless starting the query blocks.", "quantifier": "every world at all (consistent or not), every query of any nesting, every sequence of calls on the iterator of any length", "why_tests_cant": "Termination for all nested queries and all worlds, including those left behind by panics, is not a finite check.", "anchors": ["src/query/mod.rs: QueryIterator", "src/query/with.rs", "src/query/without.rs", "src/group/full_owning/query.rs", "src/group/partial_owning/query.rs", "src/group/non_owning/query.rs"]}
{"id": "C48", "title": "Calls on a shared world take effect at single moments", "statement": "Whatever calls the threads make on a shared World, the results they get are those of some execution in which every operation (each attach, detach, read or write on a handle, each batch attach, each read, write, count, query or resource access through the World) happened at one moment between its call and its return, in one order on which all threads agree. A query without groups sees the components of all entities as they were at one moment.", "quantifier": "every world reached by World calls (also calls that panicked half way) and earlier phases of sharing (no batch attach over an existing component), every number of threads, every sequence of calls by each, every interleaving of their lock and memory steps in which batch attaches go to entities that do not have the component", "why_tests_cant": "It ranges over all interleavings of all calls; a torn or lost update shows only in rare schedules, and agreeing on one order is a property of the whole execution.", "anchors": ["src/world.rs: World", "src/entity.rs: Entity, Entities", "src/component.rs: StorageRead, StorageWrite", "src/query/mod.rs"]}
{"id": "C49", "title": "Entity lives are atomic for coordinated clients", "statement": "If threads are considerate (threads may attach and detach components of one entity at the same time, unless one detaches a type of a group while another attaches a type of the same group; nobody else works on an entity that is being removed, or on entities of a range that is still being given its batches of components), then also creation, handles and liveness are atomic: an entity is created at one moment with an id not in use, a batch of components is attached at one moment to a range of entities that are all alive and have no such component, entity(id) and remove_entity(id) find it alive, a living entity is reported to exist, and remove_entity makes it disappear at one moment, after its components have been dropped one after the other; an owning group's query yields, at one moment, only entities having both components, each once, with these components.", "quantifier": "every history of allowed World calls and earlier phases of sharing by considerate threads, every number of threads, every sequence of considerate calls, every interleaving", "why_tests_cant": "It ranges over all interleavings; the middle of a removal is visible only for a moment.", "anchors": ["src/world.rs: World::create_entity, World::remove_entity, World::entity, World::exist", "src/entity.rs: EntityManager"]}
{"id": "C50", "title": "What a call that panics leaves behind", "statement": "If any World call panics (for whatever reason, at whatever statement), all components can still be read and are as they were, except that attach_component may already have attached its component, and remove_entity may already have dropped some components of its entity; the same entities exist, the next ids to be handed out are the same, and the resources are as they were. Group membership is not covered: a failed detach_component may have taken the entity out of a group.", "quantifier": "every call, every history of calls before it, whether they succeeded or panicked (no batch attach over an existing component; for entities: removals of living entities only)", "why_tests_cant": "It ranges over every statement at which any call can panic in any reachable state, including the states earlier panics left behind.", "anchors": ["src/entity.rs: Entity::attach, Entity::detach, Entities::attach", "src/world.rs: World::remove_entity, World::make_group", "src/sparse_set.rs: SparseSet::remove, SparseSet::swap_by_index"]}
{"id": "C51", "title": "What a kept handle, guard or open query guarantees", "statement": "A client may keep Entity and Entities handles, storage and component guards, open queries and resource guards while it and others make other calls. As long as it keeps them: guards never conflict and no other thread touches what they protect (except for common reading); the entity of a kept single-entity handle exists, and while any handle is kept no entity is created or removed; what a read guard protects does not change at all, and an open query that only reads has the same answer at every moment; what a write guard protects is changed only by its owner, by writing through the guard, and no entity gets or loses the component. Between calls, also after panics, a thread holds the guards of what it keeps and no others.", "quantifier": "every initial world, any number of threads, every sequence of calls, every interleaving, everything kept for any length of time", "why_tests_cant": "It ranges over all interleavings and all lifetimes of guards.", "anchors": ["src/entity.rs: Entity, Entities", "src/component.rs: StorageRead, StorageWrite, ComponentRead, ComponentWrite", "src/resource.rs: ResourceRead, ResourceWrite", "src/world.rs: World::entity, World::components_read, World::components_write, World::query"]}
{"id": "C52", "title": "The guarantees for shared worlds survive kept guards", "statement": "If clients keep handles, guards and open queries across calls and make further calls through them, calls are as atomic as without (each operation takes effect at one moment between its call and its return, and a call through something kept does what the call that takes the guard itself would do), ids are handed out once, groups stay consistent, queries are exact when all calls have returned, and attaches through kept handles do not panic.", "quantifier": "as C37, C38, C39, C48 and C49, for clients that keep things for any length of time", "why_tests_cant": "It ranges over all interleavings and all lifetimes of guards.", "anchors": ["src/entity.rs: Entity::attach, Entity::detach", "src/component.rs: StorageWrite::get_mut, StorageRead::get", "src/world.rs: World::create_entity, World::query"]}
{"id": "C53", "title": "Waiting in a circle is for ever", "statement": "If each of some threads is waiting for a lock on which one of them (possibly itself) holds a conflicting guard, none of them ever does another step, whatever other threads do. In particular a thread that makes a call needing a lock in conflict with something it keeps (such as create_entity while it keeps a handle) never returns.", "quantifier": "every state reachable with any clients, any number of threads, every continuation", "why_tests_cant": "That a call never returns, in any continuation, cannot be observed by a test.", "anchors": ["src/entity.rs: Entity", "src/world.rs: World::create_entity, World::remove_entity"]}
{"id": "C54", "title": "A shared phase is as if one owner had made its changes one after the other", "statement": "If threads share the world for a while, considerate towards each other (threads may attach and detach components of one entity at the same time, unless one detaches a type of a group while another attaches a type of the same group; nobody else works on an entity that is being removed, or on entities of a range that is still being given its batches of components), and all their calls have returned, then the world behaves from then on exactly as if a single owner had made their changes one after the other, in some order in which each thread's changes are those its calls report, in their order: every further call returns the same, entities, components and resources are as these changes say, and so are queries (for the non-owning groups they name: as long as, since the group was made, none of its components was detached, no entity having one was removed, and no group owns its types). While the threads are working: every visible component has the value the changes so far say, and entities nobody works on have exactly those components. This may be repeated: unshared use, shared phases and unshared use in any alternation.", "quantifier": "every history of allowed calls and finished shared phases of considerate clients, any number of threads, every schedule, every further call or query", "why_tests_cant": "It ranges over all interleavings of all lengths and all histories before and after.", "anchors": ["src/world.rs: World::create_entity, World::remove_entity, World::query", "src/entity.rs: Entity::attach, Entity::detach"]}
{"id": "C55", "title": "Unchecked access within its contract", "statement": "The unsafe methods get_unchecked and get_unchecked_mut of storage guards, called for an entity that has the component, are free of undefined behaviour and panics and give exactly the component that get and get_mut give. Called for an entity without the component they panic or read out of bounds; they never give another entity's component.", "quantifier": "every history of calls (that does not attach an id twice in one batch; shared phases included), every component type, every id, every value assigned", "why_tests_cant": "Absence of undefined behaviour for every history and id cannot be observed by tests.", "anchors": ["src/component.rs: StorageRead::get_unchecked, StorageWrite::get_unchecked_mut, ComponentStorage", "src/sparse_set.rs: SparseSet::get_unchecked, SparseSet::get_unchecked_mut"]}
{"id": "C56", "title": "Safe calls have no undefined behaviour", "statement": "No call of a safe function of the crate has undefined behaviour, whatever calls (allowed or not, panicking or not) have been made before, and whatever calls other threads are making at the same time.", "quantifier": "every history of calls, every number of threads, every schedule, every call and query", "why_tests_cant": "Undefined behaviour need not show in a test, and the claim ranges over all histories and interleavings.", "anchors": ["src/sparse_set.rs: SparseSet::get_unchecked", "src/world.rs: World::entity_component_read, World::query", "src/group/full_owning/query.rs: next", "src/group/partial_owning/query.rs: next", "src/group/non_owning/query.rs: next"]}
{"id": "C57", "title": "Entities are removed once and new ones are empty while the world is shared", "statement": "While several threads share the world, every entity is removed at most once before its id is handed out again, ids handed out do not belong to a living entity, a removed entity leaves no component behind, and a new entity starts without components.", "quantifier": "every history of allowed calls (as in C14) and finished shared phases of considerate clients (C65) before and between, every number of threads, every schedule, every sequence of calls by each thread", "why_tests_cant": "Whether a removal runs into another removal, an attach or a creation depends on the interleaving of the locks' critical sections, of which tests see few.", "anchors": ["src/world.rs: World::remove_entity, World::create_entity, World::create_entities", "src/entity.rs: EntityManager::allocate, EntityManager::remove", "src/entity.rs: Entity::attach"]}
{"id": "C58", "title": "A call that would succeed alone succeeds in the shared world", "statement": "If the threads sharing a world are considerate (threads may attach and detach components of one entity at the same time, unless one detaches a type of a group while another attaches a type of the same group; nobody else works on an entity that is being removed, or on entities of a range that is still being given its batches of components), and a call is started only when, executed alone in the world as it is at that moment, it would return normally, then it returns normally whatever the other threads do meanwhile: no call panics because of another thread.", "quantifier": "every history of allowed calls (as in C14) and finished shared phases of considerate clients (C65) before the shared phase, every number of threads, every schedule, every sequence of such calls by each thread", "why_tests_cant": "Whether a call runs into the intermediate states of others depends on the interleaving of critical sections; tests see few interleavings.", "anchors": ["src/entity.rs: Entity::attach, Entity::detach", "src/world.rs: World::remove_entity, World::create_entity, World::query", "src/sparse_set.rs: SparseSet::remove"]}
{"id": "C59", "title": "Component values are conserved", "statement": "The world makes up no component value, duplicates none and loses none. After every call, whatever its outcome and whatever went before, the values stored for a component type together with those handed back by detach are, each counted once, among the values given to the world by attach, batch attach and assignment. Over a history without repeated batch attach of the same component the account is exact: every value given is still stored, or was handed back, or was overwritten by a later attach or assignment, or belonged to an entity that was removed. With several threads, at every moment and also after panics, nothing is stored or handed back that was not there at the start or named in a call; between disciplined phases the exact account holds again.", "quantifier": "every world, every call and every outcome of it; every history of C01, including panicking calls; every component type; every schedule of any number of threads with any calls", "why_tests_cant": "Loss and duplication need particular combinations of swap-removes, group swaps and panics between them; a test follows one combination and compares a few values.", "anchors": ["src/sparse_set.rs: SparseSet::add, SparseSet::remove, SparseSet::swap_by_index, SparseSet::add_batch", "src/entity.rs: Entity::attach, Entity::detach", "src/entity.rs: Entities::attach", "src/world.rs: World::remove_entity, World::make_group, World::component_write", "src/group/full_owning/mod.rs: add, remove, make; src/group/partial_owning/mod.rs: add, remove, make; src/group/non_owning/mod.rs: add, remove, make"]}
{"id": "C60", "title": "Ids stay as small as the population", "statement": "When only living entities are removed, ids do not grow with the number of entities ever created: a never used id returned by create_entity equals the number of living entities, the new one included, so no id exceeds the largest number of entities that have lived at the same time; create_entities, which reuses nothing, starts right after all ids in use and all free ids, so with it the bound grows by the largest number of free ids it has passed over. The same holds when threads have shared the world in a disciplined way in between. (The tables of the entity manager and of the storages are indexed by id.)", "quantifier": "every history of calls (failing calls included) in which only living entities are removed, of any length", "why_tests_cant": "It is a bound over histories of any length; a test can only create and remove some number of entities.", "anchors": ["src/entity.rs: EntityManager::allocate, EntityManager::allocate_n, EntityManager::remove", "src/world.rs: World::create_entity, World::create_entities, World::remove_entity"]}
{"id": "C61", "title": "Clients that keep handles, guards and queries and take locks in order never wait in a circle", "statement": "Threads may keep Entity handles, storage guards, open queries and resource guards across calls without risking deadlock if they follow a lock order: the component types can be numbered such that groups and queries name their types in ascending order, and whoever keeps something makes only calls all of whose locks come after those kept -- entity table, then groups by age, then storages by number, then resources. Then threads never wait for one another in a circle, fair locks (a waiting writer goes before a new reader) included, and from every state all calls can return and everything can be dropped. Clients that change no group membership need not count groups, so they may keep group queries. Clients that update some groups and query others place the types of the queried groups before the groups, and those of the updated groups after them. A thread that cannot go on always waits for some thread; a circle, which clients out of order can form (even a single thread), is never left again.", "quantifier": "every world, number of threads, lock order, and every interleaving of calls by clients that keep things, at every reachable state", "why_tests_cant": "A deadlock needs a particular interleaving; tests exercise a few schedules, and cannot rule out the others.", "anchors": ["src/world.rs: World::entity, World::create_entity, World::components_read, World::components_write, World::query, World::resource_read, World::resource_write, World::remove_entity", "src/entity.rs: Entity::attach, Entity::detach", "src/group/full_owning/query.rs: Queryable for FullOwning", "src/component.rs: StorageRead, StorageWrite"]}
{"id": "C62", "title": "Iteration order", "statement": "If no group owns T, iterating over T (query::<&T>, query::<&mut T>) visits entities, and data() of the storage guard lists values, in an order that depends only on the attaches, batch attaches, detaches and removals made so far: a newly attached entity comes last, overwriting a component leaves its place, and a detached or removed entity's place is taken by the last one. Creating entities, registering, non-owning groups, reads, writes and calls on other types leave the order alone. An owning group query visits the entities that come first in iteration over its first type (for full-owning groups: over either type), in the same order.", "quantifier": "iteration over one type: every history of C01, every component type that no group owns; owning groups: every allowed history (as in C14), every group made", "why_tests_cant": "The order is a function of the entire history; a test compares one history.", "anchors": ["src/sparse_set.rs: SparseSet::add, SparseSet::add_batch, SparseSet::remove, SparseSet::swap_by_index", "src/component.rs: ComponentStorage", "src/query/mod.rs: Queryable for &T, &mut T", "src/group/full_owning/mod.rs, src/group/partial_owning/mod.rs, src/group/non_owning/mod.rs"]}
{"id": "C63", "title": "The enumeration order of the component hash map is unobservable", "statement": "remove_entity walks over the hash map of component storages, whose order is arbitrary (and differs between runs). The order makes no difference: with any two orders remove_entity has the same result and leaves the same world, down to the order of later iterations; in particular two runs of a program that makes the same calls return the same results and end in the same world. (If a batch attach has been applied to entities that already had the component, this holds as long as removals succeed.)", "quantifier": "every world, history of calls and pair of enumeration orders", "why_tests_cant": "A test sees the orders that a few runs happen to use; there are n! of them.", "anchors": ["src/world.rs: World::remove_entity", "src/component.rs: ComponentStorage::remove", "src/sparse_set.rs: SparseSet::remove"]}
{"id": "C64", "title": "What a query on a non-owning group yields, exactly", "statement": "A non-owning group remembers, for every member, the places of its two components in the lists of their storages when it became a member, and never updates them. If no group owns A or B, query::<NonOwning<..A,..B>> visits the members in the order in which they joined (who leaves is replaced by the last one) and yields for each the components that are now at the remembered places: its own ones if they have not moved, another entity's otherwise. The query has undefined behaviour exactly if some remembered place no longer exists.", "quantifier": "every allowed history (as in C14), every non-owning group over types that no group owns, every combination of & and &mut that does not ask for a component twice with one of them mutable", "why_tests_cant": "What is at a remembered place depends on the whole history of attaches, detaches and removals on both types; tests cover a few short ones (and read undefined behaviour as success).", "anchors": ["src/group/non_owning/mod.rs: GroupData::add, GroupData::remove, GroupData::make", "src/group/non_owning/query.rs: next_with_id", "src/sparse_set.rs: SparseSet::remove"]}
{"id": "C65", "title": "Several threads may attach to and detach from one entity unless they attach and detach types of one group", "statement": "Threads that share a World may work on the same entity at the same time, through any number of Entity handles, as long as no thread detaches a type of a group while another attaches a type of the same group to the same entity, and an entity is removed only while nobody else works on it (and is not in two groups of which one owns a type of the other), and entities of a range that create_entities has made, or that is given more batches of components through a kept Entities handle, are left alone until these batches are attached (each type once, to entities without such a component). Then at every moment a query on an owning group is sound (no entity twice, only entities having both components, with their values), queries without groups are exact, no attach panics, and when all calls have returned every query on plain components and owning groups is exact (groups of which no type was batch-attached: see C20). This holds whether handles, guards and iterators are dropped after every call or kept across calls. The condition is sharp: two threads that call nothing but detach::<A>(e) and attach::<B>(e) can leave the group of A and B listing an entity that lacks a component. Likewise, attaching a type to a new entity between two batch attaches of another thread can leave the entity in the storage twice.", "quantifier": "every allowed history (as in C14) before sharing, possibly with earlier phases of sharing, every number of threads, every choice of what is kept across calls, every schedule of lock-protected steps of calls that meet the condition, every group and query", "why_tests_cant": "Each operation is a sequence of critical sections; whether another thread's sections fit in between is a question about all interleavings.", "anchors": ["src/entity.rs: Entity::attach, Entity::detach", "src/world.rs: World::remove_entity, World::groups", "src/group/full_owning/mod.rs: add, remove", "src/group/partial_owning/mod.rs: add, remove"]}
{"id": "C66", "title": "A thread never waits for itself", "statement": "If no owning group pairs a type with itself and no query asks for a component for writing and a second time, then in any use of a World by any number of threads no call ever waits for a lock that its own thread holds; whoever waits, waits for another thread that is inside a call, so a deadlock involves at least two calls. If no group at all pairs a type with itself and queries name each type once and at most one group, no call even takes a read lock it already holds (which, with parking_lot's fair locks, deadlocks when a writer comes in between). Threads that keep handles, guards and iterators across calls have the same guarantee provided they make no call that asks for a lock clashing with one they keep. The conditions are needed: a query with conflicting parts and a thread that creates an entity while keeping a handle wait for themselves, and a query reading two groups can deadlock with a single concurrent detach.", "quantifier": "every world meeting the condition, every number of threads, every schedule of lock-protected steps, every choice of what is kept across calls", "why_tests_cant": "Which locks a call holds at which moment depends on the groups, on the entity's components at that moment (remove_entity) and on the schedule; a test exercises one combination.", "anchors": ["src/world.rs: World::remove_entity, World::groups, World::query", "src/entity.rs: Entity::attach, Entity::detach", "src/query/mod.rs, src/group/*/query.rs: Queryable::query", "Cargo.toml: parking_lot"]}
{"id": "C67", "title": "Threads may be interrupted between any two statements", "statement": "Suppose threads sharing a World may be interrupted between any two statements of any method, not only between the critical sections done under a set of guards. Nothing a client can observe changes: the calls, the locks taken, the results and the order in which calls return are those of some schedule in which every critical section is executed in one go; data that no thread is in the middle of modifying is as it is in that schedule, and when no thread is in the middle of a critical section the whole World is. What a thread in the middle of a critical section modifies, no other thread in the middle of one touches, and what it reads stays as it is until it goes on. There are no deadlocks that the coarse schedules do not have. All this also holds for clients that keep handles, component guards, resource guards and iterators across calls; what a client keeps a guard on is not changed by any statement of another thread. So everything proved of schedules of critical sections (queries after concurrent attaches, atomic effects of calls, ...) holds of statement-level interleavings too.", "quantifier": "every world, every number of threads and calls, every interleaving of the statements of the code (and of any other statements that respect the footprints of the critical sections)", "why_tests_cant": "The number of interleavings of statements is astronomical and a test can neither enumerate nor force them; a missing lock shows only in rare ones.", "anchors": ["src/world.rs: World::remove_entity, World::create_entity", "src/entity.rs: Entity::attach, Entity::detach, Entities::attach", "src/sparse_set.rs: SparseSet::add, remove, add_batch, swap_by_index", "src/entity.rs: EntityManager::allocate, remove", "src/group/*/mod.rs: add, remove"]}
{"id": "C68", "title": "Calls that no other thread can make panic", "statement": "Some calls never panic, whatever calls the other threads sharing the World make and however they are interleaved, also when several threads work on one entity and entities are removed under the feet of others: reading, writing and counting components, using resources, queries that name no group (of registered types, not conflicting with themselves), creating a range of entities with batches of components as long as the range, and attaching such batches through the handle of the range; for clients that keep things also attaching components of types in no full-owning group (nor in a group of a type with itself or with an unregistered type) through a kept entity handle, and reading and writing through kept handles and guards. exist(id) does not panic if the id has been handed out by the World before, even if the entity has been removed since. (create_entity and attaching components of types in full-owning groups can be made to panic, as can detaching and group queries, see C58.)", "quantifier": "every world reached by calls (also calls that panicked half way) and earlier phases of sharing, every number of threads, every calls they make and every interleaving in which batches are attached to entities that lack the component", "why_tests_cant": "It says that no behaviour of the other threads whatsoever causes a panic; a test fixes what the other threads do and sees a few of their interleavings.", "anchors": ["src/world.rs: World::exist, World::create_entities, World::component_read, World::component_write, World::resource_read", "src/entity.rs: Entity::attach, Entities::attach", "src/sparse_set.rs: SparseSet::add, add_batch", "src/group/non_owning, src/group/partial_owning: add", "src/query: Queryable"]}
{"id": "C69", "title": "Threads that work on different entities do not affect each other", "statement": "If one thread works on some entities (attaching, detaching, reading and writing their components) and no other thread changes these entities, then its calls return, and do to these entities, exactly what they would if the thread were alone, whatever the other threads do to other entities meanwhile: attach and detach components of the same types and groups, remove other entities, create entities, query, use resources. In particular parallel work on disjoint sets of entities is deterministic: each call returns the same, and all entities end up with the same components, in every interleaving, although the entities share storages and groups and the storages may end up in different orders. (Calls that panic excepted: whether detaching an absent component panics depends on other entities.)", "quantifier": "every world reached by calls (also calls that panicked half way) and earlier phases of sharing, every set of entities, every number of threads, every calls the other threads make that leave these entities alone, every two interleavings and enumeration orders of the hash map", "why_tests_cant": "It compares all interleavings with all other threads' programs; removing one entity moves another entity's component inside the storage and inside groups, and tests see only a few such moves.", "anchors": ["src/entity.rs: Entity::attach, Entity::detach", "src/world.rs: World::entity, World::component_read, World::component_write, World::remove_entity", "src/sparse_set.rs: SparseSet::add, remove, swap_by_index", "src/group/full_owning/mod.rs: add, remove", "src/group/partial_owning/mod.rs: add, remove"]}
{"id": "C70", "title": "Operations on different entities can be reordered", "statement": "After any history of correct use, let a single owner make calls each on one entity: attach components, detach components that are there, read and write components, ask for existing entities, remove entities. The same calls in any other order, in which the calls on each single entity keep their order, are also correct, return the same values, and lead to a world in which the same entities exist and have the same components, and in which every query (without non-owning groups, or with ones none of whose components was removed or is owned by another group) yields the same results up to their order. If moreover the removals keep their order (it determines the ids handed out next), every later call returns the same, or panics, in both worlds. (Detaching what is not there is excepted: whether it panics depends on which other entities got this component before; the theorem C70_absent shows it.)", "quantifier": "every history of allowed calls, every list of such calls, every reordering that keeps the order per entity, every query, every next call", "why_tests_cant": "The two orders put components at different places of storages and groups (removal swaps); whether that ever shows is a statement about all pairs of histories.", "anchors": ["src/entity.rs: Entity::attach, Entity::detach", "src/world.rs: World::component_read, World::component_write, World::exist, World::remove_entity", "src/sparse_set.rs: SparseSet::add, remove", "src/entity.rs: EntityManager::remove, allocate", "src/group/mod.rs: Group"]}
{"id": "C71", "title": "Memory and counters are bounded by what is in use", "statement": "Let N be the largest number of entities that were ever alive at the same time, plus, if create_entities was used, the largest number of free ids it has passed over (no larger id is ever handed out, see C60). The entity table lists just the living entities and has room for at most N ids, every component storage has an index for at most N ids and holds at most as many components as there are living entities, and no group has more members than that. So creating and removing entities for ever does not use more and more memory, and none of the library's counters overflows while N stays below 2^64 - 1.", "quantifier": "every allowed history (as in C14), parts of which may be the work of several considerate threads in any schedule, and every moment in the middle of such a schedule", "why_tests_cant": "A test sees the memory used after some finite run; this bounds it after every history of unbounded length, by a function of the peak alone.", "anchors": ["src/entity.rs: EntityManager::allocate, allocate_n", "src/sparse_set.rs: add, add_batch, remove", "src/group/full_owning/mod.rs: length", "src/group/partial_owning/mod.rs: length"]}
{"id": "C72", "title": "Groups are only an optimisation", "statement": "Leave the make_group calls out of a history: every other call returns the same value, or panics, as before, and every query that names no group yields the same entities with the same components, though perhaps in another order. So whether and when groups are made shows only in the order of iteration, in queries that name the groups, and in later make_group calls.", "quantifier": "results of calls: every pair of allowed histories (as in C14) that differ in their make_group calls only, and every next call that both allow; components and queries: also all pairs of histories of C01", "why_tests_cant": "A test compares one program with and without one group; this holds for every program, every number of groups of any kind over any types, made at any time.", "anchors": ["src/world.rs: World::make_group, attach_component, detach_component, remove_entity", "src/entity.rs: Entity::attach, Entity::detach", "src/group/full_owning/mod.rs: add, remove, make", "src/group/partial_owning/mod.rs: add, remove, make", "src/group/non_owning/mod.rs: add, remove, make"]}
{"id": "C73", "title": "Components stay readable and behave like a map whatever has happened before", "statement": "However the World has been reached, also if calls have panicked half way (leaving groups half updated and entities half removed), if threads have raced on one entity and left groups that list entities lacking a component, and if threads have panicked: reading a component of any entity succeeds in every way of reading and gives the value last attached or written (or the one that was there when the damage was done) or nothing; a call that returns changes exactly the components it is about; a call that panics changes at most the component it was to attach or the entity it was to remove; count, is_empty and the slice of a storage show every component once; queries that name no group succeed and yield exactly the entities that match, once each, with their components. Damage is confined to groups.", "quantifier": "every world reached by any calls (returning or panicking, any ids, types and groups) and any phases of sharing between any number of threads with any calls and interleavings, with or without kept handles and guards, in which batches are attached to entities that lack the component; every further history of calls; every type, entity and query", "why_tests_cant": "The damage depends on where calls panicked and how threads raced, and on all that was done before and after; no finite set of scenarios covers the worlds reachable in this way.", "anchors": ["src/world.rs: World::attach_component, detach_component, remove_entity, raw_storage_read", "src/component.rs: ComponentStorage", "src/sparse_set.rs: SparseSet", "src/query: Queryable::query", "src/entity.rs: Entity::attach, detach, component_read"]}
{"id": "C74", "title": "The work of a call is bounded whatever the others do; nobody is kept busy for ever", "statement": "A call on a shared World makes at most a number of steps (starting, taking and dropping locks, pieces of work under locks, returning) that depends only on the call itself -- for a handle: its chain of operations, for a query: its shape, for create_entities: the batches attached -- and on the number of groups and, for remove_entity, of component types; never on what other threads do. It does not grow with the number of entities, of components or of threads, and there are no retries. So a thread that is not for ever waiting for a lock returns from its call; in a schedule without end some thread returns again and again, and so does every thread that moves again and again: no livelock. The same holds for clients that keep handles, guards and queries.", "quantifier": "every world (reachable or not), number of threads, calls of any kind, every schedule from the moment the world is shared, every moment in it and every later moment, and every schedule without end; with or without things kept", "why_tests_cant": "Livelock and unbounded retrying show only under particular unending interleavings; no finite run can exclude them, nor bound the work of every call in every schedule.", "anchors": ["src/world.rs: World::create_entity, create_entities, remove_entity, groups, has_group, group, query", "src/entity.rs: Entity::attach, detach; Entities::attach", "src/query/mod.rs, src/query/with.rs, src/query/without.rs, src/group/*/query.rs: Queryable::query"]}
{"id": "C75", "title": "What queries yield when batch attaches bypassed their groups", "statement": "Whatever batch attaches bypassed its groups, a query that iterates over a component (its first part, and the first part of that, and so on; of a Without what is kept) and has owning groups in other places yields exactly the matching entities, each once, with their own values: groups in those places, and what a Without excludes, go by the components. A query that iterates over an owning group yields nothing wrong either, and leaves out exactly the matching entities that are not in the group: those that did not have both components when it was made or when one of the two was attached individually later, or have lost one since. Non-owning groups, wherever they are in the query, count only the entities in them.", "quantifier": "every query, nested to any depth, that does not ask for a component twice with one of them mutable, over registered types and groups made, after every allowed history (as in C14) with any batch attaches, and after every history in which the world was also shared any number of times (as in C54), provided nothing was moved under the non-owning groups among them (C17)", "why_tests_cant": "Which entities a group contains depends on the whole history; the claim ranges over all histories, all nestings and all places a group can take in them.", "anchors": ["src/group/full_owning/query.rs: FullOwning::query, QueryIterator", "src/group/partial_owning/query.rs: PartialOwning::query, QueryIterator", "src/group/non_owning/query.rs", "src/query/with.rs: With", "src/query/without.rs: Without", "src/entity.rs: Entities::attach", "src/world.rs: World::make_group"]}
