import Verif.Proofs.Panics
import Verif.Proofs.Prepare
import Verif.Props.Updates
/-
Properties C30-C34: resources, downcasts, registration, panics, absence of undefined behaviour.
-/
set_option autoImplicit false
namespace Xecs
open Spec World Hist
variable {V : Type} {tr : List (Op V × Out V)} {w w' : World V}

/-! ### C30: resources -/

/-- After any history whatever: `resource_read` returns the value last registered or written. -/
theorem C30_read (h : Wild tr w) (t : TypeId) : World.resourceRead t w = (w, .ok (lastResource t tr)) := by
  simp only [World.resourceRead, M.read_apply, wild_res h t]
  cases lastResource t tr with
  | none => rfl
  | some v => simp [downcastRes]

/-- `resource_write` succeeds iff the resource was registered; `register_resource` always. Afterwards the
resource has the new value, all other resources have their old ones; components, entities and groups are
untouched. -/
theorem C30_update (h : Wild tr w) (t : TypeId) (v : V) :
    (∃ w', World.registerResource t v w = (w', .ok ()) ∧
      (∀ u, World.resourceRead u w' = (w', .ok (if u = t then some v else lastResource u tr))) ∧
      w'.em = w.em ∧ w'.comps = w.comps ∧ w'.groups = w.groups) ∧
    (∃ w', World.resourceWrite t v w = (w', .ok (lastResource t tr).isSome) ∧
      (∀ u, World.resourceRead u w' =
        (w', .ok (if u = t ∧ (lastResource t tr).isSome then some v else lastResource u tr))) ∧
      w'.em = w.em ∧ w'.comps = w.comps ∧ w'.groups = w.groups) := by
  constructor
  · have hx : exec (.registerResource t v) w = ((World.registerResource t v w).1, .ok .unit) := rfl
    refine ⟨(World.registerResource t v w).1, rfl, fun u => ?_, rfl, rfl, rfl⟩
    refine (C30_read (.ok h hx) u).trans ?_
    simp only [lastResource, eq_comm]
  · have hr := wild_res h t
    cases hl : lastResource t tr with
    | none =>
      rw [hl] at hr
      refine ⟨w, ?_, fun u => ?_, rfl, rfl, rfl⟩
      · simp [World.resourceWrite, M.crit, hr]
      · rw [C30_read h]; simp
    | some x =>
      rw [hl] at hr
      have e : World.resourceWrite t v w =
          ({ w with res := fun u => if u = t then some (ResBox.mk t v) else w.res u }, .ok true) := by
        simp [World.resourceWrite, M.crit, hr, downcastRes]
      have hx : exec (.resourceWrite t v) w =
          ({ w with res := fun u => if u = t then some (ResBox.mk t v) else w.res u }, .ok (.bool true)) := by
        show (World.resourceWrite t v >>= fun b => pure (Out.bool b)) w = _
        rw [bind_pure_ok]; exact ⟨true, e, rfl⟩
      refine ⟨_, e, fun u => ?_, rfl, rfl, rfl⟩
      refine (C30_read (.ok (op := .resourceWrite t v) h hx) u).trans ?_
      simp only [lastResource, eq_comm, Option.isSome_some, and_true]

/-- No call other than the resource calls affects any resource, whether it succeeds or not. -/
theorem C30_frame {op : Op V} (h1 : ∀ t v, op ≠ .registerResource t v) (h2 : ∀ t v, op ≠ .resourceWrite t v) (t : TypeId) :
    (World.resourceRead t (exec op w).1).2 = (World.resourceRead t w).2 := by
  have hfix := exec_res op
  have : (exec op w).1.res = w.res := by
    cases op with
    | registerResource t v => exact absurd rfl (h1 t v)
    | resourceWrite t v => exact absurd rfl (h2 t v)
    | _ => exact hfix w
  simp only [World.resourceRead, M.read_apply, this]

example : World.resourceRead 9 Demo.w = (Demo.w, .ok (some 91)) :=
  (C30_read (.of_any Demo.trace.any) 9).trans (by congr 2; decide +kernel)
example : World.resourceRead 8 Demo.w = (Demo.w, .ok none) :=
  (C30_read (.of_any Demo.trace.any) 8).trans (by congr 2; decide +kernel)
example := C30_update (.of_any Demo.trace.any) 9 92

/-! ### C31: downcasts -/

theorem wild_tag (h : Wild tr w) {t : Nat} {st : Storage V} (hst : w.comps t = some st) : st.ty = t := by
  have := wild_stTags h t
  simp only [stTags, hst, Option.map_some] at this
  split at this
  · simpa using this
  · cases this

theorem wild_registered (h : Wild tr w) (t : Nat) : w.hasRegistered t = registered t tr := by
  have := wild_stTags h t
  simp only [stTags] at this
  rw [World.hasRegistered]
  cases hc : w.comps t with
  | none => rw [hc] at this; cases hr : registered t tr <;> simp_all
  | some st => rw [hc] at this; cases hr : registered t tr <;> simp_all

/-- After any history whatever: the storage found under a type was created for that type, and the resource
found under a type is of that type, so every downcast the API performs is valid. -/
theorem C31_downcast (h : Wild tr w) (t : TypeId) :
    (∀ st, w.comps t = some st → World.downcast st t = .ok st.set) ∧
    (∀ r, w.res t = some r → World.downcastRes r t = .ok r.val) := by
  constructor
  · intro st hst; simp [World.downcast, wild_tag h hst]
  · intro r hr
    rw [wild_res h, Option.map_eq_some_iff] at hr
    obtain ⟨v, _, rfl⟩ := hr
    simp [World.downcastRes]

/-- After any history whatever, the operations that do nothing dangerous besides a downcast have no undefined
behaviour: `count`, `data`, `exist`, `is_empty` never fail, `get` and `get_mut` at worst panic, reading and writing
resources never fails, and starting any query at worst panics or blocks. -/
theorem C31_no_ub (h : Wild tr w) (t id : TypeId) (v : V) :
    (∃ r, World.storageCount t w = (w, .ok r)) ∧ (∃ r, World.storageData t w = (w, .ok r)) ∧
    (∃ r, World.storageExist t id w = (w, .ok r)) ∧ (∃ r, World.storageIsEmpty t w = (w, .ok r)) ∧
    (World.storageGet t id w).2 ≠ .error .ub ∧ (World.storageSet t id v w).2 ≠ .error .ub ∧
    (∃ r, World.resourceRead t w = (w, .ok r)) ∧ (∃ w' b, World.resourceWrite t v w = (w', .ok b)) ∧
    ∀ q : Query, q.Conflictless → w.query q ≠ .error .ub := by
  have hd := fun st => (C31_downcast h t).1 st
  refine ⟨?_, ?_, ?_, ?_, ?_, ?_, ⟨_, C30_read h t⟩, ?_, ?_⟩
  · simp only [World.storageCount, M.read_apply]
    cases hc : w.comps t with
    | none => exact ⟨_, rfl⟩
    | some st => simp only [hd st hc, ok_bind]; exact ⟨_, rfl⟩
  · simp only [World.storageData, M.read_apply]
    cases hc : w.comps t with
    | none => exact ⟨_, rfl⟩
    | some st => simp only [hd st hc, ok_bind]; exact ⟨_, rfl⟩
  · simp only [World.storageExist, M.read_apply]
    cases hc : w.comps t with
    | none => exact ⟨_, rfl⟩
    | some st => simp only [hd st hc, ok_bind]; exact ⟨_, rfl⟩
  · simp only [World.storageIsEmpty, M.read_apply]
    cases hc : w.comps t with
    | none => exact ⟨_, rfl⟩
    | some st => simp only [hd st hc, ok_bind]; exact ⟨_, rfl⟩
  · simp only [World.storageGet, M.read_apply]
    cases hc : w.comps t with
    | none => simp
    | some st =>
      simp only [hd st hc, ok_bind, SparseSet.get]
      split
      · simp only [getR]; split <;> simp
      · simp
  · simp only [World.storageSet, M.crit]
    cases hc : w.comps t with
    | none => simp
    | some st =>
      simp only [hd st hc, ok_bind]
      cases st.set.getIndex id with
      | none => simp
      | some i =>
        by_cases hi : i < st.set.data.length <;> simp [setR, hi]
  · obtain ⟨w', h1, _⟩ := (C30_update h t v).2
    exact ⟨w', _, h1⟩
  · intro q hq
    rcases prepare_cases (fun t st => wild_tag h) q [] (by simpa [Query.Conflictless] using hq) with ⟨_, p, e⟩ | ⟨_, e⟩
    · simp only [World.query, e]; simp
    · simp only [World.query, e]; simp

example := C31_no_ub (.of_any Demo.wildTrace) 1 3 5
example : ∃ st, Demo.wildW.comps 1 = some st ∧ World.downcast st 1 = .ok st.set := by
  have h : (Demo.wildW.comps 1).isSome = true := by decide +kernel
  obtain ⟨st, hst⟩ := Option.isSome_iff_exists.1 h
  exact ⟨st, hst, (C31_downcast (.of_any Demo.wildTrace) 1).1 st hst⟩

/-! ### C32: registration -/

/-- Registering a type twice panics and changes nothing. -/
theorem C32_twice (h : Wild tr w) {t : TypeId} (hr : registered t tr = true) :
    World.register t w = (w, .error .panic) := by
  rw [← wild_registered h] at hr
  simp [World.register, M.bind_apply, M.read, hr, M.assert, assertR]

/-- Registering a new type gives it an empty storage and changes nothing else. -/
theorem C32_once (h : Wild tr w) {t : TypeId} (hr : registered t tr = false) :
    ∃ w', World.register t w = (w', .ok ()) ∧ w'.hasRegistered t = true ∧
      World.storageCount t w' = (w', .ok (some 0)) ∧
      (∀ id, World.componentRead t id w' = (w', .ok none)) ∧
      (∀ u, u ≠ t → w'.comps u = w.comps u) ∧ w'.em = w.em ∧ w'.groups = w.groups ∧ w'.res = w.res := by
  rw [← wild_registered h] at hr
  refine ⟨w.insertStorage t, ?_, ?_, ?_, ?_, ?_, rfl, rfl, rfl⟩
  · simp [World.register, M.bind_apply, M.read, hr, M.assert, assertR, M.crit]
  · simp [World.hasRegistered, World.insertStorage]
  · simp [World.storageCount, M.read, World.insertStorage, downcast, SparseSet.len, SparseSet.new]
  · intro id; simp [World.componentRead, M.read, World.insertStorage, downcast, SparseSet.exist, SparseSet.new, SparseSet.getIndex]
  · intro u hu; simp [World.insertStorage, hu]

/-- `has_registered` tells whether the type was registered, and once it was, it stays registered whatever
happens. -/
theorem C32_forever (h : Wild tr w) (t : TypeId) : w.hasRegistered t = registered t tr ∧
    ∀ later w', Wild (later ++ tr) w' → registered t tr = true → w'.hasRegistered t = true := by
  refine ⟨wild_registered h t, fun later w' h' hr => ?_⟩
  rw [wild_registered h']
  clear h'
  induction later with
  | nil => exact hr
  | cons x l ih => obtain ⟨op, o⟩ := x; cases op <;> simp only [List.cons_append, registered, ih, Bool.or_true]

example : World.register 2 Demo.wildW = (Demo.wildW, .error .panic) := C32_twice (.of_any Demo.wildTrace) (by decide +kernel)
example := C32_once (.of_any Demo.wildTrace) (t := 77) (by decide +kernel)

/-! ### C33: panics leave the world intact -/

/-- In any world: operations on a type that is not registered panic and change nothing. -/
theorem C33_unregistered {t : TypeId} (hr : w.hasRegistered t = false) (id a b : EntityId) (v : V) (vs : List V) (m : Mode) :
    World.attach id t v w = (w, .error .panic) ∧ World.detach id t w = (w, .error .panic) ∧
    World.attachBatch a b t vs w = (w, .error .panic) ∧ w.query (.comp m t) = .error .panic := by
  have hc : w.comps t = none := by simpa [World.hasRegistered] using hr
  have hent : World.entity id w = (w, .error .panic) ∨ World.entity id w = (w, .ok none) ∨
      World.entity id w = (w, .ok (some id)) := by
    simp only [World.entity, M.bind_apply, World.exist, M.read]
    cases h : w.em.has id with
    | error e =>
      left
      simp only [EntityManager.has, getR] at h
      cases hf : w.em.flags[id]? with
      | none => rw [hf] at h; simp only [error_bind, Except.error.injEq] at h; rw [← h]
      | some f => rw [hf] at h; cases f <;> simp at h
    | ok b => cases b <;> simp [M.pure_apply]
  refine ⟨?_, ?_, ?_, ?_⟩
  · rcases hent with e | e | e <;>
      simp [World.attach, M.bind_apply, e, M.read, unwrapR, entityAttach, hr, M.assert, assertR]
  · rcases hent with e | e | e <;>
      simp [World.detach, M.bind_apply, e, M.read, unwrapR, entityDetach, hr, M.assert, assertR]
  · simp only [World.attachBatch, M.bind_apply, M.assert, assertR]
    split
    · rename_i hx; split at hx <;> simp_all [M.crit, batchStore, batchStoreX, onStore, unwrapR]
    · rename_i hx; split at hx <;> simp_all
  · simp [World.query, Query.prepare, hr, assertR]

/-- In any world: a batch attach with the wrong number of components panics and changes nothing. -/
theorem C33_length {a b : EntityId} {vs : List V} (hl : vs.length ≠ b - a) (t : TypeId) :
    World.attachBatch a b t vs w = (w, .error .panic) := by
  simp [World.attachBatch, M.bind_apply, M.assert, assertR, hl]

/-- After any history that removed only living entities: operations on an entity that does not exist panic and
change nothing (for the exception see C10, C11). -/
theorem C33_dead (h : Wild tr w) (hl : RemovesLive tr) {id : EntityId} (hu : Usable id tr) (hd : alive id tr = false) :
    (∀ t v, World.attach id t v w = (w, .error .panic)) ∧ (∀ t, World.detach id t w = (w, .error .panic)) ∧
    (∀ order, World.removeEntity order id w = (w, .error .panic)) :=
  ⟨(C11_dead_partial h hl hu hd).1, (C11_dead_partial h hl hu hd).2.1, (C11_dead_partial h hl hu hd).2.2.1⟩

/-- After an allowed history a query (that does not clash with itself) panics iff it names a type that is not
registered or a group that was not made. -/
theorem C33_query (h : Trace tr w) {q : Query} (hc : q.Conflictless) :
    (w.query q = .error .panic ↔ ¬ Exists tr q) ∧ ((∃ it, w.iter q = .ok it) ↔ Exists tr q) := by
  obtain ⟨s, hr⟩ := h.run
  have hn : Named w q ↔ Exists tr q := by
    constructor
    · refine Parts.imp (fun t ht => ?_) (fun k a b hg => ?_) q
      · rw [← wild_registered (.of_any h.any)]; exact ht
      · obtain ⟨h1, h2, h3⟩ := hg
        rw [hasGroup_of_group? hr.rel.core, group?_isSome hr] at h3
        rw [wild_registered (.of_any h.any)] at h1 h2
        exact ⟨h1, h2, h3⟩
    · refine Parts.imp (fun t ht => ?_) (fun k a b hg => ?_) q
      · rw [wild_registered (.of_any h.any)]; exact ht
      · obtain ⟨h1, h2, h3⟩ := hg
        rw [hasGroup_of_group? hr.rel.core, group?_isSome hr, wild_registered (.of_any h.any), wild_registered (.of_any h.any)]
        exact ⟨h1, h2, h3⟩
  rcases prepare_cases (fun t st => wild_tag (.of_any h.any)) q [] (by simpa [Query.Conflictless] using hc) with ⟨n, p, e⟩ | ⟨n, e⟩
  · rw [hn] at n
    simp [World.query, World.iter, e, n]
  · rw [hn] at n
    simp [World.query, World.iter, e, n]

/-- After an allowed history, when an allowed call panics the world is exactly as before, hence as usable. -/
theorem C33_intact (h : Trace tr w) {op : Op V} (ha : Allowed tr op) {e : Fault} (he : exec op w = (w', .error e)) :
    w' = w ∧ e = .panic ∧ Trace tr w' := by
  rcases h.safe ha with ⟨w1, o, h1⟩ | h1
  · rw [h1] at he; simp at he
  · have := h1.symm.trans he
    simp only [Prod.mk.injEq, Except.error.injEq] at this
    exact ⟨this.1.symm, this.2.symm, .fails h ha he⟩

example := C33_unregistered (w := Demo.w) (t := 50) (by decide +kernel) 1 1 3 7 [1, 2] .mut
example := C33_dead (.of_any Demo.trace.any) Demo.trace.live.2.1 (id := 17) (by decide +kernel) (by decide +kernel)
example : Demo.queryW.query (.with2 (.comp .ref 1) (.group .full .ref .mut 3 2)) = .error .panic :=
  ((C33_query Demo.queryTrace (by decide)).1).2 (by decide +kernel)
example : (exec (.attach 1 50 7) Demo.w).2 = .error .panic ∧ (exec (.attach 1 50 7) Demo.w).1 = Demo.w := by
  have h : (exec (.attach 1 50 7) Demo.w).2 = .error .panic := by decide +kernel
  exact ⟨h, (C33_intact Demo.trace (allowed_iff (by decide +kernel)) (Prod.ext rfl h)).1⟩

/-! ### C34: no undefined behaviour -/

theorem derefItem_locs (w : World V) : ∀ (x : Item Loc) {v : Item V}, w.derefItem x = some v →
    ∀ l ∈ x.locs, (w.deref l).isSome = true := by
  intro x
  induction x with
  | leaf l =>
    intro v h m hm
    simp only [Item.locs, List.mem_singleton] at hm; subst hm
    simp only [World.derefItem, Option.map_eq_some_iff] at h
    obtain ⟨y, hy, _⟩ := h
    rw [hy]; rfl
  | pair x y ihx ihy =>
    intro v h m hm
    simp only [World.derefItem, Option.bind_eq_bind, Option.bind_eq_some_iff] at h
    obtain ⟨a, ha, b, hb, _⟩ := h
    simp only [Item.locs, List.mem_append] at hm
    rcases hm with hm | hm
    · exact ihx ha m hm
    · exact ihy hb m hm

theorem lookup_mem {α : Type} : ∀ {l : List (Nat × α)} {id : Nat} {y : α}, l.lookup id = some y → (id, y) ∈ l := by
  intro l
  induction l with
  | nil => intro id y h; simp at h
  | cons x l ih =>
    intro id y h
    obtain ⟨i, z⟩ := x
    rw [List.lookup_cons] at h
    split at h
    · rename_i hi
      simp only [Option.some.injEq] at h; subst h
      simp only [beq_iff_eq] at hi; subst hi; simp
    · simp [ih h]


/-- After an allowed history an allowed call never has undefined behaviour and never blocks on itself; it
panics exactly for a documented reason or for one of two undocumented ones: `exist` of an id never handed out,
`detach` of an absent component in a rare case. -/
theorem C34_exactly (h : Trace tr w) {op : Op V} (ha : Allowed tr op) :
    (exec op w = (w, .error .panic) ↔ Documented tr op ∨ Undocumented tr op) ∧
    ((∃ w' o, exec op w = (w', .ok o)) ↔ ¬ (Documented tr op ∨ Undocumented tr op)) := by
  obtain ⟨s, hr⟩ := h.run
  obtain ⟨hw, hs⟩ := allowed_spec hr ha
  rw [← step_panics_iff hr ha]
  have := step_ref hr.rel op hw
  cases hst : s.step op with
  | ok s' o =>
    rw [hst] at this
    obtain ⟨w1, h1, _⟩ := this
    rw [h1]; simp
  | panics => rw [hst] at this; simp only at this; rw [this]; simp
  | unspecified => exact absurd hst hs

/-- A client that also asks `exist` only for ids it was given, and detaches only components the entity has, sees
no undocumented panic either: every call succeeds unless there is a documented reason. -/
theorem C34_disciplined (h : Trace tr w) {op : Op V} (ha : Allowed tr op) (hs : Sensible tr op) :
    (Documented tr op → exec op w = (w, .error .panic)) ∧ (¬ Documented tr op → ∃ w' o, exec op w = (w', .ok o)) := by
  have hu : ¬ Undocumented tr op := by
    cases op <;> simp only [Undocumented, Sensible, not_false_eq_true] at hs ⊢
    · simp [hs]
    · rintro ⟨_, _, h3, _⟩; rw [h3] at hs; cases hs
  exact ⟨fun hd => (C34_exactly h ha).1.2 (.inl hd), fun hd => (C34_exactly h ha).2.2 (fun h => h.elim hd hu)⟩

/-- No sequence of calls on the iterator of a query has undefined behaviour or panics, and all references it
hands out are valid. -/
theorem C34_iteration {q : Query} (h : Ready tr w q) (hc : q.Conflictless) :
    ∃ it, w.iter q = .ok it ∧ ∀ cs, ∃ rs it', it.session w cs = .ok (rs, it') ∧
      ∀ r ∈ rs, ∀ l ∈ r.locs, (w.deref l).isSome = true := by
  obtain ⟨it, all, h1, h2, h3⟩ := C26_mixed h hc
  refine ⟨it, h1, fun cs => ?_⟩
  obtain ⟨it', e⟩ := h3 cs
  refine ⟨_, it', e, ?_⟩
  obtain ⟨w0, s, pc, pg, hs, hq⟩ := h.setup
  have hall := hs.queryAll hq hc
  rw [h2] at hall; simp only [Except.ok.injEq] at hall
  have hv : ∀ x ∈ all, ∀ l ∈ x.2.locs, (w.deref l).isSome = true := by
    intro x hx l hl
    rw [hall] at hx
    obtain ⟨id, hi, rfl⟩ := List.mem_map.1 hx
    obtain ⟨v, hv⟩ := Option.isSome_iff_exists.1 (((hs.ids_spec hq).2 id).1 hi)
    have hd := hs.deref hq hv
    exact derefItem_locs _ _ hd l hl
  have key : ∀ (cs : List Call) (todo : List (EntityId × Item Loc)), (∀ x ∈ todo, x ∈ all) →
      ∀ r ∈ expected all cs todo, ∀ l ∈ r.locs, (w.deref l).isSome = true := by
    intro cs
    induction cs with
    | nil => intro todo _ r hr; simp [expected] at hr
    | cons c cs ih =>
      intro todo ht r hr l hl
      have ht' : ∀ x todo', todo = x :: todo' → ∀ y ∈ todo', y ∈ all := fun x todo' e y hy => ht y (by rw [e]; simp [hy])
      cases c with
      | fromId id =>
        simp only [expected, List.mem_cons] at hr
        rcases hr with rfl | hr
        · cases hlk : all.lookup id with
          | none => simp [Reply.locs, hlk, refsOf] at hl
          | some y =>
            simp only [Reply.locs, hlk, refsOf] at hl
            exact hv (id, y) (lookup_mem hlk) l hl
        · exact ih todo ht r hr l hl
      | next =>
        cases todo with
        | nil =>
          simp only [expected, List.mem_cons] at hr
          rcases hr with rfl | hr
          · simp [Reply.locs, refsOf] at hl
          · exact ih [] ht r hr l hl
        | cons x todo =>
          simp only [expected, List.mem_cons] at hr
          rcases hr with rfl | hr
          · exact hv x (ht x (by simp)) l hl
          · exact ih todo (ht' x todo rfl) r hr l hl
      | nextWithId =>
        cases todo with
        | nil =>
          simp only [expected, List.mem_cons] at hr
          rcases hr with rfl | hr
          · simp [Reply.locs, refsOf] at hl
          · exact ih [] ht r hr l hl
        | cons x todo =>
          simp only [expected, List.mem_cons] at hr
          rcases hr with rfl | hr
          · exact hv x (ht x (by simp)) l hl
          · exact ih todo (ht' x todo rfl) r hr l hl
  exact key cs all (fun _ h => h)

example := C34_exactly Demo.trace (op := .detach 1 2) (allowed_iff (by decide +kernel))
example : ∃ w' o, exec (.detach 1 2) Demo.w = (w', .ok o) :=
  (C34_disciplined Demo.trace (op := .detach 1 2) (allowed_iff (by decide +kernel))
    (show (lastValue 2 1 Demo.tr).isSome = true by decide +kernel)).2
    (show ¬ (alive 1 Demo.tr = false ∨ registered 2 Demo.tr = false) by decide +kernel)
example := C34_iteration Demo.nested_ready (by decide)

end Xecs
