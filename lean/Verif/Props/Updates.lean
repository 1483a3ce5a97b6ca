import Verif.Proofs.Update
import Verif.Props.Queries
/-
C29: updating components through mutable references.
-/
set_option autoImplicit false
namespace Xecs
open Spec World Hist
variable {V : Type} {tr : List (Op V × Out V)} {w w' : World V}

/-- A loop `for (id, x) in world.query::<Q>().with_id() { .. }` that assigns to every mutable reference in
`x` a value computed from the id and the values in the item terminates without fault. Afterwards every
component of a matched entity that the query gives mutable access to has been replaced once, by the value
computed from the components before the loop; every other component reads as before; entities, groups and
resources are untouched; and the world is as usable as one on which only `component_write` was called. -/
theorem C29_update {q : Query} (h : Ready tr w q) (hc : q.Conflictless) (g : EntityId → Item V → TypeId → V) :
    ∃ it w' n ws, w.iter q = .ok it ∧ (∀ m, n ≤ m → World.updateLoop g m w it = .ok w') ∧
      (∀ t id, World.componentRead t id w' = (w', .ok (updated q g (values tr) t id))) ∧
      (w'.em = w.em ∧ w'.groups = w.groups ∧ w'.res = w.res) ∧ Writes ws ∧ Ready (ws ++ tr) w' q := by
  obtain ⟨w0, s, pc, pg, hs, hq⟩ := h.setup
  obtain ⟨n1, n2⟩ := hs.ids_spec hq
  have hf := (planOf w0 q).start_fits
  obtain ⟨w', ws, h1, h2, h3, h4, h5⟩ := loop_spec hs hq g (ids w0 s q) 0 (planOf w0 q).start w []
    rfl n1 (Nat.zero_le _) hf (Plan.lead_start _) (.refl _) h (fun x hx => by simp at hx) ⟨rfl, rfl, rfl⟩
    (fun _ _ _ => rfl)
  refine ⟨⟨planOf w0 q, (planOf w0 q).start⟩, w', (ids w0 s q).length + 1, ws, ?_, fun m hm => h1 m hm, ?_, h4, h3, h2⟩
  · simp only [World.iter, hs.query hq hc, ok_bind]
  · intro t id
    rw [h2.look.read, h5]
    congr 2
    by_cases hi : id ∈ ids w0 s q
    · rw [if_pos hi]
    · rw [if_neg hi, List.nil_append]
      have : q.answer (values tr) id = none := by
        cases e : q.answer (values tr) id with
        | none => rfl
        | some v => exact absurd ((n2 id).2 (by rw [e]; rfl)) hi
      simp only [updated, this, values]

/-- `for x in world.query::<&mut T>() { *x = f(*x) }`: every `T` component changes by `f`, exactly once, and
nothing else changes. Holds after any history without repeated batch attach. -/
theorem C29_map (h : AnyTrace tr w) (hn : NoRebatch tr) {t : TypeId} (hr : registered t tr = true) (f : V → V) :
    ∃ it w' n, w.iter (.comp .mut t) = .ok it ∧ (∀ m, n ≤ m → World.updateLoop (fun _ x _ => f x.head) m w it = .ok w') ∧
      ∀ u id, World.componentRead u id w' =
        (w', .ok (if u = t then (lastValue t id tr).map f else lastValue u id tr)) := by
  obtain ⟨it, w', n, ws, h1, h2, h3, _⟩ :=
    C29_update (q := .comp .mut t) (.plain h hn trivial hr) (comp_conflictless _ _) (fun _ x _ => f x.head)
  refine ⟨it, w', n, h1, h2, fun u id => ?_⟩
  rw [h3]
  congr 2
  simp only [updated, Query.answer, Query.shown, values, List.mem_singleton, Prod.mk.injEq, and_true]
  cases hv : lastValue t id tr with
  | none =>
    simp only [Option.map_none]
    by_cases hu : u = t
    · rw [if_pos hu, hu, hv]
    · rw [if_neg hu]
  | some v => simp only [Option.map_some, Item.head]

/-- `for (a, b) in world.query::<(&mut A, &B)>() { *a = f(*a, *b) }`. -/
theorem C29_map2 (h : AnyTrace tr w) (hn : NoRebatch tr) {a b : TypeId} (ha : registered a tr = true)
    (hb : registered b tr = true) (hab : a ≠ b) (f : V → V → V) :
    ∃ it w' n, w.iter (.with2 (.comp .mut a) (.comp .ref b)) = .ok it ∧
      (∀ m, n ≤ m → World.updateLoop
        (fun _ x _ => match x with | .pair x y => f x.head y.head | .leaf x => f x x) m w it = .ok w') ∧
      ∀ u id, World.componentRead u id w' = (w', .ok (
        match lastValue a id tr, lastValue b id tr with
        | some x, some y => if u = a then some (f x y) else lastValue u id tr
        | _, _ => lastValue u id tr)) := by
  obtain ⟨it, w', n, ws, h1, h2, h3, _⟩ :=
    C29_update (q := .with2 (.comp .mut a) (.comp .ref b)) (.plain h hn ⟨trivial, trivial⟩ ⟨ha, hb⟩)
      (by simp [Query.Conflictless, Query.accesses, Query.Clash, hab])
      (fun _ x _ => match x with | .pair x y => f x.head y.head | .leaf x => f x x)
  refine ⟨it, w', n, h1, h2, fun u id => ?_⟩
  rw [h3]
  congr 2
  simp only [updated, Query.answer, Query.shown, values]
  cases hv : lastValue a id tr with
  | none => simp
  | some x =>
    cases hy : lastValue b id tr with
    | none => simp
    | some y => simp [Item.head]

theorem storageSet_look (h : Look w tr) (t id : EntityId) (v : V) :
    World.storageSet t id v w = World.componentWrite t id v w := by
  simp only [World.storageSet, World.componentWrite, M.crit]
  cases hc : w.comps t with
  | none => rfl
  | some st =>
    obtain ⟨_, hty, hwf, hlk⟩ := h.at_some hc
    simp only [downcast, hty, if_true, ok_bind]
    rw [SparseSet.exist_eq]
    cases hg : st.set.getIndex id with
    | none => rfl
    | some i =>
      have hi := (SparseSet.getIndex_iff hwf).1 hg
      have hx := (hwf.idx id i).2 hi
      have hlt : i < st.set.data.length := by
        have := (List.getElem?_eq_some_iff.1 hi).1; rw [hwf.len] at this; exact this
      simp [setR, hlt, SparseSet.setUnchecked, getU_some hx, getU_some (List.getElem?_eq_getElem hlt)]

/-- Writing one component, through `component_write` or through `components_write().get_mut()`, succeeds iff
the entity has the component, and changes that component only. -/
theorem C29_write (h : AnyTrace tr w) (hn : NoRebatch tr) (t id : EntityId) (v : V) :
    ∃ w', World.componentWrite t id v w = (w', .ok (lastValue t id tr).isSome) ∧
      World.storageSet t id v w = (w', .ok (lastValue t id tr).isSome) ∧
      (∀ u e, World.componentRead u e w' =
        (w', .ok (if u = t ∧ e = id ∧ (lastValue t id tr).isSome then some v else lastValue u e tr))) ∧
      (w'.em = w.em ∧ w'.groups = w.groups ∧ w'.res = w.res) := by
  have hl := any_look h hn
  rw [storageSet_look hl]
  cases hv : (lastValue t id tr).isSome with
  | true =>
    obtain ⟨e1, _⟩ := assign_write hl hv .mut v
    have hx : exec (.write t id v) w = (w.assign ⟨t, w.idx t id, .mut⟩ v, .ok (.bool true)) := by
      show (World.componentWrite t id v >>= fun b => pure (Out.bool b)) w = _
      rw [bind_pure_ok]; exact ⟨true, e1, rfl⟩
    refine ⟨_, e1, e1, fun u e => ?_, assign_rest _ _ _⟩
    rw [(any_look (.ok (op := .write t id v) h trivial hx) hn).read]
    simp only [lastValue, and_true]
    by_cases hu : id = e ∧ t = u
    · rw [if_pos hu, if_pos ⟨hu.2.symm, hu.1.symm⟩]
    · rw [if_neg hu, if_neg (fun h => hu ⟨h.2.symm, h.1.symm⟩)]
  | false =>
    have e1 : World.componentWrite t id v w = (w, .ok false) := by
      rw [World.componentWrite, M.crit_ok]
      cases hc : w.comps t with
      | none => rfl
      | some st =>
        obtain ⟨_, hty, hwf, hlk⟩ := hl.at_some hc
        have hex : st.set.exist id = false := by
          cases hx : st.set.exist id with
          | false => rfl
          | true =>
            rw [SparseSet.exist_iff hwf, ← SparseSet.lookup_isSome hwf, hlk, hv] at hx; cases hx
        simp [downcast, hty, hex]
    exact ⟨w, e1, e1, fun u e => by simp [hl.read], rfl, rfl, rfl⟩

/-- Assigning to `components_write().data_mut()[i]` writes the component of the `i`-th entity in iteration
order, and panics, changing nothing, if there are not that many. -/
theorem C29_data (h : AnyTrace tr w) (hn : NoRebatch tr) {t : TypeId} (hr : registered t tr = true) (v : V) :
    ∃ l : List (EntityId × V), Yields w (.comp .mut t) (l.map fun x => (x.1, .leaf x.2)) ∧
      Lists l (fun id => lastValue t id tr) ∧
      ∀ i, World.storageSetAt t i v w =
        match l[i]? with
        | some x => World.componentWrite t x.1 v w
        | none => (w, .error .panic) := by
  obtain ⟨st, hst, hty, hwf, hli, hd, hy⟩ := any_listing h hn hr
  refine ⟨_, hy .mut, hli, fun i => ?_⟩
  simp only [World.storageSetAt, World.componentWrite, M.crit, hst, downcast, hty, if_true, ok_bind]
  cases hz : (st.set.entities.zip st.set.data)[i]? with
  | none =>
    have : ¬ i < st.set.data.length := by
      rw [List.getElem?_eq_none_iff, List.length_zip, hwf.len, Nat.min_self] at hz; omega
    simp [setR, this, M.still]
  | some x =>
    obtain ⟨id, y⟩ := x
    rw [List.getElem?_zip_eq_some] at hz
    have hlt : i < st.set.data.length := (List.getElem?_eq_some_iff.1 hz.2).1
    have hx := (hwf.idx id i).2 hz.1
    have hex : st.set.exist id = true := by
      rw [SparseSet.exist_iff hwf]; exact List.mem_iff_getElem?.2 ⟨i, hz.1⟩
    simp [setR, hlt, hex, SparseSet.setUnchecked, getU_some hx, getU_some hz.2]

example := C29_update Demo.nested_ready (by decide) (fun id x t => id + x.head + t)
example := C29_map Demo.wildTrace Demo.wild_noRebatch (t := 1) (by decide +kernel) (· + 1)
example := C29_map2 Demo.wildTrace Demo.wild_noRebatch (a := 1) (b := 2) (by decide +kernel) (by decide +kernel)
  (by decide) (fun x y => x + y)
example : (lastValue 1 2 Demo.wildTr, lastValue 1 3 Demo.wildTr, lastValue 2 3 Demo.wildTr) = (some 13, some 12, some 22) := by
  decide +kernel
example : ∃ w', World.componentWrite 1 3 77 Demo.wildW = (w', .ok true) := by
  obtain ⟨w', h, _⟩ := C29_write Demo.wildTrace Demo.wild_noRebatch 1 3 77
  exact ⟨w', by rw [h]; congr 2; decide +kernel⟩
example := C29_data Demo.wildTrace Demo.wild_noRebatch (t := 1) (by decide +kernel) 5

/-! ### C55 -/

theorem unchecked_look (h : Look w tr) {t id : EntityId} {v : V} (hv : lastValue t id tr = some v) :
    World.storageGetUnchecked t id w = (w, .ok (some v)) ∧
    ∀ v', World.storageSetUnchecked t id v' w = World.componentWrite t id v' w := by
  cases hc : w.comps t with
  | none => rw [(h.at_none hc).2 id] at hv; cases hv
  | some st =>
    obtain ⟨_, hty, hwf, hlk⟩ := h.at_some hc
    have hl : st.set.lookup id = some v := by rw [hlk, hv]
    constructor
    · simp [World.storageGetUnchecked, M.read_apply, hc, downcast, hty, SparseSet.getUnchecked_eq hwf hl]
    · intro v'
      have hex : st.set.exist id = true := by
        rw [SparseSet.exist_iff hwf, ← SparseSet.lookup_isSome hwf, hl]; rfl
      simp only [World.storageSetUnchecked, World.componentWrite, M.crit, hc, downcast, hty, if_true, ok_bind, hex]

theorem unchecked_absent (h : Look w tr) {t id : EntityId} (hr : registered t tr = true) (hv : lastValue t id tr = none) :
    ∃ e, (e = .ub ∨ e = .panic) ∧ World.storageGetUnchecked t id w = (w, .error e) ∧
      ∀ v', World.storageSetUnchecked t id v' w = (w, .error e) := by
  cases hc : w.comps t with
  | none => rw [(h.at_none hc).1] at hr; cases hr
  | some st =>
    obtain ⟨_, hty, hwf, hlk⟩ := h.at_some hc
    have hl : st.set.getIndex id = none := by
      have h1 : (st.set.lookup id).isSome = false := by rw [hlk, hv]; rfl
      have h2 : ¬ id ∈ st.set.entities := by rw [← SparseSet.lookup_isSome hwf, h1]; simp
      cases hg : st.set.getIndex id with
      | none => rfl
      | some i => exact absurd (List.mem_of_getElem? ((SparseSet.getIndex_iff hwf).1 hg)) h2
    cases hi : st.set.indices[id]? with
    | none =>
      refine ⟨.ub, .inl rfl, ?_, fun v' => ?_⟩
      · simp [World.storageGetUnchecked, M.read_apply, hc, downcast, hty, SparseSet.getUnchecked, getU, hi]
      · simp [World.storageSetUnchecked, M.crit, hc, downcast, hty, SparseSet.setUnchecked, getU, hi]; rfl
    | some o =>
      cases o with
      | some i =>
        simp only [SparseSet.getIndex, hi] at hl
        cases hl
      | none =>
        refine ⟨.panic, .inr rfl, ?_, fun v' => ?_⟩
        · simp [World.storageGetUnchecked, M.read_apply, hc, downcast, hty, SparseSet.getUnchecked, getU, hi, unwrapR]
        · simp [World.storageSetUnchecked, M.crit, hc, downcast, hty, SparseSet.setUnchecked, getU, hi, unwrapR]; rfl

/-- Within its contract -- the entity has the component -- `get_unchecked` is `get`: it returns the component, and there
is no undefined behaviour. -/
theorem C55_read (h : AnyTrace tr w ∧ NoRebatch tr ∨ Mixed tr w) {t id : EntityId} {v : V}
    (hv : lastValue t id tr = some v) : World.storageGetUnchecked t id w = (w, .ok (some v)) :=
  (unchecked_look (h.elim (fun h => any_look h.1 h.2) Mixed.look) hv).1

/-- Within its contract assigning through `get_unchecked_mut` is assigning through `component_write` and through
`get_mut`. -/
theorem C55_write (h : AnyTrace tr w ∧ NoRebatch tr ∨ Mixed tr w) {t id : EntityId} (hv : (lastValue t id tr).isSome = true)
    (v : V) : ∃ w', World.storageSetUnchecked t id v w = (w', .ok true) ∧ World.componentWrite t id v w = (w', .ok true) ∧
      World.storageSet t id v w = (w', .ok true) := by
  have hl : Look w tr := h.elim (fun h => any_look h.1 h.2) Mixed.look
  obtain ⟨v0, hv0⟩ := Option.isSome_iff_exists.1 hv
  rw [(unchecked_look hl hv0).2, storageSet_look hl, (assign_write hl hv .mut v).1]
  exact ⟨_, rfl, rfl, rfl⟩

/-- The contract is needed: if the entity does not have the component, `get_unchecked` and `get_unchecked_mut` panic or
read out of bounds -- they never return the component of another entity. -/
theorem C55_outside (h : AnyTrace tr w ∧ NoRebatch tr ∨ Mixed tr w) {t id : EntityId} (hr : registered t tr = true)
    (hv : lastValue t id tr = none) :
    ∃ e, (e = .ub ∨ e = .panic) ∧ World.storageGetUnchecked t id w = (w, .error e) ∧
      ∀ v, World.storageSetUnchecked t id v w = (w, .error e) :=
  unchecked_absent (h.elim (fun h => any_look h.1 h.2) Mixed.look) hr hv

example : World.storageGetUnchecked 3 4 Demo.groupW = (Demo.groupW, .ok (some 99)) :=
  C55_read (.inl ⟨Demo.groupTrace.any, Demo.groupTrace.live.1⟩) (by decide +kernel)
/-- Both ways of leaving the contract: a panic, and an out-of-bounds read. -/
example : (World.storageGetUnchecked 3 1 Demo.groupW).2 = .error .panic ∧
    (World.storageGetUnchecked 3 100 Demo.groupW).2 = .error .ub := by decide +kernel

end Xecs
