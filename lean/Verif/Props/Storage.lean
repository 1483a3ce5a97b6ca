import Verif.Proofs.Storage
import Verif.Props.Demo
/-
Component storage: properties C01-C06.
-/
set_option autoImplicit false
namespace Xecs
open Spec World Hist
variable {V : Type} {tr : List (Op V × Out V)} {w w' : World V}

/-! ### C01: component storage behaves like a map -/

/-- After any history without repeated batch attach (any ids, alive or not, any groups, any calls that failed
without touching storage), reading component `t` of `id` in either way gives the value last attached or
written, or nothing if there is none or it was detached or the entity removed since. -/
theorem C01_read (h : AnyTrace tr w) (hn : NoRebatch tr) (t id : EntityId) :
    World.componentRead t id w = (w, .ok (lastValue t id tr)) ∧
    World.storageGet t id w = (w, .ok (lastValue t id tr)) ∧
    World.storageExist t id w = (w, .ok (if registered t tr then some (lastValue t id tr).isSome else none)) :=
  ⟨(any_look h hn).read t id, (any_look h hn).get t id, (any_look h hn).exist t id⟩

/-- The next call, if it is not about component `t` of entity `id`, does not change it. -/
theorem C01_frame (h : AnyTrace tr w) {op : Op V} {o : Out V} (ho : OrderOk tr op) (he : exec op w = (w', .ok o))
    (hn : NoRebatch ((op, o) :: tr)) {t id : EntityId} (hc : ¬ op.Concerns t id) :
    (World.componentRead t id w').2 = (World.componentRead t id w).2 := by
  have hn0 : NoRebatch tr := by cases op <;> first | exact hn | exact hn.2
  rw [(C01_read (.ok h ho he) hn t id).1, (C01_read h hn0 t id).1]
  show Except.ok _ = Except.ok _
  congr 1
  cases op with
  | attach id' t' v => simp only [lastValue]; rw [if_neg (by simpa only [Op.Concerns] using hc)]
  | detach id' t' => simp only [lastValue]; rw [if_neg (by simpa only [Op.Concerns] using hc)]
  | write t' id' v =>
    cases o with
    | bool b => cases b <;> simp only [lastValue]; rw [if_neg (by simpa only [Op.Concerns] using hc)]
    | _ => rfl
  | removeEntity order id' => simp only [lastValue]; rw [if_neg (by simpa only [Op.Concerns] using hc)]
  | attachBatch start stop t' vs => simp only [lastValue]; rw [if_neg (by simpa only [Op.Concerns] using hc)]
  | _ => rfl

/-- What each call about component `t` of `id` does to it. -/
theorem C01_effect (h : AnyTrace tr w) {op : Op V} {o : Out V} (ho : OrderOk tr op) (he : exec op w = (w', .ok o))
    (hn : NoRebatch ((op, o) :: tr)) (t id : EntityId) :
    (∀ v, op = .attach id t v → (World.componentRead t id w').2 = .ok (some v)) ∧
    (∀ v, op = .write t id v → o = .bool true → (World.componentRead t id w').2 = .ok (some v)) ∧
    (op = .detach id t → (World.componentRead t id w').2 = .ok none) ∧
    (∀ order, op = .removeEntity order id → (World.componentRead t id w').2 = .ok none) ∧
    (∀ a b vs, op = .attachBatch a b t vs → a ≤ id → id < b → (World.componentRead t id w').2 = .ok vs[id - a]?) := by
  rw [(C01_read (.ok h ho he) hn t id).1]
  refine ⟨?_, ?_, ?_, ?_, ?_⟩
  · rintro v rfl; simp [lastValue]
  · rintro v rfl rfl; simp [lastValue]
  · rintro rfl; simp [lastValue]
  · rintro order rfl; simp [lastValue]
  · rintro a b vs rfl h1 h2; simp [lastValue, h1, h2]

example : World.componentRead 2 1 Demo.w = (Demo.w, .ok (some 20)) ∧
    World.componentRead 3 2 Demo.w = (Demo.w, .ok (some 5)) ∧ World.componentRead 1 3 Demo.w = (Demo.w, .ok none) := by
  have h1 := (C01_read Demo.trace.any Demo.trace.live.1 2 1).1
  have h2 := (C01_read Demo.trace.any Demo.trace.live.1 3 2).1
  have h3 := (C01_read Demo.trace.any Demo.trace.live.1 1 3).1
  rw [show lastValue 2 1 Demo.tr = some 20 by decide +kernel] at h1
  rw [show lastValue 3 2 Demo.tr = some 5 by decide +kernel] at h2
  rw [show lastValue 1 3 Demo.tr = none by decide +kernel] at h3
  exact ⟨h1, h2, h3⟩

example : World.componentRead 1 1 Demo.wildW = (Demo.wildW, .ok (some 99)) := by
  have h1 := (C01_read Demo.wildTrace Demo.wild_noRebatch 1 1).1
  rwa [show lastValue 1 1 Demo.wildTr = some 99 by decide +kernel] at h1

example : ¬ (Op.attach 2 1 (5 : Nat)).Concerns 1 3 ∧
    (exec (.attach 2 1 5) Demo.wildW).2 = .ok .unit := ⟨by simp [Op.Concerns], by decide +kernel⟩

/-! ### C02: iterating a storage visits every component exactly once -/

/-- After any history without repeated batch attach: iterating `&T` or `&mut T` with ids yields every entity
that has the component exactly once, with its value; `count`, `is_empty` and `data` agree with it. -/
theorem C02_listing (h : AnyTrace tr w) (hn : NoRebatch tr) {t : TypeId} (hr : registered t tr = true) :
    ∃ l : List (EntityId × V), Lists l (fun id => lastValue t id tr) ∧
      (∀ m, Yields w (.comp m t) (l.map fun x => (x.1, .leaf x.2))) ∧
      World.storageCount t w = (w, .ok (some l.length)) ∧
      World.storageIsEmpty t w = (w, .ok (some l.isEmpty)) ∧
      World.storageData t w = (w, .ok (some (l.map Prod.snd))) := by
  obtain ⟨st, hst, hty, hwf, hli, hd, hy⟩ := any_listing h hn hr
  refine ⟨_, hli, hy, ?_, ?_, ?_⟩
  · simp [World.storageCount, M.read_apply, hst, downcast, hty, SparseSet.len, List.length_zip, hwf.len]
  · simp only [World.storageIsEmpty, M.read_apply, hst, downcast, hty, if_true, ok_bind, SparseSet.len]
    congr 3
    rw [Bool.eq_iff_iff, List.isEmpty_iff_length_eq_zero, beq_iff_eq, List.length_zip, ← hwf.len, Nat.min_self]
  · simp [World.storageData, M.read_apply, hst, downcast, hty, hd]

/-- A type that was not registered has no storage. -/
theorem C02_unregistered (h : AnyTrace tr w) (hn : NoRebatch tr) {t : TypeId} (hr : registered t tr = false) :
    World.storageCount t w = (w, .ok none) ∧ World.storageData t w = (w, .ok none) ∧
    w.results (.comp .ref t) = .error .panic := by
  have hc : w.comps t = none := by
    cases hc : w.comps t with
    | none => rfl
    | some st => rw [((any_look h hn).at_some hc).1] at hr; cases hr
  refine ⟨by simp [World.storageCount, M.read_apply, hc], by simp [World.storageData, M.read_apply, hc], ?_⟩
  simp [World.results, World.queryAll, World.query, Query.prepare, World.hasRegistered, hc, assertR]

example : ∃ l : List (EntityId × Nat), Lists l (fun id => lastValue 2 id Demo.tr) ∧
    Yields Demo.w (.comp .mut 2) (l.map fun x => (x.1, .leaf x.2)) ∧ l.length = 3 := by
  obtain ⟨l, h1, h2, h3, _⟩ := C02_listing Demo.trace.any Demo.trace.live.1 (t := 2) (by decide +kernel)
  refine ⟨l, h1, h2 .mut, ?_⟩
  have : (World.storageCount 2 Demo.w).2 = .ok (some 3) := by decide +kernel
  rw [h3] at this
  simpa using this

/-! ### C03: detach -/

/-- `detach` of a registered type from a living entity: returns and removes the component if there is one;
otherwise, *unless `id` is exactly one more than the largest id the type was ever attached to*, returns
`None` and changes nothing. Missing: in that excepted case the code panics (`C03_detach_absent_counterexample`). -/
theorem C03_detach_partial (h : Trace tr w) {t id : EntityId} (ha : alive id tr = true) (hr : registered t tr = true) :
    (∀ v, lastValue t id tr = some v → ∃ w', World.detach id t w = (w', .ok (some v)) ∧
      ∀ u x, World.componentRead u x w' = (w', .ok (if u = t ∧ x = id then none else lastValue u x tr))) ∧
    (lastValue t id tr = none → id ≠ highest t tr → World.detach id t w = (w, .ok none)) := by
  obtain ⟨s, hrun⟩ := h.run
  have hlive : s.live id = true := by rw [← (run_em hrun).2.2.2.1]; exact ha
  obtain ⟨f, hf⟩ := Option.isSome_iff_exists.1 ((run_registered hrun t).trans hr)
  have hget : ∀ u x, s.get u x = lastValue u x tr := run_get hrun
  have hfid : f id = lastValue t id tr := by rw [← hget, State.get, hf]
  rw [detach_live hrun.rel hlive]
  constructor
  · intro v hv
    obtain ⟨w', h1, h2⟩ := entityDetach_present hrun.rel hf (hfid.trans hv)
    refine ⟨w', h1, fun u x => ?_⟩
    rw [componentRead_eq h2, get_detached hf]
    rw [hget]
    by_cases hc : u = t ∧ x = id
    · rw [if_pos hc, if_pos ⟨hc.2, hc.1⟩]
    · rw [if_neg hc, if_neg (fun e => hc ⟨e.2, e.1⟩)]
  · intro hv hne
    rw [entityDetach_absent hrun.rel hf (hfid.trans hv), run_hw hrun, if_neg hne]

/-- Exactly when a `detach` of a component that the living entity does not have panics. In either case nothing
changes. -/
theorem C03_exact (h : Trace tr w) {t id : EntityId} (ha : alive id tr = true) (hr : registered t tr = true)
    (hv : lastValue t id tr = none) :
    World.detach id t w = (w, if id = highest t tr then .error .panic else .ok none) := by
  obtain ⟨s, hrun⟩ := h.run
  have hlive : s.live id = true := by rw [← (run_em hrun).2.2.2.1]; exact ha
  obtain ⟨f, hf⟩ := Option.isSome_iff_exists.1 ((run_registered hrun t).trans hr)
  have hfid : f id = lastValue t id tr := by rw [← run_get hrun t id, State.get, hf]
  rw [detach_live hrun.rel hlive, entityDetach_absent hrun.rel hf (hfid.trans hv), run_hw hrun]

/-- Whatever the state of groups and entity table: a `detach` that returns gives the component and removes
it. -/
theorem C03_returns (h : AnyTrace tr w) (hn : NoRebatch tr) {t id : EntityId} {r : Option V}
    (he : World.detach id t w = (w', .ok r)) :
    r = lastValue t id tr ∧ (World.componentRead t id w').2 = .ok none := by
  have hx : exec (.detach id t) w = (w', .ok (.val r)) := by
    show (World.detach id t >>= fun a => pure (Out.val a)) w = _
    rw [bind_pure_ok]; exact ⟨r, he, rfl⟩
  refine ⟨?_, (C01_effect (o := .val r) h (by trivial) hx hn t id).2.2.1 rfl⟩
  obtain ⟨_, w1, st, S, hevo, hst, _, hrem, _⟩ := detach_inv he
  obtain ⟨_, _, hwf, hlk⟩ := ((any_look h hn).evo hevo).at_some hst
  rw [← hlk]
  by_cases hm : id ∈ st.set.entities
  · obtain ⟨i, hi⟩ := List.mem_iff_getElem?.1 hm
    obtain ⟨S', h1, _⟩ := SparseSet.remove_present hwf hi
    rw [h1] at hrem; simp only [Except.ok.injEq, Prod.mk.injEq] at hrem; exact hrem.2.symm
  · rw [SparseSet.remove_absent hwf hm] at hrem
    split at hrem
    · cases hrem
    · simp only [Except.ok.injEq, Prod.mk.injEq] at hrem
      rw [← hrem.2, (SparseSet.lookup_none hwf).2 hm]

example : ∃ w', World.detach 2 3 Demo.w = (w', .ok (some 5)) := by
  obtain ⟨w', h, _⟩ := (C03_detach_partial Demo.trace (t := 3) (id := 2) (by decide +kernel) (by decide +kernel)).1 5
    (by decide +kernel)
  exact ⟨w', h⟩

example : World.detach 3 1 Demo.w = (Demo.w, .ok none) :=
  (C03_detach_partial Demo.trace (t := 1) (id := 3) (by decide +kernel) (by decide +kernel)).2 (by decide +kernel)
    (by decide +kernel)
example := C03_exact Demo.trace (t := 1) (id := 3) (by decide +kernel) (by decide +kernel) (by decide +kernel)

/-! ### C04: attach -/

/-- Attaching a component that is already there, to a living entity, when no group over the type was bypassed
by a batch attach: succeeds, replaces the value, and leaves alone every other component, the liveness of all
entities, and -- for every query whatsoever -- the ids and storage slots it yields and their order. -/
theorem C04_overwrite (h : Trace tr w) {t id : EntityId} (ha : alive id tr = true) {old : V}
    (hv : lastValue t id tr = some old) (hs : InSync t tr) (v : V) :
    ∃ w', World.attach id t v w = (w', .ok ()) ∧ (∀ q, w'.queryAll q = w.queryAll q) ∧ w'.em = w.em ∧ w'.res = w.res ∧
      ∀ u x, World.componentRead u x w' = (w', .ok (if u = t ∧ x = id then some v else lastValue u x tr)) := by
  obtain ⟨s, hrun⟩ := h.run
  have hlive : s.live id = true := by rw [← (run_em hrun).2.2.2.1]; exact ha
  have hgf := run_groups hrun
  obtain ⟨st, S, h1, h2, h3, h4⟩ := attach_overwrite hrun.rel (v := v) hlive ((run_get hrun t id).trans hv) (by
    intro gs hgs ht
    have hm : tag gs ∈ groupsMade tr := by rw [← run_tags hrun]; exact List.mem_map.2 ⟨gs, hgs, rfl⟩
    refine hgf.sync gs hgs (hs _ hm ?_) id
    simpa [SGroup.touches, tag] using ht)
  refine ⟨_, h4, fun q => queryAll_shape (setSet_shape h1 h3) q, rfl, rfl, fun u x => ?_⟩
  have hx : exec (.attach id t v) w = (w.setSet t S, .ok .unit) := by
    show (World.attach id t v >>= fun _ => pure Out.unit) w = _
    rw [bind_pure_ok]; exact ⟨(), h4, rfl⟩
  rw [(C01_read (.ok h.any (by trivial) hx) (by exact h.live.1) u x).1]
  simp only [lastValue]
  by_cases hc : u = t ∧ x = id
  · rw [if_pos hc, if_pos ⟨hc.2.symm, hc.1.symm⟩]
  · rw [if_neg hc, if_neg (fun e => hc ⟨e.2.symm, e.1.symm⟩)]

/-- In any state: an attach that returns changes the number of components of `t` by one if `id` had none and
not at all otherwise, and no other count. -/
theorem C04_count (h : AnyTrace tr w) (hn : NoRebatch tr) {t id : EntityId} {v : V}
    (he : World.attach id t v w = (w', .ok ())) (u : TypeId) :
    ∃ n, World.storageCount u w = (w, .ok n) ∧ World.storageCount u w' =
      (w', .ok (if u = t ∧ lastValue t id tr = none then n.map (· + 1) else n)) := by
  have hx : exec (.attach id t v) w = (w', .ok .unit) := by
    show (World.attach id t v >>= fun _ => pure Out.unit) w = _
    rw [bind_pure_ok]; exact ⟨(), he, rfl⟩
  have h' : AnyTrace _ w' := .ok h (by trivial) hx
  have hn' : NoRebatch ((Op.attach id t v, Out.unit) :: tr) := hn
  have hreg : registered u ((Op.attach id t v, Out.unit) :: tr) = registered u tr := rfl
  by_cases hr : registered u tr = true
  · obtain ⟨l, h1, _, h2, _⟩ := C02_listing h hn hr
    obtain ⟨l', h1', _, h2', _⟩ := C02_listing h' hn' (by rw [hreg]; exact hr)
    refine ⟨_, h2, ?_⟩
    rw [h2']
    congr 2
    have hlen : l'.length = if u = t ∧ lastValue t id tr = none then l.length + 1 else l.length := by
      rw [← List.length_map (f := Prod.fst), ← List.length_map (as := l) (f := Prod.fst)]
      have mem : ∀ x, x ∈ l.map Prod.fst ↔ (lastValue u x tr).isSome = true := by
        intro x
        rw [List.mem_map, Option.isSome_iff_exists]
        exact ⟨fun ⟨y, hy, e⟩ => ⟨y.2, by rw [← e]; exact (h1.2 _ _).1 hy⟩, fun ⟨y, hy⟩ => ⟨(x, y), (h1.2 _ _).2 hy, rfl⟩⟩
      have mem' : ∀ x, x ∈ l'.map Prod.fst ↔ (if id = x ∧ t = u then some v else lastValue u x tr).isSome = true := by
        intro x
        rw [List.mem_map, Option.isSome_iff_exists]
        exact ⟨fun ⟨y, hy, e⟩ => ⟨y.2, by rw [← e]; exact (h1'.2 _ _).1 hy⟩, fun ⟨y, hy⟩ => ⟨(x, y), (h1'.2 _ _).2 hy, rfl⟩⟩
      by_cases hc : u = t ∧ lastValue t id tr = none
      · rw [if_pos hc]
        have : id ∉ l.map Prod.fst := by rw [mem, hc.1, hc.2]; simp
        rw [← List.length_cons (a := id)]
        refine nodup_length_eq h1'.1 (List.nodup_cons.2 ⟨this, h1.1⟩) (fun x => ?_)
        rw [mem', List.mem_cons, mem]
        by_cases hx : id = x
        · subst hx; simp [hc.1]
        · simp [hx, Ne.symm hx]
      · rw [if_neg hc]
        refine nodup_length_eq h1'.1 h1.1 (fun x => ?_)
        rw [mem', mem]
        by_cases hx : id = x ∧ t = u
        · rw [if_pos hx]
          obtain ⟨rfl, rfl⟩ := hx
          have : lastValue t id tr ≠ none := fun e => hc ⟨rfl, e⟩
          cases hv : lastValue t id tr with
          | none => exact absurd hv this
          | some _ => simp
        · rw [if_neg hx]
    rw [hlen]
    split <;> rfl
  · have hr' : registered u tr = false := by simpa using hr
    refine ⟨_, (C02_unregistered h hn hr').1, ?_⟩
    rw [(C02_unregistered h' hn' (by rw [hreg]; exact hr')).1]
    simp

example : ∃ w', World.attach 1 2 77 Demo.w = (w', .ok ()) ∧ ∀ q, w'.queryAll q = Demo.w.queryAll q := by
  obtain ⟨w', h1, h2, _⟩ := C04_overwrite Demo.trace (t := 2) (id := 1) (old := 20) (by decide +kernel)
    (by decide +kernel) (by decide +kernel) 77
  exact ⟨w', h1, h2⟩

/-! ### C05: batch attach -/

theorem Trace.usable (h : Trace tr w) {id : EntityId} (ha : alive id tr = true) : Usable id tr := by
  obtain ⟨s, hr⟩ := h.run
  obtain ⟨e1, _, _, e4, _⟩ := run_em hr
  have hl := live_iff.1 ((e4 id).symm.trans ha)
  refine ⟨by omega, fun hz => hl.2.2 ?_⟩
  rw [e1]; exact List.mem_of_getLast? hz

theorem Trace.attach (h : Trace tr w) {id t : EntityId} (ha : alive id tr = true) (hr : registered t tr = true)
    (v : V) : ∃ w', World.attach id t v w = (w', .ok ()) ∧ Trace ((.attach id t v, .unit) :: tr) w' := by
  obtain ⟨s, hrun⟩ := h.run
  have hlive : s.live id = true := by rw [← (run_em hrun).2.2.2.1]; exact ha
  obtain ⟨f, hf⟩ := Option.isSome_iff_exists.1 ((run_registered hrun t).trans hr)
  obtain ⟨w', h1, _⟩ := attach_ref hrun.rel v hlive hf
  refine ⟨w', h1, .ok h (h.usable ha) ?_⟩
  show (World.attach id t v >>= fun _ => pure Out.unit) w = _
  rw [bind_pure_ok]; exact ⟨(), h1, rfl⟩

theorem attachEach_ok (vs : List V) : ∀ {tr : List (Op V × Out V)} {w : World V} {start t : EntityId}, Trace tr w →
    (∀ x, start ≤ x → x < start + vs.length → alive x tr = true) → registered t tr = true →
    ∃ w' tr', World.attachEach start t vs w = (w', .ok ()) ∧ Trace tr' w' ∧
      ∀ u x, lastValue u x tr' = if u = t ∧ start ≤ x ∧ x < start + vs.length then vs[x - start]? else lastValue u x tr := by
  induction vs with
  | nil =>
    intro tr w start t h _ _
    refine ⟨w, tr, rfl, h, fun u x => ?_⟩
    rw [if_neg (by simp only [List.length_nil]; omega)]
  | cons v vs ih =>
    intro tr w start t h ha hr
    obtain ⟨w1, h1, h2⟩ := h.attach (ha start (Nat.le_refl _) (by simp only [List.length_cons]; omega)) hr v
    obtain ⟨w', tr', h3, h4, h5⟩ := ih (start := start + 1) (t := t) h2 (fun x h1 h2 => ha x (by omega)
      (by simp only [List.length_cons]; omega)) hr
    refine ⟨w', tr', ?_, h4, fun u x => ?_⟩
    · simp only [World.attachEach, M.bind_apply, h1, h3]
    · rw [h5]
      simp only [lastValue, List.length_cons]
      by_cases hu : u = t
      · by_cases hx : start = x
        · subst hx
          rw [if_neg (by omega), if_pos ⟨rfl, hu.symm⟩, if_pos ⟨hu, by omega, by omega⟩]
          simp
        · by_cases hin : start + 1 ≤ x ∧ x < start + 1 + vs.length
          · rw [if_pos ⟨hu, hin⟩, if_pos ⟨hu, by omega, by omega⟩]
            have : x - start = (x - (start + 1)) + 1 := by omega
            rw [this, List.getElem?_cons_succ]
          · rw [if_neg (fun e => hin e.2), if_neg (fun e => hx e.1), if_neg (fun e => hin (by omega))]
      · rw [if_neg (fun e => hu e.1), if_neg (fun e => hu e.2.symm), if_neg (fun e => hu e.1)]

/-- Batch attach of a registered type to consecutive living entities that lack it: with the right number of
values it succeeds and leaves exactly the components that attaching them one by one leaves, namely value
`i` at the `i`-th id and everything else as before; with a wrong number it panics and changes nothing. -/
theorem C05_batch (h : Trace tr w) {start stop t : EntityId} (hr : registered t tr = true) (hle : start ≤ stop)
    (ha : ∀ x, start ≤ x → x < stop → alive x tr = true)
    (hnone : ∀ x, start ≤ x → x < stop → lastValue t x tr = none) (vs : List V) :
    (vs.length ≠ stop - start → World.attachBatch start stop t vs w = (w, .error .panic)) ∧
    (vs.length = stop - start → ∃ w1 w2, World.attachBatch start stop t vs w = (w1, .ok ()) ∧
      World.attachEach start t vs w = (w2, .ok ()) ∧ ∀ u x,
        (World.componentRead u x w1).2 = (World.componentRead u x w2).2 ∧
        (World.componentRead u x w1).2 =
          .ok (if u = t ∧ start ≤ x ∧ x < stop then vs[x - start]? else lastValue u x tr)) := by
  constructor
  · intro hlen
    have : (vs.length == stop - start) = false := by simpa using hlen
    simp [World.attachBatch, M.bind_apply, this, M.assert_false]
  · intro hlen
    have hstop : stop = start + vs.length := by omega
    obtain ⟨s, hrun⟩ := h.run
    have hal := (run_em hrun).2.2.2.1
    obtain ⟨f, hf⟩ := Option.isSome_iff_exists.1 ((run_registered hrun t).trans hr)
    have hf' : ∀ x, f x = lastValue t x tr := fun x => by rw [← run_get hrun, State.get, hf]
    obtain ⟨w1, h1, _⟩ := attachBatch_ref hrun.rel (start := start) (stop := stop) (vs := vs) hlen hf
      (fun x h1 h2 => by rw [← hal]; exact ha x h1 (by omega))
      (fun x h1 h2 => by rw [hf']; exact hnone x h1 (by omega))
    obtain ⟨w2, tr2, h2, h3, h4⟩ := attachEach_ok vs h (start := start) (t := t)
      (fun x h1 h2 => ha x h1 (by omega)) hr
    have hx : exec (.attachBatch start stop t vs) w = (w1, .ok .unit) := by
      show (World.attachBatch start stop t vs >>= fun _ => pure Out.unit) w = _
      rw [bind_pure_ok]; exact ⟨(), h1, rfl⟩
    have h1' : Trace ((.attachBatch start stop t vs, .unit) :: tr) w1 := .ok h ⟨hle, ha, fun _ => hnone⟩ hx
    have key : ∀ u x, (World.componentRead u x w1).2 =
        .ok (if u = t ∧ start ≤ x ∧ x < stop then vs[x - start]? else lastValue u x tr) := by
      intro u x
      rw [(C01_read h1'.any h1'.live.1 u x).1]
      simp only [lastValue]
      by_cases hc : u = t ∧ start ≤ x ∧ x < stop
      · rw [if_pos hc, if_pos ⟨hc.1.symm, hc.2⟩]
      · rw [if_neg hc, if_neg (fun e => hc ⟨e.1.symm, e.2⟩)]
    refine ⟨w1, w2, h1, h2, fun u x => ⟨?_, key u x⟩⟩
    rw [key, (C01_read h3.any h3.live.1 u x).1]
    simp only [h4, hstop]

/-- The typical use: `create_entities(n).attach(vs)`. -/
theorem C05_create (h : Trace tr w) {t : EntityId} (hr : registered t tr = true) (n : Nat) (vs : List V) :
    ∃ w1 a, World.createEntities n w = (w1, .ok (a, a + n)) ∧
    (vs.length ≠ n → World.attachBatch a (a + n) t vs w1 = (w1, .error .panic)) ∧
    (vs.length = n → ∃ w2 w3, World.attachBatch a (a + n) t vs w1 = (w2, .ok ()) ∧
      World.attachEach a t vs w1 = (w3, .ok ()) ∧ ∀ u x,
        (World.componentRead u x w2).2 = (World.componentRead u x w3).2 ∧
        (World.componentRead u x w2).2 =
          .ok (if u = t ∧ a ≤ x ∧ x < a + n then vs[x - a]? else lastValue u x tr)) := by
  have hc : exec (.createEntities n) w = ({ w with em := (w.em.allocateN n).1 }, .ok (.range w.em.flags.length (w.em.flags.length + n))) := rfl
  have ht : Trace _ _ := .ok h (op := .createEntities n) trivial hc
  refine ⟨_, w.em.flags.length, rfl, ?_⟩
  have hal := any_alive h.any h.live.1 h.live.2.1 h.live.2.2
  have hout := (wild_em (Wild.of_any h.any) h.live.2.1)
  have hb := C05_batch ht (start := w.em.flags.length) (stop := w.em.flags.length + n) (t := t) hr (by omega)
    (fun x h1 h2 => by simp [alive, h1, h2])
    (fun x h1 h2 => by
      cases hv : lastValue t x ((Op.createEntities n, Out.range w.em.flags.length (w.em.flags.length + n)) :: tr) with
      | none => rfl
      | some v =>
        have hv' : lastValue t x tr = some v := hv
        have := (emOk_alive hout x).1 (hal t x (by rw [hv']; rfl))
        omega) vs
  rw [Nat.add_sub_cancel_left] at hb
  exact hb

example : ∃ w1 w2 w3, World.createEntities 2 Demo.w = (w1, .ok (5, 7)) ∧
    World.attachBatch 5 7 3 [1, 2] w1 = (w2, .ok ()) ∧ World.attachEach 5 3 [1, 2] w1 = (w3, .ok ()) ∧
    (World.componentRead 3 6 w2).2 = .ok (some 2) := by
  obtain ⟨w1, a, h1, _, h2⟩ := C05_create Demo.trace (t := 3) (by decide +kernel) 2 [1, 2]
  have ha : a = 5 := by
    have : (World.createEntities 2 Demo.w).2 = .ok (5, 7) := by decide +kernel
    rw [h1] at this; simpa using this
  subst ha
  obtain ⟨w2, w3, h3, h4, h5⟩ := h2 rfl
  exact ⟨w1, w2, w3, h1, h3, h4, (h5 3 6).2⟩

/-! ### C06: group maintenance never changes component data -/

theorem makeGroup_fail {k : Kind} {a b : EntityId} {e : Fault} (h : World.makeGroup k a b w = (w', .error e)) :
    ∃ w1 : World V, w1.comps = w.comps ∧ Evo Same w1 w' := by
  rcases makeGroup_tags w k a b with ⟨_, hadd⟩ | ⟨h1, _⟩
  · rw [← addable_iff] at hadd
    simp only [World.makeGroup, M.bind_apply, M.read_apply, hadd.1, hadd.2, M.assert_true, Bool.not_false] at h
    rw [M.crit_ok rfl] at h
    refine ⟨{ w with groups := w.groups ++ [Group.fresh k a b] }, rfl, ?_⟩
    have := groupMakeX_evo w.groups.length { w with groups := w.groups ++ [Group.fresh k a b] }
    dsimp only at h
    rw [groupMake_exact] at h
    rw [h] at this
    exact this
  · rw [h1] at h; simp only [Prod.mk.injEq] at h; rw [← h.1]; exact ⟨w, rfl, .refl Same.refl _⟩

/-- After any history without repeated batch attach, `make_group` -- whether it succeeds or panics -- changes
no component, no entity and no resource. (The group bookkeeping inside attach, detach and remove is covered
by `C01_frame` and `C01_effect`, which hold whatever groups there are.) -/
theorem C06_make_group (h : AnyTrace tr w) (hn : NoRebatch tr) (k : Kind) (a b t id : EntityId) :
    (World.componentRead t id (World.makeGroup k a b w).1).2 = (World.componentRead t id w).2 ∧
    (World.makeGroup k a b w).1.em = w.em ∧ (World.makeGroup k a b w).1.res = w.res := by
  have hl := any_look h hn
  rcases hm : World.makeGroup k a b w with ⟨w', r⟩
  have hr : Except.ok (lastValue t id tr) = (World.componentRead t id w).2 := by rw [hl.read]
  have key : Look w' tr → (World.componentRead t id w').2 = (World.componentRead t id w).2 := by
    intro hl'; rw [← hr, hl'.read]
  have hem := makeGroup_fix (blind_em (V := V)) (fun _ _ => rfl) k a b w
  have hres := makeGroup_fix (blind_res (V := V)) (fun _ _ => rfl) k a b w
  rw [hm] at hem hres
  refine ⟨key ?_, hem, hres⟩
  cases r with
  | ok u =>
    obtain ⟨_, _, he⟩ := makeGroup_inv hm
    exact (hl.of_comps (w' := { w with groups := w.groups ++ [Group.fresh k a b] }) rfl).evo he
  | error e =>
    obtain ⟨w1, hc, he⟩ := makeGroup_fail hm
    exact (hl.of_comps hc).evo he

/-- The other way of rearranging a storage that the code provides (for the crate only, and unused): swapping two entities that have the
component exchanges their places and changes no component; it panics if one of them lacks the component. -/
theorem C06_swap (h : AnyTrace tr w) (hn : NoRebatch tr) {t : TypeId} {st : Storage V} (hst : w.comps t = some st) (x y : EntityId) :
    ((lastValue t x tr).isSome ∧ (lastValue t y tr).isSome → ∃ s', st.set.swapByEntity x y = .ok s' ∧
      (∀ e, s'.get e = .ok (lastValue t e tr)) ∧
      (∀ e, s'.getIndex e = if e = x then st.set.getIndex y else if e = y then st.set.getIndex x else st.set.getIndex e)) ∧
    (¬ ((lastValue t x tr).isSome ∧ (lastValue t y tr).isSome) → st.set.swapByEntity x y = .error .panic) := by
  obtain ⟨_, _, hwf, hl⟩ := (any_look h hn).at_some hst
  have hp : ∀ e, (lastValue t e tr).isSome ↔ e ∈ st.set.entities := fun e => by rw [← hl, SparseSet.lookup_isSome hwf]
  rw [hp, hp]
  refine ⟨fun ⟨hx, hy⟩ => ?_, fun hxy => ?_⟩
  · obtain ⟨i, hi, ei⟩ := List.mem_iff_getElem.1 hx
    obtain ⟨j, hj, ej⟩ := List.mem_iff_getElem.1 hy
    have ei' := List.getElem?_eq_some_iff.2 ⟨hi, ei⟩
    have ej' := List.getElem?_eq_some_iff.2 ⟨hj, ej⟩
    obtain ⟨s', e1, e2, _, _, e5, e6, _⟩ := SparseSet.swapByIndex_spec hwf hi hj
    refine ⟨s', by rw [SparseSet.swapByEntity_eq hwf ei' ej', e1], fun e => by rw [SparseSet.get_eq e2, e6, hl], fun e => ?_⟩
    have gx := (SparseSet.getIndex_iff hwf).2 ei'
    have gy := (SparseSet.getIndex_iff hwf).2 ej'
    rw [gx, gy]
    by_cases h1 : e = x
    · subst h1
      rw [if_pos rfl, SparseSet.getIndex_iff e2, e5, if_pos rfl, ei']
    · rw [if_neg h1]
      by_cases h2 : e = y
      · subst h2
        rw [if_pos rfl, SparseSet.getIndex_iff e2, e5]
        split
        · rename_i hij; subst hij; rw [ei'] at ej'; exact absurd (Option.some.inj ej').symm h1
        · rw [if_pos rfl, ej']
      · rw [if_neg h2]
        apply Option.ext
        intro k
        simp only [SparseSet.getIndex_iff e2, SparseSet.getIndex_iff hwf, e5]
        grind
  · rw [← SparseSet.exist_iff hwf, ← SparseSet.exist_iff hwf] at hxy
    unfold SparseSet.swapByEntity
    by_cases h1 : st.set.exist x = true
    · have h2 : st.set.exist y = false := by simpa [h1] using hxy
      simp only [h1, h2, assertR]; rfl
    · rw [Bool.not_eq_true] at h1
      simp only [h1, assertR]; rfl

/-- Reads by `componentRead` of the demo world do not change when groups are made, also when `make_group`
panics because a component type is not registered. -/
example : (World.makeGroup .part 3 1 Demo.w).2 = .ok () ∧ (World.makeGroup .part 3 8 Demo.w).2 = .error .panic ∧
    (World.componentRead 3 2 (World.makeGroup .part 3 1 Demo.w).1).2 = .ok (some 5) ∧
    (World.componentRead 3 2 (World.makeGroup .part 3 8 Demo.w).1).2 = .ok (some 5) := by
  refine ⟨by decide +kernel, by decide +kernel, ?_, ?_⟩
  · rw [(C06_make_group Demo.trace.any Demo.trace.live.1 .part 3 1 3 2).1]; decide +kernel
  · rw [(C06_make_group Demo.trace.any Demo.trace.live.1 .part 3 8 3 2).1]; decide +kernel

/-- In the demo world entities 2 and 4 have component 3, entity 1 has not. -/
example : ∃ st s', Demo.w.comps 3 = some st ∧ st.set.swapByEntity 2 4 = .ok s' ∧ s'.getIndex 2 = st.set.getIndex 4 ∧
    s'.get 2 = .ok (some 5) ∧ st.set.swapByEntity 2 1 = .error .panic := by
  cases h : Demo.w.comps 3 with
  | none => exact absurd h (by decide +kernel)
  | some st =>
    obtain ⟨s', e1, e2, e3⟩ := (C06_swap Demo.trace.any Demo.trace.live.1 h 2 4).1 (by decide +kernel)
    refine ⟨st, s', rfl, e1, by rw [e3, if_pos rfl], by rw [e2]; decide +kernel,
      (C06_swap Demo.trace.any Demo.trace.live.1 h 2 1).2 (by decide +kernel)⟩

end Xecs
