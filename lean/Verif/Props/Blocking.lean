import Verif.Proofs.Calm
import Verif.Props.Misc
import Verif.Findings.Sequential
/-
C43: batch attach over existing components. C44: a single thread does not block on itself.
-/
set_option autoImplicit false
namespace Xecs
open Spec World Hist
variable {V : Type} {tr : List (Op V × Out V)} {w w' : World V}

/-! ### C43: batch attach over existing components -/

/-- The dense arrays keep the old entries, but the index points to the new ones. -/
theorem addBatch_over {s S : SparseSet V} (h : s.WF) {es : List EntityId} {vs : List V} (hlen : es.length = vs.length)
    (hnd : es.Nodup) (hS : s.addBatch es vs = .ok S) (x : Nat) :
    S.getIndex x = (if x ∈ es then some (s.entities.length + es.idxOf x) else s.getIndex x) ∧
      S.data = s.data ++ vs := by
  obtain ⟨I, hI, hIk, hIl⟩ := SparseSet.addBatchLoop_spec es s.indices s.entities.length hnd
  have : S = ⟨I, s.entities ++ es, s.data ++ vs⟩ := by
    simp [SparseSet.addBatch, hlen, hI] at hS; exact hS.symm
  subst this
  refine ⟨?_, rfl⟩
  simp only [SparseSet.getIndex, hIk]
  by_cases hx : x ∈ es
  · simp [hx]
  · simp only [hx, if_false]
    by_cases hlt : x < s.indices.length
    · simp [hlt]
    · have : s.indices[x]? = none := List.getElem?_eq_none (by omega)
      simp only [hlt, if_false, this]
      by_cases hle : x < I.length <;> simp [hle]

/-- **C43**, right after the batch attach: whether or not the entities had the component before, each of them now
has its new value, and every other component is as it was. Missing from the English property: the counts, iteration
and what happens later; they go wrong if an entity had the component before (`C43_duplicate_counterexample`,
`C43_resurrected_counterexample`). -/
theorem C43_reads_partial (h : AnyTrace tr w) (hn : NoRebatch tr) {start stop t : EntityId} {vs : List V}
    (he : World.attachBatch start stop t vs w = (w', .ok ())) (u id : EntityId) :
    World.storageGet u id w' = (w', .ok (if u = t ∧ start ≤ id ∧ id < stop then vs[id - start]? else lastValue u id tr)) := by
  have hl := any_look h hn
  obtain ⟨hlen, st, S, hst, hty, hS, rfl⟩ := attachBatch_inv he
  by_cases hu : u = t
  · subst hu
    obtain ⟨_, _, hwf, hlk⟩ := hl.at_some hst
    obtain ⟨h1, h2⟩ := addBatch_over hwf (by rw [List.length_range', hlen]) List.nodup_range' hS id
    simp only [World.storageGet, M.read_apply, setSet_comps, if_true, hst, Option.map_some, World.downcast, hty, ok_bind,
      SparseSet.get, h1, h2, true_and]
    by_cases hid : start ≤ id ∧ id < stop
    · have hm : id ∈ List.range' start (stop - start) := by rw [List.mem_range'_1]; omega
      rw [if_pos hid, if_pos hm]
      have hi := idxOf_range' (stop - start) _ _ hid.1 (by omega)
      have hlt : id - start < vs.length := by omega
      simp only [hi, hwf.len, getR]
      rw [List.getElem?_append_right (Nat.le_add_right _ _), Nat.add_sub_cancel_left,
        List.getElem?_eq_getElem hlt]
      rfl
    · have hm : id ∉ List.range' start (stop - start) := by rw [List.mem_range'_1]; omega
      rw [if_neg hid, if_neg hm, ← hlk]
      simp only [SparseSet.lookup]
      cases hg : st.set.getIndex id with
      | none => rfl
      | some i =>
        have hi := SparseSet.getIndex_lt hwf hg
        rw [hwf.len] at hi
        simp only [getR, List.getElem?_append_left hi, Option.bind_some, List.getElem?_eq_getElem hi, ok_bind]
  · have := hl.get u id
    rw [if_neg (fun e => hu e.1)]
    simp only [World.storageGet, M.read_apply, setSet_comps, if_neg hu] at this ⊢
    rw [Prod.mk.injEq] at this
    rw [this.2]

example : ∃ w', World.attachBatch 2 4 3 [70, 80] Demo.w = (w', .ok ()) ∧ lastValue 3 2 Demo.tr = some 5 ∧
    World.storageGet 3 2 w' = (w', .ok (some 70)) ∧ World.storageGet 3 4 w' = (w', .ok (some 8)) := by
  have he : World.attachBatch 2 4 3 [70, 80] Demo.w = ((World.attachBatch 2 4 3 [70, 80] Demo.w).1, .ok ()) :=
    Prod.ext rfl (by decide +kernel)
  have h1 := C43_reads_partial Demo.trace.any Demo.trace.live.1 he 3 2
  have h2 := C43_reads_partial Demo.trace.any Demo.trace.live.1 he 3 4
  rw [if_neg (by decide), show lastValue 3 4 Demo.tr = some 8 by decide +kernel] at h2
  exact ⟨_, he, by decide +kernel, h1, h2⟩

/-- Iterating a storage whose two dense arrays have the same length, whatever its index says. -/
theorem results_comp {t : TypeId} {st : Storage V} (hst : w.comps t = some st) (hty : st.ty = t)
    (hlen : st.set.entities.length = st.set.data.length) (m : Mode) :
    w.results (.comp m t) = .ok ((st.set.entities.zip st.set.data).map fun x => (x.1, some (.leaf x.2))) := by
  have key : ∀ (k i : Nat), i + k = st.set.entities.length → Plan.collectFrom w (.comp m t) (k + 1) i =
      .ok ((List.range' i k).zipWith (fun j e => (e, .leaf ⟨t, j, m⟩)) (st.set.entities.drop i)) := by
    intro k
    induction k with
    | zero =>
      intro i hi
      simp [Plan.collectFrom, Plan.nextWithId, Plan.setOf, hst, unwrapR, SparseSet.len, show ¬ i < st.set.entities.length by omega]
    | succ k ih =>
      intro i hi
      have h1 : i < st.set.entities.length := by omega
      have h2 : i < st.set.data.length := by omega
      rw [Plan.collectFrom]
      simp only [Plan.nextWithId, Plan.setOf, hst, unwrapR, SparseSet.len, h1, if_true, getU, Plan.refAt,
        List.getElem?_eq_getElem h1, List.getElem?_eq_getElem h2, ok_bind, ih (i + 1) (by omega)]
      rw [List.drop_eq_getElem_cons h1, List.range'_succ, List.zipWith_cons_cons]
  have hreg : w.hasRegistered t = true := by simp [World.hasRegistered, hst]
  have hk := key st.set.entities.length 0 (by omega)
  simp only [World.results, World.queryAll, World.query, Query.prepare, hreg, assertR, if_true, ok_bind, Query.lock, Plan.remaining, hst,
    unwrapR, List.any_nil, World.downcast, hty, SparseSet.len, Nat.sub_zero, Bool.false_eq_true, if_false]
  rw [hk]
  simp only [ok_bind, Except.ok.injEq, List.drop_zero]
  apply List.ext_getElem?
  intro i
  by_cases hi : i < st.set.entities.length
  · have hi' : i < st.set.data.length := by omega
    simp [List.getElem?_zipWith, List.getElem?_zip_eq_some, List.getElem?_eq_getElem, hi, hi', World.derefItem, World.deref, hst, List.zip]
  · have hi' : ¬ i < st.set.data.length := by omega
    rw [List.getElem?_eq_none (by simp; omega), List.getElem?_eq_none (by simp; omega)]

/-- **C43**, what iteration, the count and the slice of data show right after the batch attach, whether or not the entities
had the component before: everything the storage held before, and then the new components. So an entity that had the
component before is listed twice, first with the old value. -/
theorem C43_listing (h : AnyTrace tr w) (hn : NoRebatch tr) {start stop t : EntityId} {vs : List V}
    (he : World.attachBatch start stop t vs w = (w', .ok ())) :
    ∃ l : List (EntityId × V), Lists l (fun id => lastValue t id tr) ∧ vs.length = stop - start ∧
      (∀ m, Yields w' (.comp m t) ((l ++ (List.range' start (stop - start)).zip vs).map fun x => (x.1, .leaf x.2))) ∧
      World.storageCount t w' = (w', .ok (some (l.length + (stop - start)))) ∧
      World.storageData t w' = (w', .ok (some (l.map Prod.snd ++ vs))) := by
  obtain ⟨hlen, st, S, hst, hty, hS, rfl⟩ := attachBatch_inv he
  obtain ⟨_, _, hwf, hlk⟩ := (any_look h hn).at_some hst
  obtain ⟨z1, z2, z3⟩ := zip_lists hwf
  have hf : st.set.lookup = fun id => lastValue t id tr := funext hlk
  rw [hf] at z1
  have hl2 : (List.range' start (stop - start)).length = vs.length := by rw [List.length_range', hlen]
  obtain ⟨I, hI, _⟩ := SparseSet.addBatchLoop_spec (List.range' start (stop - start)) st.set.indices st.set.entities.length List.nodup_range'
  have hS' : S = ⟨I, st.set.entities ++ List.range' start (stop - start), st.set.data ++ vs⟩ := by
    simp [SparseSet.addBatch, hl2, hI] at hS; exact hS.symm
  subst hS'
  refine ⟨_, z1, hlen, fun m => ?_, ?_, ?_⟩
  · rw [Yields, results_comp (t := t) (st := { st with set := ⟨I, st.set.entities ++ List.range' start (stop - start), st.set.data ++ vs⟩ })
      (by rw [setSet_comps, if_pos rfl, hst]; rfl) hty
      (by simp only [List.length_append, hl2, hwf.len]), List.map_map]
    simp only [List.zip_append hwf.len]
    rfl
  · simp [World.storageCount, M.read_apply, hst, downcast, hty, SparseSet.len, List.length_zip, hwf.len, setSet_comps]
  · simp [World.storageData, M.read_apply, hst, downcast, hty, z3, setSet_comps]

example : ∃ w', World.attachBatch 2 4 3 [70, 80] Demo.w = (w', .ok ()) ∧ lastValue 3 2 Demo.tr = some 5 ∧
    ∃ l : List (EntityId × Nat), Lists l (fun id => lastValue 3 id Demo.tr) ∧
      Yields w' (.comp .ref 3) ((l ++ [(2, 70), (3, 80)]).map fun (x : EntityId × Nat) => (x.1, .leaf x.2)) := by
  have he : World.attachBatch 2 4 3 [70, 80] Demo.w = ((World.attachBatch 2 4 3 [70, 80] Demo.w).1, .ok ()) :=
    Prod.ext rfl (by decide +kernel)
  obtain ⟨l, h1, _, h2, _⟩ := C43_listing Demo.trace.any Demo.trace.live.1 he
  exact ⟨_, he, by decide +kernel, l, h1, h2 .ref⟩

/-- C01, C43: a component attached twice by batch comes back to life after it has been detached, when another entity's
component is detached. -/
theorem C43_resurrected_counterexample : ∃ (tr : List (Op Nat × Out Nat)) (w w' : World Nat), AnyTrace tr w ∧
    (World.componentRead 1 2 w).2 = .ok none ∧ World.detach 3 1 w = (w', .ok (some 30)) ∧
    (World.componentRead 1 2 w').2 = .ok (some 12) :=
  ⟨_, _, _, odd [.register 1, .createEntities 3, .attach 3 1 30, .attachBatch 1 3 1 [11, 12], .attachBatch 1 3 1 [21, 22],
    .detach 2 1, .detach 1 1], by decide +kernel,
    Prod.ext rfl (show (World.detach 3 1 _).2 = _ by decide +kernel), by decide +kernel⟩

/-! ### C44: a single thread does not block on itself -/

/-- **C44.** Whatever the world, as long as it contains no owning group of a type with itself: no call -- other than
the one that makes such a group -- blocks on a lock its own thread holds; and it makes no such group. -/
theorem C44_no_block (hw : ∀ g ∈ w.groups, g.kind ≠ .non → g.tyA ≠ g.tyB) (op : Op V)
    (hop : ∀ k a b, op = .makeGroup k a b → k ≠ .non → a ≠ b) :
    (exec op w).2 ≠ .error .deadlock ∧ ∀ g ∈ (exec op w).1.groups, g.kind ≠ .non → g.tyA ≠ g.tyB :=
  calm_exec hw op hop

/-- **C44**, for queries: one without conflicting parts does not block on itself, whatever the world. -/
theorem C44_query (h : Wild tr w) {q : Query} (hc : q.Conflictless) : w.query q ≠ .error .deadlock := by
  rcases prepare_cases (fun t st => wild_tag h) q [] (by simpa [Query.Conflictless] using hc) with ⟨_, p, e⟩ | ⟨_, e⟩
  · simp only [World.query, e]; simp
  · simp only [World.query, e]; simp

/-- The storages are read and written without blocking as well. -/
theorem C44_storage (w : World V) (t id i : EntityId) (v : V) :
    (World.storageGet t id w).2 ≠ .error .deadlock ∧ (World.storageSet t id v w).2 ≠ .error .deadlock ∧
    (World.storageSetAt t i v w).2 ≠ .error .deadlock ∧ (World.storageCount t w).2 ≠ .error .deadlock ∧
    (World.storageData t w).2 ≠ .error .deadlock ∧ (World.storageExist t id w).2 ≠ .error .deadlock ∧
    (World.storageIsEmpty t w).2 ≠ .error .deadlock ∧ (World.entity id w).2 ≠ .error .deadlock := by
  have crit : ∀ {α : Type} {f : World V → R (World V × α)} {x : M V α}, Calm (f w) → (M.crit f x w).2 ≠ .error .deadlock := by
    intro α f x hf
    unfold M.crit
    cases hx : f w with
    | ok p => exact calm_ok _
    | error e => rw [hx] at hf; exact fun hh => hf (by simpa using hh)
  refine ⟨?_, ?_, ?_, ?_, ?_, ?_, ?_, ?_⟩
  · show Calm _
    simp only [World.storageGet, M.read_apply]
    repeat (first | exact calm_downcast | exact SparseSet.calm_get | calm_step)
  · refine crit ?_
    repeat (first | exact calm_downcast | calm_step)
  · refine crit ?_
    repeat (first | exact calm_downcast | calm_step)
  · show Calm _
    simp only [World.storageCount, M.read_apply]
    repeat (first | exact calm_downcast | calm_step)
  · show Calm _
    simp only [World.storageData, M.read_apply]
    repeat (first | exact calm_downcast | calm_step)
  · show Calm _
    simp only [World.storageExist, M.read_apply]
    repeat (first | exact calm_downcast | calm_step)
  · show Calm _
    simp only [World.storageIsEmpty, M.read_apply]
    repeat (first | exact calm_downcast | calm_step)
  · show Calm _
    unfold World.entity World.exist
    rw [M.bind_apply, M.read_apply]
    cases hh : w.em.has id with
    | ok b => cases b <;> exact calm_ok _
    | error e => have := EntityManager.calm_has (m := w.em) (id := id); rw [hh] at this; exact fun h => this (by simpa using h)

example : (exec (.removeEntity [2, 1, 3] 2) Demo.w).2 ≠ .error .deadlock :=
  (C44_no_block (by decide +kernel) _ (by intro k a b h; cases h)).1

end Xecs
