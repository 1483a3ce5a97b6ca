import Verif.Proofs.Calm
import Verif.Proofs.LinearSys
/-
No undefined behaviour: which calls cannot have any, whatever the state of the groups.
-/
set_option autoImplicit false
namespace Xecs
open Spec World Hist
variable {V : Type} {α β : Type}

/-- The computation has no undefined behaviour. -/
def NoUb (r : R α) : Prop := r ≠ .error .ub

theorem noub_ok (a : α) : NoUb (Except.ok a : R α) := by intro h; cases h
theorem noub_panic : NoUb (Except.error .panic : R α) := by intro h; cases h
theorem noub_deadlock : NoUb (Except.error .deadlock : R α) := by intro h; cases h

theorem noub_bind {r : R α} {f : α → R β} (h : NoUb r) (hf : ∀ a, r = .ok a → NoUb (f a)) : NoUb (r >>= f) := by
  cases r with
  | ok a => exact hf a rfl
  | error e => exact fun hh => h (by simpa using hh)

theorem noub_getR {l : List α} {i : Nat} : NoUb (getR l i) := by
  unfold getR; split <;> first | exact noub_ok _ | exact noub_panic
theorem noub_setR {l : List α} {i : Nat} {a : α} : NoUb (setR l i a) := by
  unfold setR; split <;> first | exact noub_ok _ | exact noub_panic
theorem noub_unwrapR {o : Option α} : NoUb (unwrapR o) := by
  cases o <;> first | exact noub_ok _ | exact noub_panic
theorem noub_assertR {b : Bool} : NoUb (assertR b) := by
  cases b <;> first | exact noub_ok _ | exact noub_panic

/-- One step of a proof that a computation has no undefined behaviour. -/
macro "nub_step" : tactic => `(tactic| first
  | exact noub_ok _ | exact noub_panic | exact noub_deadlock
  | exact noub_getR | exact noub_setR | exact noub_unwrapR | exact noub_assertR
  | assumption
  | (refine noub_bind ?_ (fun _ _ => ?_))
  | split)

theorem noub_swapR {l : List α} {i j : Nat} : NoUb (swapR l i j) := by
  unfold swapR; repeat nub_step
theorem noub_swapRemoveR {l : List α} {i : Nat} : NoUb (swapRemoveR l i) := by
  unfold swapRemoveR; repeat nub_step

/-- The same with the operations on slices. -/
macro "nub" : tactic => `(tactic| repeat (first | exact noub_swapR | exact noub_swapRemoveR | nub_step))

namespace SparseSet

theorem noub_add {s : SparseSet V} {e : Nat} {v : V} : NoUb (s.add e v) := by unfold add; nub
theorem noub_addBatchLoop {l : List Nat} : ∀ {I : List (Option Nat)} {k : Nat}, NoUb (addBatchLoop I k l) := by
  induction l with
  | nil => intro I k; exact noub_ok _
  | cons e l ih => intro I k; unfold addBatchLoop; exact noub_bind noub_setR fun _ _ => ih
theorem noub_addBatch {s : SparseSet V} {es : List Nat} {vs : List V} : NoUb (s.addBatch es vs) := by
  unfold addBatch
  exact noub_bind noub_assertR fun _ _ => noub_bind noub_addBatchLoop fun _ _ => noub_ok _
theorem noub_remove {s : SparseSet V} {e : Nat} : NoUb (s.remove e) := by unfold remove; nub
theorem noub_swapByIndex {s : SparseSet V} {i j : Nat} : NoUb (s.swapByIndex i j) := by unfold swapByIndex; nub
theorem noub_get {s : SparseSet V} {e : Nat} : NoUb (s.get e) := by unfold get; nub
theorem noub_removeUnwrap {s : SparseSet V} {e : Nat} : NoUb (s.removeUnwrap e) := by
  unfold removeUnwrap
  exact noub_bind noub_remove fun _ _ => by dsimp only; nub

end SparseSet

namespace Group
open SparseSet

theorem noub_inGroup {g : Group} {id : Nat} {A B : SparseSet V} : NoUb (g.inGroup id A B) := by
  unfold inGroup; nub

theorem noub_addG {g : Group} {id : Nat} {A B : SparseSet V} : NoUb (g.add id A B) := by
  unfold add
  repeat (first | exact noub_inGroup | exact noub_swapByIndex | exact SparseSet.noub_add | nub_step)
theorem noub_removeG {g : Group} {id : Nat} {A B : SparseSet V} : NoUb (g.remove id A B) := by
  unfold remove
  repeat (first | exact noub_inGroup | exact noub_swapByIndex | exact SparseSet.noub_remove | nub_step)

theorem noub_fullA {l : List Nat} : ∀ {n : Nat} {A B : SparseSet V}, NoUb (makeFullLoopA n A B l) := by
  induction l with
  | nil => intro n A B; exact noub_ok _
  | cons i l ih => intro n A B; unfold makeFullLoopA; repeat (first | exact ih | exact noub_swapByIndex | nub_step)
theorem noub_fullB {l : List Nat} : ∀ {n : Nat} {A B : SparseSet V}, NoUb (makeFullLoopB n A B l) := by
  induction l with
  | nil => intro n A B; exact noub_ok _
  | cons i l ih => intro n A B; unfold makeFullLoopB; repeat (first | exact ih | exact noub_swapByIndex | nub_step)
theorem noub_part {l : List Nat} : ∀ {n : Nat} {A B : SparseSet V}, NoUb (makePartLoop n A B l) := by
  induction l with
  | nil => intro n A B; exact noub_ok _
  | cons i l ih => intro n A B; unfold makePartLoop; repeat (first | exact ih | exact noub_swapByIndex | nub_step)
theorem noub_nonA {l : List Nat} : ∀ {s : SparseSet (Nat × Nat)} {A B : SparseSet V}, NoUb (makeNonLoopA s A B l) := by
  induction l with
  | nil => intro n A B; exact noub_ok _
  | cons i l ih => intro n A B; unfold makeNonLoopA; repeat (first | exact ih | exact SparseSet.noub_add | nub_step)
theorem noub_nonB {l : List Nat} : ∀ {s : SparseSet (Nat × Nat)} {A B : SparseSet V}, NoUb (makeNonLoopB s A B l) := by
  induction l with
  | nil => intro n A B; exact noub_ok _
  | cons i l ih => intro n A B; unfold makeNonLoopB; repeat (first | exact ih | exact SparseSet.noub_add | nub_step)

theorem noub_make {g : Group} {A B : SparseSet V} : NoUb (g.make A B) := by
  unfold make
  repeat (first | exact noub_fullA | exact noub_fullB | exact noub_part | exact noub_nonA | exact noub_nonB | nub_step)

end Group

namespace EntityManager

theorem noub_allocate {m : EntityManager} : NoUb m.allocate := by unfold allocate; nub
theorem noub_removeE {m : EntityManager} {id : Nat} : NoUb (m.remove id) := by unfold remove; nub
theorem noub_has {m : EntityManager} {id : Nat} : NoUb (m.has id) := by unfold has; nub

end EntityManager


/-- Storages and resources are under their own types. -/
structure Typed (w : World V) : Prop where
  st : ∀ t st, w.comps t = some st → st.ty = t
  res : ∀ t r, w.res t = some r → r.ty = t

theorem Fit.typed {w : World V} (h : Fit w) : Typed w := ⟨fun t st e => (h.st t st e).1, h.res⟩

theorem noub_crit {f : World V → R (World V × α)} {x : M V α} {w : World V} (h : NoUb (f w)) :
    NoUb (M.crit f x w).2 := by
  unfold M.crit
  cases hc : f w with
  | ok p => exact noub_ok _
  | error e => rw [hc] at h; exact fun hh => h (by simpa using hh)

theorem noub_pure {m : M V α} {g : α → β} {w : World V} (h : NoUb (m w).2) :
    NoUb ((m >>= fun a => pure (g a)) w).2 := by
  rw [M.bind_apply]
  rcases hm : m w with ⟨w1, r⟩
  rw [hm] at h
  cases r with
  | ok a => exact noub_ok _
  | error e => exact fun hh => h (by simpa using hh)

theorem noub_inner {m : M V α} {g : α → β} {w : World V} (h : NoUb ((m >>= fun a => pure (g a)) w).2) :
    NoUb (m w).2 := by
  rw [M.bind_apply] at h
  rcases hm : m w with ⟨w1, r⟩
  rw [hm] at h
  cases r with
  | ok a => exact noub_ok _
  | error e => exact fun hh => h (by simpa using hh)

theorem noub_downcast {w : World V} (h : Typed w) {t : Nat} {st : Storage V} (hs : w.comps t = some st) :
    NoUb (World.downcast st t) := by
  unfold World.downcast; rw [if_pos (h.st t st hs)]; exact noub_ok _

theorem noub_lockPair {w : World V} {g : Group} : NoUb (w.lockPair g) := by
  unfold World.lockPair; nub
theorem noub_groupAdd {k id : Nat} {w : World V} : NoUb (groupAdd k id w) := by
  unfold groupAdd
  exact noub_bind noub_getR fun g hg => noub_bind noub_lockPair fun _ _ =>
    noub_bind Group.noub_addG fun _ _ => noub_ok _
theorem noub_groupRemove {k id : Nat} {w : World V} : NoUb (groupRemove k id w) := by
  unfold groupRemove
  exact noub_bind noub_getR fun g hg => noub_bind noub_lockPair fun _ _ =>
    noub_bind Group.noub_removeG fun _ _ => noub_ok _
theorem noub_groupMake {k : Nat} {w : World V} : NoUb (groupMake k w) := by
  unfold groupMake
  exact noub_bind noub_getR fun g hg => noub_bind noub_lockPair fun _ _ =>
    noub_bind Group.noub_make fun _ _ => noub_ok _
theorem noub_groupErase {k id : Nat} {w : World V} : NoUb (groupErase k id w) := by
  unfold groupErase
  refine noub_bind noub_getR fun g hg => noub_bind noub_lockPair fun _ _ =>
    noub_bind Group.noub_removeG fun _ _ => ?_
  dsimp only
  cases g with
  | full n a b =>
    exact noub_bind SparseSet.noub_removeUnwrap fun _ _ =>
      noub_bind SparseSet.noub_removeUnwrap fun _ _ => noub_ok _
  | part n a b => exact noub_bind SparseSet.noub_removeUnwrap fun _ _ => noub_ok _
  | non n a b => exact noub_ok _
theorem noub_storeErase {t id : Nat} {w : World V} : NoUb (storeErase t id w) := by
  unfold storeErase
  exact noub_bind noub_unwrapR fun _ _ => noub_bind SparseSet.noub_removeUnwrap fun _ _ => noub_ok _
theorem noub_needRemove {w : World V} {id : Nat} {g : Group} : NoUb (w.needRemove id g) := by
  unfold World.needRemove
  exact noub_bind noub_unwrapR fun _ _ => noub_bind noub_unwrapR fun _ _ => Group.noub_inGroup
theorem noub_needRemoveList (w : World V) (id : Nat) : ∀ (gs : List Group) (k : Nat), NoUb (w.needRemoveList id k gs) := by
  intro gs
  induction gs with
  | nil => intro k; exact noub_ok _
  | cons g gs ih =>
    intro k
    unfold World.needRemoveList
    exact noub_bind noub_needRemove fun _ _ => noub_bind (ih _) fun _ _ => noub_ok _
theorem noub_attachStore {w : World V} (h : Typed w) {t id : Nat} {v : V} : NoUb (attachStore t id v w) := by
  unfold attachStore
  exact noub_bind noub_unwrapR fun _ e => noub_bind (noub_downcast h (unwrapR_ok e)) fun _ _ =>
    noub_bind SparseSet.noub_add fun _ _ => noub_ok _
theorem noub_detachStore {w : World V} (h : Typed w) {t id : Nat} : NoUb (detachStore t id w) := by
  unfold detachStore
  exact noub_bind noub_unwrapR fun _ e => noub_bind (noub_downcast h (unwrapR_ok e)) fun _ _ =>
    noub_bind SparseSet.noub_remove fun _ _ => noub_ok _
theorem noub_batchStore {w : World V} (h : Typed w) {a b t : Nat} {vs : List V} : NoUb (batchStore a b t vs w) := by
  unfold batchStore
  exact noub_bind noub_unwrapR fun _ e => noub_bind (noub_downcast h (unwrapR_ok e)) fun _ _ =>
    noub_bind SparseSet.noub_addBatch fun _ _ => noub_ok _

/-! ### Several pieces of work one after the other -/

/-- No undefined behaviour, and the types stay right. -/
def NoUbM (m : M V α) : Prop := ∀ w, Typed w → NoUb (m w).2 ∧ Typed (m w).1

theorem NoUbM.bind {m : M V α} {f : α → M V β} (h : NoUbM m) (hf : ∀ a, NoUbM (f a)) : NoUbM (m >>= f) := by
  intro w hw
  obtain ⟨h1, h2⟩ := h w hw
  rw [M.bind_apply]
  rcases hm : m w with ⟨w1, r⟩
  rw [hm] at h1 h2
  cases r with
  | ok a => exact hf a w1 h2
  | error e => exact ⟨fun hh => h1 (by simpa using hh), h2⟩
theorem NoUbM.pure (a : α) : NoUbM (pure a : M V α) := fun _ hw => ⟨noub_ok _, hw⟩
theorem NoUbM.read {f : World V → R α} (h : ∀ w, Typed w → NoUb (f w)) : NoUbM (M.read f) := fun w hw => ⟨h w hw, hw⟩
theorem NoUbM.assert (b : Bool) : NoUbM (M.assert b : M V Unit) := fun _ hw => ⟨noub_assertR, hw⟩
theorem typed_of {w w' : World V} (h : Typed w) (h1 : stTags w' = stTags w) (h2 : w'.res = w.res) : Typed w' := by
  refine ⟨fun t st e => ?_, fun t r e => h.res t r (by rw [← h2]; exact e)⟩
  have := congrFun h1 t
  simp only [stTags, e, Option.map_some] at this
  obtain ⟨st0, e1, e2⟩ := Option.map_eq_some_iff.1 this.symm
  rw [← e2]; exact h.st t st0 e1
theorem NoUbM.fix {m : M V α} (h : ∀ w, Typed w → NoUb (m w).2) (h1 : Fixes stTags m) (h2 : Fixes (fun w => w.res) m) :
    NoUbM m := fun w hw => ⟨h w hw, typed_of hw (h1 w) (h2 w)⟩
theorem NoUbM.forEach {γ : Type} {l : List γ} {f : γ → M V Unit} (h : ∀ x, NoUbM (f x)) : NoUbM (M.forEach l f) := by
  induction l with
  | nil => exact .pure ()
  | cons x l ih => exact .bind (h x) fun _ => ih

theorem noubM_entity (id : Nat) : NoUbM (World.entity (V := V) id) :=
  .bind (.read fun _ _ => EntityManager.noub_has) fun b => by cases b <;> exact .pure _

theorem stTags_em (w : World V) (em : EntityManager) : stTags { w with em := em } = stTags w := rfl

theorem NoUbM.section {f : World V → R (World V × α)} {x : M V α} (h : ∀ w, Typed w → NoUb (f w))
    (h1 : Fixes stTags (M.crit f x)) (h2 : Fixes (fun w => w.res) (M.crit f x)) : NoUbM (M.crit f x) :=
  .fix (fun w hw => noub_crit (h w hw)) h1 h2

theorem NoUbM.out {m : M V α} (h : NoUbM m) {g : α → β} {w : World V} (hw : Typed w) :
    NoUb ((m >>= fun a => Pure.pure (g a)) w).2 := noub_pure (h w hw).1

/-- No call but those that read and write components can have undefined behaviour, whatever the world. -/
theorem noub_exec {w : World V} (hw : Typed w) (op : Op V) (h1 : ∀ t id, op ≠ .read t id)
    (h2 : ∀ t id v, op ≠ .write t id v) : NoUb (exec op w).2 := by
  cases op with
  | register t =>
    refine noub_pure ?_
    simp only [World.register, M.bind_apply, M.read_apply]
    cases w.hasRegistered t
    · exact noub_ok _
    · exact noub_panic
  | createEntity =>
    refine NoUbM.out (NoUbM.bind (.section (f := World.allocate)
      (fun w _ => noub_bind EntityManager.noub_allocate fun _ _ => noub_ok _) ?_ ?_) fun id =>
      .bind (noubM_entity id) fun h => .read fun _ _ => noub_unwrapR) hw
    all_goals rw [allocate_exact]; exact onTable_fix (fun _ _ => rfl) _
  | createEntities n => exact noub_pure (noub_crit (noub_ok _))
  | removeEntity order id =>
    refine NoUbM.out (NoUbM.bind (.read fun _ _ => EntityManager.noub_has) fun b => .bind (.assert _) fun _ => .bind
      (.read fun w _ => noub_needRemoveList w id _ _) fun ks => .bind (.forEach fun k => .section (fun _ _ => noub_groupErase)
        (groupErase_fix blind_stTags k id) (groupErase_fix blind_res k id)) fun _ =>
      .bind (.read fun _ _ => noub_ok _) fun ts => .bind (.forEach fun t => .section (fun _ _ => noub_storeErase)
        (storeErase_fix blind_stTags t id) (storeErase_fix blind_res t id)) fun _ =>
      .section (f := World.release id) (fun w _ => noub_bind EntityManager.noub_removeE fun _ _ => noub_ok _) ?_ ?_) hw
    all_goals rw [release_exact]; exact onTable_fix (fun _ _ => rfl) _
  | exist id => exact noub_pure EntityManager.noub_has
  | attach id t v =>
    refine NoUbM.out (NoUbM.bind (noubM_entity id) fun h => .bind (.read fun _ _ => noub_unwrapR) fun id =>
      .bind (.read fun _ _ => noub_ok _) fun b => .bind (.assert _) fun _ => .bind
        (.section (fun w hw => noub_attachStore hw) ?_ ?_) fun _ =>
      .bind (.read fun _ _ => noub_ok _) fun ks => .forEach fun k => .section (fun _ _ => noub_groupAdd)
        (groupAdd_fix blind_stTags k id) (groupAdd_fix blind_res k id)) hw
    · rw [attachStore_exact]; exact onStore_fix blind_stTags _ _
    · rw [attachStore_exact]; exact onStore_fix blind_res _ _
  | detach id t =>
    refine NoUbM.out (NoUbM.bind (noubM_entity id) fun h => .bind (.read fun _ _ => noub_unwrapR) fun id =>
      .bind (.read fun _ _ => noub_ok _) fun b => .bind (.assert _) fun _ =>
      .bind (.read fun _ _ => noub_ok _) fun ks => .bind (.forEach fun k => .section (fun _ _ => noub_groupRemove)
        (groupRemove_fix blind_stTags k id) (groupRemove_fix blind_res k id)) fun _ =>
      .section (fun w hw => noub_detachStore hw) ?_ ?_) hw
    · rw [detachStore_exact]; exact onStore_fix blind_stTags _ _
    · rw [detachStore_exact]; exact onStore_fix blind_res _ _
  | attachBatch a b t vs =>
    refine NoUbM.out (NoUbM.bind (.assert _) fun _ => .section (fun w hw => noub_batchStore hw) ?_ ?_) hw
    · rw [batchStore_exact]; exact onStore_fix blind_stTags _ _
    · rw [batchStore_exact]; exact onStore_fix blind_res _ _
  | makeGroup k a b =>
    refine NoUbM.out (NoUbM.bind (.read fun _ _ => noub_ok _) fun b => .bind (.assert _) fun _ =>
      .bind (.read fun _ _ => noub_ok _) fun b => .bind (.assert _) fun _ => .bind
        (.section (fun _ _ => noub_ok _) ?_ ?_) fun pos => .section (fun _ _ => noub_groupMake)
        (groupMake_fix blind_stTags pos) (groupMake_fix blind_res pos)) hw
    all_goals exact Fixes.crit (fun w w' a h => by simp only [Except.ok.injEq, Prod.mk.injEq] at h; obtain ⟨rfl, _⟩ := h; rfl)
  | read t id => exact absurd rfl (h1 t id)
  | write t id v => exact absurd rfl (h2 t id v)
  | count t =>
    refine noub_pure ?_
    show NoUb (match w.comps t with
      | some st => do .ok (some (← downcast st t).len)
      | none => .ok none : R (Option Nat))
    split
    · exact noub_bind (noub_downcast hw (by assumption)) fun _ _ => noub_ok _
    · exact noub_ok _
  | registerResource t v => exact noub_pure (noub_crit (noub_ok _))
  | resourceRead t =>
    refine noub_pure ?_
    simp only [resourceRead, M.read_apply]
    cases hr : w.res t with
    | none => exact noub_ok _
    | some r => simp only [downcastRes, hw.res t r hr, if_true]; exact noub_ok _
  | resourceWrite t v =>
    refine noub_pure (noub_crit ?_)
    cases hr : w.res t with
    | none => exact noub_ok _
    | some r => simp only [downcastRes, hw.res t r hr, if_true]; exact noub_ok _

/-- Reading and writing components have none either if the storages are maps. -/
theorem Fit.noub_read {w : World V} (h : Fit w) (t id : Nat) : NoUb (componentRead t id w).2 := by
  simp only [componentRead, M.read_apply]
  cases hs : w.comps t with
  | none => exact noub_ok _
  | some st =>
    obtain ⟨h1, h2⟩ := h.st t st hs
    simp only [downcast, h1, if_true, R.bind_ok]
    split
    · next he =>
      obtain ⟨v, hv⟩ := Option.isSome_iff_exists.1 ((SparseSet.lookup_isSome h2).2 ((SparseSet.exist_iff h2).1 he))
      rw [SparseSet.getUnchecked_eq h2 hv]; exact noub_ok _
    · exact noub_ok _

theorem Fit.noub_write {w : World V} (h : Fit w) (t id : Nat) (v : V) : NoUb (componentWrite t id v w).2 := by
  refine noub_crit ?_
  cases hs : w.comps t with
  | none => exact noub_ok _
  | some st =>
    obtain ⟨h1, h2⟩ := h.st t st hs
    simp only [downcast, h1, if_true, R.bind_ok]
    split
    · next he =>
      obtain ⟨S, e, _⟩ := SparseSet.setUnchecked_present h2 v ((SparseSet.exist_iff h2).1 he)
      rw [e]; exact noub_ok _
    · exact noub_ok _

theorem Fit.noub_exec {w : World V} (h : Fit w) (op : Op V) : NoUb (exec op w).2 := by
  by_cases h1 : ∃ t id, op = .read t id
  · obtain ⟨t, id, rfl⟩ := h1
    exact noub_pure (h.noub_read t id)
  · by_cases h2 : ∃ t id v, op = .write t id v
    · obtain ⟨t, id, v, rfl⟩ := h2
      exact noub_pure (h.noub_write t id v)
    · exact Xecs.noub_exec h.typed op (fun t id e => h1 ⟨t, id, e⟩) (fun t id v e => h2 ⟨t, id, v, e⟩)

/-! ### Queries -/

theorem noub_lock {w : World V} (h : Typed w) {held : Query.Held} {m : Mode} {t : Nat} : NoUb (Query.lock w held m t) := by
  unfold Query.lock
  refine noub_bind noub_unwrapR fun st e => ?_
  split
  · exact noub_deadlock
  · exact noub_bind (noub_downcast h (unwrapR_ok e)) fun _ _ => noub_ok _

theorem noub_prepare {w : World V} (h : Typed w) (q : Query) : ∀ held : Query.Held, NoUb (q.prepare w held) := by
  induction q with
  | comp m t =>
    intro held
    exact noub_bind noub_assertR fun _ _ => noub_bind (noub_lock h) fun _ _ => noub_ok _
  | with2 a b iha ihb => intro held; exact noub_bind (iha _) fun _ _ => noub_bind (ihb _) fun _ _ => noub_ok _
  | with3 a b c iha ihb ihc =>
    intro held
    exact noub_bind (iha _) fun _ _ => noub_bind (ihb _) fun _ _ => noub_bind (ihc _) fun _ _ => noub_ok _
  | with4 a b c d iha ihb ihc ihd =>
    intro held
    exact noub_bind (iha _) fun _ _ => noub_bind (ihb _) fun _ _ => noub_bind (ihc _) fun _ _ =>
      noub_bind (ihd _) fun _ _ => noub_ok _
  | with5 a b c d e iha ihb ihc ihd ihe =>
    intro held
    exact noub_bind (iha _) fun _ _ => noub_bind (ihb _) fun _ _ => noub_bind (ihc _) fun _ _ =>
      noub_bind (ihd _) fun _ _ => noub_bind (ihe _) fun _ _ => noub_ok _
  | withoutL a b iha ihb => intro held; exact noub_bind (iha _) fun _ _ => noub_bind (ihb _) fun _ _ => noub_ok _
  | withoutR a b iha ihb => intro held; exact noub_bind (iha _) fun _ _ => noub_bind (ihb _) fun _ _ => noub_ok _
  | group k ma mb a b =>
    intro held
    refine noub_bind noub_assertR fun _ _ => noub_bind (noub_lock h) fun _ _ => noub_bind (noub_lock h) fun _ _ =>
      noub_bind noub_assertR fun _ _ => noub_bind noub_unwrapR fun _ _ => noub_bind noub_getR fun _ _ => ?_
    cases k <;> exact noub_ok _

/-- The iteration of a query that names no group has no undefined behaviour. -/
theorem Fit.noub_results {w : World V} (h : Fit w) {q : Query} (hq : q.Groupless) : NoUb (w.results q) := by
  cases hp : q.prepare w [] with
  | error e =>
    have := noub_prepare h.typed q []
    rw [hp] at this
    simp only [World.results, World.queryAll, World.query, hp]
    exact fun hh => this (by simpa using hh)
  | ok r =>
    have hp' := hp
    rw [prepare_congr (w := { w with groups := [] }) (w' := w) rfl q hq []] at hp'
    obtain ⟨hd, hc⟩ := prepared h.rel hp'
    obtain ⟨l', hy, _⟩ := rel_lists h.rel hd (freshIn_plain _ q hq) hc
    rw [results_congr hq h.rel hp, hy]
    exact noub_ok _

/-- If all items are given out, iterating has no undefined behaviour. -/
theorem noub_yields {w : World V} {q : Query} {l : List (Nat × Item V)} (h : Yields w q l) : NoUb (w.results q) := by
  rw [h]; exact noub_ok _

/-! ### Pieces of work -/

theorem Fit.noub_run {w : World V} (h : Fit w) (a : Act V) (hc : ∀ q, a = .collect q → NoUb (w.results q)) :
    NoUb (a.run w).2 := by
  cases a with
  | has id => exact noub_pure EntityManager.noub_has
  | allocate => exact noub_pure (noub_crit (noub_bind EntityManager.noub_allocate fun _ _ => noub_ok _))
  | allocateN n => exact noub_pure (noub_crit (noub_ok _))
  | emRemove id => exact noub_pure (noub_crit (noub_bind EntityManager.noub_removeE fun _ _ => noub_ok _))
  | attachStore t id v => exact noub_pure (noub_crit (noub_attachStore h.typed))
  | detachStore t id => exact noub_pure (noub_crit (noub_detachStore h.typed))
  | batchStore a b t vs => exact noub_pure (noub_inner (h.noub_exec (.attachBatch a b t vs)))
  | storeHas t id => exact noub_pure (noub_bind noub_unwrapR fun _ _ => noub_ok _)
  | storeErase t id => exact noub_pure (noub_crit noub_storeErase)
  | storeRead t id => exact noub_pure (h.noub_read t id)
  | storeWrite t id v => exact noub_pure (h.noub_write t id v)
  | storeCount t => exact noub_pure (noub_inner (h.noub_exec (.count t)))
  | groupAdd k id => exact noub_pure (noub_crit noub_groupAdd)
  | groupRemove k id => exact noub_pure (noub_crit noub_groupRemove)
  | groupHas k id => exact noub_pure (noub_bind noub_getR fun _ _ => noub_needRemove)
  | groupErase k id => exact noub_pure (noub_crit noub_groupErase)
  | resRead t => exact noub_pure (noub_inner (h.noub_exec (.resourceRead t)))
  | resWrite t v => exact noub_pure (noub_inner (h.noub_exec (.resourceWrite t v)))
  | collect q => exact noub_pure (hc q rfl)

end Xecs
