import Verif.Proofs.RobustEm
/-
No call of a single thread blocks on itself, in whatever state the world is, as long as there is no owning
group of a type with itself.
-/
set_option autoImplicit false
namespace Xecs
open Spec World
variable {V : Type} {α β : Type}

/-- The computation does not block. -/
def Calm (r : R α) : Prop := r ≠ .error .deadlock

theorem calm_ok (a : α) : Calm (Except.ok a : R α) := by intro h; cases h
theorem calm_panic : Calm (Except.error .panic : R α) := by intro h; cases h
theorem calm_ub : Calm (Except.error .ub : R α) := by intro h; cases h

theorem calm_bind {r : R α} {f : α → R β} (h : Calm r) (hf : ∀ a, r = .ok a → Calm (f a)) : Calm (r >>= f) := by
  cases r with
  | ok a => exact hf a rfl
  | error e => exact fun hh => h (by simpa using hh)

theorem calm_getR {l : List α} {i : Nat} : Calm (getR l i) := by
  unfold getR; split <;> first | exact calm_ok _ | exact calm_panic
theorem calm_getU {l : List α} {i : Nat} : Calm (getU l i) := by
  unfold getU; split <;> first | exact calm_ok _ | exact calm_ub
theorem calm_setR {l : List α} {i : Nat} {a : α} : Calm (setR l i a) := by
  unfold setR; split <;> first | exact calm_ok _ | exact calm_panic
theorem calm_unwrapR {o : Option α} : Calm (unwrapR o) := by
  cases o <;> first | exact calm_ok _ | exact calm_panic
theorem calm_assertR {b : Bool} : Calm (assertR b) := by
  cases b <;> first | exact calm_ok _ | exact calm_panic

/-- One step of a proof that a computation is calm. -/
macro "calm_step" : tactic => `(tactic| first
  | exact calm_ok _ | exact calm_panic | exact calm_ub
  | exact calm_getR | exact calm_getU | exact calm_setR | exact calm_unwrapR | exact calm_assertR
  | assumption
  | (refine calm_bind ?_ (fun _ _ => ?_))
  | split)

theorem calm_swapR {l : List α} {i j : Nat} : Calm (swapR l i j) := by
  unfold swapR; repeat calm_step
theorem calm_swapRemoveR {l : List α} {i : Nat} : Calm (swapRemoveR l i) := by
  unfold swapRemoveR; repeat calm_step

/-- The same with the operations on slices. -/
macro "calm" : tactic => `(tactic| repeat (first | exact calm_swapR | exact calm_swapRemoveR | calm_step))

namespace SparseSet

theorem calm_add {s : SparseSet V} {e : Nat} {v : V} : Calm (s.add e v) := by unfold add; calm
theorem calm_addBatchLoop {l : List Nat} : ∀ {I : List (Option Nat)} {k : Nat}, Calm (addBatchLoop I k l) := by
  induction l with
  | nil => intro I k; exact calm_ok _
  | cons e l ih => intro I k; unfold addBatchLoop; exact calm_bind calm_setR fun _ _ => ih
theorem calm_addBatch {s : SparseSet V} {es : List Nat} {vs : List V} : Calm (s.addBatch es vs) := by
  unfold addBatch
  exact calm_bind calm_assertR fun _ _ => calm_bind calm_addBatchLoop fun _ _ => calm_ok _
theorem calm_remove {s : SparseSet V} {e : Nat} : Calm (s.remove e) := by unfold remove; calm
theorem calm_swapByIndex {s : SparseSet V} {i j : Nat} : Calm (s.swapByIndex i j) := by unfold swapByIndex; calm
theorem calm_get {s : SparseSet V} {e : Nat} : Calm (s.get e) := by unfold get; calm
theorem calm_getUnchecked {s : SparseSet V} {e : Nat} : Calm (s.getUnchecked e) := by unfold getUnchecked; calm
theorem calm_setUnchecked {s : SparseSet V} {e : Nat} {v : V} : Calm (s.setUnchecked e v) := by unfold setUnchecked; calm
theorem calm_removeUnwrap {s : SparseSet V} {e : Nat} : Calm (s.removeUnwrap e) := by
  unfold removeUnwrap
  exact calm_bind calm_remove fun _ _ => by dsimp only; calm

end SparseSet

namespace Group
open SparseSet

theorem calm_inGroup {g : Group} {id : Nat} {A B : SparseSet V} : Calm (g.inGroup id A B) := by
  unfold inGroup; calm

theorem calm_addG {g : Group} {id : Nat} {A B : SparseSet V} : Calm (g.add id A B) := by
  unfold add
  repeat (first | exact calm_inGroup | exact calm_swapByIndex | exact SparseSet.calm_add | calm_step)
theorem calm_removeG {g : Group} {id : Nat} {A B : SparseSet V} : Calm (g.remove id A B) := by
  unfold remove
  repeat (first | exact calm_inGroup | exact calm_swapByIndex | exact SparseSet.calm_remove | calm_step)

theorem calm_fullA {l : List Nat} : ∀ {n : Nat} {A B : SparseSet V}, Calm (makeFullLoopA n A B l) := by
  induction l with
  | nil => intro n A B; exact calm_ok _
  | cons i l ih => intro n A B; unfold makeFullLoopA; repeat (first | exact ih | exact calm_swapByIndex | calm_step)
theorem calm_fullB {l : List Nat} : ∀ {n : Nat} {A B : SparseSet V}, Calm (makeFullLoopB n A B l) := by
  induction l with
  | nil => intro n A B; exact calm_ok _
  | cons i l ih => intro n A B; unfold makeFullLoopB; repeat (first | exact ih | exact calm_swapByIndex | calm_step)
theorem calm_part {l : List Nat} : ∀ {n : Nat} {A B : SparseSet V}, Calm (makePartLoop n A B l) := by
  induction l with
  | nil => intro n A B; exact calm_ok _
  | cons i l ih => intro n A B; unfold makePartLoop; repeat (first | exact ih | exact calm_swapByIndex | calm_step)
theorem calm_nonA {l : List Nat} : ∀ {s : SparseSet (Nat × Nat)} {A B : SparseSet V}, Calm (makeNonLoopA s A B l) := by
  induction l with
  | nil => intro n A B; exact calm_ok _
  | cons i l ih => intro n A B; unfold makeNonLoopA; repeat (first | exact ih | exact SparseSet.calm_add | calm_step)
theorem calm_nonB {l : List Nat} : ∀ {s : SparseSet (Nat × Nat)} {A B : SparseSet V}, Calm (makeNonLoopB s A B l) := by
  induction l with
  | nil => intro n A B; exact calm_ok _
  | cons i l ih => intro n A B; unfold makeNonLoopB; repeat (first | exact ih | exact SparseSet.calm_add | calm_step)

theorem calm_make {g : Group} {A B : SparseSet V} : Calm (g.make A B) := by
  unfold make
  repeat (first | exact calm_fullA | exact calm_fullB | exact calm_part | exact calm_nonA | exact calm_nonB | calm_step)

end Group

namespace EntityManager

theorem calm_allocate {m : EntityManager} : Calm m.allocate := by unfold allocate; calm
theorem calm_removeE {m : EntityManager} {id : Nat} : Calm (m.remove id) := by unfold remove; calm
theorem calm_has {m : EntityManager} {id : Nat} : Calm (m.has id) := by unfold has; calm

end EntityManager

/-- There is no owning group of a type with itself. -/
def NoSelfGroup (w : World V) : Prop := ∀ g ∈ w.groups, g.kind ≠ .non → g.tyA ≠ g.tyB

theorem noSelf_of_tags {w w' : World V} (h : NoSelfGroup w) (ht : w'.groups.map gtag = w.groups.map gtag) : NoSelfGroup w' := by
  intro g hg
  have : gtag g ∈ w'.groups.map gtag := List.mem_map.2 ⟨g, hg, rfl⟩
  rw [ht] at this
  obtain ⟨g0, h0, h1⟩ := List.mem_map.1 this
  simp only [gtag, Prod.mk.injEq] at h1
  rw [← h1.1, ← h1.2.1, ← h1.2.2]
  exact h g0 h0

/-- The operation does not block, and makes no owning group of a type with itself. -/
def CalmM (m : M V α) : Prop := ∀ w, NoSelfGroup w → Calm (m w).2 ∧ NoSelfGroup (m w).1

theorem CalmM.bind {m : M V α} {f : α → M V β} (h : CalmM m) (hf : ∀ a, CalmM (f a)) : CalmM (m >>= f) := by
  intro w hw
  obtain ⟨h1, h2⟩ := h w hw
  rw [M.bind_apply]
  rcases hm : m w with ⟨w1, r⟩
  rw [hm] at h1 h2
  cases r with
  | ok a => exact hf a w1 h2
  | error e => exact ⟨fun hh => h1 (by simpa using hh), h2⟩

theorem CalmM.pure (a : α) : CalmM (pure a : M V α) := fun _ hw => ⟨calm_ok _, hw⟩
theorem CalmM.read {f : World V → R α} (h : ∀ w, Calm (f w)) : CalmM (M.read f) := fun w hw => ⟨h w, hw⟩
theorem CalmM.assert (b : Bool) : CalmM (M.assert b : M V Unit) := fun _ hw => ⟨calm_assertR, hw⟩
theorem CalmM.crit {f : World V → R (World V × α)} {x : M V α} (h : ∀ w, NoSelfGroup w → Calm (f w))
    (hf : Fixes (fun w : World V => w.groups.map gtag) (M.crit f x)) : CalmM (M.crit f x) := by
  intro w hw
  refine ⟨?_, noSelf_of_tags hw (hf w)⟩
  have := h w hw
  unfold M.crit
  cases hc : f w with
  | ok p => exact calm_ok _
  | error e => rw [hc] at this; exact fun hh => this (by simpa using hh)
theorem CalmM.forEach {γ : Type} {l : List γ} {f : γ → M V Unit} (h : ∀ x, CalmM (f x)) : CalmM (M.forEach l f) := by
  induction l with
  | nil => exact .pure ()
  | cons x l ih => exact .bind (h x) fun _ => ih

theorem calm_downcast {st : Storage V} {t : Nat} : Calm (World.downcast st t) := by
  unfold World.downcast; calm

theorem calm_lockPair {w : World V} (h : NoSelfGroup w) {k : Nat} {g : Group} (hg : getR w.groups k = .ok g) :
    Calm (w.lockPair g) := by
  unfold World.lockPair
  refine calm_bind calm_unwrapR fun _ _ => ?_
  rw [if_neg (fun e => h g (List.mem_of_getElem? (getR_ok hg)) e.2 e.1)]
  calm

theorem calm_groupAdd (k id : Nat) : CalmM (M.crit (groupAdd (V := V) k id) (groupAddX k id)) := by
  refine .crit (fun w hw => ?_) (groupAdd_fix blind_tags k id)
  unfold groupAdd
  exact calm_bind calm_getR fun g hg => calm_bind (calm_lockPair hw hg) fun _ _ =>
    calm_bind Group.calm_addG fun _ _ => calm_ok _
theorem calm_groupRemove (k id : Nat) : CalmM (M.crit (groupRemove (V := V) k id) (groupRemoveX k id)) := by
  refine .crit (fun w hw => ?_) (groupRemove_fix blind_tags k id)
  unfold groupRemove
  exact calm_bind calm_getR fun g hg => calm_bind (calm_lockPair hw hg) fun _ _ =>
    calm_bind Group.calm_removeG fun _ _ => calm_ok _
theorem calm_groupMake (k : Nat) : CalmM (M.crit (groupMake (V := V) k) (groupMakeX k)) := by
  refine .crit (fun w hw => ?_) (groupMake_fix blind_tags k)
  unfold groupMake
  exact calm_bind calm_getR fun g hg => calm_bind (calm_lockPair hw hg) fun _ _ =>
    calm_bind Group.calm_make fun _ _ => calm_ok _
theorem calm_groupErase (k id : Nat) : CalmM (M.crit (groupErase (V := V) k id) (groupEraseX k id)) := by
  refine .crit (fun w hw => ?_) (groupErase_fix blind_tags k id)
  unfold groupErase
  refine calm_bind calm_getR fun g hg => calm_bind (calm_lockPair hw hg) fun _ _ =>
    calm_bind Group.calm_removeG fun _ _ => ?_
  dsimp only
  cases g with
  | full n a b =>
    exact calm_bind SparseSet.calm_removeUnwrap fun _ _ =>
      calm_bind SparseSet.calm_removeUnwrap fun _ _ => calm_ok _
  | part n a b => exact calm_bind SparseSet.calm_removeUnwrap fun _ _ => calm_ok _
  | non n a b => exact calm_ok _
theorem calm_storeErase (t id : Nat) : CalmM (M.crit (storeErase (V := V) t id) (storeEraseX t id)) := by
  refine .crit (fun w hw => ?_) (storeErase_fix blind_tags t id)
  unfold storeErase
  exact calm_bind calm_unwrapR fun _ _ => calm_bind SparseSet.calm_removeUnwrap fun _ _ => calm_ok _

theorem calm_exist (id : Nat) : CalmM (World.exist (V := V) id) := .read fun _ => EntityManager.calm_has
theorem calm_entity (id : Nat) : CalmM (World.entity (V := V) id) :=
  .bind (calm_exist id) fun b => by cases b <;> exact .pure _

theorem calm_needRemoveList (w : World V) (id : Nat) : ∀ (gs : List Group) (k : Nat), Calm (w.needRemoveList id k gs) := by
  intro gs
  induction gs with
  | nil => intro k; exact calm_ok _
  | cons g gs ih =>
    intro k
    unfold World.needRemoveList World.needRemove
    exact calm_bind (calm_bind calm_unwrapR fun _ _ => calm_bind calm_unwrapR fun _ _ => Group.calm_inGroup) fun _ _ =>
      calm_bind (ih _) fun _ _ => calm_ok _

theorem calm_out {m : M V α} {f : α → Out V} (h : CalmM m) {w : World V} (hw : NoSelfGroup w) :
    Calm ((m >>= fun a => pure (f a)) w).2 ∧ NoSelfGroup ((m >>= fun a => pure (f a)) w).1 :=
  CalmM.bind h (fun _ => .pure _) w hw

theorem calm_makeGroup {w : World V} (hw : NoSelfGroup w) {k : Kind} {a b : Nat} (hs : k ≠ .non → a ≠ b) :
    Calm (World.makeGroup k a b w).2 ∧ NoSelfGroup (World.makeGroup k a b w).1 := by
  have hnew : NoSelfGroup { w with groups := w.groups ++ [Group.fresh k a b] } := by
    intro g hg
    rcases List.mem_append.1 hg with h1 | h1
    · exact hw g h1
    · simp only [List.mem_singleton] at h1; subst h1
      cases k <;> simpa [Group.fresh, Group.kind, Group.tyA, Group.tyB] using hs
  obtain ⟨c1, c2⟩ := calm_groupMake w.groups.length _ hnew
  by_cases h1 : w.hasGroup k a b = false
  · by_cases h2 : w.ownershipFree (Group.fresh k a b) = true
    · simp only [World.makeGroup, M.bind_apply, M.read_apply, h1, h2, M.assert_true, Bool.not_false]
      exact ⟨c1, c2⟩
    · simp only [World.makeGroup, M.bind_apply, M.read_apply, h1, h2, M.assert_true, M.assert_false, Bool.not_false]
      exact ⟨calm_panic, hw⟩
  · simp only [World.makeGroup, M.bind_apply, M.read_apply, h1, M.assert_false, Bool.not_true]
    exact ⟨calm_panic, hw⟩

theorem calm_exec {w : World V} (hw : NoSelfGroup w) (op : Op V)
    (hop : ∀ k a b, op = .makeGroup k a b → k ≠ .non → a ≠ b) : Calm (exec op w).2 ∧ NoSelfGroup (exec op w).1 := by
  have hx := exec_tags op
  cases op with
  | register t =>
    refine calm_out (CalmM.bind (.read fun _ => calm_ok _) fun b => .bind (.assert _) fun _ => .crit (fun w _ => calm_ok _) ?_) hw
    exact Fixes.crit (fun w w' a h => by simp only [Except.ok.injEq, Prod.mk.injEq] at h; rw [← h.1]; rfl)
  | createEntity =>
    refine calm_out (CalmM.bind (.crit (f := World.allocate) (fun w _ => calm_bind EntityManager.calm_allocate fun _ _ => calm_ok _) ?_) fun id =>
      .bind (calm_entity id) fun h => .read fun _ => calm_unwrapR) hw
    rw [allocate_exact]
    exact onTable_fix (fun _ _ => rfl) _
  | createEntities n =>
    refine calm_out (CalmM.crit (fun w _ => calm_ok _) ?_) hw
    exact Fixes.crit (fun w w' a h => by simp only [Except.ok.injEq, Prod.mk.injEq] at h; rw [← h.1])
  | removeEntity order id =>
    refine calm_out (CalmM.bind (calm_exist id) fun b => .bind (.assert _) fun _ => .bind
      (.read fun w => calm_needRemoveList w id _ _) fun ks => .bind (.forEach fun k => calm_groupErase k id) fun _ =>
      .bind (.read fun _ => calm_ok _) fun ts => .bind (.forEach fun t => calm_storeErase t id) fun _ =>
      .crit (f := World.release id) (fun w _ => calm_bind EntityManager.calm_removeE fun _ _ => calm_ok _) ?_) hw
    rw [release_exact]
    exact onTable_fix (fun _ _ => rfl) _
  | exist id => exact calm_out (calm_exist id) hw
  | attach id t v =>
    refine calm_out (CalmM.bind (calm_entity id) fun h => .bind (.read fun _ => calm_unwrapR) fun id =>
      .bind (.read fun _ => calm_ok _) fun b => .bind (.assert _) fun _ => .bind (.crit (fun w _ => ?_) ?_) fun _ =>
      .bind (.read fun _ => calm_ok _) fun ks => .forEach fun k => calm_groupAdd k id) hw
    · unfold attachStore
      exact calm_bind calm_unwrapR fun _ _ => calm_bind calm_downcast fun _ _ =>
        calm_bind SparseSet.calm_add fun _ _ => calm_ok _
    · rw [attachStore_exact]; exact onStore_fix blind_tags _ _
  | detach id t =>
    refine calm_out (CalmM.bind (calm_entity id) fun h => .bind (.read fun _ => calm_unwrapR) fun id =>
      .bind (.read fun _ => calm_ok _) fun b => .bind (.assert _) fun _ =>
      .bind (.read fun _ => calm_ok _) fun ks => .bind (.forEach fun k => calm_groupRemove k id) fun _ => .crit (fun w _ => ?_) ?_) hw
    · unfold detachStore
      exact calm_bind calm_unwrapR fun _ _ => calm_bind calm_downcast fun _ _ =>
        calm_bind SparseSet.calm_remove fun _ _ => calm_ok _
    · rw [detachStore_exact]; exact onStore_fix blind_tags _ _
  | attachBatch a b t vs =>
    refine calm_out (CalmM.bind (.assert _) fun _ => .crit (fun w _ => ?_) ?_) hw
    · exact calm_bind calm_unwrapR fun _ _ => calm_bind calm_downcast fun _ _ =>
        calm_bind SparseSet.calm_addBatch fun _ _ => calm_ok _
    · rw [batchStore_exact]; exact onStore_fix blind_tags _ _
  | makeGroup k a b =>
    have h1 := calm_makeGroup hw (k := toKind k) (a := a) (b := b) (fun hk => hop k a b rfl (by rintro rfl; exact hk rfl))
    exact CalmM.bind (m := fun _ => World.makeGroup (toKind k) a b w) (fun _ _ => h1) (fun _ => .pure _) w hw
  | read t id =>
    refine calm_out (CalmM.read fun w => ?_) hw
    repeat (first | exact calm_downcast | exact SparseSet.calm_getUnchecked | calm_step)
  | write t id v =>
    refine ⟨?_, noSelf_of_tags hw (hx w)⟩
    refine (calm_out (CalmM.crit (fun w _ => ?_) (componentWrite_fix blind_tags t id v)) hw).1
    repeat (first | exact calm_downcast | exact SparseSet.calm_setUnchecked | calm_step)
  | count t =>
    refine calm_out (CalmM.read fun w => ?_) hw
    repeat (first | exact calm_downcast | calm_step)
  | registerResource t v =>
    refine ⟨?_, noSelf_of_tags hw (hx w)⟩
    exact calm_ok _
  | resourceRead t =>
    refine calm_out (CalmM.read fun w => ?_) hw
    repeat (first | (unfold World.downcastRes) | calm_step)
  | resourceWrite t v =>
    refine ⟨?_, noSelf_of_tags hw (hx w)⟩
    refine (calm_out (CalmM.crit (fun w _ => ?_) (resourceWrite_fix (fun _ _ => rfl) t v)) hw).1
    repeat (first | (unfold World.downcastRes) | calm_step)

end Xecs
