import Verif.Proofs.Exact
import Verif.Model.World
/-
Each critical section of the model is the section statement by statement: the same result, and the same world
afterwards, whether or not it faults.
-/
set_option autoImplicit false
namespace Xecs
variable {V : Type}
open World

theorem M.crit_eq {α : Type} {f : World V → R (World V × α)} {x : M V α} (h : ∀ w, Ends (x w) (f w)) : M.crit f x = x := by
  funext w
  have := h w
  unfold M.crit
  cases hf : f w with
  | ok r =>
    rw [hf] at this
    exact (show x w = _ from this).symm
  | error e =>
    rw [hf] at this
    have this : (x w).2 = .error e := this
    dsimp only
    rw [← this]

theorem onTable_ends {α : Type} {m : Stm EntityManager α} {f : EntityManager → R (EntityManager × α)} (h : m.Does f) (w : World V) :
    Ends (onTable m w) (do let r ← f w.em; .ok ({ w with em := r.1 }, r.2)) := by
  unfold onTable
  cases hf : f w.em with
  | ok r => rw [h.ok (s' := r.1) (a := r.2) hf]; rfl
  | error e => exact h.error hf

theorem onStore_ends {α : Type} {m : Stm (SparseSet V) α} {f : SparseSet V → R (SparseSet V × α)} (h : m.Does f) (t : TypeId)
    (w : World V) : Ends (onStore t m w) (do
      let s ← downcast (← unwrapR (w.comps t)) t
      let r ← f s
      .ok (w.setSet t r.1, r.2)) := by
  unfold onStore
  cases hs : unwrapR (w.comps t) with
  | error e => rfl
  | ok st =>
    simp only [R.bind_ok]
    cases hd : downcast st t with
    | error e => rfl
    | ok s =>
      simp only [R.bind_ok]
      cases hf : f s with
      | ok r => rw [h.ok (s' := r.1) (a := r.2) hf]; rfl
      | error e => exact h.error hf

theorem onRaw_ends {α : Type} {m : Stm (SparseSet V) α} {f : SparseSet V → R (SparseSet V × α)} (h : m.Does f) (t : TypeId)
    (w : World V) : Ends (onRaw t m w) (do
      let st ← unwrapR (w.comps t)
      let r ← f st.set
      .ok (w.setSet t r.1, r.2)) := by
  unfold onRaw
  cases hs : unwrapR (w.comps t) with
  | error e => rfl
  | ok st =>
    simp only [R.bind_ok]
    cases hf : f st.set with
    | ok r => rw [h.ok (s' := r.1) (a := r.2) hf]; rfl
    | error e => exact h.error hf

theorem onPair_ends {α : Type} {m : Stm (Group.Trio V) α} {f : Group.Trio V → R (Group.Trio V × α)} (h : m.Does f) (k : Nat)
    (w : World V) : Ends (onPair k m w) (do
      let g ← getR w.groups k
      let p ← w.lockPair g
      let r ← f (g, p)
      .ok (w.putPair k r.1, r.2)) := by
  unfold onPair
  cases hg : getR w.groups k with
  | error e => rfl
  | ok g =>
    simp only [R.bind_ok]
    cases hp : w.lockPair g with
    | error e => rfl
    | ok p =>
      simp only [R.bind_ok]
      cases hf : f (g, p) with
      | ok r => rw [h.ok (s' := r.1) (a := r.2) hf]; rfl
      | error e => exact h.error hf

/-- src/world.rs:78-80 is its statements. -/
theorem allocate_exact : M.crit allocate (onTable EntityManager.allocateX) = (onTable EntityManager.allocateX : M V EntityId) :=
  M.crit_eq fun w => onTable_ends EntityManager.allocateX_does w

theorem release_exact (id : EntityId) : M.crit (release id) (onTable (EntityManager.removeX id)) =
    (onTable (EntityManager.removeX id) : M V Unit) := by
  refine M.crit_eq fun w => ?_
  have := onTable_ends (V := V) (EntityManager.removeX_does id) w
  simp only [bind_assoc, R.bind_ok] at this
  exact this

theorem attachStore_exact (t id : EntityId) (v : V) : M.crit (attachStore t id v) (attachStoreX t id v) = attachStoreX t id v := by
  refine M.crit_eq fun w => ?_
  have := onStore_ends (SparseSet.addX_does id v) t w
  simp only [bind_assoc, R.bind_ok] at this
  exact this

theorem detachStore_exact (t id : EntityId) : M.crit (detachStore (V := V) t id) (detachStoreX t id) = detachStoreX t id :=
  M.crit_eq fun w => onStore_ends (SparseSet.removeX_does id) t w

theorem batchStore_exact (start stop t : EntityId) (vs : List V) :
    M.crit (batchStore start stop t vs) (batchStoreX start stop t vs) = batchStoreX start stop t vs := by
  refine M.crit_eq fun w => ?_
  have := onStore_ends (SparseSet.addBatchX_does (List.range' start (stop - start)) vs) t w
  simp only [bind_assoc, R.bind_ok] at this
  exact this

theorem storeErase_exact (t id : EntityId) : M.crit (storeErase (V := V) t id) (storeEraseX t id) = storeEraseX t id := by
  refine M.crit_eq fun w => ?_
  have := onRaw_ends (V := V) (SparseSet.removeUnwrapX_does id) t w
  simp only [bind_assoc, R.bind_ok] at this
  exact this

theorem groupAdd_exact (k : Nat) (id : EntityId) : M.crit (groupAdd (V := V) k id) (groupAddX k id) = groupAddX k id := by
  refine M.crit_eq fun w => ?_
  have := onPair_ends (V := V) (Group.addX_does id) k w
  simp only [bind_assoc, R.bind_ok] at this
  exact this

theorem groupRemove_exact (k : Nat) (id : EntityId) : M.crit (groupRemove (V := V) k id) (groupRemoveX k id) = groupRemoveX k id := by
  refine M.crit_eq fun w => ?_
  have := onPair_ends (V := V) (Group.removeX_does id) k w
  simp only [bind_assoc, R.bind_ok] at this
  exact this

theorem groupMake_exact (k : Nat) : M.crit (groupMake (V := V) k) (groupMakeX k) = groupMakeX k := by
  refine M.crit_eq fun w => ?_
  have := onPair_ends (V := V) Group.makeX_does k w
  simp only [bind_assoc, R.bind_ok] at this
  exact this

theorem eraseX_does (id : EntityId) : Stm.Does (σ := Group.Trio V) (do
      let g ← Stm.read fun x => .ok x.1
      Group.removeX id
      match g with
      | .full .. => do Group.onA (SparseSet.removeUnwrapX id); Group.onB (SparseSet.removeUnwrapX id)
      | .part .. => Group.onA (SparseSet.removeUnwrapX id)
      | .non .. => pure ())
    (fun x => do
      let (g', A', B') ← x.1.remove id x.2.1 x.2.2
      match x.1 with
      | .full .. => .ok ((g', ← A'.removeUnwrap id, ← B'.removeUnwrap id), ())
      | .part .. => .ok ((g', ← A'.removeUnwrap id, B'), ())
      | .non .. => .ok ((g', A', B'), ())) := by
  rintro ⟨g, A, B⟩
  rw [Stm.bind_apply, Stm.read_apply]
  refine (Group.removeX_does id).andThen (fun x _ h => ?_) fun e h => ?_
  · cases hr : g.remove id A B with
    | error e => rw [hr] at h; cases h
    | ok r =>
      rw [hr] at h
      cases h
      dsimp only
      rw [hr]
      simp only [R.bind_ok]
      clear hr
      cases g with
      | non s a b => rfl
      | part n a b =>
        dsimp only
        have := Group.onA_does (SparseSet.removeUnwrapX_does id) x
        revert this
        cases hA : x.2.1.removeUnwrap id with
        | error e => simp only [hA]; exact fun h => h
        | ok A' => simp only [hA]; exact fun h => h
      | full n a b =>
        dsimp only
        refine (Group.onA_does (SparseSet.removeUnwrapX_does id)).andThen (fun y _ h => ?_) fun e h => ?_
        · cases hA : x.2.1.removeUnwrap id with
          | error e => rw [hA] at h; cases h
          | ok A' =>
            rw [hA] at h
            cases h
            have := Group.onB_does (SparseSet.removeUnwrapX_does id) (x.1, A', x.2.2)
            revert this
            cases hB : x.2.2.removeUnwrap id with
            | error e => simp only [hB]; exact fun h => h
            | ok B' => simp only [hB]; exact fun h => h
        · cases hA : x.2.1.removeUnwrap id with
          | ok A' => rw [hA] at h; cases h
          | error e => rw [hA] at h; cases h; rfl
  · cases hr : g.remove id A B with
    | ok r => rw [hr] at h; cases h
    | error e => rw [hr] at h; cases h; dsimp only; rw [hr]; rfl

theorem groupErase_exact (k : Nat) (id : EntityId) : M.crit (groupErase (V := V) k id) (groupEraseX k id) = groupEraseX k id := by
  refine M.crit_eq fun w => ?_
  have := onPair_ends (V := V) (eraseX_does id) k w
  rw [show groupErase k id w = _ from ?_]
  · exact this
  · unfold groupErase
    cases getR w.groups k with
    | error e => rfl
    | ok g =>
      simp only [R.bind_ok]
      cases w.lockPair g with
      | error e => rfl
      | ok p =>
        simp only [R.bind_ok]
        cases g.remove id p.1 p.2 with
        | error e => rfl
        | ok r =>
          simp only [R.bind_ok]
          cases g with
          | non s a b => rfl
          | part n a b =>
            dsimp only
            cases r.2.1.removeUnwrap id <;> rfl
          | full n a b =>
            dsimp only
            cases r.2.1.removeUnwrap id with
            | error e => rfl
            | ok A =>
              simp only [R.bind_ok]
              cases r.2.2.removeUnwrap id <;> rfl

end Xecs
