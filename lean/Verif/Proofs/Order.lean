import Verif.Spec.Order
import Verif.Proofs.Storage
import Verif.Proofs.ExactWorld
/-
The order of a storage that no group owns.
-/
set_option autoImplicit false
namespace Xecs
open Spec World Hist
variable {V : Type}

/-! ### Lists -/

theorem swapOut_absent {id : Nat} {l : List Nat} (h : id ∉ l) : swapOut id l = l := by
  unfold swapOut
  split
  · rw [if_neg h]
  · rfl

theorem swapOut_at {id i : Nat} {l l' : List Nat} (hn : l.Nodup) (hi : l[i]? = some id) (hl : l'.length = l.length - 1)
    (hk : ∀ k, l'[k]? = if k < l.length - 1 then (if k = i then l[l.length - 1]? else l[k]?) else none) : l' = swapOut id l := by
  obtain ⟨hlt, he⟩ := List.getElem?_eq_some_iff.1 hi
  have hm : id ∈ l := by rw [← he]; exact List.getElem_mem hlt
  have hne : l ≠ [] := by intro h; rw [h] at hlt; simp at hlt
  have hz : l.getLast? = some (l.getLast hne) := List.getLast?_eq_some_getLast hne
  have hix : l.idxOf id = i := by
    rw [← he]; exact hn.idxOf_getElem i hlt
  have hzz : l[l.length - 1]? = l.getLast? := List.getLast?_eq_getElem?.symm
  unfold swapOut
  rw [hz]
  simp only [hm, if_true, hix]
  apply List.ext_getElem?
  intro k
  rw [hk, List.getElem?_dropLast, List.length_set, List.getElem?_set]
  by_cases hkl : k < l.length - 1
  · rw [if_pos hkl, if_pos hkl]
    by_cases hki : k = i
    · subst hki
      rw [if_pos rfl, if_pos rfl, if_pos hlt, hzz, hz]
    · rw [if_neg hki, if_neg (fun h => hki h.symm)]
  · rw [if_neg hkl, if_neg hkl]

/-! ### What may happen to a storage -/

/-- The entities stay where they are. -/
def Rests (S S' : SparseSet V) : Prop := S.WF → S'.WF ∧ S'.entities = S.entities

/-- `id` may have been added at the end. -/
def Gains (id : Nat) (S S' : SparseSet V) : Prop :=
  S.WF → S'.WF ∧ (S'.entities = S.entities ∨ (id ∉ S.entities ∧ S'.entities = S.entities ++ [id]))

/-- `id` may have been taken out. -/
def Drops (id : Nat) (S S' : SparseSet V) : Prop :=
  S.WF → S'.WF ∧ (S'.entities = S.entities ∨ (id ∈ S.entities ∧ id ∉ S'.entities ∧ S'.entities = swapOut id S.entities))

theorem Gains.trans {id : Nat} {S S' S'' : SparseSet V} (h : Gains id S S') (h' : Gains id S' S'') : Gains id S S'' := by
  intro hw
  obtain ⟨h1, h2⟩ := h hw
  obtain ⟨h3, h4⟩ := h' h1
  refine ⟨h3, ?_⟩
  rcases h2 with h2 | ⟨h2, h2'⟩
  · rw [h2] at h4; exact h4
  · rcases h4 with h4 | ⟨h4, _⟩
    · exact .inr ⟨h2, h4.trans h2'⟩
    · rw [h2'] at h4; simp at h4

theorem Drops.trans {id : Nat} {S S' S'' : SparseSet V} (h : Drops id S S') (h' : Drops id S' S'') : Drops id S S'' := by
  intro hw
  obtain ⟨h1, h2⟩ := h hw
  obtain ⟨h3, h4⟩ := h' h1
  refine ⟨h3, ?_⟩
  rcases h2 with h2 | ⟨h2, h2', h2''⟩
  · rw [h2] at h4; exact h4
  · rcases h4 with h4 | ⟨h4, _⟩
    · exact .inr ⟨h2, by rw [h4]; exact h2', h4.trans h2''⟩
    · exact absurd h4 h2'

theorem Rests.trans {S S' S'' : SparseSet V} (h : Rests S S') (h' : Rests S' S'') : Rests S S'' := by
  intro hw
  obtain ⟨h1, h2⟩ := h hw
  obtain ⟨h3, h4⟩ := h' h1
  exact ⟨h3, h4.trans h2⟩

theorem Rests.refl (S : SparseSet V) : Rests S S := fun h => ⟨h, rfl⟩
theorem Rests.gains {S S' : SparseSet V} (h : Rests S S') (id : Nat) : Gains id S S' := fun hw => ⟨(h hw).1, .inl (h hw).2⟩
theorem Rests.drops {S S' : SparseSet V} (h : Rests S S') (id : Nat) : Drops id S S' := fun hw => ⟨(h hw).1, .inl (h hw).2⟩

theorem addX_gains (id : Nat) (v : V) (S : SparseSet V) : Gains id S (SparseSet.addX id v S).1 := by
  intro hw
  by_cases hm : id ∈ S.entities
  · obtain ⟨S', h1, h2, h3, _⟩ := SparseSet.add_present hw v hm
    rw [(SparseSet.addX_does id v).ok (s := S) (s' := S') (a := ()) (by rw [h1]; rfl)]
    exact ⟨h2, .inl h3⟩
  · obtain ⟨S', h1, h2, h3, _⟩ := SparseSet.add_absent hw v hm
    rw [(SparseSet.addX_does id v).ok (s := S) (s' := S') (a := ()) (by rw [h1]; rfl)]
    exact ⟨h2, .inr ⟨hm, h3⟩⟩

theorem remove_drops {id i : Nat} {S : SparseSet V} (hw : S.WF) (hi : S.entities[i]? = some id) :
    ∃ S', S.remove id = .ok (S', S.lookup id) ∧ S'.WF ∧ id ∉ S'.entities ∧ S'.entities = swapOut id S.entities := by
  obtain ⟨S', h1, h2, _, h3, h4, _, h5⟩ := SparseSet.remove_present hw hi
  exact ⟨S', h1, h2, fun hm => ((h5 id).1 hm).1 rfl, swapOut_at (SparseSet.nodup hw) hi h3 h4⟩

theorem removeX_drops (id : Nat) (S : SparseSet V) : Drops id S (SparseSet.removeX id S).1 := by
  intro hw
  by_cases hm : id ∈ S.entities
  · obtain ⟨i, hi⟩ := List.mem_iff_getElem?.1 hm
    obtain ⟨S', h1, h2, h3, h4⟩ := remove_drops hw hi
    rw [(SparseSet.removeX_does id).ok h1]
    exact ⟨h2, .inr ⟨hm, h3, h4⟩⟩
  · suffices h : (SparseSet.removeX id S).1 = S by rw [h]; exact ⟨hw, .inl rfl⟩
    have hr := SparseSet.remove_absent hw hm
    cases h : S.remove id with
    | error e => exact removeX_state_of_error hw h
    | ok p =>
      rw [(SparseSet.removeX_does id).ok (s' := p.1) (a := p.2) h]
      rw [hr] at h
      split at h
      · cases h
      · cases h; rfl

theorem removeUnwrapX_drops (id : Nat) (S : SparseSet V) : Drops id S (SparseSet.removeUnwrapX id S).1 := by
  have : (SparseSet.removeUnwrapX id S).1 = (SparseSet.removeX id S).1 := by
    rw [SparseSet.removeUnwrapX, Stm.bind_apply]
    rcases SparseSet.removeX id S with ⟨S1, r⟩
    cases r with
    | error e => rfl
    | ok o => cases o <;> rfl
  rw [this]
  exact removeX_drops id S

/-- Reflexive and transitive. -/
structure Chains (R : SparseSet V → SparseSet V → Prop) : Prop where
  refl : ∀ S, R S S
  trans : ∀ S S' S'', R S S' → R S' S'' → R S S''

theorem rests_chains : Chains (Rests (V := V)) := ⟨Rests.refl, fun _ _ _ => Rests.trans⟩
theorem gains_chains (id : Nat) : Chains (Gains (V := V) id) := ⟨fun S => (Rests.refl S).gains id, fun _ _ _ => Gains.trans⟩
theorem drops_chains (id : Nat) : Chains (Drops (V := V) id) := ⟨fun S => (Rests.refl S).drops id, fun _ _ _ => Drops.trans⟩

/-! ### Worlds -/

/-- Does a group of this kind over these types own `t`? -/
def tagHolds (x : Kind × Nat × Nat) (t : Nat) : Bool := groupOwns (ofKind x.1, x.2) t

/-- No group owns `t`. -/
def Unheld (t : Nat) (w : World V) : Prop := ∀ x ∈ w.groups.map gtag, tagHolds x t = false

theorem unheld_of {t : Nat} {w : World V} (h : w.Unowned t) : Unheld t w := by
  intro x hx
  obtain ⟨g, hg, rfl⟩ := List.mem_map.1 hx
  refine h g.kind g.tyA g.tyB (List.any_eq_true.2 ⟨g, hg, ?_⟩)
  cases g <;> simp [Group.same, Group.fresh, Group.kind, Group.tyA, Group.tyB]

/-- Groups stay, and the storage of `t`, if no group owns it, changes according to `R`. -/
def M.Moves {α : Type} (t : Nat) (R : SparseSet V → SparseSet V → Prop) (m : M V α) : Prop :=
  ∀ w, (m w).1.groups.map gtag = w.groups.map gtag ∧ (Unheld t w → ∀ st, w.comps t = some st →
    ∃ st', (m w).1.comps t = some st' ∧ R st.set st'.set)

namespace M.Moves
variable {t : Nat} {R : SparseSet V → SparseSet V → Prop} {α β γ : Type}

theorem bind (hR : Chains R) {m : M V α} {f : α → M V β} (h : M.Moves t R m)
    (h' : ∀ a, M.Moves t R (f a)) : M.Moves t R (m >>= f) := by
  intro w
  rw [M.bind_apply]
  obtain ⟨h1, h2⟩ := h w
  rcases hm : m w with ⟨w1, r⟩
  rw [hm] at h1 h2
  cases r with
  | error e => exact ⟨h1, h2⟩
  | ok a =>
    obtain ⟨h3, h4⟩ := h' a w1
    refine ⟨h3.trans h1, fun hu st hst => ?_⟩
    obtain ⟨st1, e1, e2⟩ := h2 hu st hst
    obtain ⟨st2, e3, e4⟩ := h4 (by unfold Unheld; rw [h1]; exact hu) st1 e1
    exact ⟨st2, e3, hR.trans _ _ _ e2 e4⟩

theorem read (hR : Chains R) (f : World V → Xecs.R α) : M.Moves t R (M.read f) :=
  fun _ => ⟨rfl, fun _ st h => ⟨st, h, hR.refl _⟩⟩
theorem pure (hR : Chains R) (a : α) : M.Moves t R (Pure.pure a : M V α) :=
  fun _ => ⟨rfl, fun _ st h => ⟨st, h, hR.refl _⟩⟩
theorem assert (hR : Chains R) (b : Bool) : M.Moves (V := V) t R (M.assert b) :=
  fun _ => ⟨rfl, fun _ st h => ⟨st, h, hR.refl _⟩⟩
theorem forEach (hR : Chains R) {body : γ → M V Unit}
    (h : ∀ c, M.Moves t R (body c)) (l : List γ) : M.Moves t R (M.forEach l body) := by
  induction l with
  | nil => exact pure hR ()
  | cons c l ih => exact bind hR (h c) fun _ => ih
theorem mono {R' : SparseSet V → SparseSet V → Prop} {m : M V α} (h : M.Moves t R m) (hR : ∀ {S S'}, R S S' → R' S S') : M.Moves t R' m := by
  intro w
  obtain ⟨h1, h2⟩ := h w
  refine ⟨h1, fun hu st hst => ?_⟩
  obtain ⟨st', e1, e2⟩ := h2 hu st hst
  exact ⟨st', e1, hR e2⟩
theorem last {m : M V α} {g : α → β} (h : M.Moves t R m) : M.Moves t R (do Pure.pure (g (← m))) := by
  intro w
  obtain ⟨h1, h2⟩ := h w
  rw [M.bind_apply]
  rcases hm : m w with ⟨w1, r⟩
  rw [hm] at h1 h2
  cases r with
  | error e => exact ⟨h1, h2⟩
  | ok a => exact ⟨h1, h2⟩

/-- The storages and groups are untouched. -/
theorem still (hR : Chains R) {m : M V α} (h : ∀ w, (m w).1.groups = w.groups ∧ (m w).1.comps t = w.comps t) : M.Moves t R m := by
  intro w
  obtain ⟨h1, h2⟩ := h w
  exact ⟨by rw [h1], fun _ st hst => ⟨st, by rw [h2]; exact hst, hR.refl _⟩⟩

end M.Moves

variable {t : Nat}

/-- Work on a group leaves the storages it does not own alone. -/
theorem onPair_moves {R : SparseSet V → SparseSet V → Prop} (hR : Chains R) {α : Type} {m : Stm (Group.Trio V) α}
    (hm : ∀ x, Goes (fun _ _ => True) x (m x).1) (k : Nat) : M.Moves t R (onPair k m) := by
  intro w
  refine ⟨(onPair_evo lax_true hm k w).tags, fun hu st hst => ⟨st, ?_, hR.refl _⟩⟩
  unfold onPair
  cases hg : getR w.groups k with
  | error e => exact hst
  | ok g =>
    simp only [Xecs.R.bind_ok]
    cases hp : w.lockPair g with
    | error e => exact hst
    | ok p =>
      obtain ⟨A, B⟩ := p
      have ho := hm (g, A, B)
      have hgo : tagHolds (gtag g) t = false := hu _ (List.mem_map.2 ⟨g, List.mem_of_getElem? (getR_ok hg), rfl⟩)
      obtain ⟨stA, stB, hA, hB, rfl, rfl, hn⟩ := lockPair_inv hp
      have e1 : (m (g, stA.set, stB.set)).1.1.tyA = g.tyA := congrArg (·.2.1) ho.tag
      have e2 : (m (g, stA.set, stB.set)).1.1.tyB = g.tyB := congrArg (·.2.2) ho.tag
      have hab : g.tyA = g.tyB → (m (g, stA.set, stB.set)).1.2.1 = (m (g, stA.set, stB.set)).1.2.2 := by
        intro he
        have := ho.non (hn he)
        rw [he, hB] at hA
        simp only [Option.some.injEq] at hA
        subst hA
        exact (congrArg Prod.fst this).trans (congrArg Prod.snd this).symm
      show (w.putPair k (m (g, stA.set, stB.set)).1).comps t = some st
      rcases hx : (m (g, stA.set, stB.set)).1 with ⟨g', A', B'⟩
      rw [hx] at e1 e2 hab ho
      rw [putPair_comps e1 e2 hA hB hab]
      cases g with
      | full n a b =>
        simp only [tagHolds, gtag, Group.kind, Group.tyA, Group.tyB, ofKind, groupOwns, Bool.or_eq_false_iff, beq_eq_false_iff_ne] at hgo
        rw [if_neg (show ¬ t = (Group.full n a b).tyA from hgo.1), if_neg (show ¬ t = (Group.full n a b).tyB from hgo.2)]
        exact hst
      | part n a b =>
        simp only [tagHolds, gtag, Group.kind, Group.tyA, Group.tyB, ofKind, groupOwns, beq_eq_false_iff_ne] at hgo
        have hp' : B' = stB.set := ho.part rfl
        rw [if_neg (show ¬ t = (Group.part n a b).tyA from hgo)]
        split
        · rename_i he
          rw [he, hB] at hst; cases hst
          exact congrArg (fun S => some (Storage.mk st.ty S)) hp'
        · exact hst
      | non s a b =>
        have hp' : (A', B') = (stA.set, stB.set) := ho.non rfl
        simp only [Prod.mk.injEq] at hp'
        rw [hp'.1, hp'.2]
        split
        · rename_i he
          rw [he, hA] at hst; cases hst; rfl
        · split
          · rename_i he
            rw [he, hB] at hst; cases hst; rfl
          · exact hst

theorem groupAdd_moves (k id : Nat) : M.Moves (V := V) t Rests (M.crit (groupAdd k id) (groupAddX k id)) := by
  rw [groupAdd_exact]; exact onPair_moves rests_chains (addX_goes lax_true id) k
theorem groupRemove_moves (k id : Nat) : M.Moves (V := V) t Rests (M.crit (groupRemove k id) (groupRemoveX k id)) := by
  rw [groupRemove_exact]; exact onPair_moves rests_chains (removeX_goes lax_true id) k
theorem groupErase_moves (k id : Nat) : M.Moves (V := V) t Rests (M.crit (groupErase k id) (groupEraseX k id)) := by
  rw [groupErase_exact]; exact onPair_moves rests_chains (eraseX_goes lax_true (fun _ => trivial)) k
theorem groupMake_moves (k : Nat) : M.Moves (V := V) t Rests (M.crit (groupMake k) (groupMakeX k)) := by
  rw [groupMake_exact]; exact onPair_moves rests_chains (makeX_goes lax_true) k

theorem setSet_moves {R : SparseSet V → SparseSet V → Prop} (hR : Chains R) {u : Nat} {w : World V} {st0 : Storage V}
    (h0 : w.comps u = some st0) {S : SparseSet V} (h : R st0.set S) (st : Storage V) (hst : w.comps t = some st) :
    ∃ st', (w.setSet u S).comps t = some st' ∧ R st.set st'.set := by
  rw [setSet_comps]
  by_cases ht : t = u
  · subst ht
    rw [h0] at hst; cases hst
    rw [if_pos rfl, h0]
    exact ⟨_, rfl, h⟩
  · rw [if_neg ht]; exact ⟨st, hst, hR.refl _⟩

theorem onStore_moves {R : SparseSet V → SparseSet V → Prop} (hR : Chains R) {α : Type} {m : Stm (SparseSet V) α}
    (hm : ∀ S, R S (m S).1) (u : Nat) : M.Moves t R (onStore u m) := by
  intro w
  unfold onStore
  cases hu : unwrapR (w.comps u) with
  | error e => exact ⟨rfl, fun _ st h => ⟨st, h, hR.refl _⟩⟩
  | ok st0 =>
    simp only [Xecs.R.bind_ok]
    cases hd : downcast st0 u with
    | error e => exact ⟨rfl, fun _ st h => ⟨st, h, hR.refl _⟩⟩
    | ok S0 =>
      obtain rfl := downcast_eq hd
      exact ⟨rfl, fun _ st h => setSet_moves hR (unwrapR_ok hu) (hm _) st h⟩

theorem onRaw_moves {R : SparseSet V → SparseSet V → Prop} (hR : Chains R) {α : Type} {m : Stm (SparseSet V) α}
    (hm : ∀ S, R S (m S).1) (u : Nat) : M.Moves t R (onRaw u m) := by
  intro w
  unfold onRaw
  cases hu : unwrapR (w.comps u) with
  | error e => exact ⟨rfl, fun _ st h => ⟨st, h, hR.refl _⟩⟩
  | ok st0 => exact ⟨rfl, fun _ st h => setSet_moves hR (unwrapR_ok hu) (hm _) st h⟩

theorem entityAttach_moves (id u : Nat) (v : V) : M.Moves t (Gains id) (World.entityAttach id u v) := by
  unfold World.entityAttach
  refine .bind (gains_chains id) (.read (gains_chains id) _) fun _ => .bind (gains_chains id) (.assert (gains_chains id) _) fun _ =>
    .bind (gains_chains id) ?_ fun _ => .bind (gains_chains id) (.read (gains_chains id) _) fun ks =>
      .forEach (gains_chains id) (fun k => (groupAdd_moves k id).mono fun h => h.gains id) ks
  rw [attachStore_exact]
  exact onStore_moves (gains_chains id) (addX_gains id v) u

theorem entityDetach_moves (id u : Nat) : M.Moves (V := V) t (Drops id) (World.entityDetach id u) := by
  unfold World.entityDetach
  refine .bind (drops_chains id) (.read (drops_chains id) _) fun _ => .bind (drops_chains id) (.assert (drops_chains id) _) fun _ =>
    .bind (drops_chains id) (.read (drops_chains id) _) fun ks => .bind (drops_chains id)
      (.forEach (drops_chains id) (fun k => (groupRemove_moves k id).mono fun h => h.drops id) ks) fun _ => ?_
  rw [detachStore_exact]
  exact onStore_moves (drops_chains id) (removeX_drops id) u

/-- Calls on a handle reach the storages with the id they were given. -/
theorem handle_moves {R : SparseSet V → SparseSet V → Prop} (hR : Chains R) {α : Type} {id : Nat} {f : Nat → M V α} (h : M.Moves t R (f id)) :
    M.Moves t R (do let o ← World.entity id; let x ← M.read fun _ => unwrapR o; f x) := by
  intro w
  unfold World.entity World.exist
  simp only [M.bind_apply, M.read_apply]
  cases hh : w.em.has id with
  | error e => exact ⟨rfl, fun _ st h => ⟨st, h, hR.refl _⟩⟩
  | ok b =>
    cases b with
    | true => exact h w
    | false => exact ⟨rfl, fun _ st h => ⟨st, h, hR.refl _⟩⟩

theorem removeEntity_moves (order : List Nat) (id : Nat) : M.Moves (V := V) t (Drops id) (World.removeEntity order id) := by
  unfold World.removeEntity
  refine .bind (drops_chains id) (.read (drops_chains id) _) fun _ => .bind (drops_chains id) (.assert (drops_chains id) _) fun _ =>
    .bind (drops_chains id) (.read (drops_chains id) _) fun ks => .bind (drops_chains id)
      (.forEach (drops_chains id) (fun k => (groupErase_moves k id).mono fun h => h.drops id) ks) fun _ =>
    .bind (drops_chains id) (.read (drops_chains id) _) fun ts => .bind (drops_chains id)
      (.forEach (drops_chains id) (fun u => ?_) ts) fun _ => ?_
  · rw [storeErase_exact]; exact onRaw_moves (drops_chains id) (removeUnwrapX_drops id) u
  · rw [release_exact]; exact .still (drops_chains id) fun _ => ⟨rfl, rfl⟩

/-! ### Calls -/

/-- What a call may do to the order of an unowned storage. -/
def Stirs (op : Op V) (t : Nat) (S S' : SparseSet V) : Prop :=
  match op with
  | .attach id u _ => if u = t then Gains id S S' else Rests S S'
  | .detach id u => if u = t then Drops id S S' else Rests S S'
  | .removeEntity _ id => Drops id S S'
  | .attachBatch start stop u vs =>
    if u = t then Rests S S' ∨ (vs.length = stop - start ∧ S.addBatch (List.range' start (stop - start)) vs = .ok S') else Rests S S'
  | _ => Rests S S'

theorem onStore_other {R : SparseSet V → SparseSet V → Prop} (hR : Chains R) {α : Type} {m : Stm (SparseSet V) α} {u : Nat} (hu : u ≠ t) :
    M.Moves t R (onStore u m) := by
  refine .still hR fun w => ?_
  unfold onStore
  split
  · refine ⟨rfl, ?_⟩
    rw [setSet_comps, if_neg (fun h => hu h.symm)]
  · exact ⟨rfl, rfl⟩

theorem entityAttach_other (id u : Nat) (v : V) (hu : u ≠ t) : M.Moves t Rests (World.entityAttach id u v) := by
  unfold World.entityAttach
  refine .bind rests_chains (.read rests_chains _) fun _ => .bind rests_chains (.assert rests_chains _) fun _ =>
    .bind rests_chains ?_ fun _ => .bind rests_chains (.read rests_chains _) fun ks =>
      .forEach rests_chains (fun k => groupAdd_moves k id) ks
  rw [attachStore_exact]
  exact onStore_other rests_chains hu

theorem entityDetach_other (id u : Nat) (hu : u ≠ t) : M.Moves (V := V) t Rests (World.entityDetach id u) := by
  unfold World.entityDetach
  refine .bind rests_chains (.read rests_chains _) fun _ => .bind rests_chains (.assert rests_chains _) fun _ =>
    .bind rests_chains (.read rests_chains _) fun ks => .bind rests_chains
      (.forEach rests_chains (fun k => groupRemove_moves k id) ks) fun _ => ?_
  rw [detachStore_exact]
  exact onStore_other rests_chains hu

theorem setUnchecked_rests {S S' : SparseSet V} {id : Nat} {v : V} (h : S.setUnchecked id v = .ok S') : Rests S S' := by
  intro hw
  simp only [SparseSet.setUnchecked, bind_eq_ok] at h
  obtain ⟨_, _, i, _, _, _, h⟩ := h
  cases h
  exact ⟨⟨by simpa using hw.len, hw.idx0, hw.idx⟩, rfl⟩

theorem componentWrite_moves (u id : Nat) (v : V) : M.Moves t Rests (World.componentWrite u id v) := by
  intro w
  cases hx : World.componentWrite u id v w with
  | mk w' r =>
    cases r with
    | ok b =>
      rcases componentWrite_inv hx with ⟨rfl, rfl⟩ | ⟨rfl, st, S, hst, hex, hS, rfl⟩
      · exact ⟨rfl, fun _ st h => ⟨st, h, .refl _⟩⟩
      · exact ⟨rfl, fun _ st' h => setSet_moves rests_chains hst (setUnchecked_rests hS) st' h⟩
    | error e =>
      have : w' = w := by
        unfold World.componentWrite M.crit at hx
        split at hx
        · cases hx
        · cases hx; rfl
      subst this
      exact ⟨rfl, fun _ st h => ⟨st, h, .refl _⟩⟩

theorem attachBatch_moves (start stop u : Nat) (vs : List V) :
    M.Moves t (Stirs (.attachBatch start stop u vs) t) (World.attachBatch start stop u vs) := by
  have hrefl : ∀ S : SparseSet V, Stirs (.attachBatch start stop u vs) t S S := by
    intro S
    simp only [Stirs]
    split
    · exact .inl (.refl S)
    · exact .refl S
  intro w
  cases hb : (vs.length == stop - start) with
  | false =>
    have hm : World.attachBatch start stop u vs w = (w, .error .panic) := by
      unfold World.attachBatch
      rw [M.bind_apply, hb, M.assert_false]
    rw [hm]
    exact ⟨rfl, fun _ st h => ⟨st, h, hrefl _⟩⟩
  | true =>
    have hm : World.attachBatch start stop u vs w = M.crit (batchStore start stop u vs) (batchStoreX start stop u vs) w := by
      unfold World.attachBatch
      rw [M.bind_apply, hb, M.assert_true]
    rw [hm]
    have hlen := beq_iff_eq.1 hb
    cases hx : batchStore start stop u vs w with
    | ok p =>
      obtain ⟨w', _⟩ := p
      rw [M.crit_ok hx]
      simp only [batchStore, bind_eq_ok, downcast] at hx
      obtain ⟨st0, hst0, s, hd, S, hS, hs⟩ := hx
      have hst0 := unwrapR_ok hst0
      split at hd
      · simp at hd hs; subst hd hs
        refine ⟨rfl, fun _ st h => ?_⟩
        rw [setSet_comps]
        simp only [Stirs]
        by_cases ht : t = u
        · subst ht
          rw [h] at hst0; cases hst0
          rw [if_pos rfl, h]
          exact ⟨_, rfl, by rw [if_pos rfl]; exact .inr ⟨hlen, hS⟩⟩
        · rw [if_neg ht]; exact ⟨st, h, by rw [if_neg (fun h => ht h.symm)]; exact .refl _⟩
      · simp at hd
    | error e =>
      rw [M.crit_error hx]
      unfold batchStore at hx
      have hw : (batchStoreX start stop u vs w).1 = w := by
        cases hs : unwrapR (w.comps u) with
        | error e => simp only [batchStoreX, onStore, hs]; rfl
        | ok st =>
          cases hd : downcast st u with
          | error e => simp only [batchStoreX, onStore, hs, R.bind_ok, hd]
          | ok S =>
            obtain ⟨S', hS⟩ := addBatch_total S (List.range' start (stop - start)) vs
              (by rw [List.length_range']; exact hlen.symm)
            simp only [hs, hd, hS, R.bind_ok] at hx
            cases hx
      dsimp only
      rw [hw]
      exact ⟨rfl, fun _ st h => ⟨st, h, hrefl _⟩⟩

theorem register_moves (u : Nat) : M.Moves (V := V) t Rests (World.register u) := by
  intro w
  unfold World.register
  simp only [M.bind_apply, M.read_apply]
  cases hb : w.hasRegistered u with
  | true => exact ⟨rfl, fun _ st h => ⟨st, h, .refl _⟩⟩
  | false =>
    refine ⟨rfl, fun _ st h => ⟨st, ?_, .refl _⟩⟩
    show (w.insertStorage u).comps t = some st
    simp only [insertStorage]
    split
    · rename_i he; subst he
      simp [hasRegistered, h] at hb
    · exact h

theorem exec_stirs (op : Op V) (hop : ∀ k a b, op ≠ .makeGroup k a b) (t : Nat) : M.Moves t (Stirs op t) (exec op) := by
  have hc := rests_chains (V := V)
  cases op with
  | register u => exact .last (g := fun _ => Out.unit) (register_moves u)
  | createEntity =>
    refine .last (g := Out.id) (.bind hc ?_ fun _ => .bind hc (.bind hc (.read hc _) fun b => by cases b <;> exact .pure hc _) fun _ => .read hc _)
    rw [allocate_exact]; exact .still hc fun _ => ⟨rfl, rfl⟩
  | createEntities n => exact .last (g := fun r : Nat × Nat => Out.range r.1 r.2) (.still hc fun _ => ⟨rfl, rfl⟩)
  | removeEntity order id => exact .last (g := fun _ => Out.unit) (removeEntity_moves order id)
  | exist id => exact .last (g := Out.bool) (.read hc _)
  | attach id u v =>
    refine .last (g := fun _ => Out.unit) ?_
    unfold Stirs
    dsimp only
    by_cases hu : u = t
    · simp only [if_pos hu]; exact handle_moves (gains_chains id) (f := fun x => entityAttach x u v) (entityAttach_moves id u v)
    · simp only [if_neg hu]; exact handle_moves hc (f := fun x => entityAttach x u v) (entityAttach_other id u v hu)
  | detach id u =>
    refine .last (g := Out.val) ?_
    unfold Stirs
    dsimp only
    by_cases hu : u = t
    · simp only [if_pos hu]; exact handle_moves (drops_chains id) (f := fun x => entityDetach x u) (entityDetach_moves id u)
    · simp only [if_neg hu]; exact handle_moves hc (f := fun x => entityDetach x u) (entityDetach_other id u hu)
  | attachBatch start stop u vs => exact .last (g := fun _ => Out.unit) (attachBatch_moves start stop u vs)
  | makeGroup k a b => exact absurd rfl (hop k a b)
  | read u id => exact .last (g := Out.val) (.read hc _)
  | write u id v => exact .last (g := Out.bool) (componentWrite_moves u id v)
  | count u => exact .last (g := Out.count) (.read hc _)
  | registerResource u v => exact .last (g := fun _ => Out.unit) (.still hc fun _ => ⟨rfl, rfl⟩)
  | resourceRead u => exact .last (g := Out.val) (.read hc _)
  | resourceWrite u v =>
    refine .last (g := Out.bool) (.still hc fun w => ?_)
    unfold World.resourceWrite M.crit
    cases hr : w.res u with
    | none => simp only [hr, and_self]
    | some r =>
      cases hd : downcastRes r u with
      | error e => simp only [hr, hd]; exact ⟨rfl, rfl⟩
      | ok x => simp only [hr, hd]; exact ⟨rfl, rfl⟩

/-- Making a group. -/
theorem makeGroup_stirs (k : SKind) (a b t : Nat) (w : World V) (hu : Unheld t (exec (.makeGroup k a b) w).1) :
    Unheld t w ∧ ∀ st, w.comps t = some st → ∃ st', (exec (.makeGroup k a b) w).1.comps t = some st' ∧ Rests st.set st'.set := by
  have e : (exec (.makeGroup k a b) w).1 = (World.makeGroup (toKind k) a b w).1 := by
    show ((do World.makeGroup (toKind k) a b; pure Out.unit : M V (Out V)) w).1 = _
    rw [M.bind_apply]
    rcases World.makeGroup (toKind k) a b w with ⟨w', r⟩
    cases r <;> rfl
  rw [e] at hu ⊢
  have hx : (World.makeGroup (toKind k) a b w).1 = w ∨ (World.makeGroup (toKind k) a b w).1 =
      (M.crit (groupMake w.groups.length) (groupMakeX w.groups.length)
        { w with groups := w.groups ++ [Group.fresh (toKind k) a b] }).1 := by
    unfold World.makeGroup
    simp only [M.bind_apply, M.read_apply]
    cases h1 : w.hasGroup (toKind k) a b with
    | true => exact .inl rfl
    | false =>
      simp only [Bool.not_false, M.assert_true]
      cases h2 : w.ownershipFree (Group.fresh (toKind k) a b) with
      | false => exact .inl rfl
      | true => exact .inr rfl
  rcases hx with hx | hx
  · rw [hx] at hu ⊢
    exact ⟨hu, fun st h => ⟨st, h, .refl _⟩⟩
  · rw [hx] at hu ⊢
    obtain ⟨h1, h2⟩ := groupMake_moves (V := V) (t := t) w.groups.length { w with groups := w.groups ++ [Group.fresh (toKind k) a b] }
    have hu' : Unheld t { w with groups := w.groups ++ [Group.fresh (toKind k) a b] } := by unfold Unheld; rw [← h1]; exact hu
    refine ⟨fun x hx => hu' x ?_, fun st h => h2 hu' st h⟩
    simp only [List.map_append, List.mem_append]
    exact .inl hx

/-! ### Histories -/

theorem unheld_back (op : Op V) {w : World V} {t : Nat} (h : Unheld t (exec op w).1) : Unheld t w := by
  by_cases hop : ∃ k a b, op = .makeGroup k a b
  · obtain ⟨k, a, b, rfl⟩ := hop
    exact (makeGroup_stirs k a b t w h).1
  · have := (exec_stirs op (fun k a b e => hop ⟨k, a, b, e⟩) t w).1
    unfold Unheld at h ⊢
    rw [this] at h
    exact h

/-- One call. -/
theorem exec_order (op : Op V) {w : World V} {t : Nat} (h : Unheld t (exec op w).1) {st : Storage V} (hst : w.comps t = some st) :
    ∃ st', (exec op w).1.comps t = some st' ∧ Stirs op t st.set st'.set := by
  by_cases hop : ∃ k a b, op = .makeGroup k a b
  · obtain ⟨k, a, b, rfl⟩ := hop
    exact (makeGroup_stirs k a b t w h).2 st hst
  · exact (exec_stirs op (fun k a b e => hop ⟨k, a, b, e⟩) t w).2 (unheld_back op h) st hst

theorem Look.mem {w : World V} {tr : List (Op V × Out V)} (h : Look w tr) {t : Nat} {st : Storage V} (hst : w.comps t = some st) (id : Nat) :
    id ∈ st.set.entities ↔ (lastValue t id tr).isSome = true := by
  obtain ⟨_, _, h3, h4⟩ := h.at_some hst
  rw [← SparseSet.lookup_isSome h3, h4]

/-- A call that changed no membership has not changed the order. -/
theorem Stirs.same {op : Op V} {t : Nat} {S S' : SparseSet V} (h : Stirs op t S S') (hw : S.WF)
    (hm : ∀ id, id ∈ S'.entities ↔ id ∈ S.entities) (hl : S'.entities.length = S.entities.length) : S'.entities = S.entities := by
  have hg : ∀ id, Gains id S S' → S'.entities = S.entities := by
    intro id h
    rcases (h hw).2 with h | ⟨h, h'⟩
    · exact h
    · exact absurd ((hm id).1 (by rw [h']; simp)) h
  have hd : ∀ id, Drops id S S' → S'.entities = S.entities := by
    intro id h
    rcases (h hw).2 with h | ⟨h, h', _⟩
    · exact h
    · exact absurd ((hm id).2 h) h'
  cases op with
  | attach id u v => simp only [Stirs] at h; split at h <;> first | exact hg _ h | exact (h hw).2
  | detach id u => simp only [Stirs] at h; split at h <;> first | exact hd _ h | exact (h hw).2
  | removeEntity order id => exact hd _ h
  | attachBatch start stop u vs =>
    simp only [Stirs] at h
    split at h
    · rcases h with h | ⟨_, h⟩
      · exact (h hw).2
      · simp only [SparseSet.addBatch, bind_eq_ok] at h
        obtain ⟨_, _, _, _, h⟩ := h
        cases h
        simp only [List.length_append] at hl
        have : List.range' start (stop - start) = [] := List.eq_nil_of_length_eq_zero (by omega)
        simp only [this, List.append_nil]
    · exact (h hw).2
  | _ => exact (h hw).2

/-- The order of an unowned storage is what the history says. -/
theorem any_slots {tr : List (Op V × Out V)} {w : World V} (h : AnyTrace tr w) : NoRebatch tr → ∀ {t : Nat}, Unheld t w →
    match w.comps t with
    | some st => st.set.entities = slots t tr
    | none => slots t tr = [] := by
  induction h with
  | init => intro _ t _; rfl
  | fails hr he hc ih =>
    rename_i tr w w' op e
    intro hn t hu
    have hl := any_look hr hn
    have hl' := any_look (.fails hr he hc) hn
    have hw : (exec op w).1 = w' := by rw [he]
    rw [← hw] at hu
    have ih := ih hn (unheld_back op hu)
    cases hs : w.comps t with
    | none =>
      rw [hs] at ih
      cases hs' : w'.comps t with
      | none => exact ih
      | some st' => exact absurd (hl'.at_some hs').1 (by rw [(hl.at_none hs).1]; simp)
    | some st =>
      rw [hs] at ih
      obtain ⟨st', h1, h2⟩ := exec_order op hu hs
      rw [hw] at h1
      rw [h1]
      have hm : ∀ id, id ∈ st'.set.entities ↔ id ∈ st.set.entities := fun id => by rw [hl.mem hs, hl'.mem h1]
      have hp : st'.set.entities.Perm st.set.entities :=
        (List.perm_ext_iff_of_nodup (SparseSet.nodup (hl'.at_some h1).2.2.1) (SparseSet.nodup (hl.at_some hs).2.2.1)).2 hm
      exact (h2.same (hl.at_some hs).2.2.1 hm hp.length_eq).trans ih
  | ok hr hord he ih =>
    rename_i tr w w' op o
    intro hn t hu
    have hn0 : NoRebatch tr := by cases op <;> first | exact hn | exact hn.2
    have hl := any_look hr hn0
    have hl' := any_look (.ok hr hord he) hn
    have hw : (exec op w).1 = w' := by rw [he]
    rw [← hw] at hu
    have ih := ih hn0 (unheld_back op hu)
    cases hs : w.comps t with
    | none =>
      rw [hs] at ih
      have hnone := hl.at_none hs
      dsimp only at ih
      have hslots : slots t ((op, o) :: tr) = [] := by
        cases op with
        | attach id u v =>
          simp only [slots]
          rw [if_neg, ih]
          rintro ⟨rfl, _⟩
          simp only [exec, bind_pure_ok] at he
          obtain ⟨_, he, _⟩ := he
          obtain ⟨_, st, S, w1, h, _⟩ := attach_inv he
          rw [hs] at h; cases h
        | attachBatch start stop u vs =>
          simp only [slots]
          rw [if_neg, ih]
          rintro rfl
          simp only [exec, bind_pure_ok] at he
          obtain ⟨_, he, _⟩ := he
          obtain ⟨_, st, S, h, _⟩ := attachBatch_inv he
          rw [hs] at h; cases h
        | detach id u => simp only [slots, ih]; split <;> rfl
        | removeEntity order id => simp only [slots, ih]; rfl
        | _ => exact ih
      cases hs' : w'.comps t with
      | none => exact hslots
      | some st' =>
        rw [hslots]
        apply List.eq_nil_iff_forall_not_mem.2
        intro id hid
        rw [hl'.mem hs'] at hid
        have hreg := (hl'.at_some hs').1
        cases op with
        | register u => 
          have : lastValue t id ((Op.register u, o) :: tr) = lastValue t id tr := rfl
          rw [this, hnone.2] at hid
          cases hid
        | _ => exact absurd (show registered t tr = true from hreg) (by rw [hnone.1]; simp)
    | some st =>
      rw [hs] at ih
      obtain ⟨st', h1, h2⟩ := exec_order op hu hs
      rw [hw] at h1
      rw [h1]
      dsimp only at ih ⊢
      obtain ⟨l1, l2, l3, l4⟩ := hl.at_some hs
      obtain ⟨k1, k2, k3, k4⟩ := hl'.at_some h1
      cases op with
      | attach id u v =>
        simp only [Stirs] at h2
        simp only [slots]
        by_cases hut : u = t
        · subst hut
          rw [if_pos rfl] at h2
          by_cases hm : id ∈ slots u tr
          · rw [if_neg (fun h => h.2 hm)]
            rcases (h2 l3).2 with h | ⟨h, _⟩
            · rw [h, ih]
            · rw [ih] at h; exact absurd hm h
          · rw [if_pos ⟨rfl, hm⟩]
            rcases (h2 l3).2 with h | ⟨_, h⟩
            · have : id ∈ st'.set.entities := by
                rw [hl'.mem h1]; simp [lastValue]
              rw [h, ih] at this; exact absurd this hm
            · rw [h, ih]
        · rw [if_neg hut] at h2
          rw [if_neg (fun h => hut h.1), (h2 l3).2, ih]
      | detach id u =>
        simp only [Stirs] at h2
        simp only [slots]
        by_cases hut : u = t
        · subst hut
          rw [if_pos rfl] at h2 ⊢
          rcases (h2 l3).2 with h | ⟨h, _, h'⟩
          · have : id ∉ st'.set.entities := by
              rw [hl'.mem h1]; simp [lastValue]
            rw [h, ih] at this
            rw [h, ih, swapOut_absent this]
          · rw [h', ih]
        · rw [if_neg hut] at h2 ⊢
          rw [(h2 l3).2, ih]
      | removeEntity order id =>
        simp only [slots]
        rcases ((show Drops id _ _ from h2) l3).2 with h | ⟨h, _, h'⟩
        · have : id ∉ st'.set.entities := by
            rw [hl'.mem h1]; simp [lastValue]
          rw [h, ih] at this
          rw [h, ih, swapOut_absent this]
        · rw [h', ih]
      | attachBatch start stop u vs =>
        simp only [Stirs] at h2
        simp only [slots]
        by_cases hut : u = t
        · subst hut
          rw [if_pos rfl] at h2 ⊢
          have hlen : vs.length = stop - start := by
            simp only [exec, bind_pure_ok] at he
            obtain ⟨_, he, _⟩ := he
            exact (attachBatch_inv he).1
          rcases h2 with h2 | ⟨_, h2⟩
          · have e : List.range' start (stop - start) = [] := by
              apply List.eq_nil_iff_forall_not_mem.2
              intro x hx
              rw [List.mem_range'_1] at hx
              have hx' : x ∈ st'.set.entities := by
                rw [hl'.mem h1]
                have h1 : x - start < vs.length := by omega
                have h2 : start ≤ x ∧ x < stop := ⟨hx.1, by omega⟩
                simp only [lastValue, h2, and_self, if_true, List.getElem?_eq_getElem h1, Option.isSome_some]
              rw [(h2 l3).2, hl.mem hs, hn.1 x hx.1 (by omega)] at hx'
              cases hx'
            rw [e, List.append_nil, (h2 l3).2, ih]
          · simp only [SparseSet.addBatch, bind_eq_ok] at h2
            obtain ⟨_, _, _, _, h2⟩ := h2
            have := congrArg (fun r : R (SparseSet V) => match r with | .ok S => S.entities | .error _ => []) h2
            dsimp only at this
            rw [← this, ih]
        · rw [if_neg hut] at h2 ⊢
          rw [(h2 l3).2, ih]
      | _ => exact ((show Rests _ _ from h2) l3).2.trans ih

end Xecs
