import Verif.Proofs.Sections
import Verif.Proofs.ExactWorld
/-
The loops of attach, detach and remove_entity.
-/
set_option autoImplicit false
namespace Xecs
open Spec World
variable {V : Type}

/-! ### The monad -/

theorem M.bind_apply {α β : Type} (m : M V α) (f : α → M V β) (w : World V) :
    (m >>= f) w = match m w with
      | (w', .ok a) => f a w'
      | (w', .error e) => (w', .error e) := rfl
theorem M.pure_apply {α : Type} (a : α) (w : World V) : (pure a : M V α) w = (w, .ok a) := rfl
theorem M.read_apply {α : Type} (f : World V → R α) (w : World V) : M.read f w = (w, f w) := rfl
theorem M.assert_true (w : World V) : M.assert true w = (w, .ok ()) := rfl
theorem M.assert_false (w : World V) : M.assert false w = (w, .error .panic) := rfl
theorem M.crit_ok {α : Type} {f : World V → R (World V × α)} {x : M V α} {w w' : World V} {a : α}
    (h : f w = .ok (w', a)) : M.crit f x w = (w', .ok a) := by simp [M.crit, h]
theorem M.crit_error {α : Type} {f : World V → R (World V × α)} {x : M V α} {w : World V} {e : Fault}
    (h : f w = .error e) : M.crit f x w = ((x w).1, .error e) := by simp [M.crit, h]
theorem M.crit_still {α : Type} {f : World V → R (World V × α)} {w : World V} {e : Fault}
    (h : f w = .error e) : M.crit f M.still w = (w, .error e) := by simp [M.crit, h, M.still]
theorem M.forEach_nil {γ : Type} (f : γ → M V Unit) (w : World V) : M.forEach [] f w = (w, .ok ()) := rfl
theorem M.forEach_cons {γ : Type} (x : γ) (xs : List γ) (f : γ → M V Unit) (w : World V) :
    M.forEach (x :: xs) f w = match f x w with
      | (w', .ok _) => M.forEach xs f w'
      | (w', .error e) => (w', .error e) := by
  simp only [M.forEach, M.bind_apply]
  rcases f x w with ⟨w', r⟩
  cases r <;> rfl

theorem removeX_state_of_error {S : SparseSet V} {id : Nat} {e : Fault} (hw : S.WF) (h : S.remove id = .error e) :
    (SparseSet.removeX id S).1 = S := by
  have hn : id ∉ S.entities := by
    intro hm
    obtain ⟨i, hi⟩ := List.mem_iff_getElem?.1 hm
    obtain ⟨S2, e1, -⟩ := SparseSet.remove_present hw hi
    rw [e1] at h
    cases h
  rw [SparseSet.remove_absent hw hn] at h
  split at h
  · rename_i hl
    have hlt : ¬ S.indices.length < id := by omega
    have hg : getR S.indices id = .error .panic := by
      unfold getR
      rw [List.getElem?_eq_none (by omega)]
    simp only [SparseSet.removeX, Stm.bind_apply, Stm.read_apply, hlt, decide_false, Bool.false_eq_true, if_false, hg]
  · cases h

/-- A removal that faults leaves the storage as it was. -/
theorem detachStoreX_state {w : World V} {t id : Nat} {st : Storage V} {e : Fault} (hst : w.comps t = some st) (hw : st.set.WF)
    (h : st.set.remove id = .error e) : (detachStoreX t id w).1 = w := by
  unfold detachStoreX onStore
  simp only [hst, unwrapR, R.bind_ok]
  cases hd : downcast st t with
  | error e => rfl
  | ok s =>
    dsimp only
    have : s = st.set := by
      unfold downcast at hd
      split at hd
      · cases hd; rfl
      · cases hd
    subst this
    rw [removeX_state_of_error hw h]
    unfold World.setSet
    have : (fun u => if u = t then Option.map (fun st' => Storage.mk st'.ty st.set) (w.comps t) else w.comps u) = w.comps := by
      funext u
      by_cases hu : u = t
      · subst hu; rw [if_pos rfl, hst]; rfl
      · rw [if_neg hu]
    rw [this]

/-! ### Group positions -/

theorem touches_eq {comps : Nat → Option (Storage V)} {g : Group} {gs : SGroup} (h : GRel comps g gs)
    (t : Nat) : (g.tyA == t || g.tyB == t) = gs.touches t := by
  rw [h.tyA, h.tyB, SGroup.touches]
  rw [show (gs.a == t) = (t == gs.a) from BEq.comm, show (gs.b == t) = (t == gs.b) from BEq.comm]

theorem mem_groupsOf {w : World V} {s : State V} (h : WRel w s) (t k : Nat) :
    k ∈ w.groupsOf t ↔ ∃ gs, s.groups[k]? = some gs ∧ gs.touches t = true := by
  simp only [groupsOf, List.mem_filter, List.mem_range]
  constructor
  · rintro ⟨hk, hg⟩
    have hk' : k < s.groups.length := by rw [← h.glen]; exact hk
    have h1 := List.getElem?_eq_getElem hk
    have h2 := List.getElem?_eq_getElem hk'
    refine ⟨_, h2, ?_⟩
    rw [h1] at hg
    rw [← touches_eq (h.grp k _ _ h1 h2)]; exact hg
  · rintro ⟨gs, hgs, ht⟩
    obtain ⟨g, hg⟩ := group_at h hgs
    refine ⟨(List.getElem?_eq_some_iff.1 hg).1, ?_⟩
    rw [hg]; simp only
    rw [touches_eq (h.grp k _ _ hg hgs)]; exact ht

theorem groupsOf_nodup (w : World V) (t : Nat) : (w.groupsOf t).Nodup :=
  List.Pairwise.filter _ List.nodup_range

/-! ### Spec level: loops of small steps -/

/-- Descriptions of a group after a loop of small steps. -/
structure GStep (g g' : SGroup) (m : Nat → Bool) (fr : Bool) : Prop where
  kind : g'.kind = g.kind
  a : g'.a = g.a
  b : g'.b = g.b
  mem : ∀ x, g'.mem x = m x
  fresh : g'.fresh = fr

theorem join_groups (s : State V) (id k : Nat) {gk : SGroup} (hk : s.groups[k]? = some gk) (i : Nat) :
    (s.join id k).groups[i]? = (s.groups[i]?).map fun g =>
      { g with
        mem := fun x => g.mem x || (decide (i = k) && x == id && s.both g id)
        fresh := g.fresh && !(!gk.mem id && s.both gk id && (gk.owns g.a || gk.owns g.b)) } := by
  simp only [State.join, hk, List.getElem?_mapIdx]

theorem join_len (s : State V) (id k : Nat) : (s.join id k).groups.length = s.groups.length := by
  unfold State.join; split <;> simp
theorem join_comp (s : State V) (id k : Nat) : (s.join id k).comp = s.comp := by
  unfold State.join; split <;> rfl
theorem join_hw (s : State V) (id k : Nat) : (s.join id k).hw = s.hw := by
  unfold State.join; split <;> rfl
theorem join_both (s : State V) (id k : Nat) (g : SGroup) (x : Nat) : (s.join id k).both g x = s.both g x := by
  simp [State.both, State.has, State.get, join_comp]

theorem leave_groups (s : State V) (id k : Nat) {gk : SGroup} (hk : s.groups[k]? = some gk) (i : Nat) :
    (s.leave id k).groups[i]? = (s.groups[i]?).map fun g =>
      { g with
        mem := fun x => g.mem x && !(decide (i = k) && x == id)
        fresh := g.fresh && !(gk.mem id && (gk.owns g.a || gk.owns g.b)) } := by
  simp only [State.leave, hk, List.getElem?_mapIdx]

theorem leave_len (s : State V) (id k : Nat) : (s.leave id k).groups.length = s.groups.length := by
  unfold State.leave; split <;> simp
theorem leave_comp (s : State V) (id k : Nat) : (s.leave id k).comp = s.comp := by
  unfold State.leave; split <;> rfl
theorem leave_hw (s : State V) (id k : Nat) : (s.leave id k).hw = s.hw := by
  unfold State.leave; split <;> rfl

/-- The state after the group loop of `attach`. -/
def joins (s : State V) (id : Nat) (ks : List Nat) : State V := ks.foldl (fun s k => s.join id k) s

theorem joins_spec (id : Nat) (ks : List Nat) : ∀ (s : State V), ks.Nodup → (∀ k ∈ ks, k < s.groups.length) →
    (joins s id ks).comp = s.comp ∧ (joins s id ks).hw = s.hw ∧
    (joins s id ks).groups.length = s.groups.length ∧
    ∀ (i : Nat) g g', s.groups[i]? = some g → (joins s id ks).groups[i]? = some g' →
      GStep g g' (fun x => g.mem x || (decide (i ∈ ks) && x == id && s.both g id))
        (g.fresh && !(ks.any fun k => match s.groups[k]? with
          | some gk => !gk.mem id && s.both gk id && (gk.owns g.a || gk.owns g.b)
          | none => false)) := by
  induction ks with
  | nil =>
    intro s _ _
    refine ⟨rfl, rfl, rfl, ?_⟩
    intro i g g' hg hg'
    simp only [joins, List.foldl_nil] at hg'
    rw [hg] at hg'; simp at hg'; subst hg'
    exact ⟨rfl, rfl, rfl, by simp, by simp⟩
  | cons k0 ks ih =>
    intro s hnd hlt
    rw [List.nodup_cons] at hnd
    have hk0 : k0 < s.groups.length := hlt k0 (by simp)
    have hgk := List.getElem?_eq_getElem hk0
    generalize s.groups[k0] = gk at hgk
    obtain ⟨h1, h2, h3, h4⟩ := ih (s.join id k0) hnd.2 (fun k hk => by
      rw [join_len]; exact hlt k (List.mem_cons_of_mem _ hk))
    have hfold : joins s id (k0 :: ks) = joins (s.join id k0) id ks := rfl
    rw [hfold]
    refine ⟨by rw [h1, join_comp], by rw [h2, join_hw], by rw [h3, join_len], ?_⟩
    intro i g g' hg hg'
    have hm := join_groups s id k0 hgk i
    rw [hg, Option.map_some] at hm
    obtain ⟨e1, e2, e3, e4, e5⟩ := h4 i _ g' hm hg'
    refine ⟨e1, e2, e3, ?_, ?_⟩
    · intro x
      rw [e4]
      simp only [join_both, List.mem_cons]
      by_cases hik : i = k0
      · subst hik
        simp [hnd.1]
      · simp [hik, State.both]
    · rw [e5]
      simp only [List.any_cons, hgk]
      have hany : (ks.any fun k => match (s.join id k0).groups[k]? with
          | some gk => !gk.mem id && (s.join id k0).both gk id && (gk.owns g.a || gk.owns g.b)
          | none => false) = (ks.any fun k => match s.groups[k]? with
          | some gk => !gk.mem id && s.both gk id && (gk.owns g.a || gk.owns g.b)
          | none => false) := by
        rw [Bool.eq_iff_iff, List.any_eq_true, List.any_eq_true]
        have key : ∀ k ∈ ks, (match (s.join id k0).groups[k]? with
            | some gk => !gk.mem id && (s.join id k0).both gk id && (gk.owns g.a || gk.owns g.b)
            | none => false) = (match s.groups[k]? with
            | some gk => !gk.mem id && s.both gk id && (gk.owns g.a || gk.owns g.b)
            | none => false) := by
          intro k hk
          have hne : k ≠ k0 := fun h => hnd.1 (h ▸ hk)
          rw [join_groups s id k0 hgk k]
          cases s.groups[k]? with
          | none => rfl
          | some gg =>
            simp only [Option.map_some, hne, decide_false, Bool.false_and, Bool.or_false, join_both]
            rfl
        constructor
        · rintro ⟨k, hk, hh⟩; exact ⟨k, hk, by rw [← key k hk]; exact hh⟩
        · rintro ⟨k, hk, hh⟩; exact ⟨k, hk, by rw [key k hk]; exact hh⟩
      rw [hany]
      cases g.fresh <;> simp

/-- The group loop of `attach`. -/
theorem forEach_groupAdd (id : Nat) (ks : List Nat) : ∀ (w : World V) (s : State V), WRel w s →
    (∀ k ∈ ks, k < s.groups.length) →
    ∃ w', M.forEach ks (fun k => M.crit (groupAdd k id) (groupAddX k id)) w = (w', .ok ()) ∧ WRel w' (joins s id ks) ∧
      Keeps w w' := by
  induction ks with
  | nil => intro w s h _; exact ⟨w, rfl, h, .refl w⟩
  | cons k ks ih =>
    intro w s h hlt
    obtain ⟨w1, h1, h2, h3⟩ := groupAdd_ref h id (List.getElem?_eq_getElem (hlt k (by simp)))
    obtain ⟨w2, h4, h5, h6⟩ := ih w1 (s.join id k) h2 (fun k' hk' => by
      rw [join_len]; exact hlt k' (List.mem_cons_of_mem _ hk'))
    refine ⟨w2, ?_, h5, h3.trans h6⟩
    rw [M.forEach_cons, M.crit_ok h1]; exact h4

/-- The state after the group loop of `detach`. -/
def leaves (s : State V) (id : Nat) (ks : List Nat) : State V := ks.foldl (fun s k => s.leave id k) s

theorem leaves_spec (id : Nat) (ks : List Nat) : ∀ (s : State V), ks.Nodup → (∀ k ∈ ks, k < s.groups.length) →
    (leaves s id ks).comp = s.comp ∧ (leaves s id ks).hw = s.hw ∧
    (leaves s id ks).groups.length = s.groups.length ∧
    ∀ (i : Nat) g g', s.groups[i]? = some g → (leaves s id ks).groups[i]? = some g' →
      GStep g g' (fun x => g.mem x && !(decide (i ∈ ks) && x == id))
        (g.fresh && !(ks.any fun k => match s.groups[k]? with
          | some gk => gk.mem id && (gk.owns g.a || gk.owns g.b)
          | none => false)) := by
  induction ks with
  | nil =>
    intro s _ _
    refine ⟨rfl, rfl, rfl, ?_⟩
    intro i g g' hg hg'
    simp only [leaves, List.foldl_nil] at hg'
    rw [hg] at hg'; simp at hg'; subst hg'
    exact ⟨rfl, rfl, rfl, by simp, by simp⟩
  | cons k0 ks ih =>
    intro s hnd hlt
    rw [List.nodup_cons] at hnd
    have hk0 : k0 < s.groups.length := hlt k0 (by simp)
    have hgk := List.getElem?_eq_getElem hk0
    generalize s.groups[k0] = gk at hgk
    obtain ⟨h1, h2, h3, h4⟩ := ih (s.leave id k0) hnd.2 (fun k hk => by
      rw [leave_len]; exact hlt k (List.mem_cons_of_mem _ hk))
    have hfold : leaves s id (k0 :: ks) = leaves (s.leave id k0) id ks := rfl
    rw [hfold]
    refine ⟨by rw [h1, leave_comp], by rw [h2, leave_hw], by rw [h3, leave_len], ?_⟩
    intro i g g' hg hg'
    have hm := leave_groups s id k0 hgk i
    rw [hg, Option.map_some] at hm
    obtain ⟨e1, e2, e3, e4, e5⟩ := h4 i _ g' hm hg'
    refine ⟨e1, e2, e3, ?_, ?_⟩
    · intro x
      rw [e4]
      simp only [List.mem_cons]
      by_cases hik : i = k0
      · subst hik
        simp [hnd.1]
      · simp [hik]
    · rw [e5]
      simp only [List.any_cons, hgk]
      have hany : (ks.any fun k => match (s.leave id k0).groups[k]? with
          | some gk => gk.mem id && (gk.owns g.a || gk.owns g.b)
          | none => false) = (ks.any fun k => match s.groups[k]? with
          | some gk => gk.mem id && (gk.owns g.a || gk.owns g.b)
          | none => false) := by
        rw [Bool.eq_iff_iff, List.any_eq_true, List.any_eq_true]
        have key : ∀ k ∈ ks, (match (s.leave id k0).groups[k]? with
            | some gk => gk.mem id && (gk.owns g.a || gk.owns g.b)
            | none => false) = (match s.groups[k]? with
            | some gk => gk.mem id && (gk.owns g.a || gk.owns g.b)
            | none => false) := by
          intro k hk
          have hne : k ≠ k0 := fun h => hnd.1 (h ▸ hk)
          rw [leave_groups s id k0 hgk k]
          cases s.groups[k]? with
          | none => rfl
          | some gg =>
            simp only [Option.map_some, hne, decide_false, Bool.false_and, Bool.not_false, Bool.and_true]
            rfl
        constructor
        · rintro ⟨k, hk, hh⟩; exact ⟨k, hk, by rw [← key k hk]; exact hh⟩
        · rintro ⟨k, hk, hh⟩; exact ⟨k, hk, by rw [key k hk]; exact hh⟩
      rw [hany]
      cases g.fresh <;> simp

/-- The group loop of `detach`. -/
theorem forEach_groupRemove (id : Nat) (ks : List Nat) : ∀ (w : World V) (s : State V), WRel w s →
    (∀ k ∈ ks, k < s.groups.length) →
    ∃ w', M.forEach ks (fun k => M.crit (groupRemove k id) (groupRemoveX k id)) w = (w', .ok ()) ∧ WRel w' (leaves s id ks) ∧
      Keeps w w' := by
  induction ks with
  | nil => intro w s h _; exact ⟨w, rfl, h, .refl w⟩
  | cons k ks ih =>
    intro w s h hlt
    obtain ⟨w1, h1, h2, h3, _⟩ := groupRemove_ref h id (List.getElem?_eq_getElem (hlt k (by simp)))
    obtain ⟨w2, h4, h5, h6⟩ := ih w1 (s.leave id k) h2 (fun k' hk' => by
      rw [leave_len]; exact hlt k' (List.mem_cons_of_mem _ hk'))
    refine ⟨w2, ?_, h5, h3.trans h6⟩
    rw [M.forEach_cons, M.crit_ok h1]; exact h4

/-- If `id` is in none of the groups, the group loop of `detach` changes nothing at all. -/
theorem forEach_groupRemove_id (id : Nat) (ks : List Nat) (w : World V) (s : State V) (h : WRel w s) 
    (hlt : ∀ k ∈ ks, ∃ gs, s.groups[k]? = some gs ∧ gs.mem id = false) :
    M.forEach ks (fun k => M.crit (groupRemove k id) (groupRemoveX k id)) w = (w, .ok ()) := by
  induction ks with
  | nil => rfl
  | cons k ks ih =>
    obtain ⟨gs, hks, hm⟩ := hlt k (by simp)
    obtain ⟨g, hk⟩ := group_at h hks
    obtain ⟨A, B, hA, hB, hlp, wA, wB, hs, hab, hmm, hf, mA, mB⟩ := lockPair_ok h hk hks
    obtain ⟨g', A', B', hrem, hU, hmem, hfresh, hsame⟩ := Group.remove_spec wA wB hs hab id
    obtain ⟨rfl, rfl, rfl⟩ := hsame (by rw [← hmm, hm]; simp)
    have hw : w.putPair k (g', A.set, B.set) = w := by
      have hset : w.groups.set k g' = w.groups := by
        apply List.ext_getElem?
        intro i
        rw [List.getElem?_set]
        split
        · rename_i hki; subst hki
          split
          · exact hk.symm
          · rename_i hh; exact absurd (List.getElem?_eq_some_iff.1 hk).1 hh
        · rfl
      have hcomp : (w.putPair k (g', A.set, B.set)).comps = w.comps := by
        funext u
        rw [putPair_comps (a := g'.tyA) (b := g'.tyB) rfl rfl hA hB (by
          intro hab; rw [hab, hB] at hA; simp at hA; rw [hA])]
        by_cases h1 : u = g'.tyA
        · rw [if_pos h1, h1, hA]
        · by_cases h2 : u = g'.tyB
          · rw [if_neg h1, if_pos h2, h2, hB]
          · rw [if_neg h1, if_neg h2]
      have h1 : w.putPair k (g', A.set, B.set) =
          ⟨w.em, (w.putPair k (g', A.set, B.set)).comps, w.groups.set k g', w.res⟩ := rfl
      rw [h1, hcomp, hset]
    have : groupRemove k id w = .ok (w, ()) := by
      simp [groupRemove, getR_some hk, hlp, hrem, hw]
    rw [M.forEach_cons, M.crit_ok this]
    exact ih (fun k' hk' => hlt k' (List.mem_cons_of_mem _ hk'))

end Xecs
