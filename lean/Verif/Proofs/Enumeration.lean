import Verif.Spec.Enumeration
import Verif.Proofs.RobustTrace
/-
The order in which the component hash map is enumerated does not matter.
-/
set_option autoImplicit false
namespace Xecs
open Spec World Hist
variable {V : Type} {w w' : World V}

/-- Erasing `id` from the storages `ts`, one after the other. -/
abbrev erases (id : Nat) (ts : List Nat) : M V Unit := M.forEach ts fun t => M.crit (storeErase t id) (storeEraseX t id)

theorem storeErase_iff {t id : Nat} {u : Unit} : storeErase t id w = .ok (w', u) ↔
    ∃ st S, w.comps t = some st ∧ st.set.removeUnwrap id = .ok S ∧ w' = w.setSet t S := by
  cases hc : w.comps t with
  | none => simp [storeErase, hc, unwrapR]
  | some st =>
    cases hS : st.set.removeUnwrap id with
    | error e => simp [storeErase, hc, unwrapR, hS, error_bind]
    | ok S => simp [storeErase, hc, unwrapR, hS, ok_bind, eq_comm]

theorem erases_cons {t id : Nat} {ts : List Nat} : erases id (t :: ts) w = (w', .ok ()) ↔
    ∃ st S, w.comps t = some st ∧ st.set.removeUnwrap id = .ok S ∧ erases id ts (w.setSet t S) = (w', .ok ()) := by
  show M.forEach (t :: ts) (fun t => M.crit (storeErase t id) (storeEraseX t id)) w = _ ↔ _
  rw [M.forEach_cons]
  cases hx : storeErase t id w with
  | error e =>
    rw [M.crit_error hx]
    constructor
    · intro h; simp at h
    · rintro ⟨st, S, h1, h2, -⟩
      rw [storeErase_iff (u := ()).2 ⟨st, S, h1, h2, rfl⟩] at hx
      cases hx
  | ok p =>
    obtain ⟨w1, u⟩ := p
    rw [M.crit_ok hx]
    obtain ⟨st, S, h1, h2, h3⟩ := storeErase_iff.1 hx
    subst h3
    constructor
    · intro h; exact ⟨st, S, h1, h2, h⟩
    · rintro ⟨st', S', h1', h2', h⟩
      rw [h1] at h1'; cases h1'
      rw [h2] at h2'; cases h2'
      exact h

theorem setSet_other {t u : Nat} {S : SparseSet V} (h : u ≠ t) : (w.setSet t S).comps u = w.comps u := by
  simp [World.setSet, h]

theorem setSet_comm {t u : Nat} {S T : SparseSet V} (h : t ≠ u) : (w.setSet t S).setSet u T = (w.setSet u T).setSet t S := by
  simp only [World.setSet, World.mk.injEq, and_true, true_and]
  funext x
  by_cases h1 : x = t
  · subst h1; simp [h]
  · by_cases h2 : x = u
    · subst h2; simp [h1]
    · simp [h1, h2]

theorem erases_perm {id : Nat} {l l' : List Nat} (hp : l.Perm l') : ∀ {w w' : World V}, l.Nodup →
    erases id l w = (w', .ok ()) → erases id l' w = (w', .ok ()) := by
  induction hp with
  | nil => intro w w' _ h; exact h
  | cons t _ ih =>
    intro w w' hn h
    obtain ⟨st, S, h1, h2, h3⟩ := erases_cons.1 h
    exact erases_cons.2 ⟨st, S, h1, h2, ih (List.nodup_cons.1 hn).2 h3⟩
  | swap t u l =>
    intro w w' hn h
    have hne : u ≠ t := fun e => (List.nodup_cons.1 hn).1 (e ▸ List.mem_cons_self ..)
    obtain ⟨st, S, h1, h2, h3⟩ := erases_cons.1 h
    obtain ⟨st', S', h1', h2', h3'⟩ := erases_cons.1 h3
    rw [setSet_other (Ne.symm hne)] at h1'
    refine erases_cons.2 ⟨st', S', h1', h2', erases_cons.2 ⟨st, S, ?_, h2, ?_⟩⟩
    · rw [setSet_other hne]; exact h1
    · rw [← setSet_comm hne]; exact h3'
  | trans h1 _ ih1 ih2 => intro w w' hn h; exact ih2 (h1.nodup_iff.1 hn) (ih1 hn h)

/-- Erasing entities from well-formed storages that contain them does not fail. -/
theorem erases_total {id : Nat} {l : List Nat} : ∀ {w : World V}, l.Nodup →
    (∀ t ∈ l, ∃ st, w.comps t = some st ∧ st.set.WF ∧ st.set.exist id = true) → ∃ w', erases id l w = (w', .ok ()) := by
  induction l with
  | nil => intro w _ _; exact ⟨w, rfl⟩
  | cons t l ih =>
    intro w hn h
    obtain ⟨st, h1, h2, h3⟩ := h t (List.mem_cons_self ..)
    have hm := (SparseSet.exist_iff h2).1 h3
    obtain ⟨i, hi⟩ := List.getElem?_of_mem hm
    obtain ⟨S, hS, -⟩ := SparseSet.removeUnwrap_present h2 hi
    obtain ⟨hn1, hn2⟩ := List.nodup_cons.1 hn
    obtain ⟨w', hw⟩ := ih (w := w.setSet t S) hn2 (fun u hu => by
      have hne : u ≠ t := fun e => hn1 (e ▸ hu)
      rw [setSet_other hne]
      exact h u (List.mem_cons_of_mem _ hu))
    exact ⟨w', erases_cons.2 ⟨st, S, h1, hS, hw⟩⟩

/-- What comes before the enumeration does not depend on it. -/
theorem remove_congr {o o' : List Nat} {id : Nat} (h : ∀ (ks : List Nat) (w1 : World V), w.needRemoveList id 0 w.groups = .ok ks →
      M.forEach ks (fun k => M.crit (groupErase k id) (groupEraseX k id)) w = (w1, .ok ()) →
      erases id (w1.storagesWith id o) w1 = erases id (w1.storagesWith id o') w1) :
    World.removeEntity o id w = World.removeEntity o' id w := by
  simp only [World.removeEntity, World.exist, M.bind_apply, M.read_apply]
  cases hb : w.em.has id with
  | error e => rfl
  | ok b =>
    cases b with
    | false => rfl
    | true =>
      cases hk : w.needRemoveList id 0 w.groups with
      | error e => simp only [M.assert_true, hk]
      | ok ks =>
        simp only [M.assert_true, hk]
        rcases hf : M.forEach ks (fun k => M.crit (groupErase k id) (groupEraseX k id)) w with ⟨w1, r⟩
        cases r with
        | error e => rfl
        | ok u => 
          have := h ks w1 hk hf
          simp only [erases] at this
          simp only
          rw [this]

theorem storagesWith_perm {o o' : List Nat} (h : o.Perm o') (id : Nat) : (w.storagesWith id o).Perm (w.storagesWith id o') :=
  h.filter _

/-- If the storages are well formed, removal does not depend on the enumeration order, even if it fails. -/
theorem remove_perm {o o' : List Nat} {id : Nat} (hp : o.Perm o') (hn : o.Nodup)
    (hwf : ∀ t st, w.comps t = some st → st.set.WF) : World.removeEntity o id w = World.removeEntity o' id w := by
  refine remove_congr fun ks w1 _ hf => ?_
  have h1 := forEach_evo (Less.refl id) (fun _ _ _ => Less.trans) (fun t w w' h => groupErase_evo h) (fun k w => groupEraseX_evo k _ w) _ hf
  obtain ⟨w2, h2⟩ := erases_total (w := w1) (id := id) (l := w1.storagesWith id o) (hn.filter _) (fun t ht => by
    have := (List.mem_filter.1 ht).2
    cases hc : w1.comps t with
    | none => simp [hc] at this
    | some st =>
      simp only [hc] at this
      refine ⟨st, rfl, ?_, this⟩
      cases hc0 : w.comps t with
      | none => rw [h1.get_none hc0] at hc; simp at hc
      | some st0 =>
        obtain ⟨st1, e1, _, e3⟩ := h1.get hc0
        rw [hc] at e1; simp at e1; subst e1
        exact (e3 (hwf t st0 hc0)).1)
  rw [h2, erases_perm (storagesWith_perm hp id) (hn.filter _) h2]

/-- In any world, if removal succeeds then it does not depend on the enumeration order. -/
theorem remove_perm_ok {o o' : List Nat} {id : Nat} (hp : o.Perm o') (hn : o.Nodup)
    (h : World.removeEntity o id w = (w', .ok ())) : World.removeEntity o' id w = (w', .ok ()) := by
  rw [← h]
  refine (remove_congr fun ks w1 hk hf => ?_).symm
  simp only [World.removeEntity, World.exist, M.bind_ok, M.read_ok, M.assert_iff] at h
  obtain ⟨w1', b, ⟨rfl, hb⟩, w2, _, ⟨rfl, rfl⟩, w3, ks', ⟨rfl, hks⟩, w4, _, hl, w5, ts, ⟨rfl, hts⟩, w6, _, hs, -⟩ := h
  rw [hk] at hks; cases hks
  rw [hf] at hl; cases hl
  cases hts
  have hs' : erases id (w1.storagesWith id o) w1 = (w6, .ok ()) := hs
  rw [hs', erases_perm (storagesWith_perm hp id) (hn.filter _) hs']

end Xecs
