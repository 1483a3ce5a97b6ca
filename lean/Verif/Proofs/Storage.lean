import Verif.Proofs.Overwrite
import Verif.Proofs.Coverage
/-
Reading storages after any history without repeated batch attach.
-/
set_option autoImplicit false
namespace Xecs
open Spec World Hist
variable {V : Type} {tr : List (Op V × Out V)} {w : World V}

theorem Look.read (h : Look w tr) (t id : Nat) : World.componentRead t id w = (w, .ok (lastValue t id tr)) := by
  simp only [World.componentRead, M.read_apply]
  cases hc : w.comps t with
  | none => simp [(h.at_none hc).2 id]
  | some st =>
    obtain ⟨_, hty, hwf, hlk⟩ := h.at_some hc
    simp only [downcast, hty, if_true, ok_bind]
    rw [← hlk]
    cases hv : st.set.lookup id with
    | none =>
      have : st.set.exist id = false := by
        rw [← Bool.not_eq_true, SparseSet.exist_iff hwf, ← SparseSet.lookup_isSome hwf, hv]; simp
      simp [this]
    | some v =>
      have : st.set.exist id = true := by
        rw [SparseSet.exist_iff hwf, ← SparseSet.lookup_isSome hwf, hv]; rfl
      simp [this, SparseSet.getUnchecked_eq hwf hv]

theorem Look.get (h : Look w tr) (t id : Nat) : World.storageGet t id w = (w, .ok (lastValue t id tr)) := by
  simp only [World.storageGet, M.read_apply]
  cases hc : w.comps t with
  | none => simp [(h.at_none hc).2 id]
  | some st =>
    obtain ⟨_, hty, hwf, hlk⟩ := h.at_some hc
    simp [downcast, hty, SparseSet.get_eq hwf, hlk]

theorem Look.exist (h : Look w tr) (t id : Nat) : World.storageExist t id w =
    (w, .ok (if registered t tr then some (lastValue t id tr).isSome else none)) := by
  simp only [World.storageExist, M.read_apply]
  cases hc : w.comps t with
  | none => simp [(h.at_none hc).1]
  | some st =>
    obtain ⟨hr, hty, hwf, hlk⟩ := h.at_some hc
    simp only [downcast, hty, if_true, ok_bind, hr]
    congr 3
    rw [Bool.eq_iff_iff, SparseSet.exist_iff hwf, ← SparseSet.lookup_isSome hwf, hlk]

theorem Lists.eq_of_fst {α : Type} {f : Nat → Option α} {l l' : List (Nat × α)} (h : Lists l f) (h' : Lists l' f)
    (he : l.map Prod.fst = l'.map Prod.fst) : l = l' := by
  have key : ∀ l l' : List (Nat × α), (∀ x ∈ l, f x.1 = some x.2) → (∀ x ∈ l', f x.1 = some x.2) →
      l.map Prod.fst = l'.map Prod.fst → l = l' := by
    intro l
    induction l with
    | nil => intro l' _ _ he; cases l' <;> simp_all
    | cons x l ih =>
      intro l' h1 h2 he
      cases l' with
      | nil => simp at he
      | cons y l' =>
        simp only [List.map_cons, List.cons.injEq] at he
        have e1 := h1 x (by simp)
        have e2 := h2 y (by simp)
        rw [he.1, e2] at e1
        have : x = y := by
          obtain ⟨x1, x2⟩ := x; obtain ⟨y1, y2⟩ := y
          simp only [Option.some.injEq] at e1
          simp only at he
          rw [he.1, e1]
        rw [this, ih l' (fun z hz => h1 z (by simp [hz])) (fun z hz => h2 z (by simp [hz])) he.2]
  exact key l l' (fun x hx => (h.2 x.1 x.2).1 hx) (fun x hx => (h'.2 x.1 x.2).1 hx) he

/-- The pairs of a storage, in order. -/
theorem zip_lists {S : SparseSet V} (h : S.WF) : Lists (S.entities.zip S.data) S.lookup ∧
    (S.entities.zip S.data).map Prod.fst = S.entities ∧ (S.entities.zip S.data).map Prod.snd = S.data := by
  have e1 : (S.entities.zip S.data).map Prod.fst = S.entities := List.map_fst_zip (by rw [h.len]; exact Nat.le_refl _)
  have e2 : (S.entities.zip S.data).map Prod.snd = S.data := List.map_snd_zip (by rw [h.len]; exact Nat.le_refl _)
  refine ⟨⟨by rw [e1]; exact SparseSet.nodup h, fun id x => ?_⟩, e1, e2⟩
  rw [SparseSet.lookup_eq_some h, List.mem_iff_getElem?]
  constructor
  · rintro ⟨i, hi⟩
    rw [List.getElem?_zip_eq_some] at hi
    exact ⟨i, hi⟩
  · rintro ⟨i, hi⟩
    exact ⟨i, List.getElem?_zip_eq_some.2 hi⟩

theorem comp_conflictless (m : Mode) (t : Nat) : (Query.comp m t).Conflictless := by
  simp [Query.Conflictless, Query.accesses]

theorem Lists.map_leaf {f : Nat → Option V} {l : List (Nat × V)} (h : Lists l f) :
    Lists (l.map fun x => (x.1, Item.leaf x.2)) (fun id => (f id).map Item.leaf) := by
  refine ⟨by rw [List.map_map]; exact h.1, fun id x => ?_⟩
  simp only [List.mem_map, Prod.mk.injEq, Option.map_eq_some_iff]
  constructor
  · rintro ⟨y, hy, rfl, rfl⟩; exact ⟨y.2, (h.2 y.1 y.2).1 hy, rfl⟩
  · rintro ⟨v, hv, rfl⟩; exact ⟨(id, v), (h.2 id v).2 hv, rfl, rfl⟩

/-- Everything that lists a storage lists the same pairs. -/
theorem any_listing (h : AnyTrace tr w) (hn : NoRebatch tr) {t : Nat} (hr : registered t tr = true) :
    ∃ st, w.comps t = some st ∧ st.ty = t ∧ st.set.WF ∧ Lists (st.set.entities.zip st.set.data) (fun id => lastValue t id tr) ∧
      (st.set.entities.zip st.set.data).map Prod.snd = st.set.data ∧
      ∀ m, Yields w (.comp m t) ((st.set.entities.zip st.set.data).map fun x => (x.1, .leaf x.2)) := by
  have hl := any_look h hn
  cases hc : w.comps t with
  | none => rw [(hl.at_none hc).1] at hr; cases hr
  | some st =>
    obtain ⟨_, hty, hwf, hlk⟩ := hl.at_some hc
    obtain ⟨z1, z2, z3⟩ := zip_lists hwf
    have z1' : Lists (st.set.entities.zip st.set.data) (fun id => lastValue t id tr) := by
      have : st.set.lookup = fun id => lastValue t id tr := funext hlk
      rwa [this] at z1
    refine ⟨st, rfl, hty, hwf, z1', z3, fun m => ?_⟩
    have hready : Ready tr w (.comp m t) := .plain h hn trivial hr
    obtain ⟨w0, s, pc, pg, hs, hp⟩ := hready.setup
    obtain ⟨l, hy, hli, he⟩ := hs.yieldsList hp (comp_conflictless m t)
    have : l = (st.set.entities.zip st.set.data).map fun x => (x.1, .leaf x.2) := by
      refine Lists.eq_of_fst hli (Lists.map_leaf z1') ?_
      rw [he, List.map_map]
      have h2 : (st.set.entities.zip st.set.data).map (Prod.fst ∘ fun x => (x.1, Item.leaf x.2)) = st.set.entities := z2
      rw [h2]
      have hc0 : w0.comps t = some st := by rw [hs.comps]; exact hc
      have hlook := (hs.ok _ hp).2.2
      have hm := (hs.ids_spec hp).2
      have hids : ids w0 s (.comp m t) = st.set.entities.filter fun id => (s.yields (.comp m t) id).isSome := by
        simp only [ids, rest, drv, hc0, List.drop_zero]
      rw [hids]
      apply List.filter_eq_self.2
      intro id hid
      rw [(hlook id).2]
      simp only [Query.answer, Option.isSome_map, values]
      rw [← hlk, SparseSet.lookup_isSome hwf]; exact hid
    rw [← this]; exact hy

end Xecs
