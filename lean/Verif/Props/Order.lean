import Verif.Proofs.Order
import Verif.Proofs.GroupQueries
import Verif.Props.Phases
/-
C62: the order of iteration.
-/
set_option autoImplicit false
namespace Xecs
open Spec World Hist
variable {V : Type} {tr : List (Op V × Out V)} {w w' : World V}

/-- C62. After any calls, if no group owns `t`: `query::<&T>()` and `query::<&mut T>()` visit the entities, and `data()` of
the storage guard lists the values, in the order `slots t tr`. -/
theorem C62_storage (h : AnyTrace tr w) (hn : NoRebatch tr) {t : TypeId} (hr : registered t tr = true) (hu : w.Unowned t) :
    ∃ l : List (EntityId × V), l.map Prod.fst = slots t tr ∧ (∀ x ∈ l, lastValue t x.1 tr = some x.2) ∧
      (∀ m, Yields w (.comp m t) (l.map fun x => (x.1, .leaf x.2))) ∧
      World.storageData t w = (w, .ok (some (l.map Prod.snd))) := by
  obtain ⟨st, hst, hty, hwf, hl, hd, hy⟩ := any_listing h hn hr
  refine ⟨st.set.entities.zip st.set.data, ?_, fun x hx => (hl.2 x.1 x.2).1 hx, hy, ?_⟩
  · have := any_slots h hn (unheld_of hu)
    rw [hst] at this
    rw [(zip_lists hwf).2.1]
    exact this
  · simp [World.storageData, M.read_apply, hst, downcast, hty, hd]

/-- C62. The entities an owning group query visits are the first ones that iteration over the first (full-owning groups: over
either) of its types visits, in the same order. -/
theorem C62_packed (h : Trace tr w) {k : Kind} (hk : k ≠ .non) {a b : TypeId} (hg : madeGroup (ofKind k) a b tr = true) (ma mb : Mode) :
    ∃ l la lb, Yields w (.group k ma mb a b) l ∧ (∀ m, Yields w (.comp m a) la) ∧ (∀ m, Yields w (.comp m b) lb) ∧
      l.map Prod.fst <+: la.map Prod.fst ∧ (k = .full → l.map Prod.fst <+: lb.map Prod.fst) := by
  obtain ⟨h1, h2, h3⟩ := h.made_registered hg
  have hab : a ≠ b := h3 (fun e => hk (by cases k <;> first | rfl | cases e))
  obtain ⟨l, l1, l2, l3, l4⟩ := h.group_sound (ma := ma) (mb := mb) hg (fun e => absurd e hk) (.inl hab)
  obtain ⟨stA, hA, _, wfA, _, _, hyA⟩ := any_listing h.any h.live.1 h1
  obtain ⟨stB, hB, _, wfB, _, _, hyB⟩ := any_listing h.any h.live.1 h2
  have eA := (zip_lists wfA).2.1
  have eB := (zip_lists wfB).2.1
  obtain ⟨s, hr⟩ := h.run
  have hd : s.Defined (.group k ma mb a b) := (run_defined hr _).2 ⟨h1, h2, hg⟩
  have hf : s.FreshIn (.group k ma mb a b) := run_fresh hr (fun e => absurd e hk)
  have hall := queryAll_eq hr.rel.core _ hd hf (group_conflictless (.inl hab))
  rw [base_rest hr.rel.core _ hd (.inr ⟨k, ma, mb, a, b, rfl⟩), List.drop_zero] at hall
  have hids : l.map Prod.fst = drv w (.group k ma mb a b) := by
    simp only [Yields, World.results, hall, ok_bind, Except.ok.injEq] at l1
    have := congrArg (List.map Prod.fst) l1
    simp only [List.map_map, Function.comp_def, List.map_id'] at this
    rw [this]
  obtain ⟨gs, hgs⟩ := Option.isSome_iff_exists.1 hd.2.2
  obtain ⟨pos, g, A, B, e1, e2, e3, hA', hB', _, _, hlen, f1, f2⟩ := owning_drv hr.rel.core hgs hk
  rw [hA] at hA'; cases hA'
  rw [hB] at hB'; cases hB'
  rw [drv_owning ma mb e1 e2 e3 hk hA] at hids
  refine ⟨l, _, _, l1, hyA, hyB, ?_, fun hfull => ?_⟩
  · rw [List.map_map]
    show _ <+: (stA.set.entities.zip stA.set.data).map Prod.fst
    rw [eA, hids]
    exact List.take_prefix _ _
  · rw [List.map_map]
    show _ <+: (stB.set.entities.zip stB.set.data).map Prod.fst
    rw [eB, hids]
    have : stA.set.entities.take g.len = stB.set.entities.take g.len := by
      apply List.ext_getElem?
      intro i
      rw [List.getElem?_take, List.getElem?_take]
      split
      · rename_i hi
        obtain ⟨e, x1, _, _, x2⟩ := f1 i hi
        rw [x1, x2 hfull]
      · rfl
    rw [this]
    exact List.take_prefix _ _

/-! ### Examples -/

theorem unowned_of {t : TypeId} (h : (w.groups.all fun g => !g.owned t) = true) : w.Unowned t := by
  intro k a b hg
  obtain ⟨g, hm, hs⟩ := List.any_eq_true.1 hg
  have := List.all_eq_true.1 h g hm
  simp only [Bool.not_eq_true'] at this
  simp only [Group.same, Bool.and_eq_true, beq_iff_eq] at hs
  obtain ⟨⟨h1, h2⟩, h3⟩ := hs
  cases k <;> cases g <;> simp_all [Group.fresh, Group.kind, Group.tyA, Group.tyB, Group.owned, groupOwns, ofKind]

namespace Demo

/-- Two types and a non-owning group over them; attaches, an overwriting attach, a batch, a detach, a removal, a failing detach. -/
def orderCalls : List (Op Nat) :=
  [.register 1, .register 2, .createEntities 6, .attach 4 1 40, .attach 2 1 20, .makeGroup .non 1 2, .attach 3 1 30,
   .attachBatch 5 7 1 [50, 60], .attach 2 1 21, .detach 4 1, .attach 1 2 10, .attach 1 1 11, .removeEntity [1, 2] 2, .detach 5 2]

theorem order_play : (play Hist.orderOk orderCalls ([], World.new)).isSome = true := by decide +kernel

/-- The history, newest call first. -/
def orderTr : List (Op Nat × Out Nat) := (playedAny orderCalls order_play).1
/-- The world it leads to. -/
def orderW : World Nat := (playedAny orderCalls order_play).2

theorem orderTrace : AnyTrace orderTr orderW := playedAny_trace orderCalls order_play

end Demo

example : slots 1 Demo.orderTr = [6, 1, 3, 5] ∧ slots 2 Demo.orderTr = [1] := by decide +kernel

/-- The order, on a concrete history. -/
example : ∃ l : List (EntityId × Nat), l.map Prod.fst = [6, 1, 3, 5] ∧ (∀ x ∈ l, lastValue 1 x.1 Demo.orderTr = some x.2) ∧
    ∀ m, Yields Demo.orderW (.comp m 1) (l.map fun x => (x.1, .leaf x.2)) := by
  obtain ⟨l, h1, h2, h3, _⟩ := C62_storage Demo.orderTrace (noRebatch_iff (by decide +kernel)) (t := 1) (by decide +kernel)
    (unowned_of (by decide +kernel))
  exact ⟨l, h1.trans (by decide +kernel), h2, h3⟩

/-- A group that owns the type does change the order. -/
example : slots 1 Demo.raceTr = [1, 2] ∧ ¬ Demo.w.Unowned 1 := by
  refine ⟨by decide +kernel, fun h => ?_⟩
  have := h .full 1 2 (by decide +kernel)
  revert this; decide +kernel

/-- Packing, on a concrete world with a full-owning group of which only some entities are members. -/
example : ∃ l la lb, Yields Demo.w (.group .full .ref .mut 1 2) l ∧ (∀ m, Yields Demo.w (.comp m 1) la) ∧
    (∀ m, Yields Demo.w (.comp m 2) lb) ∧ l.map Prod.fst <+: la.map Prod.fst ∧ (Kind.full = .full → l.map Prod.fst <+: lb.map Prod.fst) :=
  C62_packed Demo.trace (k := .full) (by decide) (by decide +kernel) .ref .mut

end Xecs
