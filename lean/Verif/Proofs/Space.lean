import Verif.Spec.Space
import Verif.Proofs.OverlapGroups
import Verif.Proofs.PhasesMixed
import Verif.Props.Ids
/-
Bounds on lists and counters.
-/
set_option autoImplicit false
namespace Xecs
open Spec World Hist
variable {V : Type}

theorem room_mono (x : Op V × Out V) (tr : List (Op V × Out V)) : peak tr + unused tr ≤ peak (x :: tr) + unused (x :: tr) := by
  refine Nat.add_le_add (Nat.le_max_right _ _) ?_
  obtain ⟨op, o⟩ := x
  cases op <;> simp [unused] <;> omega

theorem wild_flags {tr : List (Op V × Out V)} {w : World V} (h : Wild tr w) (hl : RemovesLive tr) :
    w.em.flags.length ≤ peak tr + unused tr + 1 := by
  have := em_peak h hl
  omega

theorem alive_le {tr : List (Op V × Out V)} {w : World V} (h : Wild tr w) (hl : RemovesLive tr) {id : Nat}
    (ha : alive id tr = true) : id ≤ peak tr + unused tr := by
  have hem := wild_em h hl
  have := hem.inv.mem_entities.1 ((hem.alive id).1 ha)
  have := wild_flags h hl
  omega

/-- The id after the largest a type was attached to. -/
theorem trace_highest {tr : List (Op V × Out V)} {w : World V} (h : Trace tr w) (t : Nat) :
    highest t tr ≤ peak tr + unused tr + 1 := by
  induction h with
  | init => simp [highest]
  | fails hprev ha he ih => exact ih
  | ok hprev ha he ih =>
    rename_i tr w w' op o
    have hb : peak tr + unused tr ≤ peak ((op, o) :: tr) + unused ((op, o) :: tr) :=
      room_mono _ _
    have hnext := Trace.ok hprev ha he
    cases op with
    | attach id t' v =>
      have hal : alive id tr = true := hnext.live.2.2.1
      have := alive_le (.of_any hprev.any) hprev.live.2.1 hal
      simp only [highest]
      split <;> omega
    | attachBatch start stop t' vs =>
      simp only [highest]
      split
      · rename_i hc
        have hal : alive (stop - 1) tr = true := hnext.live.2.2.1 (stop - 1) (by omega) (by omega)
        have := alive_le (.of_any hprev.any) hprev.live.2.1 hal
        omega
      · omega
    | _ => exact Nat.le_trans ih (Nat.add_le_add_right hb 1)

theorem nodup_length_le : ∀ {l m : List Nat}, l.Nodup → (∀ x ∈ l, x ∈ m) → l.length ≤ m.length
  | [], _, _, _ => Nat.zero_le _
  | x :: l, m, hl, hs => by
    rw [List.nodup_cons] at hl
    have hx := hs x (.head _)
    have := nodup_length_le (m := m.erase x) hl.2 fun y hy => by
      have hne : y ≠ x := fun e => hl.1 (e ▸ hy)
      rw [List.mem_erase_of_ne hne]; exact hs y (.tail _ hy)
    have := List.length_erase_of_mem hx
    have := List.length_pos_of_mem hx
    rw [List.length_cons]; omega

theorem Rel.room {w : World V} {s : State V} (h : Rel w s) {N : Nat} (hf : w.em.flags.length ≤ N + 1)
    (hw : ∀ t, s.hw t ≤ N + 1) : Room N w.em.entities.length w := by
  have living : ∀ t st, w.comps t = some st → ∀ e ∈ st.set.entities, e ∈ w.em.entities := by
    intro t st hst e he
    obtain ⟨e1, e2, e3⟩ := live_iff.1 (h.live t e (by
      have hs := h.core.st t
      rw [hst] at hs
      cases hc : s.comp t with
      | none => rw [hc] at hs; exact hs.elim
      | some f =>
        rw [hc] at hs
        obtain ⟨_, wf, hl, _⟩ := hs
        simp only [State.has, State.get, hc, ← hl]
        obtain ⟨i, hi⟩ := List.mem_iff_getElem?.1 he
        have hlt := (List.getElem?_eq_some_iff.1 hi).1
        rw [wf.len] at hlt
        simp only [SparseSet.lookup, (SparseSet.getIndex_iff wf).2 hi, Option.bind_some, List.getElem?_eq_getElem hlt,
          Option.isSome_some]))
    exact h.em.mem_entities.2 ⟨e1, by rw [h.next]; exact e2, e3⟩
  have dense : ∀ t st, w.comps t = some st → st.set.entities.length ≤ w.em.entities.length := fun t st hst =>
    nodup_length_le (SparseSet.nodup (h.core.wf _ _ hst)) (living t st hst)
  refine ⟨hf, rfl, fun t st hst => ?_, fun t st hst => ?_, fun t st e i hst hi => ?_, fun g hg => ?_⟩
  · have hs := h.core.st t
    rw [hst] at hs
    cases hc : s.comp t with
    | none => rw [hc] at hs; exact hs.elim
    | some f => rw [hc] at hs; rw [hs.2.2.2]; exact hw t
  · have := (h.core.wf _ _ hst).len
    have := dense t st hst
    omega
  · have wf := h.core.wf _ _ hst
    cases i with
    | zero => omega
    | succ i =>
      have := (List.getElem?_eq_some_iff.1 ((wf.idx e i).1 hi)).1
      have := dense t st hst
      omega
  · obtain ⟨k, hk⟩ := List.mem_iff_getElem?.1 hg
    have hlt : k < s.groups.length := by rw [← h.core.glen]; exact (List.getElem?_eq_some_iff.1 hk).1
    obtain ⟨A, B, hA, hB, hsound, hmem, _⟩ := (h.core.grp k _ _ hk (List.getElem?_eq_getElem hlt)).ex
    obtain ⟨L, n1, n2, n3⟩ := Group.members hsound (h.core.wf _ _ hA)
    rw [← n2]
    refine nodup_length_le n1 fun e he => living _ _ hA e ?_
    exact (Group.Sound.mem_both hsound ((n3 e).1 he)).1

theorem Mixed.room {tr : List (Op V × Out V)} {w : World V} (h : Mixed tr w) : Room (peak tr + unused tr) (population tr) w := by
  obtain ⟨u, g, ht, hr, hw⟩ := h.like
  have hl := ht.live.2.1
  have hu : Wild tr u := .of_any ht.any
  have e1 : w.em.flags.length = u.em.flags.length := hw.next.trans hr.rel.next.symm
  have e2 : w.em.entities.length = population tr := by
    have c1 := em_size hw.em
    have c2 := em_size hr.rel.em
    have c3 := em_population (wild_em hu hl)
    have c4 : g.unfresh.free = g.free := rfl
    rw [c4] at c1
    omega
  have := hw.room (N := peak tr + unused tr) (by rw [e1]; exact wild_flags hu hl) fun t => by
    show g.hw t ≤ _
    rw [run_hw hr]; exact trace_highest ht t
  rwa [e2] at this

end Xecs
