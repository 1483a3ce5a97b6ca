import Verif.Proofs.Seats
import Verif.Props.Order
/-
C64: what a query on a non-owning group yields, exactly.
-/
set_option autoImplicit false
namespace Xecs
open Spec World Hist
variable {V : Type} {tr : List (Op V × Out V)} {w w' : World V}

/-- The component at a place of a storage, from the history. -/
theorem place_value (h : Trace tr w) {t : Nat} {A : Storage V} (hA : w.comps t = some A) (he : A.set.entities = slots t tr) (i : Nat) :
    A.set.data[i]? = valueAt t i tr := by
  obtain ⟨_, _, hwf, hl⟩ := (any_look h.any h.live.1).at_some hA
  unfold valueAt
  rw [← he]
  cases hx : A.set.entities[i]? with
  | some x =>
    rw [← SparseSet.lookup_of_index hwf hx]
    exact hl x
  | none =>
    have := hwf.len
    rw [List.getElem?_eq_none_iff] at hx ⊢
    omega

/-- What the history says the query yields, as the query hands it out: with references. -/
theorem collect_non {k : Nat} {ma mb : Mode} {a b : Nat} {s : SparseSet (Nat × Nat)} (hg : w.groups[k]? = some (.non s a b)) {A B : Storage V}
    (hA : w.comps a = some A) (hB : w.comps b = some B) (pa : ∀ i, A.set.data[i]? = valueAt a i tr) (pb : ∀ i, B.set.data[i]? = valueAt b i tr)
    (hs : s.WF) (hl : ∀ x ∈ s.entities, s.lookup x = some (seat a b x tr)) : ∀ (fuel i : Nat), s.entities.length - i < fuel → i ≤ s.entities.length →
    ((Plan.non k ma mb a b).collectFrom w fuel i >>= fun l => .ok (l.map fun x => (x.1, w.derefItem x.2))) =
      (yielded a b tr (s.entities.drop i) >>= fun l => .ok (l.map fun x => (x.1, some x.2))) := by
  intro fuel
  induction fuel with
  | zero => intro i h; omega
  | succ fuel ih =>
    intro i h hi
    have hgs : Plan.groupSetOf w k = .ok s := by simp [Plan.groupSetOf, getR, hg]
    by_cases hlt : i < s.entities.length
    · have hx := List.getElem?_eq_getElem hlt
      have hd := SparseSet.lookup_of_index hs hx
      rw [hl _ (List.getElem_mem hlt)] at hd
      rw [List.drop_eq_getElem_cons hlt]
      have ih := ih (i + 1) (by omega) (by omega)
      simp only [Plan.collectFrom, Plan.nextWithId, hgs, ok_bind, if_pos (show i < s.len from hlt), getU_some hx, getU_some hd.symm, Plan.setOf, hA, hB,
        unwrapR, Plan.refAt, yielded]
      cases ha : valueAt a (seat a b s.entities[i] tr).1 tr with
      | none => simp only [getU, pa, ha]; rfl
      | some x =>
        cases hb : valueAt b (seat a b s.entities[i] tr).2 tr with
        | none => simp only [getU, pa, pb, ha, hb]; rfl
        | some y =>
          simp only [getU, pa, pb, ha, hb, ok_bind]
          cases hc : (Plan.non k ma mb a b).collectFrom w fuel (i + 1) with
          | error e =>
            rw [hc] at ih
            cases hy : yielded a b tr (s.entities.drop (i + 1)) with
            | error e' => rw [hy] at ih; exact ih
            | ok l => rw [hy] at ih; cases ih
          | ok l =>
            rw [hc] at ih
            cases hy : yielded a b tr (s.entities.drop (i + 1)) with
            | error e' => rw [hy] at ih; cases ih
            | ok l' =>
              rw [hy] at ih
              simp only [ok_bind, Except.ok.injEq] at ih
              simp only [ok_bind, Except.ok.injEq, List.map_cons, ih]
              congr 1
              simp [derefItem, deref, hA, hB, pa, pb, ha, hb]
    · have : i = s.entities.length := by omega
      subst this
      simp only [Plan.collectFrom, Plan.nextWithId, hgs, ok_bind, if_neg (show ¬ s.entities.length < s.len from hlt), List.drop_length, yielded, List.map_nil]

/-- C64. If no group owns `a` or `b`, a query on the non-owning group over them does exactly what the history says: it visits the
members in the order of `members`, and yields for each the components that are now at the places where its components were
when it joined, reading out of bounds if there is no such place. -/
theorem C64_exact (h : Trace tr w) {a b : TypeId} (hm : madeGroup .non a b tr = true) (ua : w.Unowned a) (ub : w.Unowned b) {ma mb : Mode}
    (hc : a ≠ b ∨ (ma = .ref ∧ mb = .ref)) :
    w.results (.group .non ma mb a b) =
      match yielded a b tr (members a b tr) with
      | .ok l => .ok (l.map fun x => (x.1, some x.2))
      | .error e => .error e := by
  obtain ⟨h1, h2, _⟩ := h.made_registered hm
  obtain ⟨s, hr⟩ := h.run
  have hd : s.Defined (.group .non ma mb a b) := (run_defined hr _).2 ⟨h1, h2, hm⟩
  obtain ⟨gs, hgs⟩ := Option.isSome_iff_exists.1 hd.2.2
  obtain ⟨k, g, e1, e2, e3, hg, hk, rfl, rfl⟩ := group?_some hr.rel.core hgs
  cases g with
  | full n c d => cases hk
  | part n c d => cases hk
  | non set c d =>
    have ec : c = gs.a := hg.tyA
    have ed : d = gs.b := hg.tyB
    subst ec ed
    obtain ⟨wf, ⟨A, hA, _, eA⟩, ⟨B, hB, _, eB⟩, _, _⟩ := h.base e3 (unheld_of ua) (unheld_of ub)
    obtain ⟨t1, t2⟩ := trace_seats h e3 (unheld_of ua) (unheld_of ub)
    have hp := prepare_ok hr.rel.core _ [] hd (by simpa [Query.Conflictless] using group_conflictless (k := .non) hc)
    have hpl : planOf w (.group .non ma mb gs.a gs.b) = .non k ma mb gs.a gs.b := by simp [planOf, e1]
    have hcol := collect_non (tr := tr) (ma := ma) (mb := mb) e3 hA hB (place_value h hA eA) (place_value h hB eB) wf (fun x hx => t2 x (t1 ▸ hx))
      (set.len - 0 + 1) 0 (by simp [SparseSet.len]) (Nat.zero_le _)
    rw [List.drop_zero, t1] at hcol
    simp only [World.results, World.queryAll, World.query, hp, ok_bind, hpl, Plan.remaining, e3]
    rw [hcol]
    cases yielded gs.a gs.b tr (members gs.a gs.b tr) <;> rfl

/-- C64. Looking a member up by its id through such a query reads the same remembered places; anybody else is not found. -/
theorem C64_lookup (h : Trace tr w) {a b : TypeId} (hm : madeGroup .non a b tr = true) (ua : w.Unowned a) (ub : w.Unowned b) {ma mb : Mode}
    (hc : a ≠ b ∨ (ma = .ref ∧ mb = .ref)) :
    ∃ it, w.iter (.group .non ma mb a b) = .ok it ∧ ∀ id,
      if id ∈ members a b tr then
        match valueAt a (seat a b id tr).1 tr, valueAt b (seat a b id tr).2 tr with
        | some x, some y => ∃ r, it.fromId w id = .ok (some r, it) ∧ w.derefItem r = some (.pair (.leaf x) (.leaf y))
        | _, _ => it.fromId w id = .error .ub
      else it.fromId w id = .ok (none, it) := by
  obtain ⟨h1, h2, _⟩ := h.made_registered hm
  obtain ⟨s, hr⟩ := h.run
  have hd : s.Defined (.group .non ma mb a b) := (run_defined hr _).2 ⟨h1, h2, hm⟩
  obtain ⟨gs, hgs⟩ := Option.isSome_iff_exists.1 hd.2.2
  obtain ⟨k, g, e1, e2, e3, hg, hk, rfl, rfl⟩ := group?_some hr.rel.core hgs
  cases g with
  | full n c d => cases hk
  | part n c d => cases hk
  | non set c d =>
    have ec : c = gs.a := hg.tyA
    have ed : d = gs.b := hg.tyB
    subst ec ed
    obtain ⟨wf, ⟨A, hA, _, eA⟩, ⟨B, hB, _, eB⟩, _, _⟩ := h.base e3 (unheld_of ua) (unheld_of ub)
    obtain ⟨t1, t2⟩ := trace_seats h e3 (unheld_of ua) (unheld_of ub)
    have hp := prepare_ok hr.rel.core _ [] hd (by simpa [Query.Conflictless] using group_conflictless (k := .non) hc)
    have hpl : planOf w (.group .non ma mb gs.a gs.b) = .non k ma mb gs.a gs.b := by simp [planOf, e1]
    have hgset : Plan.groupSetOf w k = .ok set := by simp [Plan.groupSetOf, getR, e3]
    have pa := place_value h hA eA
    have pb := place_value h hB eB
    refine ⟨⟨.non k ma mb gs.a gs.b, .leaf 0⟩, by simp only [World.iter, World.query, hp, ok_bind, hpl, Plan.start], fun id => ?_⟩
    have hf : Iter.fromId w ⟨.non k ma mb gs.a gs.b, .leaf 0⟩ id =
        (do let r ← Plan.fromId w (.non k ma mb gs.a gs.b) id; .ok (r, ⟨.non k ma mb gs.a gs.b, .leaf 0⟩)) := by
      simp only [Iter.fromId, Plan.fromIdMut]
      cases Plan.fromId w (.non k ma mb gs.a gs.b) id <;> rfl
    simp only [hf, Plan.fromId, hgset, ok_bind, Plan.setOf, hA, hB, unwrapR, SparseSet.get_eq wf]
    by_cases hi : id ∈ members gs.a gs.b tr
    · rw [if_pos hi, t2 id hi]
      simp only [Plan.refAt]
      cases ha : valueAt gs.a (seat gs.a gs.b id tr).1 tr with
      | none => simp only [getU, pa, ha]; rfl
      | some x =>
        cases hb : valueAt gs.b (seat gs.a gs.b id tr).2 tr with
        | none => simp only [getU, pa, pb, ha, hb]; rfl
        | some y =>
          simp only [getU, pa, pb, ha, hb, ok_bind]
          exact ⟨_, rfl, by simp [derefItem, deref, hA, hB, pa, pb, ha, hb]⟩
    · have hn : set.lookup id = none := (SparseSet.lookup_none wf).2 (t1 ▸ hi)
      rw [if_neg hi, hn]
      rfl

/-- A component is at a place exactly if the list is long enough. -/
theorem valueAt_isSome (h : Trace tr w) {t : Nat} (hr : registered t tr = true) (hu : w.Unowned t) (i : Nat) :
    (∃ v, valueAt t i tr = some v) ↔ i < (slots t tr).length := by
  obtain ⟨st, hst, _, hwf, _⟩ := any_listing h.any h.live.1 hr
  have he := any_slots h.any h.live.1 (unheld_of hu)
  rw [hst] at he
  rw [← place_value h hst he, ← he, hwf.len, ← Option.isSome_iff_exists]
  simp

/-- What is yielded if all the places exist. -/
theorem yielded_ok {a b : Nat} : ∀ {ids : List Nat}, (∃ l, yielded a b tr ids = .ok l) ↔
    ∀ id ∈ ids, (∃ v, valueAt a (seat a b id tr).1 tr = some v) ∧ ∃ v, valueAt b (seat a b id tr).2 tr = some v := by
  intro ids
  induction ids with
  | nil => simp [yielded]
  | cons id ids ih =>
    rw [List.forall_mem_cons, ← ih, yielded]
    cases valueAt a (seat a b id tr).1 tr with
    | none => simp
    | some x =>
      cases valueAt b (seat a b id tr).2 tr with
      | none => simp
      | some y => cases yielded a b tr ids <;> simp

/-- C64. The query is free of undefined behaviour exactly if all the places it remembers still exist. -/
theorem C64_defined (h : Trace tr w) {a b : TypeId} (hm : madeGroup .non a b tr = true) (ua : w.Unowned a) (ub : w.Unowned b) {ma mb : Mode}
    (hc : a ≠ b ∨ (ma = .ref ∧ mb = .ref)) :
    ((∃ l, Yields w (.group .non ma mb a b) l) ↔
      ∀ id ∈ members a b tr, (seat a b id tr).1 < (slots a tr).length ∧ (seat a b id tr).2 < (slots b tr).length) ∧
    ((¬ ∃ l, Yields w (.group .non ma mb a b) l) → w.results (.group .non ma mb a b) = .error .ub) := by
  obtain ⟨h1, h2, _⟩ := h.made_registered hm
  have he := C64_exact h hm ua ub hc
  have hy : (∃ l, Yields w (.group .non ma mb a b) l) ↔ ∃ l, yielded a b tr (members a b tr) = .ok l := by
    unfold Yields
    rw [he]
    cases yielded a b tr (members a b tr) with
    | error e => simp
    | ok l => exact ⟨fun _ => ⟨l, rfl⟩, fun _ => ⟨l, rfl⟩⟩
  refine ⟨?_, fun hno => ?_⟩
  · rw [hy, yielded_ok]
    simp only [valueAt_isSome h h1 ua, valueAt_isSome h h2 ub]
  · rw [hy] at hno
    rw [he]
    have hub : ∀ ids : List Nat, (∃ l, yielded a b tr ids = .ok l) ∨ yielded a b tr ids = .error .ub := by
      intro ids
      induction ids with
      | nil => exact .inl ⟨[], rfl⟩
      | cons id ids ih =>
        unfold yielded
        cases valueAt a (seat a b id tr).1 tr with
        | none => exact .inr rfl
        | some x =>
          cases valueAt b (seat a b id tr).2 tr with
          | none => exact .inr rfl
          | some y =>
            rcases ih with ⟨l, e⟩ | e
            · exact .inl ⟨_, by rw [e]⟩
            · exact .inr (by rw [e])
    rcases hub (members a b tr) with e | e
    · exact absurd e hno
    · rw [e]

/-- C64. As long as every member's components are where they were when it joined, the query yields every member's own
components. -/
theorem C64_own (h : Trace tr w) {a b : TypeId} (hm : madeGroup .non a b tr = true) (ua : w.Unowned a) (ub : w.Unowned b) {ma mb : Mode}
    (hc : a ≠ b ∨ (ma = .ref ∧ mb = .ref))
    (hs : ∀ id ∈ members a b tr, (slots a tr)[(seat a b id tr).1]? = some id ∧ (slots b tr)[(seat a b id tr).2]? = some id) :
    ∃ l, Yields w (.group .non ma mb a b) l ∧ l.map Prod.fst = members a b tr ∧
      ∀ x ∈ l, bothOf (lastValue a x.1 tr) (lastValue b x.1 tr) = some x.2 := by
  obtain ⟨h1, h2, _⟩ := h.made_registered hm
  have he := C64_exact h hm ua ub hc
  have key : ∀ ids : List Nat, (∀ id ∈ ids, id ∈ members a b tr) → ∃ l, yielded a b tr ids = .ok l ∧ l.map Prod.fst = ids ∧
      ∀ x ∈ l, bothOf (lastValue a x.1 tr) (lastValue b x.1 tr) = some x.2 := by
    intro ids
    induction ids with
    | nil => intro _; exact ⟨[], rfl, rfl, fun x hx => by cases hx⟩
    | cons id ids ih =>
      intro hin
      obtain ⟨l, e1, e2, e3⟩ := ih fun x hx => hin x (List.mem_cons_of_mem _ hx)
      obtain ⟨sa, sb⟩ := hs id (hin id (List.mem_cons_self ..))
      obtain ⟨va, ea⟩ := (valueAt_isSome h h1 ua _).2 (List.getElem?_eq_some_iff.1 sa).1
      obtain ⟨vb, eb⟩ := (valueAt_isSome h h2 ub _).2 (List.getElem?_eq_some_iff.1 sb).1
      refine ⟨_, by rw [yielded, ea, eb, e1], by rw [List.map_cons, e2], fun x hx => ?_⟩
      simp only [valueAt, sa] at ea
      simp only [valueAt, sb] at eb
      rcases List.mem_cons.1 hx with rfl | hx
      · rw [ea, eb]; rfl
      · exact e3 x hx
  obtain ⟨l, e1, e2, e3⟩ := key _ fun _ hx => hx
  exact ⟨l, by unfold Yields; rw [he, e1], e2, e3⟩

/-! ### Examples -/

namespace Demo

/-- Three entities with both components; one loses one of them, the last one takes its place, a fourth one comes in. -/
def seatCalls : List (Op Nat) :=
  [.register 1, .register 2, .createEntities 4, .makeGroup .non 1 2, .attach 1 1 11, .attach 2 1 12,
      .attach 3 1 13, .attach 1 2 21, .attach 2 2 22, .attach 3 2 23, .detach 1 1, .attach 4 1 14]

theorem seat_play : (play Hist.allowed seatCalls ([], World.new)).isSome = true := by decide +kernel
/-- The history, newest call first. -/
def seatTr : List (Op Nat × Out Nat) := (played seatCalls seat_play).1
/-- The world it leads to. -/
def seatW : World Nat := (played seatCalls seat_play).2
theorem seatTrace : Trace seatTr seatW := played_trace seatCalls seat_play

theorem stale_play : (play Hist.allowed seatCalls.dropLast ([], World.new)).isSome = true := by decide +kernel
/-- The history before the fourth one comes in. -/
def staleTr : List (Op Nat × Out Nat) := (played seatCalls.dropLast stale_play).1
/-- The world it leads to. -/
def staleW : World Nat := (played seatCalls.dropLast stale_play).2
theorem staleTrace : Trace staleTr staleW := played_trace seatCalls.dropLast stale_play

end Demo

example : members 1 2 Demo.seatTr = [3, 2] ∧ seat 1 2 3 Demo.seatTr = (2, 2) ∧ seat 1 2 2 Demo.seatTr = (1, 1) ∧
    slots 1 Demo.seatTr = [3, 2, 4] ∧ slots 2 Demo.seatTr = [1, 2, 3] := by decide +kernel

/-- Entity 3 is yielded with the component of entity 4. -/
example : Demo.seatW.results (.group .non .ref .ref 1 2) =
    .ok [(3, some (.pair (.leaf 14) (.leaf 23))), (2, some (.pair (.leaf 12) (.leaf 22)))] := by
  rw [C64_exact Demo.seatTrace (by decide +kernel) (unowned_of (by decide +kernel)) (unowned_of (by decide +kernel)) (.inl (by decide))]
  decide +kernel

/-- Looked up by id, entity 3 is given the component of entity 4 too, and entity 1, which has left, is not found. -/
example : ∃ it, Demo.seatW.iter (.group .non .ref .mut 1 2) = .ok it ∧
    (∃ r, it.fromId Demo.seatW 3 = .ok (some r, it) ∧ Demo.seatW.derefItem r = some (.pair (.leaf 14) (.leaf 23))) ∧
    it.fromId Demo.seatW 1 = .ok (none, it) := by
  obtain ⟨it, h1, h2⟩ := C64_lookup Demo.seatTrace (a := 1) (b := 2) (ma := .ref) (mb := .mut) (by decide +kernel) (unowned_of (by decide +kernel))
    (unowned_of (by decide +kernel)) (.inl (by decide))
  refine ⟨it, h1, ?_, ?_⟩
  · have h := h2 3
    rw [if_pos (by decide +kernel), show valueAt 1 (seat 1 2 3 Demo.seatTr).1 Demo.seatTr = some 14 by decide +kernel,
      show valueAt 2 (seat 1 2 3 Demo.seatTr).2 Demo.seatTr = some 23 by decide +kernel] at h
    exact h
  · have h := h2 1
    rwa [if_neg (by decide +kernel)] at h

/-- Without entity 4 the query reads out of bounds. -/
example : Demo.staleW.results (.group .non .ref .ref 1 2) = .error .ub := by
  have h := C64_defined Demo.staleTrace (a := 1) (b := 2) (ma := .ref) (mb := .ref) (by decide +kernel) (unowned_of (by decide +kernel))
    (unowned_of (by decide +kernel)) (.inl (by decide))
  refine h.2 (mt h.1.1 fun hx => ?_)
  have := (hx 3 (by decide +kernel)).1
  revert this
  decide +kernel

namespace Demo

/-- Here those who leave were the last ones in the lists. -/
def stillCalls : List (Op Nat) :=
  [.register 1, .register 2, .createEntities 4, .attach 1 1 11, .attach 2 2 22, .attach 2 1 12, .makeGroup .non 1 2,
    .attach 1 2 21, .attach 3 1 13, .attach 4 2 24, .attach 3 2 23, .detach 3 2, .removeEntity [1, 2] 3, .detach 4 2]

theorem still_play : (play Hist.allowed stillCalls ([], World.new)).isSome = true := by decide +kernel
/-- The history, newest call first. -/
def stillTr : List (Op Nat × Out Nat) := (played stillCalls still_play).1
/-- The world it leads to. -/
def stillW : World Nat := (played stillCalls still_play).2
theorem stillTrace : Trace stillTr stillW := played_trace stillCalls still_play

end Demo

/-- Entities whose components have not moved are yielded with their own ones, also after other entities came and went. -/
example : ∃ l, Yields Demo.stillW (.group .non .mut .ref 1 2) l ∧ l.map Prod.fst = [2, 1] ∧
    ∀ x ∈ l, bothOf (lastValue 1 x.1 Demo.stillTr) (lastValue 2 x.1 Demo.stillTr) = some x.2 := by
  obtain ⟨l, h1, h2, h3⟩ := C64_own Demo.stillTrace (a := 1) (b := 2) (ma := .mut) (mb := .ref) (by decide +kernel) (unowned_of (by decide +kernel))
    (unowned_of (by decide +kernel)) (.inl (by decide)) (by decide +kernel)
  exact ⟨l, h1, h2.trans (by decide +kernel), h3⟩

end Xecs
