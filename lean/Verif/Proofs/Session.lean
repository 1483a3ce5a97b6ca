import Verif.Proofs.Setup
/-
Arbitrary sequences of calls on one query iterator.
-/
set_option autoImplicit false
namespace Xecs
open Spec World Hist
variable {V : Type}

/-- One call on the iterator `p` at index `i`, and the index afterwards with the single-index
iterators of Model/Query. -/
def Plan.call (w : World V) (p : Plan) (i : Nat) : Call → R (Reply × Nat)
  | .next => do
    let (x, j) ← p.next w i
    .ok (.item x, j)
  | .nextWithId => do
    let (x, j) ← p.nextWithId w i
    .ok (.withId x, j)
  | .fromId id => do .ok (.atId (← p.fromId w id), i)

/-- A sequence of calls on the iterator. -/
def Plan.session (w : World V) (p : Plan) : List Call → Nat → R (List Reply × Nat)
  | [], i => .ok ([], i)
  | c :: cs, i => do
    let (r, j) ← p.call w i c
    let (rs, k) ← session w p cs j
    .ok (r :: rs, k)

theorem lookup_map (pl : Nat → Item Loc) (l : List Nat) (id : Nat) :
    (l.map fun x => (x, pl x)).lookup id = if id ∈ l then some (pl id) else none := by
  induction l with
  | nil => rfl
  | cons x l ih =>
    simp only [List.map_cons, List.lookup_cons, ih, List.mem_cons]
    by_cases hx : id = x
    · subst hx; simp
    · have : (id == x) = false := by simpa using hx
      simp [this, hx]

/-- The number of elements left after some calls. -/
theorem expected_length (all : List (Nat × Item Loc)) : ∀ (cs : List Call) (todo : List (Nat × Item Loc)),
    (expected all cs todo).length = cs.length := by
  intro cs
  induction cs with
  | nil => intro _; rfl
  | cons c cs ih =>
    intro todo
    cases c <;> cases todo <;> simp [expected, ih]

section
variable {tr : List (Op V × Out V)} {w w0 : World V} {s : State V} {pc : Nat → Prop}
  {pg : Kind → Nat → Nat → Prop} (h : Setup tr w w0 s pc pg)
include h

theorem Setup.at {q : Query} (hq : Parts pc pg q) (id : Nat) : (planOf w0 q).fromId w id =
    .ok (((ids w0 s q).map fun x => (x, place w0 x q)).lookup id) := by
  obtain ⟨hd, hf, ha⟩ := h.ok q hq
  rw [h.fromId hq, fromId_spec h.rel q id hd hf, lookup_map, (ha id).1]
  have hm := (h.ids_spec hq).2 id
  cases hv : q.answer (values tr) id with
  | none =>
    have : id ∉ ids w0 s q := by rw [hm, hv]; simp
    simp [this]
  | some v =>
    have : id ∈ ids w0 s q := by rw [hm, hv]; simp
    simp [this]

theorem Setup.session {q : Query} (hq : Parts pc pg q) : ∀ (cs : List Call) (i : Nat), i ≤ (drv w0 q).length →
    ∃ j, (planOf w0 q).session w cs i =
      .ok (expected ((ids w0 s q).map fun x => (x, place w0 x q)) cs ((rest w0 s q i).map fun x => (x, place w0 x q)), j) ∧
      j ≤ (drv w0 q).length ∧ rest w0 s q j = (rest w0 s q i).drop (advances cs) := by
  obtain ⟨hd, hf, ha⟩ := h.ok q hq
  intro cs
  induction cs with
  | nil => intro i hi; exact ⟨i, rfl, hi, rfl⟩
  | cons c cs ih =>
    intro i hi
    have hn := next_eq h.rel q hd hf i hi
    cases c with
    | fromId id =>
      obtain ⟨j, e1, e2, e3⟩ := ih i hi
      refine ⟨j, ?_, e2, e3⟩
      simp only [Plan.session, Plan.call, h.at hq, ok_bind, e1, expected]
    | next =>
      rcases nextWithId_rest h.rel q hd hf hi with ⟨id, k, e, hik, hk, hrest⟩ | ⟨e, hrest⟩
      · obtain ⟨j, e1, e2, e3⟩ := ih k hk
        refine ⟨j, ?_, e2, by rw [e3, hrest]; rfl⟩
        simp only [Plan.session, Plan.call, h.next hq, hn, e, Plan.dropId, ok_bind, Option.map_some, e1, hrest, List.map_cons,
          expected]
      · obtain ⟨j, e1, e2, e3⟩ := ih _ (Nat.le_refl _)
        have hend : rest w0 s q (drv w0 q).length = [] := by simp [rest]
        refine ⟨j, ?_, e2, by rw [e3, hrest, hend]; simp⟩
        simp only [Plan.session, Plan.call, h.next hq, hn, e, Plan.dropId, ok_bind, Option.map_none, e1, hrest, List.map_nil,
          expected, hend]
    | nextWithId =>
      rcases nextWithId_rest h.rel q hd hf hi with ⟨id, k, e, hik, hk, hrest⟩ | ⟨e, hrest⟩
      · obtain ⟨j, e1, e2, e3⟩ := ih k hk
        refine ⟨j, ?_, e2, by rw [e3, hrest]; rfl⟩
        simp only [Plan.session, Plan.call, h.nextWithId hq, e, ok_bind, e1, hrest, List.map_cons, expected]
      · obtain ⟨j, e1, e2, e3⟩ := ih _ (Nat.le_refl _)
        have hend : rest w0 s q (drv w0 q).length = [] := by simp [rest]
        refine ⟨j, ?_, e2, by rw [e3, hrest, hend]; simp⟩
        simp only [Plan.session, Plan.call, h.nextWithId hq, e, ok_bind, e1, hrest, List.map_nil, expected, hend]

theorem Setup.hint {q : Query} (hq : Parts pc pg q)
    (hb : (∃ m t, q = .comp m t) ∨ (∃ k ma mb a b, q = .group k ma mb a b)) {i : Nat}
    (hi : i ≤ (drv w0 q).length) :
    (planOf w0 q).sizeHint w i = .ok ((rest w0 s q i).length, some (rest w0 s q i).length) := by
  rw [h.sizeHint hq]
  exact sizeHint_base h.rel q (h.ok q hq).1 hb hi

/-! ### Order -/

theorem Setup.ids_with2 {a b : Query} (hq : Parts pc pg (.with2 a b)) :
    ids w0 s (.with2 a b) = (ids w0 s a).filter fun id => (b.answer (values tr) id).isSome := by
  obtain ⟨_, _, hb⟩ := h.ok b hq.2
  simp only [ids, rest, drv, List.drop_zero, List.filter_filter]
  apply List.filter_congr
  intro id _
  simp only [State.yields, (hb id).1]
  cases s.yields a id <;> cases b.answer (values tr) id <;> rfl

theorem Setup.ids_with3 {a b c : Query} (hq : Parts pc pg (.with3 a b c)) :
    ids w0 s (.with3 a b c) = (ids w0 s a).filter fun id =>
      (b.answer (values tr) id).isSome && (c.answer (values tr) id).isSome := by
  obtain ⟨_, _, hb⟩ := h.ok b hq.2.1
  obtain ⟨_, _, hc⟩ := h.ok c hq.2.2
  simp only [ids, rest, drv, List.drop_zero, List.filter_filter]
  apply List.filter_congr
  intro id _
  simp only [State.yields, (hb id).1, (hc id).1]
  cases s.yields a id <;> cases b.answer (values tr) id <;> cases c.answer (values tr) id <;> rfl

theorem Setup.ids_with4 {a b c d : Query} (hq : Parts pc pg (.with4 a b c d)) :
    ids w0 s (.with4 a b c d) = (ids w0 s a).filter fun id => (b.answer (values tr) id).isSome &&
      (c.answer (values tr) id).isSome && (d.answer (values tr) id).isSome := by
  obtain ⟨_, _, hb⟩ := h.ok b hq.2.1
  obtain ⟨_, _, hc⟩ := h.ok c hq.2.2.1
  obtain ⟨_, _, hd⟩ := h.ok d hq.2.2.2
  simp only [ids, rest, drv, List.drop_zero, List.filter_filter]
  apply List.filter_congr
  intro id _
  simp only [State.yields, (hb id).1, (hc id).1, (hd id).1]
  cases s.yields a id <;> cases b.answer (values tr) id <;> cases c.answer (values tr) id <;>
    cases d.answer (values tr) id <;> rfl

theorem Setup.ids_with5 {a b c d e : Query} (hq : Parts pc pg (.with5 a b c d e)) :
    ids w0 s (.with5 a b c d e) = (ids w0 s a).filter fun id => (b.answer (values tr) id).isSome &&
      (c.answer (values tr) id).isSome && (d.answer (values tr) id).isSome && (e.answer (values tr) id).isSome := by
  obtain ⟨_, _, hb⟩ := h.ok b hq.2.1
  obtain ⟨_, _, hc⟩ := h.ok c hq.2.2.1
  obtain ⟨_, _, hd⟩ := h.ok d hq.2.2.2.1
  obtain ⟨_, _, he⟩ := h.ok e hq.2.2.2.2
  simp only [ids, rest, drv, List.drop_zero, List.filter_filter]
  apply List.filter_congr
  intro id _
  simp only [State.yields, (hb id).1, (hc id).1, (hd id).1, (he id).1]
  cases s.yields a id <;> cases b.answer (values tr) id <;> cases c.answer (values tr) id <;>
    cases d.answer (values tr) id <;> cases e.answer (values tr) id <;> rfl

theorem Setup.ids_withoutR {a b : Query} (hq : Parts pc pg (.withoutR a b)) :
    ids w0 s (.withoutR a b) = (ids w0 s a).filter fun id => !(b.answer (values tr) id).isSome := by
  obtain ⟨_, _, hb⟩ := h.ok b hq.2
  simp only [ids, rest, drv, List.drop_zero, List.filter_filter]
  apply List.filter_congr
  intro id _
  simp only [State.yields, (hb id).1]
  cases s.yields a id <;> cases b.answer (values tr) id <;> rfl

theorem Setup.ids_withoutL {a b : Query} (hq : Parts pc pg (.withoutL a b)) :
    ids w0 s (.withoutL a b) = (ids w0 s b).filter fun id => !(a.answer (values tr) id).isSome := by
  obtain ⟨_, _, hb⟩ := h.ok a hq.1
  simp only [ids, rest, drv, List.drop_zero, List.filter_filter]
  apply List.filter_congr
  intro id _
  simp only [State.yields, (hb id).1]
  cases s.yields b id <;> cases a.answer (values tr) id <;> rfl

end
end Xecs
