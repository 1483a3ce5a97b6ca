import Verif.Spec.Decide
import Verif.Proofs.Compose
import Verif.Props.Groups
/-
Queries and iterators: properties C23-C28, C41.
-/
set_option autoImplicit false
namespace Xecs
open Spec World Hist
variable {V : Type} {tr : List (Op V × Out V)} {w : World V}

/-! ### C23, C24: composite queries -/

/-- The meaning of every query, arbitrarily nested: it yields every entity for which the query has an answer
over the component map, exactly once, with that answer. -/
theorem C23_meaning {q : Query} (h : Ready tr w q) (hc : q.Conflictless) :
    ∃ l, Yields w q l ∧ Lists l (q.answer (values tr)) := by
  obtain ⟨w0, s, pc, pg, hs, hq⟩ := h.setup
  obtain ⟨l, h1, h2, _⟩ := hs.yieldsList hq hc
  exact ⟨l, h1, h2⟩

/-- `(A, B)`, for any queries `A`, `B`: the items of `A`, in their order, of those ids that `B` yields too,
paired with the item of `B`. -/
theorem C23_pair {a b : Query} (h : Ready tr w (.with2 a b)) (hc : (Query.with2 a b).Conflictless) :
    ∃ la lb, Yields w a la ∧ Yields w b lb ∧ Yields w (.with2 a b)
      (la.filterMap fun x => (lb.lookup x.1).map fun y => (x.1, .pair x.2 y)) := by
  obtain ⟨w0, s, pc, pg, hs, hq⟩ := h.setup
  obtain ⟨la, a1, a2, a3⟩ := hs.yieldsList hq.1 (hc.sub (List.sublist_append_left _ _))
  obtain ⟨lb, b1, b2, b3⟩ := hs.yieldsList hq.2 (hc.sub (List.sublist_append_right _ _))
  obtain ⟨l, l1, l2, l3⟩ := hs.yieldsList hq hc
  refine ⟨la, lb, a1, b1, ?_⟩
  have e := Lists.derive a2 l2 (g := fun id x => (lb.lookup id).map fun y => .pair x y)
    (keep := fun id => (b.answer (values tr) id).isSome)
    (fun id => by
      simp only [b2.lookup, Query.answer]
      cases a.answer (values tr) id <;> cases b.answer (values tr) id <;> rfl)
    (fun id hk x => by
      simp only [b2.lookup]
      cases hb : b.answer (values tr) id <;> simp_all)
    (by rw [l3, a3]; exact hs.ids_with2 hq)
  rw [e] at l1
  simpa only [Option.map_map, Function.comp_def] using l1

/-- `(A, B, C)`. -/
theorem C23_triple {a b c : Query} (h : Ready tr w (.with3 a b c)) (hc : (Query.with3 a b c).Conflictless) :
    ∃ la lb lc, Yields w a la ∧ Yields w b lb ∧ Yields w c lc ∧ Yields w (.with3 a b c)
      (la.filterMap fun x => do return (x.1, .pair x.2 (.pair (← lb.lookup x.1) (← lc.lookup x.1)))) := by
  obtain ⟨w0, s, pc, pg, hs, hq⟩ := h.setup
  have acc : (Query.with3 a b c).accesses = a.accesses ++ (b.accesses ++ c.accesses) := by
    simp only [Query.accesses, List.append_assoc]
  have sb : b.accesses.Sublist (Query.with3 a b c).accesses := by
    rw [acc]; exact (List.sublist_append_left _ _).trans (List.sublist_append_right _ _)
  have sc : c.accesses.Sublist (Query.with3 a b c).accesses := by
    rw [acc]; exact (List.sublist_append_right _ _).trans (List.sublist_append_right _ _)
  obtain ⟨la, a1, a2, a3⟩ := hs.yieldsList hq.1 (hc.sub (by rw [acc]; exact List.sublist_append_left _ _))
  obtain ⟨lb, b1, b2, _⟩ := hs.yieldsList hq.2.1 (hc.sub sb)
  obtain ⟨lc, c1, c2, _⟩ := hs.yieldsList hq.2.2 (hc.sub sc)
  obtain ⟨l, l1, l2, l3⟩ := hs.yieldsList hq hc
  refine ⟨la, lb, lc, a1, b1, c1, ?_⟩
  have e := Lists.derive a2 l2 (g := fun id x => do return .pair x (.pair (← lb.lookup id) (← lc.lookup id)))
    (keep := fun id => (b.answer (values tr) id).isSome && (c.answer (values tr) id).isSome)
    (fun id => by
      simp only [b2.lookup, c2.lookup, Query.answer]
      cases a.answer (values tr) id <;> cases b.answer (values tr) id <;> cases c.answer (values tr) id <;> rfl)
    (fun id hk x => by
      simp only [b2.lookup, c2.lookup]
      cases hb : b.answer (values tr) id <;> cases hcc : c.answer (values tr) id <;> simp_all)
    (by rw [l3, a3]; exact hs.ids_with3 hq)
  rw [e] at l1
  refine Eq.trans l1 ?_
  congr 3
  funext x
  cases lb.lookup x.1 <;> cases lc.lookup x.1 <;> rfl

/-- `(A, B, C, D)`. -/
theorem C23_quadruple {a b c d : Query} (h : Ready tr w (.with4 a b c d)) (hc : (Query.with4 a b c d).Conflictless) :
    ∃ la lb lc ld, Yields w a la ∧ Yields w b lb ∧ Yields w c lc ∧ Yields w d ld ∧ Yields w (.with4 a b c d)
      (la.filterMap fun x => do
        return (x.1, .pair x.2 (.pair (← lb.lookup x.1) (.pair (← lc.lookup x.1) (← ld.lookup x.1))))) := by
  obtain ⟨w0, s, pc, pg, hs, hq⟩ := h.setup
  have acc : (Query.with4 a b c d).accesses = a.accesses ++ (b.accesses ++ (c.accesses ++ d.accesses)) := by
    simp only [Query.accesses, List.append_assoc]
  have s1 : ∀ {l m n : List (TypeId × Mode)}, l.Sublist m → l.Sublist (n ++ m) :=
    fun h => h.trans (List.sublist_append_right _ _)
  obtain ⟨la, a1, a2, a3⟩ := hs.yieldsList hq.1 (hc.sub (by rw [acc]; exact List.sublist_append_left _ _))
  obtain ⟨lb, b1, b2, _⟩ := hs.yieldsList hq.2.1 (hc.sub (by rw [acc]; exact s1 (List.sublist_append_left _ _)))
  obtain ⟨lc, c1, c2, _⟩ := hs.yieldsList hq.2.2.1 (hc.sub (by rw [acc]; exact s1 (s1 (List.sublist_append_left _ _))))
  obtain ⟨ld, d1, d2, _⟩ := hs.yieldsList hq.2.2.2 (hc.sub (by rw [acc]; exact s1 (s1 (List.sublist_append_right _ _))))
  obtain ⟨l, l1, l2, l3⟩ := hs.yieldsList hq hc
  refine ⟨la, lb, lc, ld, a1, b1, c1, d1, ?_⟩
  have e := Lists.derive a2 l2
    (g := fun id x => do return .pair x (.pair (← lb.lookup id) (.pair (← lc.lookup id) (← ld.lookup id))))
    (keep := fun id => (b.answer (values tr) id).isSome && (c.answer (values tr) id).isSome && (d.answer (values tr) id).isSome)
    (fun id => by
      simp only [b2.lookup, c2.lookup, d2.lookup, Query.answer]
      cases a.answer (values tr) id <;> cases b.answer (values tr) id <;> cases c.answer (values tr) id <;>
        cases d.answer (values tr) id <;> rfl)
    (fun id hk x => by
      simp only [b2.lookup, c2.lookup, d2.lookup]
      cases hb : b.answer (values tr) id <;> cases hcc : c.answer (values tr) id <;>
        cases hd : d.answer (values tr) id <;> simp_all)
    (by rw [l3, a3]; exact hs.ids_with4 hq)
  rw [e] at l1
  refine Eq.trans l1 ?_
  congr 3
  funext x
  cases lb.lookup x.1 <;> cases lc.lookup x.1 <;> cases ld.lookup x.1 <;> rfl

/-- `(A, B, C, D, E)`. -/
theorem C23_quintuple {a b c d e : Query} (h : Ready tr w (.with5 a b c d e))
    (hc : (Query.with5 a b c d e).Conflictless) :
    ∃ la lb lc ld le, Yields w a la ∧ Yields w b lb ∧ Yields w c lc ∧ Yields w d ld ∧ Yields w e le ∧
      Yields w (.with5 a b c d e) (la.filterMap fun x => do
        return (x.1, .pair x.2 (.pair (← lb.lookup x.1) (.pair (← lc.lookup x.1)
          (.pair (← ld.lookup x.1) (← le.lookup x.1)))))) := by
  obtain ⟨w0, s, pc, pg, hs, hq⟩ := h.setup
  have acc : (Query.with5 a b c d e).accesses = a.accesses ++ (b.accesses ++ (c.accesses ++ (d.accesses ++ e.accesses))) := by
    simp only [Query.accesses, List.append_assoc]
  have s1 : ∀ {l m n : List (TypeId × Mode)}, l.Sublist m → l.Sublist (n ++ m) :=
    fun h => h.trans (List.sublist_append_right _ _)
  obtain ⟨la, a1, a2, a3⟩ := hs.yieldsList hq.1 (hc.sub (by rw [acc]; exact List.sublist_append_left _ _))
  obtain ⟨lb, b1, b2, _⟩ := hs.yieldsList hq.2.1 (hc.sub (by rw [acc]; exact s1 (List.sublist_append_left _ _)))
  obtain ⟨lc, c1, c2, _⟩ := hs.yieldsList hq.2.2.1 (hc.sub (by rw [acc]; exact s1 (s1 (List.sublist_append_left _ _))))
  obtain ⟨ld, d1, d2, _⟩ := hs.yieldsList hq.2.2.2.1 (hc.sub (by rw [acc]; exact s1 (s1 (s1 (List.sublist_append_left _ _)))))
  obtain ⟨le, e1, e2, _⟩ := hs.yieldsList hq.2.2.2.2 (hc.sub (by rw [acc]; exact s1 (s1 (s1 (List.sublist_append_right _ _)))))
  obtain ⟨l, l1, l2, l3⟩ := hs.yieldsList hq hc
  refine ⟨la, lb, lc, ld, le, a1, b1, c1, d1, e1, ?_⟩
  have ee := Lists.derive a2 l2
    (g := fun id x => do
      return .pair x (.pair (← lb.lookup id) (.pair (← lc.lookup id) (.pair (← ld.lookup id) (← le.lookup id)))))
    (keep := fun id => (b.answer (values tr) id).isSome && (c.answer (values tr) id).isSome &&
      (d.answer (values tr) id).isSome && (e.answer (values tr) id).isSome)
    (fun id => by
      simp only [b2.lookup, c2.lookup, d2.lookup, e2.lookup, Query.answer]
      cases a.answer (values tr) id <;> cases b.answer (values tr) id <;> cases c.answer (values tr) id <;>
        cases d.answer (values tr) id <;> cases e.answer (values tr) id <;> rfl)
    (fun id hk x => by
      simp only [b2.lookup, c2.lookup, d2.lookup, e2.lookup]
      cases hb : b.answer (values tr) id <;> cases hcc : c.answer (values tr) id <;>
        cases hd : d.answer (values tr) id <;> cases he : e.answer (values tr) id <;> simp_all)
    (by rw [l3, a3]; exact hs.ids_with5 hq)
  rw [ee] at l1
  refine Eq.trans l1 ?_
  congr 3
  funext x
  cases lb.lookup x.1 <;> cases lc.lookup x.1 <;> cases ld.lookup x.1 <;> cases le.lookup x.1 <;> rfl

/-- `(A, Without<B>)`, for any queries `A`, `B`: the items of `A`, in their order, of those ids that `B` does
not yield. -/
theorem C24_right {a b : Query} (h : Ready tr w (.withoutR a b)) (hc : (Query.withoutR a b).Conflictless) :
    ∃ la lb, Yields w a la ∧ Yields w b lb ∧
      Yields w (.withoutR a b) (la.filter fun x => (lb.lookup x.1).isNone) := by
  obtain ⟨w0, s, pc, pg, hs, hq⟩ := h.setup
  obtain ⟨la, a1, a2, a3⟩ := hs.yieldsList hq.1 (hc.sub (List.sublist_append_left _ _))
  obtain ⟨lb, b1, b2, b3⟩ := hs.yieldsList hq.2 (hc.sub (List.sublist_append_right _ _))
  obtain ⟨l, l1, l2, l3⟩ := hs.yieldsList hq hc
  refine ⟨la, lb, a1, b1, ?_⟩
  have e := Lists.derive a2 l2 (g := fun id x => if (lb.lookup id).isNone then some x else none)
    (keep := fun id => !(b.answer (values tr) id).isSome)
    (fun id => by
      simp only [b2.lookup, Query.answer]
      cases a.answer (values tr) id <;> cases b.answer (values tr) id <;> rfl)
    (fun id hk x => by
      simp only [b2.lookup]
      cases hb : b.answer (values tr) id <;> simp_all)
    (by rw [l3, a3]; exact hs.ids_withoutR hq)
  rw [e] at l1
  refine Eq.trans l1 ?_
  congr 2
  rw [← List.filterMap_eq_filter]
  congr 1
  funext x
  simp only [Option.guard]
  by_cases hh : (lb.lookup x.1).isNone = true <;> simp [hh]

/-- `(Without<A>, B)`. -/
theorem C24_left {a b : Query} (h : Ready tr w (.withoutL a b)) (hc : (Query.withoutL a b).Conflictless) :
    ∃ la lb, Yields w a la ∧ Yields w b lb ∧
      Yields w (.withoutL a b) (lb.filter fun x => (la.lookup x.1).isNone) := by
  obtain ⟨w0, s, pc, pg, hs, hq⟩ := h.setup
  obtain ⟨la, a1, a2, a3⟩ := hs.yieldsList hq.1 (hc.sub (List.sublist_append_left _ _))
  obtain ⟨lb, b1, b2, b3⟩ := hs.yieldsList hq.2 (hc.sub (List.sublist_append_right _ _))
  obtain ⟨l, l1, l2, l3⟩ := hs.yieldsList hq hc
  refine ⟨la, lb, a1, b1, ?_⟩
  have e := Lists.derive b2 l2 (g := fun id x => if (la.lookup id).isNone then some x else none)
    (keep := fun id => !(a.answer (values tr) id).isSome)
    (fun id => by
      simp only [a2.lookup, Query.answer]
      cases a.answer (values tr) id <;> cases b.answer (values tr) id <;> rfl)
    (fun id hk x => by
      simp only [a2.lookup]
      cases hb : a.answer (values tr) id <;> simp_all)
    (by rw [l3, b3]; exact hs.ids_withoutL hq)
  rw [e] at l1
  refine Eq.trans l1 ?_
  congr 2
  rw [← List.filterMap_eq_filter]
  congr 1
  funext x
  simp only [Option.guard]
  by_cases hh : (la.lookup x.1).isNone = true <;> simp [hh]

namespace Demo

/-- Six component types, six entities, a group of each kind. -/
def queryCalls : List (Op Nat) :=
  [.register 1, .register 2, .register 3, .register 4, .register 5, .register 6, .createEntities 6,
   .attach 3 1 31, .attach 1 1 11, .attach 5 1 51, .attach 2 1 21, .attach 6 1 61, .detach 1 1,
   .attach 5 2 52, .attach 2 2 22, .attach 3 2 32, .attach 4 2 42, .attach 2 3 23, .attach 3 3 33, .attach 5 3 53,
   .attach 6 3 63, .makeGroup .full 2 3, .attach 5 4 54, .attach 3 4 34, .makeGroup .part 4 5, .attach 2 4 24, .attach 3 5 35,
   .attach 5 5 55, .makeGroup .non 1 6, .attach 2 6 26, .attach 6 6 66, .attach 6 2 62]

theorem queryCalls_play : (play Hist.allowed queryCalls ([], World.new)).isSome = true := by decide +kernel
/-- The history. -/
def queryTr : List (Op Nat × Out Nat) := (played queryCalls queryCalls_play).1
/-- The world. -/
def queryW : World Nat := (played queryCalls queryCalls_play).2
theorem queryTrace : Trace queryTr queryW := played_trace queryCalls queryCalls_play

/-- `((&1, FullOwning<&mut 2, &3>), Without<(&4, &5)>)` -/
def nested : Query :=
  .withoutR (.with2 (.comp .ref 1) (.group .full .mut .ref 2 3)) (.with2 (.comp .ref 4) (.comp .ref 5))

/-- `(&1, (&mut 2, &3), PartialOwning<&4, &5>, (Without<&6>, &1), &1)` -/
def five : Query :=
  .with5 (.comp .ref 1) (.with2 (.comp .mut 2) (.comp .ref 3)) (.group .part .ref .ref 4 5)
    (.withoutL (.comp .ref 6) (.comp .ref 1)) (.comp .ref 1)

theorem nested_ready : Ready queryTr queryW nested :=
  .grouped queryTrace (by decide +kernel) (by decide +kernel) (by decide +kernel)
theorem five_ready : Ready queryTr queryW five :=
  .grouped queryTrace (by decide +kernel) (by decide +kernel) (by decide +kernel)
theorem ready_of {q : Query} (h : Exists queryTr q ∧ Undisturbed queryTr q ∧ Unbatched queryTr q) : Ready queryTr queryW q :=
  .grouped queryTrace h.1 h.2.1 h.2.2

end Demo

/-- The nested queries yield something, and not everything. -/
example : Demo.queryW.results Demo.nested = .ok [(6, some (.pair (.leaf 61) (.pair (.leaf 62) (.leaf 63)))),
    (2, some (.pair (.leaf 21) (.pair (.leaf 22) (.leaf 23))))] := by decide +kernel
example : (Demo.queryW.results Demo.five).toOption.map (List.map Prod.fst) = some [3, 5] := by decide +kernel
example : (Demo.queryW.results (.comp .ref 1)).toOption.map (List.map Prod.fst) = some [3, 6, 5, 2] := by decide +kernel

example : ∃ l, Yields Demo.queryW Demo.five l ∧ Lists l (Demo.five.answer (values Demo.queryTr)) :=
  C23_meaning Demo.five_ready (by decide)
example : ∃ la lb, Yields Demo.queryW (.comp .ref 1) la ∧ Yields Demo.queryW (.group .full .mut .ref 2 3) lb ∧
    Yields Demo.queryW (.with2 (.comp .ref 1) (.group .full .mut .ref 2 3))
      (la.filterMap fun x => (lb.lookup x.1).map fun y => (x.1, .pair x.2 y)) :=
  C23_pair (Demo.ready_of (by decide +kernel)) (by decide)
example := C23_triple (a := .comp .ref 1) (b := .comp .mut 2) (c := .comp .mut 3) (Demo.ready_of (by decide +kernel)) (by decide)
example := C23_quadruple (a := .comp .ref 1) (b := .comp .mut 2) (c := .comp .mut 3) (d := .comp .mut 4)
  (Demo.ready_of (by decide +kernel)) (by decide)
example := C23_quintuple Demo.five_ready (by decide)
example := C24_right Demo.nested_ready (by decide)
example := C24_left (a := .comp .ref 6) (b := .comp .ref 2) (Demo.ready_of (by decide +kernel)) (by decide)
/-- Also after an undisciplined history. -/
example := C24_right (a := .comp .mut 1) (b := .comp .ref 2)
  (.plain Demo.wildTrace Demo.wild_noRebatch (by decide) (by decide +kernel)) (by decide)

/-! ### C25, C26, C27: using iterators -/

/-- After any sequence of calls on the iterator of a query, `from_id(id)` gives exactly the item that iteration
yields for `id`, if any, and leaves the iterator as it was. -/
theorem C25_from_id {q : Query} (h : Ready tr w q) (hc : q.Conflictless) :
    ∃ it all, w.iter q = .ok it ∧ w.queryAll q = .ok all ∧
      ∀ cs rs it', it.session w cs = .ok (rs, it') → ∀ id, it'.fromId w id = .ok (all.lookup id, it') := by
  obtain ⟨w0, s, pc, pg, hs, hq⟩ := h.setup
  obtain ⟨it, h1, h2⟩ := hs.iter hq hc
  refine ⟨it, _, h1, hs.queryAll hq hc, fun cs rs it' he id => ?_⟩
  obtain ⟨x, j, e, hf, _⟩ := h2 cs
  rw [e] at he
  simp only [Except.ok.injEq, Prod.mk.injEq] at he
  rw [← he.2]
  simp only [Iter.fromId, Plan.fromIdMut_eq w id _ x hf, hs.at hq, ok_bind]

/-- Iteration yields each id at most once, so the lookup in C25 is by all means the item of that id. -/
theorem C25_unique {q : Query} (h : Ready tr w q) (hc : q.Conflictless) :
    ∃ all, w.queryAll q = .ok all ∧ ∀ id x, all.lookup id = some x ↔ (id, x) ∈ all := by
  obtain ⟨w0, s, pc, pg, hs, hq⟩ := h.setup
  refine ⟨_, hs.queryAll hq hc, fun id x => ?_⟩
  rw [lookup_map]
  simp only [List.mem_map, Prod.mk.injEq]
  by_cases hi : id ∈ ids w0 s q
  · rw [if_pos hi]
    constructor
    · intro e; simp only [Option.some.injEq] at e; exact ⟨id, hi, rfl, e⟩
    · rintro ⟨y, _, rfl, rfl⟩; rfl
  · rw [if_neg hi]
    constructor
    · intro e; cases e
    · rintro ⟨y, hy, rfl, rfl⟩; exact absurd hy hi

/-- Any pattern of `next`, `next_with_id` and `from_id` calls on the iterator gets the elements of one list, in
order, none skipped and none repeated, and then `None` for ever: exactly the replies `expected`. -/
theorem C26_mixed {q : Query} (h : Ready tr w q) (hc : q.Conflictless) :
    ∃ it all, w.iter q = .ok it ∧ w.queryAll q = .ok all ∧
      ∀ cs, ∃ it', it.session w cs = .ok (expected all cs all, it') := by
  obtain ⟨w0, s, pc, pg, hs, hq⟩ := h.setup
  obtain ⟨it, h1, h2⟩ := hs.iter hq hc
  refine ⟨it, _, h1, hs.queryAll hq hc, fun cs => ?_⟩
  obtain ⟨x, j, e, _⟩ := h2 cs
  exact ⟨_, e⟩

theorem expected_next (all : List (EntityId × Item Loc)) : ∀ (n : Nat) (todo : List (EntityId × Item Loc)),
    expected all (List.replicate n .next) todo =
      (todo.take n).map (fun x => .item (some x.2)) ++ List.replicate (n - todo.length) (.item none) := by
  intro n
  induction n with
  | zero => intro todo; simp [expected]
  | succ n ih =>
    intro todo
    cases todo with
    | nil => simp [List.replicate_succ, expected, ih]
    | cons x todo => simp [List.replicate_succ, expected, ih]

theorem expected_nextWithId (all : List (EntityId × Item Loc)) : ∀ (n : Nat) (todo : List (EntityId × Item Loc)),
    expected all (List.replicate n .nextWithId) todo =
      (todo.take n).map (fun x => .withId (some x)) ++ List.replicate (n - todo.length) (.withId none) := by
  intro n
  induction n with
  | zero => intro todo; simp [expected]
  | succ n ih =>
    intro todo
    cases todo with
    | nil => simp [List.replicate_succ, expected, ih]
    | cons x todo => simp [List.replicate_succ, expected, ih]

/-- Iterating `n` times with and without ids gives the same items in the same order. -/
theorem C26_same {q : Query} (h : Ready tr w q) (hc : q.Conflictless) :
    ∃ (it : Iter) (all : List (EntityId × Item Loc)), w.iter q = .ok it ∧ w.queryAll q = .ok all ∧ ∀ n, (∃ it', it.session w (List.replicate n .next) =
        .ok ((all.take n).map (fun x => .item (some x.2)) ++ List.replicate (n - all.length) (.item none), it')) ∧
      (∃ it', it.session w (List.replicate n .nextWithId) =
        .ok ((all.take n).map (fun x => .withId (some x)) ++ List.replicate (n - all.length) (.withId none), it')) := by
  obtain ⟨it, all, h1, h0, h2⟩ := C26_mixed h hc
  refine ⟨it, all, h1, h0, fun n => ⟨?_, ?_⟩⟩
  · rw [← expected_next all]; exact h2 _
  · rw [← expected_nextWithId all]; exact h2 _

/-- At any point, `size_hint` of a single-component or group query is exactly the number of items to come. -/
theorem C27_exact {q : Query} (h : Ready tr w q) (hc : q.Conflictless)
    (hb : (∃ m t, q = .comp m t) ∨ (∃ k ma mb a b, q = .group k ma mb a b)) :
    ∃ it all, w.iter q = .ok it ∧ w.queryAll q = .ok all ∧ ∀ cs rs it', it.session w cs = .ok (rs, it') →
      it'.sizeHint w = .ok (all.length - advances cs, some (all.length - advances cs)) := by
  obtain ⟨w0, s, pc, pg, hs, hq⟩ := h.setup
  obtain ⟨it, h1, h2⟩ := hs.iter hq hc
  refine ⟨it, _, h1, hs.queryAll hq hc, fun cs rs it' he => ?_⟩
  obtain ⟨x, j, e, hf, e2, e3, e4⟩ := h2 cs
  rw [e] at he
  simp only [Except.ok.injEq, Prod.mk.injEq] at he
  rw [← he.2]
  simp only [Iter.sizeHint, e2, hs.hint hq hb e3, e4, List.length_drop, List.length_map]

/-- At any point, `size_hint` of any query is a correct lower and upper bound for the number of items to come,
that is for how many more calls of `next` return something. -/
theorem C27_sound {q : Query} (h : Ready tr w q) (hc : q.Conflictless) :
    ∃ it all, w.iter q = .ok it ∧ w.queryAll q = .ok all ∧ ∀ cs rs it', it.session w cs = .ok (rs, it') →
      ∃ lo hi, it'.sizeHint w = .ok (lo, hi) ∧ lo ≤ all.length - advances cs ∧ ∀ u, hi = some u → all.length - advances cs ≤ u := by
  by_cases hb : (∃ m t, q = .comp m t) ∨ (∃ k ma mb a b, q = .group k ma mb a b)
  · obtain ⟨it, all, h1, h2, h3⟩ := C27_exact h hc hb
    refine ⟨it, all, h1, h2, fun cs rs it' he => ⟨_, _, h3 cs rs it' he, Nat.le_refl _, ?_⟩⟩
    intro u hu; simp only [Option.some.injEq] at hu; omega
  · obtain ⟨w0, s, pc, pg, hs, hq⟩ := h.setup
    obtain ⟨it, h1, h2⟩ := hs.iter hq hc
    refine ⟨it, _, h1, hs.queryAll hq hc, fun cs rs it' he => ⟨0, none, ?_, Nat.zero_le _, by simp⟩⟩
    obtain ⟨x, j, e, hf, e2, e3, e4⟩ := h2 cs
    rw [e] at he
    simp only [Except.ok.injEq, Prod.mk.injEq] at he
    rw [← he.2]
    cases q with
    | comp m t => exact absurd (.inl ⟨m, t, rfl⟩) hb
    | group k ma mb a b => exact absurd (.inr ⟨k, ma, mb, a, b, rfl⟩) hb
    | _ => rfl

/-- The iterator ends: after as many advancing calls as there are items, every further `next` and
`next_with_id` returns `None`, whatever happens in between. -/
theorem C27_ends {q : Query} (h : Ready tr w q) (hc : q.Conflictless) :
    ∃ it n, w.iter q = .ok it ∧ ∀ cs rs it', it.session w cs = .ok (rs, it') → n ≤ advances cs →
      (∃ it'', it'.next w = .ok (none, it'')) ∧ (∃ it'', it'.nextWithId w = .ok (none, it'')) := by
  obtain ⟨w0, s, pc, pg, hs, hq⟩ := h.setup
  obtain ⟨it, h1, h2⟩ := hs.iter hq hc
  refine ⟨it, (ids w0 s q).length, h1, fun cs rs it' he hn => ?_⟩
  obtain ⟨x, j, e, hf, e2, e3, e4⟩ := h2 cs
  rw [e] at he
  simp only [Except.ok.injEq, Prod.mk.injEq] at he
  rw [← he.2]
  rw [List.drop_eq_nil_of_le hn] at e4
  obtain ⟨hd, hfr, _⟩ := hs.ok q hq
  have hnil : (planOf w0 q).nextWithId w0 j = .ok (none, (drv w0 q).length) := by
    rcases nextWithId_rest hs.rel q hd hfr e3 with ⟨id, k, _, _, _, hr⟩ | ⟨hr, _⟩
    · rw [e4] at hr; cases hr
    · exact hr
  constructor
  · refine ⟨⟨planOf w0 q, (planOf w0 q).put x (drv w0 q).length⟩, ?_⟩
    simp only [Iter.next, Plan.nextMut_eq w _ x hf, e2, hs.next hq, next_eq hs.rel q hd hfr j e3, hnil, Plan.dropId, ok_bind,
      Option.map_none]
  · refine ⟨⟨planOf w0 q, (planOf w0 q).put x (drv w0 q).length⟩, ?_⟩
    simp only [Iter.nextWithId, Plan.nextWithIdMut_eq w _ x hf, e2, hs.nextWithId hq, hnil, ok_bind]

example := C25_from_id Demo.nested_ready (by decide)
example := C25_unique Demo.nested_ready (by decide)
example := C26_mixed Demo.nested_ready (by decide)
example := C26_same Demo.nested_ready (by decide)
example := C27_sound Demo.nested_ready (by decide)
example := C27_ends Demo.nested_ready (by decide)
example := C27_exact (q := .group .part .mut .ref 4 5) (Demo.ready_of (by decide +kernel)) (by decide)
  (.inr ⟨_, _, _, _, _, rfl⟩)

/-- A session on the nested query: ids 6, then a look at 2, at 3, then 2, then the end. -/
example : (do
    let it ← Demo.queryW.iter Demo.nested
    let (rs, _) ← it.session Demo.queryW [.nextWithId, .fromId 2, .fromId 3, .nextWithId, .next, .fromId 6]
    .ok (rs.map fun r => match r with
      | .withId x => (x.map Prod.fst).getD 0
      | .item x => if x.isSome then 1000 else 0
      | .atId x => if x.isSome then 100 else 0) : R (List Nat)) = .ok [6, 100, 0, 2, 0, 100] := by decide +kernel

/-! ### C28: aliasing -/

theorem expected_locs (all : List (EntityId × Item Loc)) : ∀ (cs : List Call) (todo : List (EntityId × Item Loc)),
    (∀ id, .fromId id ∉ cs) → ((expected all cs todo).flatMap Reply.locs).Sublist (todo.flatMap fun x => x.2.locs) := by
  intro cs
  induction cs with
  | nil => intro todo _; simp [expected]
  | cons c cs ih =>
    intro todo hc
    have hc' : ∀ id, .fromId id ∉ cs := fun id h => hc id (by simp [h])
    cases c with
    | fromId id => exact absurd (by simp) (hc id)
    | next =>
      cases todo with
      | nil => simpa [expected, Reply.locs, refsOf] using ih [] hc'
      | cons x todo => simpa [expected, Reply.locs, refsOf] using ih todo hc'
    | nextWithId =>
      cases todo with
      | nil => simpa [expected, Reply.locs, refsOf] using ih [] hc'
      | cons x todo => simpa [expected, Reply.locs, refsOf] using ih todo hc'

/-- References in items of different entities never point to the same component; two references in one item
point to the same component only if both are shared. Holds for the items of iteration and, being the same,
for those of `from_id`. -/
theorem C28_items {q : Query} (h : Ready tr w q) (hc : q.Conflictless) :
    ∃ all, w.queryAll q = .ok all ∧ (∀ x ∈ all, x.2.locs.Pairwise Compatible) ∧
      ∀ x ∈ all, ∀ y ∈ all, x.1 ≠ y.1 → ∀ l ∈ x.2.locs, ∀ m ∈ y.2.locs, l.ty = m.ty → l.slot ≠ m.slot := by
  obtain ⟨w0, s, pc, pg, hs, hq⟩ := h.setup
  refine ⟨_, hs.queryAll hq hc, ?_, ?_⟩
  · intro x hx
    obtain ⟨id, _, rfl⟩ := List.mem_map.1 hx
    simp only [locs_place, List.pairwise_map]
    have := List.Pairwise.sublist (shown_sublist q) hc
    refine this.imp ?_
    intro a b hab ht _
    simp only [Query.Clash, not_and, not_or] at hab
    obtain ⟨h1, h2⟩ := hab ht
    constructor
    · cases hm : a.2 <;> simp_all
    · cases hm : b.2 <;> simp_all
  · intro x hx y hy hne l hl m hm ht he
    obtain ⟨id, hi, rfl⟩ := List.mem_map.1 hx
    obtain ⟨jd, hj, rfl⟩ := List.mem_map.1 hy
    simp only [locs_place, List.mem_map] at hl hm
    obtain ⟨⟨t, ma⟩, ha, rfl⟩ := hl
    obtain ⟨⟨u, mb⟩, hb, rfl⟩ := hm
    simp only at ht he
    subst ht
    obtain ⟨hd, hf, hans⟩ := hs.ok q hq
    obtain ⟨v1, e1⟩ := Option.isSome_iff_exists.1 (((hs.ids_spec hq).2 id).1 hi)
    obtain ⟨v2, e2⟩ := Option.isSome_iff_exists.1 (((hs.ids_spec hq).2 jd).1 hj)
    obtain ⟨u1, k1⟩ := Option.isSome_iff_exists.1 (hs.point_shown hq e1 _ ha)
    obtain ⟨u2, k2⟩ := Option.isSome_iff_exists.1 (hs.point_shown hq e2 _ hb)
    exact hne (idx_inj hs.rel k1 k2 he)

/-- While one iterates a query in any way without calling `from_id`, all references ever obtained from it are
compatible: no two of them point to the same component unless both are shared. Missing: `from_id` can hand out
a mutable reference to a component already handed out (`C28_exact` says when), and items outlive the iterator and its guards
(`C28_from_id_counterexample`, `C28_outlive_counterexample`). -/
theorem C28_iteration_partial {q : Query} (h : Ready tr w q) (hc : q.Conflictless) :
    ∃ it, w.iter q = .ok it ∧ ∀ cs rs it', (∀ id, .fromId id ∉ cs) → it.session w cs = .ok (rs, it') →
      (rs.flatMap Reply.locs).Pairwise Compatible := by
  obtain ⟨it, all, h1, h2, h3⟩ := C26_mixed h hc
  obtain ⟨all', g2, g3, g4⟩ := C28_items h hc
  rw [h2] at g2; simp only [Except.ok.injEq] at g2; subst g2
  obtain ⟨w0, s, pc, pg, hs, hq⟩ := h.setup
  have hn : (all.map Prod.fst).Nodup := by
    have := hs.queryAll hq hc
    rw [h2] at this; simp only [Except.ok.injEq] at this; subst this
    rw [List.map_map]
    simpa [Function.comp_def] using (hs.ids_spec hq).1
  refine ⟨it, h1, fun cs rs it' hcs he => ?_⟩
  obtain ⟨it2, e⟩ := h3 cs
  rw [e] at he; simp only [Except.ok.injEq, Prod.mk.injEq] at he
  rw [← he.1]
  refine List.Pairwise.sublist (expected_locs all cs all hcs) ?_
  rw [List.pairwise_flatMap]
  refine ⟨g3, ?_⟩
  rw [List.Nodup, List.pairwise_map] at hn
  refine hn.imp_of_mem ?_
  intro x y hx hy hne l hl m hm ht hsl
  exact absurd hsl (g4 x hx y hy hne l hl m hm ht)

theorem expected_served (all : List (EntityId × Item Loc)) : ∀ (cs : List Call) (todo : List (EntityId × Item Loc)),
    (expected all cs todo).flatMap Reply.locs = (served all cs todo).flatMap fun x => x.2.locs := by
  intro cs
  induction cs with
  | nil => intro todo; simp [expected, served]
  | cons c cs ih =>
    intro todo
    cases c with
    | fromId id => cases hl : all.lookup id <;> simp [expected, served, Reply.locs, refsOf, ih, hl]
    | next => cases todo <;> simp [expected, served, Reply.locs, refsOf, ih]
    | nextWithId => cases todo <;> simp [expected, served, Reply.locs, refsOf, ih]

theorem mem_served (all : List (EntityId × Item Loc)) (hl : ∀ id x, all.lookup id = some x → (id, x) ∈ all) :
    ∀ (cs : List Call) (todo : List (EntityId × Item Loc)), (∀ x ∈ todo, x ∈ all) → ∀ x ∈ served all cs todo, x ∈ all := by
  intro cs
  induction cs with
  | nil => intro todo _ x hx; simp [served] at hx
  | cons c cs ih =>
    intro todo ht x hx
    cases c with
    | fromId id =>
      simp only [served, List.mem_append, List.mem_map, Option.mem_toList] at hx
      rcases hx with ⟨y, hy, rfl⟩ | hx
      · exact hl _ _ hy
      · exact ih todo ht x hx
    | next =>
      cases todo with
      | nil => exact ih [] ht x hx
      | cons y todo =>
        simp only [served, List.mem_cons] at hx
        rcases hx with rfl | hx
        · exact ht _ (.head _)
        · exact ih todo (fun z hz => ht z (.tail _ hz)) x hx
    | nextWithId =>
      cases todo with
      | nil => exact ih [] ht x hx
      | cons y todo =>
        simp only [served, List.mem_cons] at hx
        rcases hx with rfl | hx
        · exact ht _ (.head _)
        · exact ih todo (fun z hz => ht z (.tail _ hz)) x hx

/-- **C28**, exactly: the references obtained from one iterator in any way, `from_id` included, are compatible if and only
if the query hands out shared references only, or no entity has been handed out twice. -/
theorem C28_exact {q : Query} (h : Ready tr w q) (hc : q.Conflictless) :
    ∃ it all, w.iter q = .ok it ∧ w.queryAll q = .ok all ∧ ∀ cs rs it', it.session w cs = .ok (rs, it') →
      ((rs.flatMap Reply.locs).Pairwise Compatible ↔
        (∀ x ∈ q.shown, x.2 = .ref) ∨ ((served all cs all).map Prod.fst).Nodup) := by
  obtain ⟨it, all, h1, h2, h3⟩ := C26_mixed h hc
  obtain ⟨all', g2, g3, g4⟩ := C28_items h hc
  rw [h2] at g2; simp only [Except.ok.injEq] at g2; subst g2
  obtain ⟨all', g2, g5⟩ := C25_unique h hc
  rw [h2] at g2; simp only [Except.ok.injEq] at g2; subst g2
  obtain ⟨w0, s, pc, pg, hs, hq⟩ := h.setup
  have hall : ∀ x ∈ all, ∃ (w0 : World V) (id : Nat), x.2.locs = q.shown.map fun y => (⟨y.1, World.idx w0 y.1 id, y.2⟩ : Loc) := by
    have := hs.queryAll hq hc
    rw [h2] at this; simp only [Except.ok.injEq] at this; subst this
    intro x hx
    obtain ⟨id, _, rfl⟩ := List.mem_map.1 hx
    exact ⟨w0, id, by simp only [locs_place]⟩
  refine ⟨it, all, h1, h2, fun cs rs it' he => ?_⟩
  obtain ⟨it2, e⟩ := h3 cs
  rw [e] at he; simp only [Except.ok.injEq, Prod.mk.injEq] at he
  rw [← he.1, expected_served, List.pairwise_flatMap]
  have hm := mem_served all (fun id x => (g5 id x).1) cs all fun x hx => hx
  rw [List.Nodup, List.pairwise_map]
  constructor
  · rintro ⟨_, k2⟩
    by_cases hr : ∀ x ∈ q.shown, x.2 = .ref
    · exact .inl hr
    · obtain ⟨y, hr⟩ := Classical.not_forall.1 hr
      obtain ⟨hy, hym⟩ := Classical.not_imp.1 hr
      refine .inr (k2.imp_of_mem ?_)
      intro a b ha hb hab heq
      have : a = b := by
        obtain ⟨i, x⟩ := a
        obtain ⟨j, z⟩ := b
        cases heq
        have e1 := (g5 _ _).2 (hm _ ha)
        have e2 := (g5 _ _).2 (hm _ hb)
        rw [e1] at e2; cases e2; rfl
      subst this
      obtain ⟨w0, id, hl⟩ := hall a (hm _ ha)
      have hmem : (⟨y.1, World.idx w0 y.1 id, y.2⟩ : Loc) ∈ a.2.locs := by rw [hl]; exact List.mem_map.2 ⟨y, hy, rfl⟩
      exact hym (hab _ hmem _ hmem rfl rfl).1
  · intro k
    refine ⟨fun x hx => g3 x (hm x hx), ?_⟩
    rcases k with k | k
    · have hall' : ∀ a ∈ served all cs all, ∀ l ∈ a.2.locs, l.mode = .ref := by
        intro a ha l hl
        obtain ⟨w0, id, hp⟩ := hall a (hm a ha)
        rw [hp] at hl
        obtain ⟨y, hy, rfl⟩ := List.mem_map.1 hl
        exact k y hy
      refine List.pairwise_of_forall_mem_list fun a ha b hb l hl m hm' _ _ => ⟨hall' a ha l hl, hall' b hb m hm'⟩
    · exact k.imp_of_mem fun ha hb hne l hl m hm' ht hsl => absurd hsl (g4 _ (hm _ ha) _ (hm _ hb) hne l hl m hm' ht)

/-- A session that looks entities up before, after and between the steps of an iteration. -/
example : ∃ it rs it', Demo.queryW.iter Demo.five = .ok it ∧
    it.session Demo.queryW [.fromId 2, .next, .fromId 2, .next] = .ok (rs, it') ∧ rs.length = 4 := by
  obtain ⟨it, all, h1, _, h3⟩ := C26_mixed Demo.five_ready (by decide)
  obtain ⟨it', h4⟩ := h3 [.fromId 2, .next, .fromId 2, .next]
  refine ⟨it, _, it', h1, h4, ?_⟩
  rcases all with _ | ⟨x, _ | ⟨y, all⟩⟩ <;> simp [expected]
example := C28_exact Demo.five_ready (by decide)

example := C28_items Demo.nested_ready (by decide)
example := C28_iteration_partial Demo.five_ready (by decide)

/-! ### C41: conflicting requests -/

/-- A query that asks for a component mutably and a second time never returns an iterator, in any world
whatsoever. -/
theorem C41_conflict (w : World V) {q : Query} (hc : ¬ q.Conflictless) : ∃ e, w.query q = .error e := by
  cases hq : w.query q with
  | error e => exact ⟨e, rfl⟩
  | ok r =>
    have := (prepare_noclash q [] r List.Pairwise.nil hq).2
    exact absurd (by simpa [Query.Conflictless] using this) hc

/-- Any other query whose types are registered and whose groups were made returns an iterator, after any
history if it names no group, after any allowed one if it does. -/
theorem C41_succeeds {q : Query} (hc : q.Conflictless)
    (h : (AnyTrace tr w ∧ NoRebatch tr ∧ q.Groupless) ∨ Trace tr w) (he : Exists tr q) : ∃ it, w.iter q = .ok it := by
  rcases h with ⟨h1, h2, h3⟩ | h
  · obtain ⟨it, _, h, _⟩ := C26_mixed (.plain h1 h2 h3 he) hc
    exact ⟨it, h⟩
  · obtain ⟨s, hr⟩ := h.run
    have := prepare_ok hr.rel.core q [] ((run_defined hr q).2 he) (by simpa [Query.Conflictless] using hc)
    simp only [World.iter, World.query, this, ok_bind]
    exact ⟨_, rfl⟩

/-- The guards an iterator holds are exactly those its query type asks for, and they do not clash. -/
theorem C41_guards (w : World V) {q : Query} {p : Plan} {held : Query.Held} (hq : w.query q = .ok (p, held)) :
    held = q.accesses ∧ held.Pairwise fun x y => ¬ Query.Clash x y := by
  have := prepare_noclash q [] _ List.Pairwise.nil hq
  simp only [List.nil_append] at this
  exact ⟨this.1, by rw [this.1]; exact this.2⟩

example : ∃ e, Demo.queryW.query (.with2 (.comp .mut 1) (.group .non .ref .ref 1 6)) = .error e :=
  C41_conflict _ (by decide)
example : Demo.queryW.query (.with2 (.comp .mut 1) (.comp .ref 1)) = .error .deadlock := by decide +kernel
example : ∃ it, Demo.queryW.iter Demo.five = .ok it :=
  C41_succeeds (by decide) (.inr Demo.queryTrace) (by decide +kernel)

end Xecs
