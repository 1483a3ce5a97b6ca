import Verif.Props.Phases
/-
C22: group queries agree with plain queries, wherever the group queries stand.
-/
set_option autoImplicit false
namespace Xecs

/-- The query with every part that names a group replaced by the pair of the two components: `FullOwning<&A,&mut B>` by
`(&A,&mut B)` and so on. -/
def Query.spelled : Query → Query
  | .comp m t => .comp m t
  | .with2 a b => .with2 a.spelled b.spelled
  | .with3 a b c => .with3 a.spelled b.spelled c.spelled
  | .with4 a b c d => .with4 a.spelled b.spelled c.spelled d.spelled
  | .with5 a b c d e => .with5 a.spelled b.spelled c.spelled d.spelled e.spelled
  | .withoutL a b => .withoutL a.spelled b.spelled
  | .withoutR a b => .withoutR a.spelled b.spelled
  | .group _ ma mb a b => .with2 (.comp ma a) (.comp mb b)

open Spec World Hist
variable {V : Type} {w : World V} {tr : List (Op V × Out V)}

theorem Query.spelled_accesses (q : Query) : q.spelled.accesses = q.accesses := by
  induction q <;> simp_all [Query.spelled, Query.accesses]

theorem Query.spelled_answer (c : TypeId → EntityId → Option V) (id : EntityId) (q : Query) :
    q.spelled.answer c id = q.answer c id := by
  induction q with
  | group k ma mb a b => simp only [Query.spelled, Query.answer]; cases c a id <;> cases c b id <;> rfl
  | _ => simp_all [Query.spelled, Query.answer]

theorem Query.spelled_parts {pc pc' : TypeId → Prop} {pg pg' : Kind → TypeId → TypeId → Prop} (hc : ∀ t, pc t → pc' t)
    (hg : ∀ k a b, pg k a b → pc' a ∧ pc' b) {q : Query} (h : Parts pc pg q) : Parts pc' pg' q.spelled := by
  induction q with
  | comp m t => exact hc t h
  | with2 a b iha ihb => exact ⟨iha h.1, ihb h.2⟩
  | with3 a b c iha ihb ihc => exact ⟨iha h.1, ihb h.2.1, ihc h.2.2⟩
  | with4 a b c d iha ihb ihc ihd => exact ⟨iha h.1, ihb h.2.1, ihc h.2.2.1, ihd h.2.2.2⟩
  | with5 a b c d e iha ihb ihc ihd ihe => exact ⟨iha h.1, ihb h.2.1, ihc h.2.2.1, ihd h.2.2.2.1, ihe h.2.2.2.2⟩
  | withoutL a b iha ihb => exact ⟨iha h.1, ihb h.2⟩
  | withoutR a b iha ihb => exact ⟨iha h.1, ihb h.2⟩
  | group k ma mb a b => exact hg k a b h

theorem Query.parts_true : ∀ q : Query, Parts (fun _ => True) (fun _ _ _ => True) q := by
  intro q
  induction q <;> simp_all [Parts]

theorem Ready.spelled {q : Query} (h : Ready tr w q) : Ready tr w q.spelled := by
  have ex : ∀ {q : Query}, Hist.Exists tr q → Hist.Exists tr q.spelled := fun h =>
    Query.spelled_parts (fun _ h => h) (fun _ _ _ h => ⟨h.1, h.2.1⟩) h
  have all : ∀ {pg : Kind → TypeId → TypeId → Prop}, Parts (fun _ => True) pg q.spelled := fun {pg} =>
    Query.spelled_parts (fun _ _ => trivial) (fun _ _ _ _ => ⟨trivial, trivial⟩) (Query.parts_true q)
  cases h with
  | plain h1 h2 h3 h4 => exact .plain h1 h2 all (ex h4)
  | grouped h1 h2 h3 h4 => exact .plain h1.any h1.live.1 all (ex h2)
  | shared h1 h2 h3 h4 => exact .shared h1 (ex h2) all all

/-- **C22**, wherever in a query its groups stand -- in tuples, under `Without`, several of them --, and also after phases in
which several threads shared the world: a query yields, up to order, what it yields with the groups spelled out. -/
theorem C22_nested {q : Query} (h : Ready tr w q) (hc : q.Conflictless) :
    ∃ l l', Yields w q l ∧ Yields w q.spelled l' ∧ l.Perm l' := by
  obtain ⟨l, y1, h1⟩ := C23_meaning h hc
  obtain ⟨l', y2, h2⟩ := C23_meaning (Ready.spelled h) (by rw [Query.Conflictless, Query.spelled_accesses]; exact hc)
  refine ⟨l, l', y1, y2, h1.perm ?_⟩
  rwa [show q.spelled.answer (values tr) = q.answer (values tr) from funext fun id => Query.spelled_answer _ id q] at h2

/-- The group of 1 and 2 in a tuple with a `Without`, after a shared phase. -/
example : ∃ l l', Yields Demo.busyEnd.world (.with2 (.group .part .ref .ref 1 2) (.withoutR (.comp .ref 2) (.comp .ref 3))) l ∧
    Yields Demo.busyEnd.world (.with2 (.with2 (.comp .ref 1) (.comp .ref 2)) (.withoutR (.comp .ref 2) (.comp .ref 3))) l' ∧
    l.Perm l' :=
  C22_nested (q := .with2 (.group .part .ref .ref 1 2) (.withoutR (.comp .ref 2) (.comp .ref 3)))
    (.shared Demo.mixed (by decide +kernel) ⟨(by intro h; cases h), trivial, trivial⟩ (by decide +kernel)) (by decide +kernel)

end Xecs
