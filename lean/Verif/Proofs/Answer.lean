import Verif.Proofs.Joined
import Verif.Proofs.Iter
import Verif.Spec.Answer
/-
Queries, read off histories.
-/
set_option autoImplicit false
namespace Xecs
open Spec World Hist
variable {V : Type}

theorem Hist.Parts.imp {pc pc' : Nat → Prop} {pg pg' : Kind → Nat → Nat → Prop} (h1 : ∀ t, pc t → pc' t)
    (h2 : ∀ k a b, pg k a b → pg' k a b) (q : Query) : Parts pc pg q → Parts pc' pg' q := by
  induction q with
  | comp m t => exact h1 t
  | with2 a b iha ihb => exact fun ⟨x, y⟩ => ⟨iha x, ihb y⟩
  | with3 a b c iha ihb ihc => exact fun ⟨x, y, z⟩ => ⟨iha x, ihb y, ihc z⟩
  | with4 a b c d iha ihb ihc ihd => exact fun ⟨x, y, z, u⟩ => ⟨iha x, ihb y, ihc z, ihd u⟩
  | with5 a b c d e iha ihb ihc ihd ihe => exact fun ⟨x, y, z, u, v⟩ => ⟨iha x, ihb y, ihc z, ihd u, ihe v⟩
  | withoutL a b iha ihb => exact fun ⟨x, y⟩ => ⟨iha x, ihb y⟩
  | withoutR a b iha ihb => exact fun ⟨x, y⟩ => ⟨iha x, ihb y⟩
  | group k ma mb a b => exact h2 k a b

theorem defined_iff {s : State V} (q : Query) : s.Defined q ↔
    Parts (fun t => (s.comp t).isSome = true)
      (fun k a b => (s.comp a).isSome = true ∧ (s.comp b).isSome = true ∧ (s.group? k a b).isSome = true) q := by
  induction q with
  | comp m t => exact Iff.rfl
  | with2 a b iha ihb => simp only [State.Defined, Parts, iha, ihb]
  | with3 a b c iha ihb ihc => simp only [State.Defined, Parts, iha, ihb, ihc]
  | with4 a b c d iha ihb ihc ihd => simp only [State.Defined, Parts, iha, ihb, ihc, ihd]
  | with5 a b c d e iha ihb ihc ihd ihe => simp only [State.Defined, Parts, iha, ihb, ihc, ihd, ihe]
  | withoutL a b iha ihb => simp only [State.Defined, Parts, iha, ihb]
  | withoutR a b iha ihb => simp only [State.Defined, Parts, iha, ihb]
  | group k ma mb a b => exact Iff.rfl

theorem freshIn_iff {s : State V} (q : Query) : s.FreshIn q ↔
    Parts (fun _ => True) (fun k a b => k = .non → ∀ g, s.group? k a b = some g → g.fresh = true) q := by
  induction q with
  | comp m t => exact Iff.rfl
  | with2 a b iha ihb => simp only [State.FreshIn, Parts, iha, ihb]
  | with3 a b c iha ihb ihc => simp only [State.FreshIn, Parts, iha, ihb, ihc]
  | with4 a b c d iha ihb ihc ihd => simp only [State.FreshIn, Parts, iha, ihb, ihc, ihd]
  | with5 a b c d e iha ihb ihc ihd ihe => simp only [State.FreshIn, Parts, iha, ihb, ihc, ihd, ihe]
  | withoutL a b iha ihb => simp only [State.FreshIn, Parts, iha, ihb]
  | withoutR a b iha ihb => simp only [State.FreshIn, Parts, iha, ihb]
  | group k ma mb a b => exact Iff.rfl

theorem group?_isSome {tr : List (Op V × Out V)} {w : World V} {s : State V} (h : Run tr w s) (k : Kind) (a b : Nat) :
    (s.group? k a b).isSome = madeGroup (ofKind k) a b tr := by
  rw [Bool.eq_iff_iff, (run_groups h).made, State.group?, List.find?_isSome]
  simp [and_assoc]

theorem run_defined {tr : List (Op V × Out V)} {w : World V} {s : State V} (h : Run tr w s) (q : Query) :
    s.Defined q ↔ Hist.Exists tr q := by
  rw [defined_iff, Hist.Exists]
  constructor <;> apply Parts.imp <;> simp only [run_registered h, group?_isSome h] <;> intros <;> assumption

theorem run_fresh {tr : List (Op V × Out V)} {w : World V} {s : State V} (h : Run tr w s) {q : Query}
    (hu : Hist.Undisturbed tr q) : s.FreshIn q := by
  rw [freshIn_iff]
  refine Parts.imp (fun _ h => h) ?_ q hu
  intro k a b hm hk g hg
  have h1 := hm hk
  subst hk
  have hmem := List.mem_of_find?_eq_some hg
  have := List.find?_some hg
  simp only [Bool.and_eq_true, beq_iff_eq, ofKind] at this
  obtain ⟨⟨ek, ea⟩, eb⟩ := this
  subst ea eb
  rw [(run_joined h g hmem).2 ek, h1]; rfl

theorem run_member {tr : List (Op V × Out V)} {w : World V} {s : State V} (h : Run tr w s) {k : Kind} {a b : Nat}
    (hm : madeGroup (ofKind k) a b tr = true) (hb : batchSince (ofKind k) a b tr = false) (id : Nat) :
    s.member k a b id = (s.has a id && s.has b id) := by
  unfold State.member
  have hs := group?_isSome h k a b
  rw [hm] at hs
  obtain ⟨g, hg⟩ := Option.isSome_iff_exists.1 hs
  rw [hg]
  have hmem := List.mem_of_find?_eq_some hg
  have := List.find?_some hg
  simp only [Bool.and_eq_true, beq_iff_eq] at this
  obtain ⟨⟨ek, rfl⟩, rfl⟩ := this
  rw [← ek] at hb
  exact (run_groups h).sync g hmem hb id

theorem pairOf_isSome {s : State V} (a b id : Nat) : (s.pairOf a b id).isSome = (s.has a id && s.has b id) := by
  simp only [State.pairOf, State.has]
  cases s.get a id <;> cases s.get b id <;> rfl

/-- In synchronised worlds the two meanings of a query of the specification are the plain one. -/
theorem run_answer {tr : List (Op V × Out V)} {w : World V} {s : State V} (h : Run tr w s) (q : Query) (id : Nat) :
    Hist.Exists tr q → Hist.Unbatched tr q →
    s.point q id = q.answer (fun t e => lastValue t e tr) id ∧
    s.yields q id = q.answer (fun t e => lastValue t e tr) id := by
  induction q with
  | comp m t => intro _ _; simp only [State.point, State.yields, Query.answer, run_get h, and_self]
  | with2 a b iha ihb =>
    intro hd hu
    have ⟨a1, a2⟩ := iha hd.1 hu.1; have ⟨b1, b2⟩ := ihb hd.2 hu.2
    simp only [State.point, State.yields, Query.answer, a1, a2, b1, and_self]; rfl
  | with3 a b c iha ihb ihc =>
    intro hd hu
    have ⟨a1, a2⟩ := iha hd.1 hu.1; have ⟨b1, b2⟩ := ihb hd.2.1 hu.2.1; have ⟨c1, c2⟩ := ihc hd.2.2 hu.2.2
    simp only [State.point, State.yields, Query.answer, a1, a2, b1, c1, and_self]; rfl
  | with4 a b c d iha ihb ihc ihd =>
    intro hd hu
    have ⟨a1, a2⟩ := iha hd.1 hu.1; have ⟨b1, b2⟩ := ihb hd.2.1 hu.2.1
    have ⟨c1, c2⟩ := ihc hd.2.2.1 hu.2.2.1; have ⟨d1, d2⟩ := ihd hd.2.2.2 hu.2.2.2
    simp only [State.point, State.yields, Query.answer, a1, a2, b1, c1, d1, and_self]; rfl
  | with5 a b c d e iha ihb ihc ihd ihe =>
    intro hd hu
    have ⟨a1, a2⟩ := iha hd.1 hu.1; have ⟨b1, b2⟩ := ihb hd.2.1 hu.2.1
    have ⟨c1, c2⟩ := ihc hd.2.2.1 hu.2.2.1; have ⟨d1, d2⟩ := ihd hd.2.2.2.1 hu.2.2.2.1
    have ⟨e1, e2⟩ := ihe hd.2.2.2.2 hu.2.2.2.2
    simp only [State.point, State.yields, Query.answer, a1, a2, b1, c1, d1, e1, and_self]; rfl
  | withoutL a b iha ihb =>
    intro hd hu
    have ⟨a1, a2⟩ := iha hd.1 hu.1; have ⟨b1, b2⟩ := ihb hd.2 hu.2
    simp only [State.point, State.yields, Query.answer, a1, b1, b2, and_self]
  | withoutR a b iha ihb =>
    intro hd hu
    have ⟨a1, a2⟩ := iha hd.1 hu.1; have ⟨b1, b2⟩ := ihb hd.2 hu.2
    simp only [State.point, State.yields, Query.answer, a1, a2, b1, and_self]
  | group k ma mb a b =>
    intro hd hu
    have hm := run_member h hd.2.2 hu id
    have hp : s.pairOf a b id = (Query.group k ma mb a b).answer (fun t e => lastValue t e tr) id := by
      simp only [State.pairOf, Query.answer, run_get h]; rfl
    have hi : (if s.member k a b id = true then s.pairOf a b id else none) = s.pairOf a b id := by
      rw [hm, ← pairOf_isSome]
      cases s.pairOf a b id <;> simp
    refine ⟨?_, by rw [State.yields, hi, hp]⟩
    cases k with
    | full => exact hp
    | part => exact hp
    | non => rw [State.point, hi, hp]

/-- With batch attaches allowed, what iteration yields for a positive query is right, but some entities may
be missing. -/
theorem point_pos {tr : List (Op V × Out V)} {w : World V} {s : State V} (h : Run tr w s) {k : Kind} {ma mb : Mode}
    {a b id : Nat} {v : Item V} (hv : s.yields (.group k ma mb a b) id = some v) :
    (Query.group k ma mb a b).answer (fun t e => lastValue t e tr) id = some v := by
  simp only [State.yields] at hv
  split at hv
  · simp only [State.pairOf, run_get h] at hv
    exact hv
  · simp at hv

end Xecs
