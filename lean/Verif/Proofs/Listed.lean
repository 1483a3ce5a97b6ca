import Verif.Spec.Listed
import Verif.Proofs.PhasesMixed
/-
What queries yield when batch attaches bypassed their groups.
-/
set_option autoImplicit false
namespace Xecs
open Spec World Hist
variable {V : Type}

theorem state_probed (s : State V) (q : Query) (id : Nat) : s.point q id = q.probed s.get (fun k a b x => s.member k a b x) id := by
  have hp : ∀ a b, s.pairOf a b id = bothOf (s.get a id) (s.get b id) := by
    intro a b
    simp only [State.pairOf, bothOf]
    rfl
  induction q with
  | comp m t => rfl
  | with2 a b iha ihb => simp only [State.point, Query.probed, iha, ihb]; rfl
  | with3 a b c iha ihb ihc => simp only [State.point, Query.probed, iha, ihb, ihc]; rfl
  | with4 a b c d iha ihb ihc ihd => simp only [State.point, Query.probed, iha, ihb, ihc, ihd]; rfl
  | with5 a b c d e iha ihb ihc ihd ihe => simp only [State.point, Query.probed, iha, ihb, ihc, ihd, ihe]; rfl
  | withoutL a b iha ihb => simp only [State.point, Query.probed, iha, ihb]
  | withoutR a b iha ihb => simp only [State.point, Query.probed, iha, ihb]
  | group k ma mb a b => cases k <;> simp only [State.point, Query.probed, hp]

/-- Iterating yields what asking answers, but only for those the iterated part lists. -/
theorem state_listed (s : State V) (q : Query) (id : Nat) :
    s.yields q id = if q.led (fun k a b x => s.member k a b x) id then s.point q id else none := by
  induction q with
  | comp m t => rfl
  | with2 a b iha ihb =>
    have e : (Query.with2 a b).led (fun k a b x => s.member k a b x) id = Query.led (fun k a b x => s.member k a b x) a id := rfl
    simp only [State.yields, State.point, iha, e]
    cases Query.led (fun k a b x => s.member k a b x) a id <;> simp
  | with3 a b c iha ihb ihc =>
    have e : (Query.with3 a b c).led (fun k a b x => s.member k a b x) id = Query.led (fun k a b x => s.member k a b x) a id := rfl
    simp only [State.yields, State.point, iha, e]
    cases Query.led (fun k a b x => s.member k a b x) a id <;> simp
  | with4 a b c d iha ihb ihc ihd =>
    have e : (Query.with4 a b c d).led (fun k a b x => s.member k a b x) id = Query.led (fun k a b x => s.member k a b x) a id := rfl
    simp only [State.yields, State.point, iha, e]
    cases Query.led (fun k a b x => s.member k a b x) a id <;> simp
  | with5 a b c d e iha ihb ihc ihd ihe =>
    have e : (Query.with5 a b c d e).led (fun k a b x => s.member k a b x) id = Query.led (fun k a b x => s.member k a b x) a id := rfl
    simp only [State.yields, State.point, iha, e]
    cases Query.led (fun k a b x => s.member k a b x) a id <;> simp
  | withoutL a b iha ihb =>
    have e : (Query.withoutL a b).led (fun k a b x => s.member k a b x) id = Query.led (fun k a b x => s.member k a b x) b id := rfl
    simp only [State.yields, State.point, ihb, e]
    cases Query.led (fun k a b x => s.member k a b x) b id <;> simp
  | withoutR a b iha ihb =>
    have e : (Query.withoutR a b).led (fun k a b x => s.member k a b x) id = Query.led (fun k a b x => s.member k a b x) a id := rfl
    simp only [State.yields, State.point, iha, e]
    cases Query.led (fun k a b x => s.member k a b x) a id <;> simp
  | group k ma mb a b =>
    cases k <;> simp only [State.yields, State.point, Query.led, Query.leader] <;> split <;> simp_all

/-- What a query yields in the world of a state of the specification. -/
theorem rel_listed {w : World V} {s : State V} (h : Rel w s) {q : Query} (hd : s.Defined q) (hf : s.FreshIn q)
    (hc : q.Conflictless) : ∃ l, Yields w q l ∧ Lists l (fun id => s.yields q id) := by
  obtain ⟨n1, n2⟩ := rest_spec h.core q hd
  have hall := queryAll_eq h.core q hd hf hc
  let g : Nat → Option (Nat × Item V) := fun id => (s.yields q id).map fun x => (id, x)
  have key : ∀ l : List Nat, (∀ id ∈ l, (s.yields q id).isSome = true) → (l.filterMap g).map Prod.fst = l ∧
      l.map (fun id => (id, w.derefItem (place w id q))) = (l.filterMap g).map fun x => (x.1, some x.2) := by
    intro l
    induction l with
    | nil => intro _; exact ⟨rfl, rfl⟩
    | cons id l ih =>
      intro hl
      obtain ⟨v, hv⟩ := Option.isSome_iff_exists.1 (hl id (by simp))
      obtain ⟨i1, i2⟩ := ih (fun x hx => hl x (by simp [hx]))
      have : g id = some (id, v) := by simp [g, hv]
      simp only [List.filterMap_cons, this, List.map_cons, i1, i2, place_deref h.core q (yields_point q hv), and_self]
  obtain ⟨g1, g2⟩ := key (rest w s q 0) (fun id hid => (n2 id).1 hid)
  refine ⟨(rest w s q 0).filterMap g, ?_, by rw [g1]; exact n1, fun id x => ⟨fun hx => ?_, fun hx => ?_⟩⟩
  · simp only [Yields, World.results, hall, ok_bind, List.map_map]
    rw [← g2]; rfl
  · obtain ⟨id', _, hx⟩ := List.mem_filterMap.1 hx
    simp only [g, Option.map_eq_some_iff] at hx
    obtain ⟨v, hv, he⟩ := hx
    cases he
    exact hv
  · exact List.mem_filterMap.2 ⟨id, (n2 id).2 (by simp [hx]), by simp [g, hx]⟩

/-- Who is in a group that was made. -/
theorem member_joined {tr : List (Op V × Out V)} {w : World V} {s : State V} (hr : Run tr w s) {k : Kind} {a b : Nat}
    (hg : madeGroup (ofKind k) a b tr = true) (id : Nat) : s.member k a b id = joined (ofKind k, a, b) id tr := by
  have hs := group?_isSome hr k a b
  rw [hg] at hs
  obtain ⟨g, hg'⟩ := Option.isSome_iff_exists.1 hs
  have hm' := List.mem_of_find?_eq_some hg'
  have he := List.find?_some hg'
  simp only [Bool.and_eq_true, beq_iff_eq] at he
  obtain ⟨⟨ek, rfl⟩, rfl⟩ := he
  simp only [State.member, hg', (run_joined hr g hm').1 id, tag, ek]

theorem probed_same {c c' : Nat → Nat → Option V} {j j' : Kind → Nat → Nat → Nat → Bool} {id : Nat}
    (hc : ∀ t, c t id = c' t id) (q : Query) (hj : Parts (fun _ => True) (fun k a b => j k a b id = j' k a b id) q) :
    q.probed c j id = q.probed c' j' id := by
  induction q with
  | comp m t => simp only [Query.probed, hc]
  | with2 a b iha ihb => simp only [Query.probed, iha hj.1, ihb hj.2]
  | with3 a b c iha ihb ihc => simp only [Query.probed, iha hj.1, ihb hj.2.1, ihc hj.2.2]
  | with4 a b c d iha ihb ihc ihd => simp only [Query.probed, iha hj.1, ihb hj.2.1, ihc hj.2.2.1, ihd hj.2.2.2]
  | with5 a b c d e iha ihb ihc ihd ihe =>
    simp only [Query.probed, iha hj.1, ihb hj.2.1, ihc hj.2.2.1, ihd hj.2.2.2.1, ihe hj.2.2.2.2]
  | withoutL a b iha ihb => simp only [Query.probed, iha hj.1, ihb hj.2]
  | withoutR a b iha ihb => simp only [Query.probed, iha hj.1, ihb hj.2]
  | group k ma mb a b =>
    have hj : j k a b id = j' k a b id := hj
    cases k <;> simp only [Query.probed, hc, hj]

theorem led_same {j j' : Kind → Nat → Nat → Nat → Bool} {id : Nat} (q : Query)
    (hj : Parts (fun _ => True) (fun k a b => j k a b id = j' k a b id) q) : q.led j id = q.led j' id := by
  induction q with
  | comp m t => rfl
  | with2 a b iha ihb => exact iha hj.1
  | with3 a b c iha ihb ihc => exact iha hj.1
  | with4 a b c d iha ihb ihc ihd => exact iha hj.1
  | with5 a b c d e iha ihb ihc ihd ihe => exact iha hj.1
  | withoutL a b iha ihb => exact ihb hj.2
  | withoutR a b iha ihb => exact iha hj.1
  | group k ma mb a b => exact hj

/-- What iterating yields in the state of a history. -/
theorem run_listed {tr : List (Op V × Out V)} {w : World V} {s : State V} (hr : Run tr w s) {q : Query} (he : Exists tr q)
    (id : Nat) : s.yields q id = if q.led (inGroup tr) id then q.probed (values tr) (inGroup tr) id else none := by
  have hj : Parts (fun _ => True) (fun k a b => s.member k a b id = inGroup tr k a b id) q :=
    Parts.imp (fun _ _ => trivial) (fun k a b h => member_joined hr h.2.2 id) q he
  rw [state_listed, state_probed, led_same (j' := inGroup tr) q hj,
    probed_same (c' := values tr) (j' := inGroup tr) (fun t => run_get hr t id) q hj]

/-- Without non-owning groups, asking is looking at the components. -/
theorem probed_answer (c : Nat → Nat → Option V) (j : Kind → Nat → Nat → Nat → Bool) (id : Nat) (q : Query) (hn : NoNon q) :
    q.probed c j id = q.answer c id := by
  induction q with
  | comp m t => rfl
  | with2 a b iha ihb => simp only [Query.probed, Query.answer, iha hn.1, ihb hn.2]; rfl
  | with3 a b c iha ihb ihc => simp only [Query.probed, Query.answer, iha hn.1, ihb hn.2.1, ihc hn.2.2]; rfl
  | with4 a b c d iha ihb ihc ihd => simp only [Query.probed, Query.answer, iha hn.1, ihb hn.2.1, ihc hn.2.2.1, ihd hn.2.2.2]; rfl
  | with5 a b c d e iha ihb ihc ihd ihe =>
    simp only [Query.probed, Query.answer, iha hn.1, ihb hn.2.1, ihc hn.2.2.1, ihd hn.2.2.2.1, ihe hn.2.2.2.2]; rfl
  | withoutL a b iha ihb => simp only [Query.probed, Query.answer, iha hn.1, ihb hn.2]
  | withoutR a b iha ihb => simp only [Query.probed, Query.answer, iha hn.1, ihb hn.2]
  | group k ma mb a b =>
    have hk : k ≠ .non := hn
    cases k with
    | non => exact absurd rfl hk
    | full => simp only [Query.probed, Query.answer, bothOf]; rfl
    | part => simp only [Query.probed, Query.answer, bothOf]; rfl

end Xecs
