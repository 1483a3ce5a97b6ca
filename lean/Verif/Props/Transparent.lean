import Verif.Spec.Transparent
import Verif.Props.Reorder
/-
C72: groups are only an optimisation: whether and when they are made shows in no result but those of queries that name them.
-/
set_option autoImplicit false
namespace Xecs
open Spec World Hist
variable {V : Type} {tr tr' : List (Op V × Out V)} {w w' : World V}

theorem ungrouped_facts : ∀ (tr : List (Op V × Out V)),
    (∀ t id, lastValue t id (ungrouped tr) = lastValue t id tr) ∧ (∀ id, alive id (ungrouped tr) = alive id tr) ∧
    (∀ id, handedOut id (ungrouped tr) = handedOut id tr) ∧ recyclable (ungrouped tr) = recyclable tr ∧
    (∀ t, registered t (ungrouped tr) = registered t tr) ∧ (∀ t, lastResource t (ungrouped tr) = lastResource t tr) ∧
    (∀ t, highest t (ungrouped tr) = highest t tr)
  | [] => ⟨fun _ _ => rfl, fun _ => rfl, fun _ => rfl, rfl, fun _ => rfl, fun _ => rfl, fun _ => rfl⟩
  | (op, o) :: tr => by
    obtain ⟨h1, h2, h3, h4, h5, h6, h7⟩ := ungrouped_facts tr
    cases op with
    | makeGroup k a b => exact ⟨h1, h2, h3, h4, h5, h6, h7⟩
    | _ =>
      have e : ∀ op : Op V, op.grouping = false → ungrouped ((op, o) :: tr) = (op, o) :: ungrouped tr := by
        intro op hg; simp [ungrouped, hg]
      rw [e _ rfl]
      rcases o with _ | ⟨_ | _⟩ | _ | _ | _ | _ <;> refine ⟨?_, ?_, ?_, ?_, ?_, ?_, ?_⟩ <;> (try intro t) <;> (try intro id) <;>
        try simp only [lastValue, alive, handedOut, recyclable, registered, lastResource, highest, h1, h2, h3, h4, h5, h6, h7]

theorem ungrouped_made : ∀ (tr : List (Op V × Out V)), groupsMade (ungrouped tr) = []
  | [] => rfl
  | (op, o) :: tr => by
    have ih := ungrouped_made tr
    cases op with
    | makeGroup k a b => exact ih
    | _ => exact ih

/-- What a history says, apart from the groups. -/
theorem agree_facts (he : ungrouped tr = ungrouped tr') :
    (∀ t id, lastValue t id tr' = lastValue t id tr) ∧ (∀ id, alive id tr' = alive id tr) ∧
    (∀ id, handedOut id tr' = handedOut id tr) ∧ recyclable tr' = recyclable tr ∧
    (∀ t, registered t tr' = registered t tr) ∧ (∀ t, lastResource t tr' = lastResource t tr) ∧
    (∀ t, highest t tr' = highest t tr) := by
  obtain ⟨h1, h2, h3, h4, h5, h6, h7⟩ := ungrouped_facts tr
  obtain ⟨k1, k2, k3, k4, k5, k6, k7⟩ := ungrouped_facts tr'
  rw [he] at h1 h2 h3 h4 h5 h6 h7
  exact ⟨fun t id => by rw [← k1, h1], fun id => by rw [← k2, h2], fun id => by rw [← k3, h3], by rw [← k4, h4],
    fun t => by rw [← k5, h5], fun t => by rw [← k6, h6], fun t => by rw [← k7, h7]⟩

/-- **C72**. Two histories that differ only in their calls of `make_group` allow the same calls (other than `make_group`, and
removals which the defect with overlapping groups affects) and give the same results: whatever such call comes next, it returns the same value in
both, or panics in both. -/
theorem C72_next (h : Trace tr w) (h' : Trace tr' w') (he : ungrouped tr = ungrouped tr') {op : Op V} (hg : op.grouping = false)
    (ha : Allowed tr op) (ha' : Allowed tr' op) : (exec op w').2 = (exec op w).2 := by
  obtain ⟨s1, e1⟩ := h.run
  obtain ⟨s2, e2⟩ := h'.run
  obtain ⟨a1, a2, a3, a4, a5, a6, a7⟩ := agree_facts he
  obtain ⟨f1, f2⟩ := allowed_spec e1 ha
  obtain ⟨g1, g2⟩ := allowed_spec e2 ha'
  rcases Outcome.alike_iff (step_alike_but (run_next_eq e1 e2 a3) (by rw [(run_em e1).1, (run_em e2).1, a4])
    (run_comp_eq e1 e2 a5 a1) (by funext t; rw [run_hw e1, run_hw e2, a7]) (by funext t; rw [run_res e1, run_res e2, a6]) op
    (by rintro k a b rfl; cases hg)) f2 g2 with ⟨x1, x2, o, h1, h2⟩ | ⟨h1, h2⟩
  · obtain ⟨v1, k1, _⟩ := step_ok e1.rel f1 h1
    obtain ⟨v2, k2, _⟩ := step_ok e2.rel g1 h2
    rw [k1, k2]
  · rw [step_panics e1.rel f1 h1, step_panics e2.rel g1 h2]

/-- Without groups everything is allowed that was allowed with them. -/
theorem allowed_ungrouped {op : Op V} (hg : op.grouping = false) (ha : Allowed tr op) : Allowed (ungrouped tr) op := by
  obtain ⟨h1, h2, h3, h4, h5, h6, h7⟩ := ungrouped_facts tr
  have hus : ∀ id, Usable id tr → Usable id (ungrouped tr) := by
    intro id h; rw [Usable, h4]; exact h
  cases op with
  | exist id => exact hus _ ha
  | attach id t v => exact hus _ ha
  | detach id t => exact hus _ ha
  | removeEntity order id =>
    refine ⟨hus _ ha.1, ⟨ha.2.1.1, fun t => by rw [h5]; exact ha.2.1.2 t⟩, fun _ => ?_⟩
    unfold RemoveSafe
    rw [ungrouped_made]
    exact List.Pairwise.nil
  | attachBatch start stop t vs =>
    exact ⟨ha.1, fun x k1 k2 => by rw [h2]; exact ha.2.1 x k1 k2, fun h0 x k1 k2 => by rw [h1]; exact ha.2.2 h0 x k1 k2⟩
  | makeGroup k a b => cases hg
  | _ => trivial

theorem ungrouped_idem (tr : List (Op V × Out V)) : ungrouped (ungrouped tr) = ungrouped tr := by
  simp [ungrouped, List.filter_filter]

/-- **C72**. Leave the calls of `make_group` out of an allowed history: all the other calls return the same values as before (that is,
they make up an allowed history), and lead to a world without groups in which every call (other than `make_group`) that was allowed
before returns the same value, or panics, as before: every entity has the same components, the same entities exist, the same id is
handed out next, and so on. -/
theorem C72_without (h : Trace tr w) :
    ∃ w', Trace (ungrouped tr) w' ∧ w'.groups = [] ∧
      ∀ op : Op V, op.grouping = false → Allowed tr op → Allowed (ungrouped tr) op ∧ (exec op w').2 = (exec op w).2 := by
  have key : ∃ w', Trace (ungrouped tr) w' := by
    induction h with
    | init => exact ⟨_, .init⟩
    | fails ht ha he ih => exact ih
    | ok ht ha he ih =>
      rename_i tr w w' op o
      obtain ⟨w0, h0⟩ := ih
      by_cases hg : op.grouping = true
      · exact ⟨w0, by simpa [ungrouped, hg] using h0⟩
      · rw [Bool.not_eq_true] at hg
        have ha' := allowed_ungrouped hg ha
        have hn := C72_next ht h0 (ungrouped_idem tr).symm hg ha ha'
        rw [he] at hn
        refine ⟨(exec op w0).1, ?_⟩
        have := Trace.ok h0 ha' (Prod.ext rfl hn)
        simpa [ungrouped, hg] using this
  obtain ⟨w', h'⟩ := key
  refine ⟨w', h', ?_, fun op hg ha => ⟨allowed_ungrouped hg ha, C72_next h h' (ungrouped_idem tr).symm hg ha (allowed_ungrouped hg ha)⟩⟩
  obtain ⟨s, e⟩ := h'.run
  have ht := run_tags e
  rw [ungrouped_made] at ht
  have hl := e.rel.core.glen
  rw [List.map_eq_nil_iff.1 ht] at hl
  exact List.length_eq_zero_iff.1 hl

theorem groupless_mono {pc pc' : TypeId → Prop} {pg pg' : Kind → TypeId → TypeId → Prop} (h1 : ∀ t, pc t → pc' t) (q : Query) :
    Parts (fun _ => True) (fun _ _ _ => False) q → Parts pc pg q → Parts pc' pg' q := by
  induction q <;> simp only [Parts] <;> grind

/-- **C72**. Also after histories that are not allowed: which components an entity has depends on the calls other than `make_group` only, and
every query that names no group yields the same entities with the same components (in some order). -/
theorem C72_any (h : AnyTrace tr w) (h' : AnyTrace tr' w') (hn : NoRebatch tr) (hn' : NoRebatch tr') (he : ungrouped tr = ungrouped tr') :
    (∀ t id, (World.componentRead t id w').2 = (World.componentRead t id w).2) ∧
    ∀ q : Query, q.Groupless → q.Conflictless → Exists tr q → ∃ r r', Yields w q r ∧ Yields w' q r' ∧ r.Perm r' := by
  obtain ⟨a1, a2, a3, a4, a5, a6, a7⟩ := agree_facts he
  refine ⟨fun t id => by rw [(C01_read h hn t id).1, (C01_read h' hn' t id).1, a1], fun q hq hc hx => ?_⟩
  have hx' : Exists tr' q := groupless_mono (fun t h => by rw [a5]; exact h) q hq hx
  obtain ⟨r, y, l⟩ := C23_meaning (.plain h hn hq hx) hc
  obtain ⟨r', y', l'⟩ := C23_meaning (.plain h' hn' hq hx') hc
  have : values tr' = values tr := by funext t id; exact a1 t id
  rw [this] at l'
  exact ⟨r, r', y, y', l.perm l'⟩

/-! ### Examples -/

/-- The demo history with groups: without its `make_group` calls it gives the same results. -/
example : ungrouped Demo.groupTr ≠ Demo.groupTr ∧ Demo.groupW.groups ≠ [] := by
  refine ⟨?_, ?_⟩ <;> decide +kernel
/-- For example, detaching a component that is in a group, and creating an entity, return the same without groups; and queries yield the
same, in some order. -/
example : ∃ w', Trace (ungrouped Demo.groupTr) w' ∧ w'.groups = [] ∧
    (exec (.detach 1 1) w').2 = (exec (.detach 1 1) Demo.groupW).2 ∧ (exec .createEntity w').2 = (exec .createEntity Demo.groupW).2 ∧
    ∃ r r', Yields Demo.groupW (.with2 (.comp .mut 1) (.comp .ref 2)) r ∧ Yields w' (.with2 (.comp .mut 1) (.comp .ref 2)) r' ∧
      r.Perm r' := by
  obtain ⟨w', h1, h2, h3⟩ := C72_without Demo.groupTrace
  have e1 := (h3 (.detach 1 1) rfl (by refine ⟨?_, ?_⟩ <;> decide +kernel)).2
  have e2 := (h3 .createEntity rfl trivial).2
  refine ⟨w', h1, h2, e1, e2, (C72_any Demo.groupTrace.any h1.any Demo.groupTrace.live.1 h1.live.1 (ungrouped_idem _).symm).2 _
    ⟨trivial, trivial⟩ (by decide) (by simp only [Hist.Exists, Parts]; decide +kernel)⟩

end Xecs
