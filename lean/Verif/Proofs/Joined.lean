import Verif.Proofs.Trace
/-
Exactly who is in a group, and when a non-owning group can be used, read off histories.
-/
set_option autoImplicit false
namespace Xecs
open Spec World Hist
variable {V : Type}

theorem groupOwns_tag (g : SGroup) (t : Nat) : groupOwns (tag g) t = g.owns t := by
  rcases g with ⟨k, a, b, m, f⟩; cases k <;> rfl

theorem hasBoth_eq {tr : List (Op V × Out V)} {s : State V} (hget : ∀ t x, s.get t x = lastValue t x tr) (g : SGroup)
    (x : Nat) : hasBoth (tag g).2.1 (tag g).2.2 x tr = s.both g x := by
  simp only [hasBoth, State.both, has_eq, hget, tag]

theorem any_tags {s : State V} {tr : List (Op V × Out V)} (ht : s.groups.map tag = groupsMade tr)
    {p : SKind × Nat × Nat → Bool} {q : SGroup → Bool} (h : ∀ g ∈ s.groups, p (tag g) = q g) :
    (groupsMade tr).any p = s.groups.any q := by
  rw [← ht, List.any_map, Bool.eq_iff_iff, List.any_eq_true, List.any_eq_true]
  constructor
  · rintro ⟨g, hg, e⟩; exact ⟨g, hg, by rw [← h g hg]; exact e⟩
  · rintro ⟨g, hg, e⟩; exact ⟨g, hg, by rw [Function.comp, h g hg]; exact e⟩

/-- What the history says about membership and usability. -/
def Joined (tr : List (Op V × Out V)) (s : State V) : Prop :=
  ∀ g ∈ s.groups, (∀ x, g.mem x = joined (tag g) x tr) ∧ (g.kind = .non → g.fresh = !disturbed g.a g.b tr)

theorem run_joined {tr : List (Op V × Out V)} {w : World V} {s : State V} (h : Run tr w s) : Joined tr s := by
  suffices hh : Joined tr s ∧ s.groups.map tag = groupsMade tr ∧ ∀ t x, s.get t x = lastValue t x tr from hh.1
  refine Run.ind (P := fun tr s => Joined tr s ∧ s.groups.map tag = groupsMade tr ∧ ∀ t x, s.get t x = lastValue t x tr)
    ⟨by intro g hg; simp [Spec.init] at hg, rfl, fun _ _ => rfl⟩ ?_ h
  intro tr w s s' op o hr ih hw hs
  obtain ⟨ih, htag, hget⟩ := ih
  obtain ⟨w', he, hrel⟩ := step_ok hr.rel hw hs
  have hr' : Run ((op, o) :: tr) w' s' := .ok hr hw hs he
  have hget' := run_get hr'
  refine ⟨?_, run_tags hr', hget'⟩
  have hsame := step_groups_same hs
  cases op with
  | register u => intro g hg; rw [hsame.1] at hg; exact ih g hg
  | createEntity => intro g hg; rw [hsame.1] at hg; exact ih g hg
  | createEntities n => intro g hg; rw [hsame.1] at hg; exact ih g hg
  | exist x => intro g hg; rw [hsame.1] at hg; exact ih g hg
  | read u x => intro g hg; rw [hsame.1] at hg; exact ih g hg
  | write u x v => intro g hg; rw [hsame.1] at hg; exact ih g hg
  | count u => intro g hg; rw [hsame.1] at hg; exact ih g hg
  | registerResource u v => intro g hg; rw [hsame.1] at hg; exact ih g hg
  | resourceRead u => intro g hg; rw [hsame.1] at hg; exact ih g hg
  | resourceWrite u v => intro g hg; rw [hsame.1] at hg; exact ih g hg
  | attachBatch start stop t vs =>
    obtain ⟨hab, _, hlen, f, hf, _, rfl, rfl⟩ := step_attachBatch hs
    intro g hg; exact ih g hg
  | attach id t v =>
    obtain ⟨hl, f, hf, rfl, rfl⟩ := step_attach hs
    intro g' hg'
    simp only [State.attached, List.mem_map] at hg'
    obtain ⟨g, hg, rfl⟩ := hg'
    refine ⟨fun x => ?_, fun hk => ?_⟩
    · have e := hasBoth_eq hget' g x
      have e2 := (ih g hg).1 x
      simp only [tag] at e e2
      simp only [joined, tag, ← e2, e]
      by_cases hx : x = id
      · subst hx; simp only [beq_self_eq_true, Bool.true_and]; rfl
      · have h1 : (x == id) = false := by simp [hx]
        have h2 : (id == x) = false := by simp [Ne.symm hx]
        simp [h1, h2]
    · simp only [disturbed]
      rw [any_tags htag (q := fun h => h.touches t && !h.mem id && (s.attached id t f v).both h id &&
        (h.owns g.a || h.owns g.b)), Bool.not_or, ← (ih g hg).2 hk, Bool.and_comm]
      · rfl
      · intro h hh
        rw [groupOwns_tag, groupOwns_tag, ← (ih h hh).1, hasBoth_eq hget' h id]
        simp only [SGroup.touches, tag]
        cases h.owns g.a <;> cases h.owns g.b <;> simp
  | detach id t =>
    obtain ⟨_, f, hf, ⟨v, hv, rfl, rfl⟩ | ⟨hn, _, rfl, rfl⟩⟩ := step_detach hs
    · intro g' hg'
      simp only [State.detached, List.mem_map] at hg'
      obtain ⟨g, hg, rfl⟩ := hg'
      refine ⟨fun x => ?_, fun hk => ?_⟩
      · have e2 := (ih g hg).1 x
        simp only [tag] at e2
        simp only [joined, tag, ← e2, SGroup.touches]
        rw [show (x == id) = (id == x) from Bool.beq_comm]
      · simp only [disturbed]
        rw [any_tags htag (q := fun h => h.touches t && h.mem id && (h.owns g.a || h.owns g.b)),
          (ih g hg).2 hk]
        · simp only [SGroup.touches]
          cases disturbed g.a g.b tr <;> cases (t == g.a) <;> cases (t == g.b) <;> simp
        · intro h hh
          rw [groupOwns_tag, groupOwns_tag, ← (ih h hh).1]
          simp only [SGroup.touches, tag]
          cases h.owns g.a <;> cases h.owns g.b <;> simp
    · intro g hg; exact ih g hg
  | removeEntity order id =>
    obtain ⟨hl, _, rfl, rfl⟩ := step_removeEntity hs
    intro g' hg'
    simp only [State.removed, List.mem_map] at hg'
    obtain ⟨g, hg, rfl⟩ := hg'
    refine ⟨fun x => ?_, fun hk => ?_⟩
    · have e2 := (ih g hg).1 x
      simp only [tag] at e2
      simp only [joined, tag, ← e2]
      rw [show (x == id) = (id == x) from Bool.beq_comm]
    · simp only [disturbed]
      rw [Bool.not_or, ← (ih g hg).2 hk, Bool.not_or, ← hget, ← hget, Bool.and_comm, ← Bool.and_assoc]
      simp only [has_eq]
      cases (s.get g.a id).isSome <;> cases (s.get g.b id).isSome <;> simp
  | makeGroup k a b =>
    obtain ⟨c1, c2, _, _, _, rfl, rfl⟩ := step_makeGroup hs
    have hnew : ∀ g ∈ s.groups, ¬ (g.kind = k ∧ g.a = a ∧ g.b = b) := by
      intro g hg ⟨e1, e2, e3⟩
      rw [List.any_eq_false] at c1
      exact c1 g hg (by simp [e1, e2, e3])
    intro g' hg'
    simp only [State.grouped, List.mem_append, List.mem_map, List.mem_singleton] at hg'
    rcases hg' with ⟨g, hg, rfl⟩ | rfl
    · refine ⟨fun x => ?_, fun hk => ?_⟩
      · simp only [joined]
        rw [if_neg, (ih g hg).1]
        · rfl
        · intro e
          simp only [tag, Prod.mk.injEq] at e
          exact hnew g hg ⟨e.1.symm, e.2.1.symm, e.2.2.symm⟩
      · simp only at hk
        have : ¬ (k = .non ∧ a = g.a ∧ b = g.b) := fun ⟨e1, e2, e3⟩ => hnew g hg ⟨by rw [hk, e1], e2.symm, e3.symm⟩
        simp only [disturbed, this, if_false]
        rw [(ih g hg).2 hk]
        simp only [← groupOwns_tag, tag]
        cases disturbed g.a g.b tr <;> simp
    · refine ⟨fun x => ?_, fun hk => ?_⟩
      · simp only [joined, tag, if_true, hasBoth, has_eq, hget]
      · simp only at hk
        subst hk
        simp [disturbed]

/-- The earlier, coarser criterion. -/
theorem undisturbed {a b : Nat} : ∀ {tr : List (Op V × Out V)}, movedSince a b tr = false → ownedEver a tr = false →
    ownedEver b tr = false → disturbed a b tr = false := by
  have howns : ∀ {tr : List (Op V × Out V)} {t : Nat}, ownedEver t tr = false → ∀ g ∈ groupsMade tr, groupOwns g t = false := by
    intro tr t
    induction tr with
    | nil => intro _ g hg; simp [groupsMade] at hg
    | cons x tr ih =>
      obtain ⟨op, o⟩ := x
      cases op with
      | makeGroup k a' b' =>
        intro h g hg
        have h2 : groupOwns (k, a', b') t = false ∧ ownedEver t tr = false := by
          cases k <;> simpa [ownedEver, groupOwns, and_assoc] using h
        simp only [groupsMade, List.mem_append, List.mem_singleton] at hg
        rcases hg with hg | rfl
        · exact ih h2.2 g hg
        · exact h2.1
      | _ => exact ih
  intro tr
  induction tr with
  | nil => intros; rfl
  | cons x tr ih =>
    obtain ⟨op, o⟩ := x
    intro hm ha hb
    have key : ∀ (p : SKind × Nat × Nat → Bool), ownedEver a tr = false → ownedEver b tr = false →
        (groupsMade tr).any (fun g => (groupOwns g a || groupOwns g b) && p g) = false := by
      intro p h1 h2
      rw [List.any_eq_false]
      intro g hg
      simp [howns h1 g hg, howns h2 g hg]
    cases op with
    | makeGroup k a' b' =>
      have h2 : ∀ t, ownedEver t ((Op.makeGroup k a' b', o) :: tr) = false → groupOwns (k, a', b') t = false ∧ ownedEver t tr = false := by
        intro t h
        cases k <;> simpa [ownedEver, groupOwns, and_assoc] using h
      simp only [movedSince, disturbed] at hm ⊢
      split
      · rfl
      · rename_i hne
        rw [if_neg hne] at hm
        simp [(h2 a ha).1, (h2 b hb).1, ih hm (h2 a ha).2 (h2 b hb).2]
    | attach id t v =>
      simp only [disturbed, ih hm ha hb, Bool.or_false, Bool.and_assoc]
      exact key _ ha hb
    | detach id t =>
      cases o with
      | val r =>
        cases r with
        | none => exact ih hm ha hb
        | some v =>
          simp only [movedSince, Bool.or_eq_false_iff] at hm
          simp only [disturbed, ih hm.2 ha hb, Bool.or_false, Bool.and_assoc, hm.1.1, hm.1.2, Bool.false_or]
          exact key _ ha hb
      | _ => exact ih hm ha hb
    | removeEntity order id =>
      simp only [movedSince, Bool.or_eq_false_iff] at hm
      simp [disturbed, ih hm.2 ha hb, hm.1.1, hm.1.2]
    | _ => exact ih hm ha hb

end Xecs
