import Verif.Proofs.Session
import Verif.Spec.Play
/-
Relations between the kinds of histories.
-/
set_option autoImplicit false
namespace Xecs
open Spec World Hist
variable {V : Type}

theorem Trace.any {tr : List (Op V × Out V)} {w : World V} (h : Trace tr w) : AnyTrace tr w := by
  induction h with
  | init => exact .init
  | ok hprev ha he ih =>
    rename_i tr w w' op o
    refine .ok ih ?_ he
    cases op <;> try trivial
    exact ha.2.1
  | fails hprev ha he ih =>
    rename_i tr w w' op e
    rcases hprev.safe ha with ⟨w1, o, h1⟩ | h1
    · rw [h1] at he; simp at he
    · rw [h1] at he; simp only [Prod.mk.injEq, Except.error.injEq] at he
      obtain ⟨rfl, rfl⟩ := he
      exact .fails ih h1 fun _ _ => rfl

theorem Trace.live {tr : List (Op V × Out V)} {w : World V} (h : Trace tr w) :
    NoRebatch tr ∧ RemovesLive tr ∧ AttachesLive tr := by
  induction h with
  | init => exact ⟨trivial, trivial, trivial⟩
  | fails hprev ha he ih => exact ih
  | ok hprev ha he ih =>
    rename_i tr w w' op o
    obtain ⟨s, hr⟩ := hprev.run
    obtain ⟨hw, hs⟩ := allowed_spec hr ha
    have halive := (run_em hr).2.2.2.1
    cases hc : s.step op with
    | panics => have := step_panics hr.rel hw hc; rw [he] at this; simp at this
    | unspecified => exact absurd hc hs
    | ok s' o' =>
      cases op with
      | removeEntity order id =>
        obtain ⟨hl, _⟩ := step_removeEntity hc
        exact ⟨ih.1, ⟨by rw [halive]; exact hl, ih.2.1⟩, ih.2.2⟩
      | attach id t v =>
        obtain ⟨hl, _⟩ := step_attach hc
        exact ⟨ih.1, ih.2.1, ⟨by rw [halive]; exact hl, ih.2.2⟩⟩
      | attachBatch a b t vs =>
        obtain ⟨_, hl, hlen, _⟩ := step_attachBatch hc
        exact ⟨⟨ha.2.2 hlen, ih.1⟩, ih.2.1, ⟨ha.2.1, ih.2.2⟩⟩
      | _ => exact ih

/-- Components belong to living entities. -/
theorem any_alive {tr : List (Op V × Out V)} {w : World V} (h : AnyTrace tr w) :
    NoRebatch tr → RemovesLive tr → AttachesLive tr → ∀ t id, (lastValue t id tr).isSome = true → alive id tr = true := by
  induction h with
  | init => intro _ _ _ t id h; simp [lastValue] at h
  | fails hprev he hc ih => exact ih
  | ok hprev ho he ih =>
    rename_i tr w w' op o
    intro h1 h2 h3 t id hv
    cases op with
    | removeEntity order id' =>
      simp only [lastValue] at hv
      simp only [alive]
      by_cases hid : id' = id
      · rw [if_pos hid] at hv; simp at hv
      · rw [if_neg hid] at hv
        have : (id' == id) = false := by simpa using hid
        simp [this, ih h1 h2.2 h3 t id hv]
    | createEntity =>
      have := ih h1 h2 h3 t id hv
      cases o <;> simp [alive, this]
    | createEntities n =>
      have := ih h1 h2 h3 t id hv
      cases o <;> simp [alive, this]
    | attach id' t' v =>
      simp only [lastValue] at hv
      by_cases hid : id' = id ∧ t' = t
      · exact hid.1 ▸ h3.1
      · rw [if_neg hid] at hv; exact ih h1 h2 h3.2 t id hv
    | attachBatch a b t' vs =>
      simp only [lastValue] at hv
      by_cases hid : t' = t ∧ a ≤ id ∧ id < b
      · exact h3.1 id hid.2.1 hid.2.2
      · rw [if_neg hid] at hv; exact ih h1.2 h2 h3.2 t id hv
    | detach id' t' =>
      simp only [lastValue] at hv
      by_cases hid : id' = id ∧ t' = t
      · rw [if_pos hid] at hv; simp at hv
      · rw [if_neg hid] at hv; exact ih h1 h2 h3 t id hv
    | write t' id' v =>
      simp only [exec, bind_pure_ok] at he
      obtain ⟨b, he, rfl⟩ := he
      have hl := any_look hprev h1
      cases b with
      | false => exact ih h1 h2 h3 t id hv
      | true =>
        simp only [lastValue] at hv
        by_cases hid : id' = id ∧ t' = t
        · obtain ⟨rfl, rfl⟩ := hid
          rcases componentWrite_inv he with ⟨h, _⟩ | ⟨_, st, S, hst, hex, _⟩
          · simp at h
          · obtain ⟨_, _, e3, e4⟩ := hl.at_some hst
            refine ih h1 h2 h3 t' id' ?_
            rw [← e4, SparseSet.lookup_isSome e3]; exact (SparseSet.exist_iff e3).1 hex
        · rw [if_neg hid] at hv; exact ih h1 h2 h3 t id hv
    | register t' => exact ih h1 h2 h3 t id hv
    | exist id' => exact ih h1 h2 h3 t id hv
    | makeGroup k a b => exact ih h1 h2 h3 t id hv
    | read t' id' => exact ih h1 h2 h3 t id hv
    | count t' => exact ih h1 h2 h3 t id hv
    | registerResource t' v => exact ih h1 h2 h3 t id hv
    | resourceRead t' => exact ih h1 h2 h3 t id hv
    | resourceWrite t' v => cases o <;> exact ih h1 h2 h3 t id hv

end Xecs
