import Verif.Proofs.Told
import Verif.Proofs.Schedule
/-
Computing the record of a concrete schedule.
-/
set_option autoImplicit false
namespace Xecs
open Spec World
variable {V : Type}

/-- The change made by performing a choice. -/
def Sys.made (order : List TypeId) (σ : Sys V) : Choice V → Option (Nat × Op V × Out V)
  | .start _ _ => none
  | .go i =>
    match σ.threads[i]? with
    | some { prog := .act a _, .. } =>
      match a.run σ.world with
      | (_, .ok r) => (a.change order r).map fun x => (i, x)
      | _ => none
    | _ => none

/-- The changes made by performing a list of choices, latest first, after the changes `l`. -/
def Sys.changes (cfg : Config) (mayb : Sys V → Nat → ApiCall V → Bool) :
    Sys V → List (Choice V) → List (Nat × Op V × Out V) → List (Nat × Op V × Out V)
  | _, [], l => l
  | σ, c :: cs, l =>
    match σ.perform cfg mayb c with
    | some σ' => Sys.changes cfg mayb σ' cs ((σ.made cfg.order c).toList ++ l)
    | none => l

/-- A step that is no work. -/
theorem Sys.no_work {order : List Nat} {σ σ' : Sys V} {i : Nat} {th th' : Thread V} (hi : σ.threads[i]? = some th)
    (hth : ∀ (j : Nat), σ'.threads[j]? = if j = i then some th' else σ.threads[j]?)
    (h : (∀ a f, th.prog ≠ .act a f) ∨ th'.call ≠ th.call) : σ.Makes order σ' none := by
  rintro j a r ⟨tj, f, w, h1, h2, h3, rfl⟩
  have a1 := hth j
  rw [setThread_threads { σ with world := w } j _ j h1] at a1
  by_cases hji : j = i
  · subst hji
    rw [hi] at h1; cases h1
    simp only [if_true, Option.some.injEq] at a1
    rcases h with h | h
    · exact absurd h2 (h a f)
    · rw [← a1] at h; exact absurd rfl h
  · simp only [if_true, hji, if_false, h1, Option.some.injEq] at a1
    have := congrArg Thread.prog a1
    exact absurd this (Prog.later_ne _ a f h2 r)

theorem finish_threads (σ : Sys V) (i : Nat) (c : ApiCall V) (r : Option (List (Ret V))) {th : Thread V}
    (hi : σ.threads[i]? = some th) (j : Nat) :
    (σ.finish i c r).threads[j]? = if j = i then some Thread.idle else σ.threads[j]? :=
  setThread_threads σ i .idle j hi

theorem perform_makes {cfg : Config} {mayb : Sys V → Nat → ApiCall V → Bool} {σ σ' : Sys V} {c : Choice V}
    (h : σ.perform cfg mayb c = some σ') : σ.Makes cfg.order σ' (σ.made cfg.order c) := by
  cases c with
  | start i c =>
    simp only [Sys.perform] at h
    split at h
    · cases h
    · next th hth =>
      split at h
      · cases h
      · next hc =>
        split at h
        · cases h
          refine Sys.no_work hth (fun j => setThread_threads σ i _ j hth) (.inr ?_)
          rw [hc]; simp
        · cases h
  | go i =>
    simp only [Sys.perform] at h
    split at h
    · cases h
    · next th hth =>
      obtain ⟨call, prog, held, subject⟩ := th
      cases prog with
      | acq l m p =>
        have hm : σ.made cfg.order (.go i) = none := by simp [Sys.made, hth]
        rw [hm]
        dsimp only at h
        split at h
        · cases h
          exact Sys.no_work hth (fun j => setThread_threads σ i _ j hth) (.inl (by simp))
        · cases h
      | rel l m p =>
        have hm : σ.made cfg.order (.go i) = none := by simp [Sys.made, hth]
        rw [hm]
        dsimp only at h
        cases h
        exact Sys.no_work hth (fun j => setThread_threads σ i _ j hth) (.inl (by simp))
      | panic =>
        have hm : σ.made cfg.order (.go i) = none := by simp [Sys.made, hth]
        rw [hm]
        dsimp only at h
        split at h
        · cases h
          exact Sys.no_work hth (finish_threads σ i _ _ hth) (.inl (by simp))
        · cases h
      | done rs =>
        have hm : σ.made cfg.order (.go i) = none := by simp [Sys.made, hth]
        rw [hm]
        dsimp only at h
        split at h
        · cases h
          exact Sys.no_work hth (finish_threads σ i _ _ hth) (.inl (by simp))
        · cases h
      | act a f =>
        dsimp only at h
        rcases hr : a.run σ.world with ⟨w, r⟩
        rw [hr] at h
        cases r with
        | ok r =>
          cases h
          have hw : σ.Works i a r _ := ⟨_, f, w, hth, rfl, hr, rfl⟩
          have hm : σ.made cfg.order (.go i) = (a.change cfg.order r).map fun x => (i, x) := by simp [Sys.made, hth, hr]
          rw [hm]
          cases hc : a.change cfg.order r with
          | some x => exact ⟨a, r, hw, hc⟩
          | none =>
            intro j b q hw'
            have := hw.unique hw'
            subst this
            obtain ⟨th2, f2, w2, b1, b2, b3, _⟩ := hw'
            rw [hth] at b1; cases b1
            cases b2
            rw [hr] at b3; cases b3
            exact hc
        | error e =>
          have hm : σ.made cfg.order (.go i) = none := by simp [Sys.made, hth, hr]
          rw [hm]
          dsimp only at h
          cases call with
          | none => cases h
          | some c =>
            cases h
            refine Sys.no_work hth (finish_threads { σ with world := w } i _ _ hth) (.inr ?_)
            simp [Thread.idle]

theorem performAll_record {cfg : Config} {mayb : Sys V → Nat → ApiCall V → Bool} {may : Sys V → Nat → ApiCall V → Prop}
    (hm : ∀ σ i c, mayb σ i c = true → may σ i c) {σ0 : Sys V} : ∀ {cs : List (Choice V)} {σ σ' : Sys V}
    {l : List (Nat × Op V × Out V)}, σ0.Record cfg may l σ → σ.performAll cfg mayb cs = some σ' →
    σ0.Record cfg may (σ.changes cfg mayb cs l) σ' := by
  intro cs
  induction cs with
  | nil => intro σ σ' l h0 h; simp [Sys.performAll] at h; subst h; exact h0
  | cons c cs ih =>
    intro σ σ' l h0 h
    simp only [Sys.performAll, Option.bind_eq_some_iff] at h
    obtain ⟨σ1, h1, h2⟩ := h
    simp only [Sys.changes, h1]
    exact ih (.step h0 (perform_step hm h1) (perform_makes h1)) h2

/-- The record of a concrete schedule. -/
theorem recorded {cfg : Config} {mayb : Sys V → Nat → ApiCall V → Bool} {may : Sys V → Nat → ApiCall V → Prop}
    (hm : ∀ σ i c, mayb σ i c = true → may σ i c) {cs : List (Choice V)} {σ : Sys V}
    (h : (σ.performAll cfg mayb cs).isSome = true) :
    σ.Record cfg may (σ.changes cfg mayb cs []) ((σ.performAll cfg mayb cs).get h) :=
  performAll_record hm .refl (Option.some_get h).symm

end Xecs
