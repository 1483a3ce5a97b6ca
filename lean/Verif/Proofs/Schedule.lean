import Verif.Proofs.Frame
/-
Computed schedules are schedules.
-/
set_option autoImplicit false
namespace Xecs
variable {V : Type}

theorem freeb_iff {σ : Sys V} {l : Lock} {m : Mode} : σ.freeb l m = true ↔ σ.Free l m := by
  simp only [Sys.freeb, Sys.Free, List.all_eq_true, decide_eq_true_eq]

theorem perform_step {cfg : Config} {mayb : Sys V → Nat → ApiCall V → Bool} {may : Sys V → Nat → ApiCall V → Prop}
    (hm : ∀ σ i c, mayb σ i c = true → may σ i c) {σ σ' : Sys V} {c : Choice V}
    (h : σ.perform cfg mayb c = some σ') : σ.Step cfg may σ' := by
  cases c with
  | start i c =>
    simp only [Sys.perform] at h
    split at h
    · simp at h
    · next th hth =>
      split at h
      · simp at h
      · next hc =>
        split at h
        · next hb => simp at h; subst h; exact .start hth hc (hm _ _ _ hb)
        · simp at h
  | go i =>
    simp only [Sys.perform] at h
    split at h
    · simp at h
    · next th hth =>
      split at h
      · next l m p hp =>
        split at h
        · next hf => simp at h; subst h; exact .acq hth hp (freeb_iff.1 hf)
        · simp at h
      · next l m p hp => simp at h; subst h; exact .rel hth hp
      · next a f hp =>
        split at h
        · next w r hr => simp only [Option.some.injEq] at h; subst h; exact .act hth hp hr
        · next w e hr =>
          split at h
          · next c hc => simp at h; subst h; exact .fault hth hp hr hc
          · simp at h
      · next hp =>
        split at h
        · next c hc => simp at h; subst h; exact .panic hth hp hc
        · simp at h
      · next rs hp =>
        split at h
        · next c hc => simp at h; subst h; exact .ret hth hp hc
        · simp at h

theorem Sys.Sched.trans {cfg : Config} {may : Sys V → Nat → ApiCall V → Prop} {σ σ' σ'' : Sys V}
    (h : σ.Sched cfg may σ') (h' : σ'.Sched cfg may σ'') : σ.Sched cfg may σ'' := by
  induction h' with
  | refl => exact h
  | step _ hs ih => exact .step ih hs

theorem performAll_sched {cfg : Config} {mayb : Sys V → Nat → ApiCall V → Bool}
    {may : Sys V → Nat → ApiCall V → Prop} (hm : ∀ σ i c, mayb σ i c = true → may σ i c) :
    ∀ {cs : List (Choice V)} {σ σ' : Sys V}, σ.performAll cfg mayb cs = some σ' → σ.Sched cfg may σ' := by
  intro cs
  induction cs with
  | nil => intro σ σ' h; simp [Sys.performAll] at h; subst h; exact .refl
  | cons c cs ih =>
    intro σ σ' h
    simp only [Sys.performAll, Option.bind_eq_some_iff] at h
    obtain ⟨σ1, h1, h2⟩ := h
    exact .trans (.step .refl (perform_step hm h1)) (ih h2)

/-- The schedule computed from a list of choices, if it is possible at all. -/
theorem performed {cfg : Config} {mayb : Sys V → Nat → ApiCall V → Bool}
    {may : Sys V → Nat → ApiCall V → Prop} (hm : ∀ σ i c, mayb σ i c = true → may σ i c)
    {cs : List (Choice V)} {σ : Sys V} (h : (σ.performAll cfg mayb cs).isSome = true) :
    σ.Sched cfg may ((σ.performAll cfg mayb cs).get h) :=
  performAll_sched hm (Option.some_get h).symm

theorem Sys.SchedWhile.head {cfg : Config} {may : Sys V → Nat → ApiCall V → Prop} {P : Sys V → Prop} {σ σ' σ'' : Sys V}
    (hp : P σ) (hs : σ.Step cfg may σ') (h : σ'.SchedWhile cfg may P σ'') : σ.SchedWhile cfg may P σ'' := by
  induction h with
  | refl hp' => exact .step (.refl hp) hs hp'
  | step _ hs' hp' ih => exact .step ih hs' hp'

theorem performAll_while {cfg : Config} {mayb : Sys V → Nat → ApiCall V → Bool}
    {may : Sys V → Nat → ApiCall V → Prop} (hm : ∀ σ i c, mayb σ i c = true → may σ i c) {P : Sys V → Bool} :
    ∀ {cs : List (Choice V)} {σ : Sys V}, σ.allAlong cfg mayb P cs = true →
      ∃ σ', σ.performAll cfg mayb cs = some σ' ∧ σ.SchedWhile cfg may (fun σ => P σ = true) σ' := by
  intro cs
  induction cs with
  | nil => intro σ h; exact ⟨σ, rfl, .refl h⟩
  | cons c cs ih =>
    intro σ h
    simp only [Sys.allAlong, Bool.and_eq_true] at h
    obtain ⟨h1, h2⟩ := h
    split at h2
    · next σ1 hσ =>
      obtain ⟨σ', h3, h4⟩ := ih h2
      exact ⟨σ', by simp only [Sys.performAll, hσ]; exact h3, h4.head h1 (perform_step hm hσ)⟩
    · simp at h2

theorem Sys.SchedWhile.mono {cfg : Config} {may : Sys V → Nat → ApiCall V → Prop} {P Q : Sys V → Prop} {σ σ' : Sys V}
    (hpq : ∀ σ, P σ → Q σ) (h : σ.SchedWhile cfg may P σ') : σ.SchedWhile cfg may Q σ' := by
  induction h with
  | refl hp => exact .refl (hpq _ hp)
  | step _ hs hp ih => exact .step ih hs (hpq _ hp)

end Xecs
