import Verif.Proofs.KeepingMay
/-
Computed schedules are schedules.
-/
set_option autoImplicit false
namespace Xecs
variable {V : Type}

theorem kfreeb_iff {σ : KSys V} {l : Lock} {m : Mode} : σ.freeb l m = true ↔ σ.Free l m := by
  simp only [KSys.freeb, KSys.Free, List.all_eq_true, decide_eq_true_eq]

theorem kperform_step {cfg : Config} {mayb : KSys V → Nat → KCall V → Bool} {may : KSys V → Nat → KCall V → Prop}
    (hm : ∀ σ i c, mayb σ i c = true → may σ i c) {σ σ' : KSys V} {c : KChoice V}
    (h : σ.perform cfg mayb c = some σ') : σ.Step cfg may σ' := by
  cases c with
  | start i c =>
    simp only [KSys.perform] at h
    split at h
    · simp at h
    · next th hth =>
      split at h
      · simp at h
      · next hc =>
        split at h
        · next hb => simp at h; subst h; exact .start hth hc hb.1 (hm _ _ _ hb.2)
        · simp at h
  | go i =>
    simp only [KSys.perform] at h
    split at h
    · simp at h
    · next th hth =>
      split at h
      · next l m p hp =>
        split at h
        · next hf => simp at h; subst h; exact .acq hth hp (kfreeb_iff.1 hf)
        · simp at h
      · next l m p hp => simp at h; subst h; exact .rel hth hp
      · next a f hp =>
        split at h
        · next w r hr => simp only [Option.some.injEq] at h; subst h; exact .act hth hp hr
        · next w e hr =>
          split at h
          · next c hc => simp at h; subst h; exact .fault hth hp hr hc
          · simp at h
      · next hp =>
        split at h
        · next c hc => simp at h; subst h; exact .panic hth hp hc
        · simp at h
      · next rs hp =>
        split at h
        · next c hc => simp at h; subst h; exact .ret hth hp hc
        · simp at h

theorem KSys.Sched.trans {cfg : Config} {may : KSys V → Nat → KCall V → Prop} {σ σ' σ'' : KSys V}
    (h : σ.Sched cfg may σ') (h' : σ'.Sched cfg may σ'') : σ.Sched cfg may σ'' := by
  induction h' with
  | refl => exact h
  | step _ hs ih => exact .step ih hs

theorem kperformAll_sched {cfg : Config} {mayb : KSys V → Nat → KCall V → Bool}
    {may : KSys V → Nat → KCall V → Prop} (hm : ∀ σ i c, mayb σ i c = true → may σ i c) :
    ∀ {cs : List (KChoice V)} {σ σ' : KSys V}, σ.performAll cfg mayb cs = some σ' → σ.Sched cfg may σ' := by
  intro cs
  induction cs with
  | nil => intro σ σ' h; simp [KSys.performAll] at h; subst h; exact .refl
  | cons c cs ih =>
    intro σ σ' h
    simp only [KSys.performAll, Option.bind_eq_some_iff] at h
    obtain ⟨σ1, h1, h2⟩ := h
    exact .trans (.step .refl (kperform_step hm h1)) (ih h2)

/-- The schedule computed from a list of choices, if it is possible at all. -/
theorem kperformed {cfg : Config} {mayb : KSys V → Nat → KCall V → Bool}
    {may : KSys V → Nat → KCall V → Prop} (hm : ∀ σ i c, mayb σ i c = true → may σ i c)
    {cs : List (KChoice V)} {σ : KSys V} (h : (σ.performAll cfg mayb cs).isSome = true) :
    σ.Sched cfg may ((σ.performAll cfg mayb cs).get h) :=
  kperformAll_sched hm (Option.some_get h).symm

theorem KSys.SchedWhile.head {cfg : Config} {may : KSys V → Nat → KCall V → Prop} {P : KSys V → Prop} {σ σ' σ'' : KSys V}
    (hp : P σ) (hs : σ.Step cfg may σ') (h : σ'.SchedWhile cfg may P σ'') : σ.SchedWhile cfg may P σ'' := by
  induction h with
  | refl hp' => exact .step (.refl hp) hs hp'
  | step _ hs' hp' ih => exact .step ih hs' hp'

theorem kperformAll_while {cfg : Config} {mayb : KSys V → Nat → KCall V → Bool}
    {may : KSys V → Nat → KCall V → Prop} (hm : ∀ σ i c, mayb σ i c = true → may σ i c) {P : KSys V → Bool} :
    ∀ {cs : List (KChoice V)} {σ : KSys V}, σ.allAlong cfg mayb P cs = true →
      ∃ σ', σ.performAll cfg mayb cs = some σ' ∧ σ.SchedWhile cfg may (fun σ => P σ = true) σ' := by
  intro cs
  induction cs with
  | nil => intro σ h; exact ⟨σ, rfl, .refl h⟩
  | cons c cs ih =>
    intro σ h
    simp only [KSys.allAlong, Bool.and_eq_true] at h
    obtain ⟨h1, h2⟩ := h
    split at h2
    · next σ1 hσ =>
      obtain ⟨σ', h3, h4⟩ := ih h2
      exact ⟨σ', by simp only [KSys.performAll, hσ]; exact h3, h4.head h1 (kperform_step hm hσ)⟩
    · simp at h2

theorem KSys.SchedWhile.mono {cfg : Config} {may : KSys V → Nat → KCall V → Prop} {P Q : KSys V → Prop} {σ σ' : KSys V}
    (hpq : ∀ σ, P σ → Q σ) (h : σ.SchedWhile cfg may P σ') : σ.SchedWhile cfg may Q σ' := by
  induction h with
  | refl hp => exact .refl (hpq _ hp)
  | step _ hs hp ih => exact .step ih hs (hpq _ hp)

theorem keepingb_ok {mayb : Sys V → Nat → ApiCall V → Bool} {may : Sys V → Nat → ApiCall V → Prop}
    (hm : ∀ σ i c, mayb σ i c = true → may σ i c) :
    ∀ (τ : KSys V) i c, KSys.keepingb mayb τ i c = true → KSys.keeping may τ i c := by
  intro τ i c h c' hc
  simp only [KSys.keepingb, hc] at h
  exact hm _ _ _ h

theorem keepsb_ok {i : Nat} {k : Keep} {τ : KSys V} (h : τ.keepsb i k = true) : τ.Keeps i k := by
  unfold KSys.keepsb at h
  split at h
  · next th hth => exact ⟨th, hth, by simpa using h⟩
  · cases h

theorem Keeps.guard {cfg : Config} {i : Nat} {k : Keep} {g : Guard} (hg : g ∈ k.guards cfg) {τ : KSys V} (h : τ.Keeps i k) :
    τ.KeepsGuard cfg i g := by
  obtain ⟨th, h1, h2⟩ := h
  exact ⟨th, h1, k, h2, hg⟩

end Xecs
