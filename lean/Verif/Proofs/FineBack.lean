import Verif.Proofs.FineCode
/-
Every interleaving of pieces of work is one of single statements, and working threads are never stuck.
-/
set_option autoImplicit false
namespace Xecs
variable {V : Type}

/-- No program of statements is what is left of it after its first statement. -/
theorem Stm.rest_ne {σ α : Type} {m : Stm σ α} : ∀ {u : σ → σ} {k : σ → Stm σ α} {s : σ}, m = .step u k → k s ≠ m := by
  induction m with
  | ret r => intro u k s h; cases h
  | step f g ih =>
    intro u k s h
    cases h
    intro h'
    exact ih s (s := s) h' rfl

namespace FSys
variable {cfg : Config} {impl : Act V → Stm (World V) (Ret V)} {may : Sys V → Nat → ApiCall V → Prop}

theorem Sched.trans {φ φ' φ'' : FSys V} (h : φ.Sched cfg impl may φ') (h' : φ'.Sched cfg impl may φ'') :
    φ.Sched cfg impl may φ'' := by
  induction h' with
  | refl => exact h
  | step _ hs ih => exact .step ih hs

/-- A working thread can do the rest of its work without interruption. -/
theorem sched_rest {i : Nat} (m : Stm (World V) (Ret V)) : ∀ (φ : FSys V), φ.rest i = some m →
    ∃ φ', φ.Sched cfg impl may φ' ∧ φ'.sys = φ.sys ∧ φ'.mem = (m.run φ.mem).1 ∧ φ'.rest i = some (.ret (m.run φ.mem).2) ∧
      ∀ j, j ≠ i → φ'.rest j = φ.rest j := by
  induction m with
  | ret r => exact fun φ h => ⟨φ, .refl, rfl, rfl, h, fun _ _ => rfl⟩
  | step u k ih =>
    intro φ h
    obtain ⟨φ', h1, h2, h3, h4, h5⟩ := ih φ.mem { φ.setRest i (some (k φ.mem)) with mem := u φ.mem } (by simp [setRest])
    exact ⟨φ', (Sched.step .refl (.work h)).trans h1, h2, h3, h4, fun j hj => (h5 j hj).trans (by simp [setRest, hj])⟩

/-- A step of pieces of work, as steps of statements. -/
theorem of_step (hi : Splits cfg impl) {σ σ' : Sys V} (hb : Basics cfg σ) (hs : σ.Step cfg may σ') {φ : FSys V} (h1 : φ.sys = σ)
    (h2 : φ.mem = σ.world) (h3 : φ.AtRest) : ∃ φ', φ.Sched cfg impl may φ' ∧ φ'.sys = σ' ∧ φ'.mem = σ'.world ∧ φ'.AtRest := by
  subst h1
  cases hs with
  | start a b c => exact ⟨_, .step .refl (.start a b c), rfl, h2, h3⟩
  | acq a b c => exact ⟨_, .step .refl (.acq a b c), rfl, h2, h3⟩
  | rel a b => exact ⟨_, .step .refl (.rel a b), rfl, h2, h3⟩
  | panic a b c => exact ⟨_, .step .refl (.panic a b c), rfl, h2, h3⟩
  | ret a b c => exact ⟨_, .step .refl (.ret a b c), rfl, h2, h3⟩
  | @act i th a f w r hti hp hr =>
    obtain ⟨φ', e1, e2, e3, e4, e5⟩ := sched_rest (cfg := cfg) (impl := impl) (may := may) (i := i) (impl a) (φ.setRest i (some (impl a)))
      (by simp [setRest])
    have hrun : (impl a).run φ.mem = (w, .ok r) := by
      rw [(hi a φ.mem (by rw [h2]; exact hb.mat.groups)).1, h2, hr]
    change φ'.sys = φ.sys at e2
    change φ'.mem = ((impl a).run φ.mem).1 at e3
    change φ'.rest i = some (.ret ((impl a).run φ.mem).2) at e4
    rw [hrun] at e3 e4
    refine ⟨_, .step ((Sched.step .refl (.begin hti hp (h3 i))).trans e1)
      (.done e4 (by rw [e2]; exact hti) hp), ?_, ?_, fun j => ?_⟩
    · show Sys.setThread _ _ _ = _
      rw [e2, hr]
    · exact e3
    · show (if j = i then none else φ'.rest j) = none
      split
      · rfl
      · next hj => rw [e5 j hj]; simp [setRest, hj, h3 j]
  | @fault i th a f w e c hti hp hr hc =>
    obtain ⟨φ', e1, e2, e3, e4, e5⟩ := sched_rest (cfg := cfg) (impl := impl) (may := may) (i := i) (impl a) (φ.setRest i (some (impl a)))
      (by simp [setRest])
    have hrun : (impl a).run φ.mem = (w, .error e) := by
      rw [(hi a φ.mem (by rw [h2]; exact hb.mat.groups)).1, h2, hr]
    change φ'.sys = φ.sys at e2
    change φ'.mem = ((impl a).run φ.mem).1 at e3
    change φ'.rest i = some (.ret ((impl a).run φ.mem).2) at e4
    rw [hrun] at e3 e4
    refine ⟨_, .step ((Sched.step .refl (.begin hti hp (h3 i))).trans e1)
      (.fault e4 (by rw [e2]; exact hti) hp hc), ?_, ?_, fun j => ?_⟩
    · show Sys.finish _ _ _ _ = _
      rw [e2, hr]
    · exact e3
    · show (if j = i then none else φ'.rest j) = none
      split
      · rfl
      · next hj => rw [e5 j hj]; simp [setRest, hj, h3 j]

theorem of_sched (hi : Splits cfg impl) {σ σ' : Sys V} (hb : Basics cfg σ) (hs : σ.Sched cfg may σ') {φ : FSys V} (h1 : φ.sys = σ)
    (h2 : φ.mem = σ.world) (h3 : φ.AtRest) : ∃ φ', φ.Sched cfg impl may φ' ∧ φ'.sys = σ' ∧ φ'.mem = σ'.world ∧ φ'.AtRest := by
  induction hs with
  | refl => exact ⟨φ, .refl, h1, h2, h3⟩
  | step hs' hs ih =>
    obtain ⟨φ1, e1, e2, e3, e4⟩ := ih
    obtain ⟨φ2, f1, f2⟩ := of_step hi (hb.sched hs') hs e2 e3 e4
    exact ⟨φ2, e1.trans f1, f2⟩

/-- A working thread can go on. -/
theorem working_goes {φ : FSys V} (hb : Basics cfg φ.sys) (hk : Keyed cfg φ) {i : Nat} (h : (φ.rest i).isSome = true) :
    ∃ φ', φ.Step cfg impl may φ' := by
  obtain ⟨m, hm⟩ := Option.isSome_iff_exists.1 h
  cases m with
  | step u k => exact ⟨_, .work hm⟩
  | ret r =>
    obtain ⟨a, ha, -⟩ := hk.rest i _ hm
    obtain ⟨th, f, h1, h2⟩ := ha.thread
    cases r with
    | ok r => exact ⟨_, .done hm h1 h2⟩
    | error e =>
      cases hc : th.call with
      | some c => exact ⟨_, .fault hm h1 h2 hc⟩
      | none =>
        rw [hb.idle th (List.mem_of_getElem? h1) hc] at h2
        cases h2

end FSys
end Xecs
