import Verif.Proofs.KeepingStep
import Verif.Spec.Considerate
/-
Kinds of clients, when they also keep things.
-/
set_option autoImplicit false
namespace Xecs
variable {V : Type} {cfg : Config}

/-- A thread there has a counterpart here. -/
theorem threads_of_map {σ σ' : Sys V}
    (h : σ.threads.map (fun th => (th.call, th.subject, th.prog.fills)) =
      σ'.threads.map (fun th => (th.call, th.subject, th.prog.fills)))
    {th : Thread V} (ht : th ∈ σ'.threads) :
    ∃ th0 ∈ σ.threads, th0.call = th.call ∧ th0.subject = th.subject ∧ th0.prog.fills = th.prog.fills := by
  have : (th.call, th.subject, th.prog.fills) ∈ σ.threads.map (fun th => (th.call, th.subject, th.prog.fills)) := by
    rw [h]; exact List.mem_map.2 ⟨th, ht, rfl⟩
  obtain ⟨th0, h1, h2⟩ := List.mem_map.1 this
  simp only [Prod.mk.injEq] at h2
  exact ⟨th0, h1, h2⟩

theorem blind_anything : Sys.Blind (Sys.anything (V := V)) := fun _ _ _ _ _ _ _ => trivial

theorem blind_noRemoval : Sys.Blind (Sys.noRemoval (V := V)) := fun _ _ _ _ _ _ h => h

theorem blind_updating (ρ : Nat → Nat) : Sys.Blind (Sys.updating (V := V) cfg ρ) := fun _ _ _ _ _ _ h => h

theorem blind_scanning (ρ : Nat → Nat) : Sys.Blind (Sys.scanning (V := V) ρ) := fun _ _ _ _ _ _ h => h

theorem blind_attaching : Sys.Blind (Sys.attaching (V := V)) := by
  intro σ σ' i c hw _ h
  unfold Sys.attaching at h ⊢
  rw [← hw]
  exact h

theorem blind_considerate : Sys.Blind (Sys.considerate (V := V) cfg) := by
  intro σ σ' i c hw hm h
  have hf : ∀ id, ¬ σ.Filling id → ¬ σ'.Filling id := by
    rintro id hn ⟨th, ht, a, b, h1, h2, h3⟩
    obtain ⟨th0, h4, _, _, h5⟩ := threads_of_map hm ht
    exact hn ⟨th0, h4, a, b, by rw [h5, h1], h2, h3⟩
  unfold Sys.considerate at h ⊢
  cases c with
  | on id script =>
    dsimp only at h ⊢
    refine ⟨hw ▸ h.1, hf id h.2.1, fun th ht hs => ?_⟩
    obtain ⟨th0, h1, h2, h3, _⟩ := threads_of_map hm ht
    rw [← h2]; exact h.2.2 th0 h1 (h3.trans hs)
  | remove id =>
    dsimp only at h ⊢
    refine ⟨hw ▸ h.1, hf id h.2.1, fun th ht => ?_, ?_⟩
    · obtain ⟨th0, h1, _, h3, _⟩ := threads_of_map hm ht
      rw [← h3]; exact h.2.2.1 th0 h1
    · have := h.2.2.2
      unfold Sys.Removable at this ⊢
      rw [← hw]; exact this
  | fill x y bs =>
    dsimp only at h ⊢
    refine ⟨h.1, h.2.1, fun id h1 h2 => ?_⟩
    obtain ⟨h3, h4, h5, h6⟩ := h.2.2 id h1 h2
    refine ⟨hw ▸ h3, hf id h4, fun th ht => ?_, hw ▸ h6⟩
    obtain ⟨th0, h7, _, h8, _⟩ := threads_of_map hm ht
    rw [← h8]; exact h5 th0 h7
  | _ => exact h

theorem blind_disciplined : Sys.Blind (Sys.disciplined (V := V) cfg) := by
  intro σ σ' i c hw hm h
  have n : ∀ id, σ.NoneOn id → σ'.NoneOn id := by
    intro id h th ht
    obtain ⟨th0, h1, _, h3, _⟩ := threads_of_map hm ht
    rw [← h3]; exact h th0 h1
  have s : ∀ id, σ.OnlySoftOn id → σ'.OnlySoftOn id := by
    intro id h th ht hs
    obtain ⟨th0, h1, h2, h3, _⟩ := threads_of_map hm ht
    rw [← h2]; exact h th0 h1 (h3.trans hs)
  unfold Sys.disciplined at h ⊢
  cases c with
  | on id script =>
    dsimp only at h ⊢
    rw [← hw]
    exact ⟨h.1, h.2.imp (n id) fun h => ⟨h.1, s id h.2⟩⟩
  | remove id =>
    dsimp only at h ⊢
    refine ⟨hw ▸ h.1, n id h.2.1, ?_⟩
    have := h.2.2
    unfold Sys.Removable at this ⊢
    rw [← hw]; exact this
  | _ => exact h

/-- Whatever clients do, they do something. -/
theorem KSys.Step.any {may : KSys V → Nat → KCall V → Prop} {τ τ' : KSys V} (h : τ.Step cfg may τ') :
    τ.Step cfg (KSys.keeping Sys.anything) τ' := by
  cases h with
  | start h1 h2 h3 _ => exact .start h1 h2 h3 fun _ _ => trivial
  | acq h1 h2 h3 => exact .acq h1 h2 h3
  | rel h1 h2 => exact .rel h1 h2
  | act h1 h2 h3 => exact .act h1 h2 h3
  | fault h1 h2 h3 h4 => exact .fault h1 h2 h3 h4
  | panic h1 h2 h3 => exact .panic h1 h2 h3
  | ret h1 h2 h3 => exact .ret h1 h2 h3

theorem KSys.Sched.any {may : KSys V → Nat → KCall V → Prop} {τ τ' : KSys V} (h : τ.Sched cfg may τ') :
    τ.Sched cfg (KSys.keeping Sys.anything) τ' := by
  induction h with
  | refl => exact .refl
  | step _ hs ih => exact .step ih hs.any

theorem KSys.SchedWhile.sched {may : KSys V → Nat → KCall V → Prop} {P : KSys V → Prop} {τ0 τ τ' : KSys V}
    (h0 : τ0.Sched cfg may τ) (h : τ.SchedWhile cfg may P τ') : τ0.Sched cfg may τ' := by
  induction h with
  | refl _ => exact h0
  | step _ hs _ ih => exact .step ih hs

/-- All facts about reachable states at once. -/
theorem kreach {w : World V} {n : Nat} {order : List Nat} (ho : Enumerates w order) {may : KSys V → Nat → KCall V → Prop}
    {τ : KSys V} (hh : (KSys.init w n).Sched (Config.of w order) may τ) :
    ∃ σ, (Sys.init w n).Sched (Config.of w order) Sys.anything σ ∧ Sim (Config.of w order) τ σ ∧
      Basics (Config.of w order) σ ∧ KGood (Config.of w order) τ :=
  sim_sched blind_anything ho hh.any

end Xecs
