import Verif.Spec.Reached
import Verif.Proofs.KeepingStep
import Verif.Proofs.LinearSys
import Verif.Proofs.Fails
import Verif.Proofs.RobustTrace
import Verif.Proofs.PhasesMixed
/-
Worlds reached in any way have sound storages.
-/
set_option autoImplicit false
namespace Xecs
open Spec World Hist
variable {V : Type}

/-- A piece of work keeps storages sound, whether it succeeds or fails. -/
theorem Fit.run {w : World V} (h : Fit w) (a : Act V)
    (hb : ∀ start stop t vs, a = .batchStore start stop t vs → ∀ e, start ≤ e → e < stop → w.value t e = none) :
    Fit (a.run w).1 := by
  rcases hr : a.run w with ⟨w', r⟩
  cases r with
  | ok r => exact (run_effect (life := False) h hb (fun h => h.elim) (fun h => h.elim) hr).1
  | error e => exact (run_fail (life := False) h hb (fun h => h.elim) (fun h => h.elim) hr).1

/-- Keeps storages sound. -/
def FitM {α : Type} (m : M V α) : Prop := ∀ w, Fit w → Fit (m w).1

theorem FitM.pure {α : Type} (a : α) : FitM (V := V) (Pure.pure a) := fun _ h => h
theorem FitM.read {α : Type} (f : World V → R α) : FitM (M.read f) := fun _ h => h
theorem FitM.assert (b : Bool) : FitM (V := V) (M.assert b) := fun _ h => h

theorem FitM.bind {α β : Type} {m : M V α} {f : α → M V β} (h : FitM m) (hf : ∀ a, FitM (f a)) : FitM (m >>= f) := by
  intro w hw
  have h1 := h w hw
  rw [M.bind_apply]
  rcases hm : m w with ⟨w1, r1⟩
  rw [hm] at h1
  cases r1 with
  | error e => exact h1
  | ok a => exact hf a w1 h1

theorem FitM.forEach {γ : Type} {f : γ → M V Unit} (h : ∀ c, FitM (f c)) (l : List γ) : FitM (M.forEach l f) := by
  induction l with
  | nil => exact .pure ()
  | cons c l ih => exact .bind (h c) fun _ => ih

theorem bind_pure_fst {α β : Type} (m : M V α) (g : α → β) (w : World V) : ((do Pure.pure (g (← m)) : M V β) w).1 = (m w).1 := by
  rw [M.bind_apply]
  rcases hm : m w with ⟨w1, r1⟩
  cases r1 <;> rfl

/-- A section that is a piece of work. -/
theorem FitM.act {α : Type} {m : M V α} (a : Act V) (hb : ∀ start stop t vs, a ≠ .batchStore start stop t vs)
    (he : ∀ w, (m w).1 = (a.run w).1) : FitM m := by
  intro w h
  rw [he]
  exact h.run a fun start stop t vs e => absurd e (hb _ _ _ _)

theorem FitM.attachStore (t id : Nat) (v : V) : FitM (M.crit (World.attachStore t id v) (attachStoreX t id v)) :=
  .act (.attachStore t id v) (by simp) fun w => (bind_pure_fst _ _ w).symm
theorem FitM.detachStore (t id : Nat) : FitM (V := V) (M.crit (World.detachStore t id) (detachStoreX t id)) :=
  .act (.detachStore t id) (by simp) fun w => (bind_pure_fst _ _ w).symm
theorem FitM.storeErase (t id : Nat) : FitM (V := V) (M.crit (World.storeErase t id) (storeEraseX t id)) :=
  .act (.storeErase t id) (by simp) fun w => (bind_pure_fst _ _ w).symm
theorem FitM.groupAdd (k id : Nat) : FitM (V := V) (M.crit (World.groupAdd k id) (groupAddX k id)) :=
  .act (.groupAdd k id) (by simp) fun w => (bind_pure_fst _ _ w).symm
theorem FitM.groupRemove (k id : Nat) : FitM (V := V) (M.crit (World.groupRemove k id) (groupRemoveX k id)) :=
  .act (.groupRemove k id) (by simp) fun w => (bind_pure_fst _ _ w).symm
theorem FitM.groupErase (k id : Nat) : FitM (V := V) (M.crit (World.groupErase k id) (groupEraseX k id)) :=
  .act (.groupErase k id) (by simp) fun w => (bind_pure_fst _ _ w).symm
theorem FitM.allocate : FitM (V := V) (M.crit World.allocate (onTable EntityManager.allocateX)) :=
  .act .allocate (by simp) fun w => (bind_pure_fst _ _ w).symm
theorem FitM.release (id : Nat) : FitM (V := V) (M.crit (World.release id) (onTable (EntityManager.removeX id))) :=
  .act (.emRemove id) (by simp) fun w => (bind_pure_fst _ _ w).symm

theorem FitM.groupMake (k : Nat) : FitM (V := V) (M.crit (World.groupMake k) (groupMakeX k)) := by
  intro w h
  simp only [M.crit]
  cases hf : World.groupMake k w with
  | ok p => exact (h.same (groupMake_evo (w' := p.1) hf)).1
  | error e => exact (h.same (groupMakeX_evo k w)).1

/-- A call keeps storages sound, whether it returns or panics. -/
theorem Fit.exec {w w' : World V} (h : Fit w) {op : Op V} {r : Xecs.R (Out V)} (he : exec op w = (w', r))
    (hb : ∀ o, r = .ok o → Hist.Fits w op) : Fit w' := by
  have use : FitM (Xecs.exec op) → Fit w' := fun hm => by have := hm w h; rw [he] at this; exact this
  cases op with
  | register t =>
    refine use (.bind (.bind (.read _) fun _ => .bind (.assert _) fun _ => ?_) fun _ => .pure _)
    intro w h
    refine ⟨fun u st hu => ?_, h.res⟩
    simp only [M.crit, insertStorage] at hu
    split at hu
    · next e => cases hu; exact ⟨e.symm, SparseSet.wf_new⟩
    · exact h.st u st hu
  | createEntity =>
    exact use (.bind (.bind .allocate fun _ => .bind (.bind (.read _) fun b => by cases b <;> exact .pure _) fun _ => .read _) fun _ => .pure _)
  | createEntities n => exact use (.act (.allocateN n) (by simp) fun w => by rw [Xecs.exec, Act.run, bind_pure_fst, bind_pure_fst])
  | removeEntity order id =>
    exact use (.bind (.bind (.read _) fun _ => .bind (.assert _) fun _ => .bind (.read _) fun _ => .bind (.forEach (fun _ => .groupErase _ _) _) fun _ =>
      .bind (.read _) fun _ => .bind (.forEach (fun _ => .storeErase _ _) _) fun _ => .release _) fun _ => .pure _)
  | exist id => exact use (.bind (.read _) fun _ => .pure _)
  | attach id t v =>
    exact use (.bind (.bind (.bind (.read _) fun b => by cases b <;> exact .pure _) fun _ => .bind (.read _) fun _ =>
      .bind (.read _) fun _ => .bind (.assert _) fun _ => .bind (.attachStore _ _ _) fun _ => .bind (.read _) fun _ =>
        .forEach (fun _ => .groupAdd _ _) _) fun _ => .pure _)
  | detach id t =>
    exact use (.bind (.bind (.bind (.read _) fun b => by cases b <;> exact .pure _) fun _ => .bind (.read _) fun _ =>
      .bind (.read _) fun _ => .bind (.assert _) fun _ => .bind (.read _) fun _ =>
        .bind (.forEach (fun _ => .groupRemove _ _) _) fun _ => .detachStore _ _) fun _ => .pure _)
  | attachBatch start stop t vs =>
    have hw : w' = (Act.run (.batchStore start stop t vs) w).1 := by
      rw [Act.run, bind_pure_fst]
      rw [Xecs.exec] at he
      have := bind_pure_fst (World.attachBatch start stop t vs) (fun _ => Out.unit (V := V)) w
      exact (congrArg Prod.fst he).symm.trans this
    cases r with
    | ok o =>
      have := hb o rfl
      rw [hw]
      exact h.run _ fun _ _ _ _ e => by cases e; exact this
    | error e =>
      suffices w' = w by rw [this]; exact h
      rw [hw]
      rw [Xecs.exec] at he
      rcases bindM_cases he with ⟨w1, a, h1, h2⟩ | ⟨e', h1, _⟩
      · simp [M.pure_apply] at h2
      · rw [Act.run, bind_pure_fst, h1]
        rcases bindM_cases h1 with ⟨w1, a, h3, h4⟩ | ⟨e', h3, _⟩
        · obtain ⟨h5, h6⟩ := M.assert_iff.1 h3
          subst h5
          rcases crit_cases h4 with ⟨_, _, h3⟩ | ⟨h5, _⟩
          · cases h3
          cases hc : w1.comps t with
          | none => exact h5.trans (by simp only [batchStoreX, onStore, hc]; rfl)
          | some st =>
            obtain ⟨hty, hwf⟩ := h.st t st hc
            obtain ⟨S', e1⟩ := addBatch_total st.set (List.range' start (stop - start)) vs
              (by rw [List.length_range']; exact (beq_iff_eq.1 h6).symm)
            have : batchStore start stop t vs w1 = .ok (w1.setSet t S', ()) := by
              simp only [batchStore, hc, unwrapR, downcast, hty, if_true, R.bind_ok, e1]
            simp only [M.crit, this] at h4
            cases (Prod.mk.inj h4).2
        · simp only [M.assert] at h3
          exact (Prod.mk.inj h3).1.symm
  | makeGroup k a b =>
    refine use (.bind (.bind (.read _) fun _ => .bind (.assert _) fun _ => .bind (.read _) fun _ => .bind (.assert _) fun _ =>
      .bind ?_ fun _ => .groupMake _) fun _ => .pure _)
    intro w h
    exact ⟨h.st, h.res⟩
  | read t id => exact use (.act (.storeRead t id) (by simp) fun w => by rw [Xecs.exec, Act.run, bind_pure_fst, bind_pure_fst])
  | write t id v => exact use (.act (.storeWrite t id v) (by simp) fun w => by rw [Xecs.exec, Act.run, bind_pure_fst, bind_pure_fst])
  | count t => exact use (.bind (.read _) fun _ => .pure _)
  | registerResource t v =>
    refine use (.bind ?_ fun _ => .pure _)
    intro w h
    refine ⟨h.st, fun u r hu => ?_⟩
    simp only [M.crit, World.registerResource] at hu
    split at hu
    · next e => cases hu; exact e.symm
    · exact h.res u r hu
  | resourceRead t => exact use (.bind (.read _) fun _ => .pure _)
  | resourceWrite t v => exact use (.act (.resWrite t v) (by simp) fun w => by rw [Xecs.exec, Act.run, bind_pure_fst, bind_pure_fst])

theorem Fit.new : Fit (World.new (V := V)) := ⟨fun _ _ h => (by cases h), fun _ _ h => (by cases h)⟩

theorem Reached.fit {w : World V} (h : Reached w) : Fit w := by
  induction h with
  | init => exact .new
  | ok _ hb he ih => exact ih.exec he fun _ _ => hb
  | fails _ he ih => exact ih.exec he fun o e => by cases e
  | phase _ ho hs _ ih =>
    obtain ⟨h, hh⟩ := history_of hs
    obtain ⟨ph, hl⟩ := history_atomic ih ho hh
    exact hl.fit
  | keeping _ ho hbl hs _ ih =>
    obtain ⟨hh, h1⟩ := khistory_of hs
    obtain ⟨σ, h1, h2, _⟩ := sim_history (P := Sys.BatchesFit) hbl
      (fun τ σ hn hb i start stop t vs ha => by rw [hn.1]; exact hb i start stop t vs (hn.2 i start stop t vs ha)) ho h1
    obtain ⟨ph, hl⟩ := history_atomic ih ho h1
    rw [← h2.world]
    exact hl.fit

theorem Look.value {w : World V} {tr : List (Op V × Out V)} (h : Look w tr) (t e : Nat) : w.value t e = lastValue t e tr := by
  cases hs : w.comps t with
  | none =>
    rw [(h.at_none hs).2 e]
    simp [World.value, componentRead, M.read, hs]
  | some st =>
    obtain ⟨_, h1, h2, h3⟩ := h.at_some hs
    rw [← h3]
    simp only [World.value, componentRead, M.read, hs, downcast, h1, if_true, ok_bind]
    by_cases he : st.set.exist e = true
    · have hm := (SparseSet.exist_iff h2).1 he
      simp only [he, if_true]
      obtain ⟨v, hv⟩ := Option.isSome_iff_exists.1 ((SparseSet.lookup_isSome h2).2 hm)
      rw [SparseSet.getUnchecked_eq h2 hv]
      simp [hv]
    · rw [if_neg he]
      have hn : e ∉ st.set.entities := fun hm => he ((SparseSet.exist_iff h2).2 hm)
      exact ((SparseSet.lookup_none h2).2 hn).symm

/-- A batch attach that returns had as many components as ids. -/
theorem batch_length {w w' : World V} {start stop t : Nat} {vs : List V} {o : Out V}
    (h : exec (.attachBatch start stop t vs) w = (w', .ok o)) : vs.length = stop - start := by
  simp only [exec, bind_pure_ok] at h
  obtain ⟨u, h, _⟩ := h
  simp only [attachBatch, M.bind_ok, M.assert_iff] at h
  obtain ⟨w1, _, ⟨_, hb⟩, _⟩ := h
  simpa using hb

theorem Reached.of_any {tr : List (Op V × Out V)} {w : World V} (h : AnyTrace tr w) : NoRebatch tr → Reached w := by
  induction h with
  | init => exact fun _ => .init
  | fails _ he _ ih => exact fun hn => .fails (ih hn) he
  | @ok tr w w' op o hr _ he ih =>
    intro hn
    have hn' : NoRebatch tr := by
      cases op <;> first | exact hn | exact hn.2
    refine .ok (ih hn') ?_ he
    cases op with
    | attachBatch start stop t vs => exact fun e h1 h2 => by rw [(any_look hr hn').value]; exact hn.1 e h1 h2
    | _ => trivial

theorem considerate_fits {w : World V} {s0 : State V} (hrel : Rel w s0) {order : List Nat} {n : Nat} {σ : Sys V}
    (ho : Enumerates w order) (hs : (Sys.init w n).Sched (Config.of w order) (Sys.considerate (Config.of w order)) σ) :
    (Sys.init w n).SchedWhile (Config.of w order) (Sys.considerate (Config.of w order)) Sys.BatchesFit σ := by
  have key : ∀ {σ}, (Sys.init w n).Sched (Config.of w order) (Sys.considerate (Config.of w order)) σ → σ.BatchesFit := by
    intro σ hs
    obtain ⟨_, s, hd⟩ := pact_sched hrel ho (T := fun _ => False) (fun k g id ht => ht.elim) hs Sys.spares_nothing
    intro i start stop t vs hab e h4 h5
    rw [value_eq hd.rel]
    have := ((hd.may i _ hab).2 start stop t vs rfl e h4 h5).2
    simpa [State.has] using this
  induction hs with
  | refl => exact .refl (key .refl)
  | step h1 h2 ih => exact .step ih h2 (key (.step h1 h2))

theorem Reached.of_mixed {tr : List (Op V × Out V)} {w : World V} (h : Mixed tr w) : Reached w := by
  induction h with
  | init => exact .init
  | fails _ _ he ih => exact .fails ih he
  | ok hr ha he ih =>
    rename_i tr w w' op o
    refine .ok ih ?_ he
    cases op with
    | attachBatch start stop t vs =>
      exact fun e h1 h2 => by rw [hr.look.value]; exact ha.2.2 (batch_length he) e h1 h2
    | _ => trivial
  | phase hr ho hl hq ih =>
    obtain ⟨s, hs⟩ := hr.origin
    exact .phase ih ho (considerate_fits hs.rel ho hl.sched) hq

end Xecs
