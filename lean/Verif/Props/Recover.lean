import Verif.Proofs.Reached
import Verif.Proofs.Immune
import Verif.Proofs.NoBatches
import Verif.Props.Damage
import Verif.Props.Sharing
import Verif.Props.Linear
/-
C73: components stay a map, whatever has happened before.
-/
set_option autoImplicit false
namespace Xecs
open Spec World Hist
variable {V : Type} {w w' : World V}

theorem Fit.look (h : Fit w) : LookF w w.hasRegistered w.value := by
  intro t
  cases hc : w.comps t with
  | none => exact ⟨by simp [hasRegistered, hc], fun e => by simp [World.value, componentRead, M.read_apply, hc]⟩
  | some st =>
    obtain ⟨h1, h2⟩ := h.st t st hc
    exact ⟨by simp [hasRegistered, hc], h1, h2, fun e => by rw [World.value, read_lookup hc h1 h2]⟩

theorem LookF.value {reg : Nat → Bool} {val : Nat → Nat → Option V} (h : LookF w reg val) (t e : Nat) :
    w.value t e = val t e := by
  cases hc : w.comps t with
  | none => rw [(h.at_none hc).2]; simp [World.value, componentRead, M.read_apply, hc]
  | some st =>
    obtain ⟨_, h1, h2, h3⟩ := h.at_some hc
    rw [World.value, read_lookup hc h1 h2, ← h3]

theorem LookF.reg {reg : Nat → Bool} {val : Nat → Nat → Option V} (h : LookF w reg val) (t : Nat) :
    w.hasRegistered t = reg t := by
  cases hc : w.comps t with
  | none => rw [(h.at_none hc).1]; simp [hasRegistered, hc]
  | some st => rw [(h.at_some hc).1]; simp [hasRegistered, hc]

/-- **C73**, one call. However the world has been reached -- calls may have panicked half way, threads may have raced and
panicked, groups may be damaged --: a call that returns does to the components what it should, and nothing else. -/
theorem C73_effect (h : Reached w) {op : Op V} {o : Out V} (hf : Hist.Fits w op)
    (ho : ∀ order id, op = .removeEntity order id → Enumerates w order) (he : exec op w = (w', .ok o)) :
    (∀ t id, w'.value t id = Hist.updated op o w.value t id) ∧
    ∀ t, w'.hasRegistered t = true ↔ op = .register t ∨ w.hasRegistered t = true := by
  have hl := h.fit.look.step (by rintro start stop t vs rfl; exact hf) ho he
  refine ⟨hl.value, fun t => ?_⟩
  rw [hl.reg]
  cases op <;> simp [nextReg]

/-- **C73**, a call that fails: only the component an `attach_component` was to attach may be attached, and components
of the entity a `remove_entity` was to remove may be gone. -/
theorem C73_fails (h : Reached w) {op : Op V} {e : Fault} (he : exec op w = (w', .error e)) (t : TypeId) (id : EntityId) :
    w'.hasRegistered t = w.hasRegistered t ∧ (w'.value t id = w.value t id ∨ op.half t id (w'.value t id)) := by
  have hk := exec_breaks op w w' e he
  have hl := h.fit.look t
  have hl' := (Reached.fails h he).fit.look t
  cases hc : w.comps t with
  | none =>
    have hc' := hk.1 t hc
    rw [hc] at hl; rw [hc'] at hl'
    exact ⟨by rw [hl.1, hl'.1], .inl (by rw [hl.2, hl'.2])⟩
  | some st =>
    obtain ⟨st', h1, h2, h3⟩ := hk.2 t st hc
    rw [hc] at hl; rw [h1] at hl'
    refine ⟨by rw [hl.1, hl'.1], ?_⟩
    rw [← hl.2.2.2, ← hl'.2.2.2]
    exact (h3 hl.2.2.1).2 id

/-- **C73**, reading. -/
theorem C73_read (h : Reached w) (t : TypeId) (id : EntityId) :
    World.componentRead t id w = (w, .ok (w.value t id)) ∧ World.storageGet t id w = (w, .ok (w.value t id)) ∧
    World.storageExist t id w = (w, .ok (if w.hasRegistered t then some (w.value t id).isSome else none)) := by
  have hl := h.fit.look t
  simp only [World.componentRead, World.storageGet, World.storageExist, M.read_apply]
  cases hc : w.comps t with
  | none => rw [hc] at hl; simp [hl.1, hl.2]
  | some st =>
    rw [hc] at hl
    obtain ⟨h1, h2, h3, h4⟩ := hl
    simp only [downcast, h2, if_true, ok_bind, SparseSet.get_eq h3, h4, h1, and_true, true_and]
    have hx : st.set.exist id = (w.value t id).isSome := by
      rw [Bool.eq_iff_iff, SparseSet.exist_iff h3, ← SparseSet.lookup_isSome h3, h4]
    refine ⟨?_, by rw [hx]⟩
    rw [hx]
    cases hv : w.value t id with
    | none => rfl
    | some v => simp [SparseSet.getUnchecked_eq h3 ((h4 id).trans hv)]

theorem Hist.Since.reached (h : Reached w) {tr : List (Op V × Out V)} {w' : World V} (hs : Since w tr w') : Reached w' := by
  induction hs with
  | start => exact h
  | ok _ hf _ he ih => exact ih.ok hf he
  | fails _ he _ ih => exact ih.fails he

/-- **C73**: after any calls since then, every component is the one last attached or written, or the one that was there. -/
theorem C73_since (h : Reached w) {tr : List (Op V × Out V)} (hs : Since w tr w') (t : TypeId) (id : EntityId) :
    World.componentRead t id w' = (w', .ok (valueSince w.value t id tr)) := by
  rw [(C73_read (hs.reached h) t id).1]
  congr 2
  induction hs generalizing t id with
  | start => rfl
  | ok hr hf ho he ih =>
    rw [(C73_effect (hr.reached h) hf ho he).1]
    simp only [valueSince]
    congr 1
    funext t id
    exact ih t id
  | fails hr he hc ih =>
    rw [← ih]
    simp only [World.value, hc]

/-- **C73**, queries that name no group: they succeed and yield exactly the entities that match, once each, with the
components they have. -/
theorem C73_queries (h : Reached w) {q : Query} (hq : q.Usable w) :
    ∃ l, Yields w q l ∧ Lists l (q.answer w.value) := by
  obtain ⟨l, hl⟩ := h.fit.collect_usable hq
  obtain ⟨l', rfl, h2⟩ := h.fit.collect (Hist.Parts.imp (fun _ _ => trivial) (fun _ _ _ h => h) q hq.1) hl
  exact ⟨l', hl, h2⟩

/-- **C73**, counting and going through a storage as a slice: every component once. -/
theorem C73_listing (h : Reached w) {t : TypeId} (hr : w.hasRegistered t = true) :
    ∃ l : List (EntityId × V), Lists l (w.value t) ∧ World.storageCount t w = (w, .ok (some l.length)) ∧
      World.storageIsEmpty t w = (w, .ok (some l.isEmpty)) ∧ World.storageData t w = (w, .ok (some (l.map Prod.snd))) := by
  have hl := h.fit.look t
  cases hc : w.comps t with
  | none => rw [hc] at hl; rw [hl.1] at hr; cases hr
  | some st =>
    rw [hc] at hl
    obtain ⟨_, hty, hwf, hlk⟩ := hl
    obtain ⟨z1, z2, z3⟩ := zip_lists hwf
    rw [show st.set.lookup = w.value t from funext hlk] at z1
    refine ⟨_, z1, ?_, ?_, ?_⟩
    · simp [World.storageCount, M.read_apply, hc, downcast, hty, SparseSet.len, List.length_zip, hwf.len]
    · simp only [World.storageIsEmpty, M.read_apply, hc, downcast, hty, if_true, ok_bind, SparseSet.len]
      congr 3
      rw [Bool.eq_iff_iff, List.isEmpty_iff_length_eq_zero, beq_iff_eq, List.length_zip, ← hwf.len, Nat.min_self]
    · simp [World.storageData, M.read_apply, hc, downcast, hty, z3]

/-- Finitely many types are registered: the hash map of storages can be enumerated. -/
theorem C73_finite (h : Reached w) : ∃ order, Enumerates w order := by
  have same : ∀ {w w' : World V} {order : List Nat}, stTags w' = stTags w → Enumerates w order → Enumerates w' order := by
    intro w w' order e ho
    refine ⟨ho.1, fun t => (ho.2 t).trans ?_⟩
    have := congrFun e t
    simp only [stTags] at this
    simp only [hasRegistered]
    cases h1 : w.comps t <;> cases h2 : w'.comps t <;> simp [h1, h2] at this ⊢
  have step : ∀ {w w' : World V} {op : Op V} {r : Xecs.R (Out V)}, exec op w = (w', r) → (∃ order, Enumerates w order) →
      ∃ order, Enumerates w' order := by
    rintro w w' op r he ⟨order, ho⟩
    have hf := stTags_fix op
    cases op with
    | register t =>
      simp only [exec, M.bind_apply, register_eq] at he
      cases hr : w.hasRegistered t with
      | true =>
        simp only [hr, if_true, Prod.mk.injEq] at he
        exact ⟨order, he.1 ▸ ho⟩
      | false =>
        simp only [hr, Bool.false_eq_true, if_false, M.pure_apply, Prod.mk.injEq] at he
        rw [← he.1]
        refine ⟨t :: order, List.nodup_cons.2 ⟨fun hm => ?_, ho.1⟩, fun u => ?_⟩
        · rw [ho.2, hr] at hm; cases hm
        · rw [List.mem_cons, ho.2]
          simp only [hasRegistered, insertStorage]
          by_cases hu : u = t <;> simp [hu]
    | _ => exact ⟨order, same (by have := hf w; rw [he] at this; exact this) ho⟩
  have mat : ∀ {cfg : Config} {w : World V}, Matches cfg w → ∃ order, Enumerates w order := fun hm =>
    ⟨_, hm.nodup, hm.order⟩
  induction h with
  | init => exact ⟨[], .nil, fun t => by simp [hasRegistered, World.new]⟩
  | ok _ _ he ih => exact step he ih
  | fails _ he ih => exact step he ih
  | phase _ ho hs _ _ =>
    obtain ⟨h, hh⟩ := history_of hs
    exact mat ((Basics.init ho _).sched (History.sched hh).1).mat
  | keeping hr ho hbl hs _ _ =>
    obtain ⟨hh, h1⟩ := khistory_of hs
    obtain ⟨σ, h1, h2, _⟩ := sim_history (P := Sys.BatchesFit) hbl
      (fun τ σ hn hb i start stop t vs ha => by rw [hn.1]; exact hb i start stop t vs (hn.2 i start stop t vs ha)) ho h1
    rw [← h2.world]
    exact mat ((Basics.init ho _).sched (History.sched h1).1).mat

namespace Demo
theorem racedEnumerates : Enumerates raceW [1, 2] := enumerates_of (.of_any raceTrace.any) (by decide) fun t => by
  rw [registered_iff]; exact (show List.Perm _ _ by decide +kernel).mem_iff

/-- The world after the race of `C39_detach_attach_counterexample`: its group lists an entity that lacks a component. -/
theorem raced_reached : Reached raced.world := by
  have hgo : (Sys.init raceW 2).allAlong (Config.of raceW [1, 2]) anyb batchesFitb race = true := by decide +kernel
  obtain ⟨σ', h0, h1⟩ := performAll_while (may := Sys.anything) (fun _ _ _ _ => trivial) hgo
  have : σ' = raced := by
    have h2 : (Sys.init raceW 2).performAll (Config.of raceW [1, 2]) anyb race = some raced := (Option.some_get race_go).symm
    rw [h0] at h2
    exact Option.some.inj h2
  subst this
  exact .phase (.of_any raceTrace.any (noRebatch_iff (by decide +kernel))) racedEnumerates (h1.mono batchesFitb_ok)
    (by unfold Sys.Quiet; decide +kernel)

/-- After calls that panicked half way. -/
theorem hurt_reached : Reached hurtW3 := .fails (.of_any hurtTrace2 (noRebatch_iff (by decide +kernel))) hurt3
end Demo

/-- After the race: the group is damaged, the query of the two components is right; also after further calls. -/
example : (∃ id, Yields Demo.raced.world (.group .full .ref .ref 1 2) [(id, .pair (.leaf 21) (.leaf 12))]) ∧
    (∃ l, Yields Demo.raced.world (.with2 (.comp .ref 1) (.comp .ref 2)) l ∧
      Lists l ((Query.with2 (.comp .ref 1) (.comp .ref 2)).answer Demo.raced.world.value)) ∧
    Yields Demo.raced.world (.with2 (.comp .ref 1) (.comp .ref 2)) [] ∧
    Yields Demo.raced.world (.withoutR (.comp .ref 1) (.comp .ref 2)) [(2, .leaf 21)] :=
  ⟨C39_detach_attach_counterexample.2.2.2.2.2,
    C73_queries Demo.raced_reached ⟨by simp only [Parts]; decide +kernel, by decide +kernel⟩,
    by unfold Yields; decide +kernel, by unfold Yields; decide +kernel⟩

/-- After calls that panicked half way: entity 3, to which `attach_component` attached a component before it panicked, can be
written to. -/
example : ∃ w', exec (.write 1 3 77) Demo.hurtW3 = (w', .ok (.bool true)) ∧
    World.componentRead 1 3 w' = (w', .ok (some 77)) ∧ World.componentRead 1 1 w' = (w', .ok (some 11)) := by
  have he : exec (.write 1 3 77) Demo.hurtW3 = ((exec (.write 1 3 77) Demo.hurtW3).1, .ok (.bool true)) :=
    Prod.ext rfl (show (exec (.write 1 3 77) Demo.hurtW3).2 = _ by decide +kernel)
  refine ⟨_, he, ?_, ?_⟩
  · rw [C73_since Demo.hurt_reached (.ok (op := .write 1 3 77) .start trivial (by simp) he)]; rfl
  · rw [C73_since Demo.hurt_reached (.ok (op := .write 1 3 77) .start trivial (by simp) he)]
    rw [show valueSince Demo.hurtW3.value 1 1 [(.write 1 3 77, .bool true)] = some 11 by decide +kernel]

/-- After the race: a batch, and a removal that drops what the entity has. -/
example : ∃ w1 w2 w3, exec (.createEntities 2) Demo.raced.world = (w1, .ok (.range 3 5)) ∧
    exec (.attachBatch 3 5 2 [32, 42]) w1 = (w2, .ok .unit) ∧ exec (.detach 2 1) w2 = (w3, .ok (.val (some 21))) ∧
    World.componentRead 2 4 w3 = (w3, .ok (some 42)) ∧ World.componentRead 1 2 w3 = (w3, .ok none) ∧
    World.componentRead 2 1 w3 = (w3, .ok (some 12)) := by
  have e1 : exec (.createEntities 2) Demo.raced.world = ((exec (.createEntities 2) Demo.raced.world).1, .ok (.range 3 5)) :=
    Prod.ext rfl (show (exec (.createEntities 2) Demo.raced.world).2 = _ by decide +kernel)
  generalize hw1 : (exec (.createEntities 2) Demo.raced.world).1 = w1 at e1
  have e2 : exec (.attachBatch 3 5 2 [32, 42]) w1 = ((exec (.attachBatch 3 5 2 [32, 42]) w1).1, .ok .unit) :=
    Prod.ext rfl (show (exec (.attachBatch 3 5 2 [32, 42]) w1).2 = _ by subst hw1; decide +kernel)
  generalize hw2 : (exec (.attachBatch 3 5 2 [32, 42]) w1).1 = w2 at e2
  have e3 : exec (.detach 2 1) w2 = ((exec (.detach 2 1) w2).1, .ok (.val (some 21))) :=
    Prod.ext rfl (show (exec (.detach 2 1) w2).2 = _ by subst hw2 hw1; decide +kernel)
  have hf : Hist.Fits w1 (.attachBatch 3 5 2 [32, 42]) := by
    intro e h1 h2
    have : e = 3 ∨ e = 4 := by omega
    rcases this with rfl | rfl <;> (subst hw1; decide +kernel)
  have hs := Since.ok (.ok (.ok (op := .createEntities 2) .start trivial (by simp) e1) hf (by simp) e2) (show Hist.Fits w2 (.detach 2 1) from trivial) (by simp) e3
  refine ⟨_, _, _, e1, e2, e3, ?_, ?_, ?_⟩
  · rw [C73_since Demo.raced_reached hs]; rfl
  · rw [C73_since Demo.raced_reached hs]; rfl
  · rw [C73_since Demo.raced_reached hs]
    rw [show valueSince Demo.raced.world.value 2 1 _ = some 12 by decide +kernel]

example : ∃ w', exec (.attach 3 2 31) Demo.raced.world = (w', .error .panic) ∧
    (w'.value 1 2 = Demo.raced.world.value 1 2 ∨ (Op.attach 3 2 31).half 1 2 (w'.value 1 2)) := by
  have he : exec (.attach 3 2 31) Demo.raced.world = ((exec (.attach 3 2 31) Demo.raced.world).1, .error .panic) :=
    Prod.ext rfl (show (exec (.attach 3 2 31) Demo.raced.world).2 = _ by decide +kernel)
  exact ⟨_, he, (C73_fails Demo.raced_reached he 1 2).2⟩

example : ∃ l : List (EntityId × Nat), Lists l (Demo.raced.world.value 2) ∧
    World.storageData 2 Demo.raced.world = (Demo.raced.world, .ok (some (l.map Prod.snd))) := by
  obtain ⟨l, h1, _, _, h2⟩ := C73_listing Demo.raced_reached (t := 2) (by decide +kernel)
  exact ⟨l, h1, h2⟩

end Xecs
