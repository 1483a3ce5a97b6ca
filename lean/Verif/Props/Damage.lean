import Verif.Props.Misc
/-
C50: what a call that panics leaves behind.
-/
set_option autoImplicit false
namespace Xecs
open Spec World Hist
variable {V : Type} {tr : List (Op V × Out V)} {w w' : World V}

/-- **C50**, components. A call that fails, for whatever reason and at whatever statement, leaves every component
readable and as it was; only the component an `attach_component` was to attach may be attached, and components of the
entity a `remove_entity` was to remove may be gone. -/
theorem C50_components (h : AnyTrace tr w) (hn : NoRebatch tr) {op : Op V} {e : Fault} (he : exec op w = (w', .error e))
    (t : TypeId) (id : EntityId) :
    w'.hasRegistered t = w.hasRegistered t ∧
    ∃ o, (componentRead t id w').2 = .ok o ∧ ((componentRead t id w).2 = .ok o ∨ op.half t id o) := by
  have hk := exec_breaks op w w' e he
  cases hc : w.comps t with
  | none =>
    have h1 : ∀ w : World V, w.comps t = none → (componentRead t id w).2 = .ok none := by
      intro w hw; simp [componentRead, M.read_apply, hw]
    exact ⟨by simp [hasRegistered, hc, hk.1 t hc], none, h1 _ (hk.1 t hc), .inl (h1 _ hc)⟩
  | some st =>
    obtain ⟨st', h1, h2, h3⟩ := hk.2 t st hc
    obtain ⟨e1, e2, e3, e4⟩ := (any_look h hn).at_some hc
    obtain ⟨h4, h5⟩ := h3 e3
    refine ⟨by simp [hasRegistered, hc, h1], _, read_lookup h1 (h2.trans e2) h4 id, ?_⟩
    rcases h5 id with h5 | h5
    · exact .inl (by rw [h5]; exact read_lookup hc e2 e3 id)
    · exact .inr h5

/-- **C50**, entities: the same entities exist, and the next ids to be handed out are the same. -/
theorem C50_entities (h : Wild tr w) (hl : RemovesLive tr) {op : Op V} {e : Fault} (he : exec op w = (w', .error e)) :
    (∀ id, (World.exist id w').2 = (World.exist id w).2) ∧ (World.createEntity w').2 = (World.createEntity w).2 ∧
    ∀ n, (World.createEntities n w').2 = (World.createEntities n w).2 := by
  have hem := fails_em (wild_em h hl) he
  refine ⟨fun id => by simp [World.exist, M.read_apply, hem], ?_, fun n => by
    simp [World.createEntities, M.crit, hem]⟩
  obtain ⟨em, id, h1, _⟩ := createEntity_em (wild_em h hl)
  obtain ⟨em', id', h1', _⟩ := createEntity_em (wild_em (.fails h he) hl)
  have : ∀ w : World V, (World.createEntity w).2 = (do
      let r ← w.em.allocate
      let b ← r.1.has r.2
      unwrapR (if b then some r.2 else none) : R Nat) := by
    intro w
    simp only [World.createEntity, World.allocate, M.bind_apply, M.crit]
    cases w.em.allocate with
    | error e => rfl
    | ok r =>
      simp only [R.bind_ok, World.entity, World.exist, M.bind_apply, M.read_apply]
      cases r.1.has r.2 with
      | error e => rfl
      | ok b => cases b <;> rfl
  rw [this, this, hem]

/-- **C50**, resources: they are as they were. -/
theorem C50_resources (h : Wild tr w) {op : Op V} {e : Fault} (he : exec op w = (w', .error e)) (t : TypeId) :
    (World.resourceRead t w').2 = (World.resourceRead t w).2 := by
  simp only [World.resourceRead, M.read_apply, wild_res h t, wild_res (.fails h he) t]

/-- **C50**: after a call that failed, other than an `attach_component` or a `remove_entity`, everything said about
histories in which calls may fail goes on to hold. -/
theorem C50_goes_on (h : AnyTrace tr w) (hn : NoRebatch tr) {op : Op V} {e : Fault} (he : exec op w = (w', .error e))
    (ha : ∀ id t v, op ≠ .attach id t v) (hr : ∀ order id, op ≠ .removeEntity order id) : AnyTrace tr w' := by
  refine .fails h he fun t id => ?_
  obtain ⟨_, o, h1, h2 | h2⟩ := C50_components h hn he t id
  · rw [h1, h2]
  · cases op <;> first | exact False.elim h2 | exact absurd rfl (ha _ _ _) | exact absurd rfl (hr _ _)

namespace Demo
/-- Entities 1 and 2 have components 1 and 2 and are in a group. -/
def hurtCalls : List (Op Nat) :=
  [.register 1, .register 2, .createEntities 3, .makeGroup .full 1 2, .attach 1 1 11, .attach 1 2 12, .attach 2 1 21, .attach 2 2 22]
theorem hurtCalls_play : (play Hist.allowed hurtCalls ([], World.new)).isSome = true := by decide +kernel
def hurtTr : List (Op Nat × Out Nat) := (played hurtCalls hurtCalls_play).1
def hurtW : World Nat := (played hurtCalls hurtCalls_play).2
theorem hurtTrace : Trace hurtTr hurtW := played_trace hurtCalls hurtCalls_play

/-- Then a group with an unregistered component is to be made. -/
def hurtW1 : World Nat := (exec (.makeGroup .non 1 9) hurtW).1
theorem hurt1 : exec (.makeGroup .non 1 9) hurtW = (hurtW1, .error .panic) :=
  Prod.ext rfl (show (exec (.makeGroup .non 1 9) hurtW).2 = _ by decide +kernel)
theorem hurtTrace1 : AnyTrace hurtTr hurtW1 :=
  C50_goes_on hurtTrace.any (noRebatch_iff (by decide +kernel)) hurt1 (by simp) (by simp)

/-- Then the component 1 of entity 1 is to be detached. -/
def hurtW2 : World Nat := (exec (.detach 1 1) hurtW1).1
theorem hurt2 : exec (.detach 1 1) hurtW1 = (hurtW2, .error .panic) :=
  Prod.ext rfl (show (exec (.detach 1 1) hurtW1).2 = _ by decide +kernel)
theorem hurtTrace2 : AnyTrace hurtTr hurtW2 :=
  C50_goes_on hurtTrace1 (noRebatch_iff (by decide +kernel)) hurt2 (by simp) (by simp)

/-- Then the component 1 is to be attached to entity 3. -/
def hurtW3 : World Nat := (exec (.attach 3 1 31) hurtW2).1
theorem hurt3 : exec (.attach 3 1 31) hurtW2 = (hurtW3, .error .panic) :=
  Prod.ext rfl (show (exec (.attach 3 1 31) hurtW2).2 = _ by decide +kernel)
end Demo

/-- **C50**: the damage that is possible. A `make_group` that panics leaves its group behind; a `detach_component` then
panics and has taken the entity out of a group although it has kept both components; an `attach_component` then panics
and has attached the component. -/
theorem C50_damage_counterexample :
    Trace Demo.hurtTr Demo.hurtW ∧
    exec (.makeGroup .non 1 9) Demo.hurtW = (Demo.hurtW1, .error .panic) ∧
    exec (.detach 1 1) Demo.hurtW1 = (Demo.hurtW2, .error .panic) ∧
    Yields Demo.hurtW1 (.group .full .ref .ref 1 2) [(1, .pair (.leaf 11) (.leaf 12)), (2, .pair (.leaf 21) (.leaf 22))] ∧
    Yields Demo.hurtW2 (.group .full .ref .ref 1 2) [(2, .pair (.leaf 21) (.leaf 22))] ∧
    (componentRead 1 1 Demo.hurtW2).2 = .ok (some 11) ∧ (componentRead 2 1 Demo.hurtW2).2 = .ok (some 12) ∧
    exec (.attach 3 1 31) Demo.hurtW2 = (Demo.hurtW3, .error .panic) ∧
    (componentRead 1 3 Demo.hurtW2).2 = .ok none ∧ (componentRead 1 3 Demo.hurtW3).2 = .ok (some 31) :=
  ⟨Demo.hurtTrace, Demo.hurt1, Demo.hurt2, by unfold Yields; decide +kernel, by unfold Yields; decide +kernel,
    by decide +kernel, by decide +kernel, Demo.hurt3, by decide +kernel, by decide +kernel⟩

example : (componentRead 1 2 Demo.hurtW3).2 = .ok (some 21) ∧ (World.exist 3 Demo.hurtW3).2 = .ok true := by
  have hn : NoRebatch Demo.hurtTr := noRebatch_iff (by decide +kernel)
  constructor
  · obtain ⟨_, o, h1, h2 | h2⟩ := C50_components Demo.hurtTrace2 hn Demo.hurt3 1 2
    · rw [h1, ← h2]; decide +kernel
    · exact absurd h2.2.1 (by decide)
  · rw [(C50_entities (.of_any Demo.hurtTrace2) (by decide +kernel) Demo.hurt3).1]; decide +kernel

end Xecs
