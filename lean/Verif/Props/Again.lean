import Verif.Props.Phases
/-
A world that has been shared, then owned by one thread, then shared again: a case with `Mixed` hypotheses that is not a
sequential history.
-/
set_option autoImplicit false
namespace Xecs
open Spec World Hist
namespace Demo

/-- The world after the phase `busy` and an attach of its single owner. -/
def againW : World Nat := (exec (.attach 3 3 73) busyEnd.world).1
def againTr : List (Op Nat × Out Nat) := (.attach 3 3 73, .unit) :: (busyLog.map Prod.snd ++ groupTr)

theorem againMixed : Mixed againTr againW := by
  have ha : Allowed (busyLog.map Prod.snd ++ groupTr) (.attach 3 3 73) := by
    rw [busyLog_eq]; exact allowed_iff (by decide +kernel)
  exact .ok mixed ha (Prod.ext rfl (show (exec (.attach 3 3 73) busyEnd.world).2 = _ by decide +kernel))

def againCfg : Config := Config.of againW [1, 2, 3, 4]

theorem againEnumerates : Enumerates againW [1, 2, 3, 4] := by
  refine ⟨by decide, fun t => ?_⟩
  have h := congrArg Prod.snd ((C54_state againMixed).1 t 0).2
  have hr : registered t againTr = true ↔ t = 4 ∨ t = 3 ∨ t = 2 ∨ t = 1 := by
    rw [registered_iff, show regTypes againTr = [4, 3, 2, 1] by decide +kernel]; simp
  have hm : t ∈ [1, 2, 3, 4] ↔ registered t againTr = true := by rw [hr]; simp; omega
  rw [hm]
  simp only [World.storageExist, M.read_apply, World.hasRegistered] at h ⊢
  cases hc : againW.comps t with
  | none => rw [hc] at h; cases hg : registered t againTr <;> simp [hg] at h ⊢
  | some st =>
    rw [hc] at h
    cases hg : registered t againTr
    · rw [hg] at h
      simp only [Bool.false_eq_true, if_false] at h
      cases hd : downcast st t <;> rw [hd] at h <;> cases h
    · simp

/-- Thread 0 detaches component 1 of entity 3, thread 1 attaches it to entity 5, thread 2 attaches it to entity 4 and detaches
component 3, all at the same time. -/
def againChoices : List (Choice Nat) :=
  [.start 0 (.on 3 [.detach 1]), .start 1 (.on 5 [.attach 1 91]), .start 2 (.on 4 [.attach 1 41, .detach 3])] ++
    goes 0 2 ++ goes 1 3 ++ goes 2 2 ++ goes 0 1 ++ goes 1 3 ++ goes 2 3 ++ goes 0 1 ++ goes 1 11 ++ goes 2 3 ++ goes 1 1 ++ goes 2 8 ++ goes 0 9 ++ goes 2 3 ++ goes 0 3 ++ goes 2 3 ++ goes 0 2 ++ goes 2 10

theorem again_go : ((Sys.init againW 3).performAll againCfg (considerateb againCfg) againChoices).isSome = true := by
  decide +kernel
def againEnd : Sys Nat := ((Sys.init againW 3).performAll againCfg (considerateb againCfg) againChoices).get again_go
def againLog : List (Nat × Op Nat × Out Nat) := (Sys.init againW 3).changes againCfg (considerateb againCfg) againChoices []

theorem again_record : (Sys.init againW 3).Record againCfg (Sys.considerate againCfg) againLog againEnd :=
  recorded (considerateb_ok againCfg) again_go
theorem again_quiet : againEnd.Quiet := by unfold Sys.Quiet; decide +kernel

/-- The changes of the second phase, latest first. -/
theorem againLog_eq : againLog = [(2, .detach 4 3, .val (some 99)), (0, .detach 3 1, .val (some 61)),
    (2, .attach 4 1 41, .unit), (1, .attach 5 1 91, .unit)] := by decide +kernel

/-- Two phases with an owner in between. -/
theorem againTwice : Mixed (againLog.map Prod.snd ++ againTr) againEnd.world :=
  .phase againMixed againEnumerates again_record again_quiet

/-- Entity 5 has joined the group of 1 and 2 in the second phase, entity 3 (which joined in the first one) has left it. -/
example : ∃ l, Yields againEnd.world (.group .part .ref .mut 1 2) l ∧ Lists l fun id =>
    bothOf (lastValue 1 id (againLog.map Prod.snd ++ againTr)) (lastValue 2 id (againLog.map Prod.snd ++ againTr)) := by
  obtain ⟨l, h1, h2⟩ := C54_queries againTwice (q := .group .part .ref .mut 1 2) (by decide +kernel)
    (by simp only [Hist.Unmoved, Parts]; decide) (by decide +kernel) (by decide +kernel)
  exact ⟨l, h1, h2⟩
example : ∃ l, Yields againEnd.world (.group .part .ref .mut 1 2) l ∧ (5, .pair (.leaf 91) (.leaf 52)) ∈ l ∧
    ∀ x ∈ l, x.1 ≠ 3 ∧ x.1 ≠ 4 := by
  obtain ⟨l, h1, h2⟩ := C54_queries againTwice (q := .group .part .ref .mut 1 2) (by decide +kernel)
    (by simp only [Hist.Unmoved, Parts]; decide) (by decide +kernel) (by decide +kernel)
  refine ⟨l, h1, (h2.2 5 _).2 (by decide +kernel), ?_⟩
  rintro ⟨id, x⟩ hx
  have h3 := (h2.2 id x).1 hx
  constructor
  · rintro rfl; exact absurd h3 (by rw [show Query.answer _ _ 3 = none by decide +kernel]; simp)
  · rintro rfl; exact absurd h3 (by rw [show Query.answer _ _ 4 = none by decide +kernel]; simp)

/-- The two phases and what lies between are as if one owner had made the changes one after the other. -/
example := C54_sequential againTwice
example := C54_state againTwice

end Demo
end Xecs
