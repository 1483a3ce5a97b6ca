import Verif.Proofs.Calm
import Verif.Props.Alone
import Verif.Props.Blocking
import Verif.Props.Sharing
/-
C44 for whole calls of one thread, in the thread model.
-/
set_option autoImplicit false
namespace Xecs
open Spec World Hist
variable {V : Type} {tr : List (Op V × Out V)} {w w' : World V}

theorem calmM_of {α : Type} {m : M V α} {f : α → Out V} (op : Op V) (he : exec op = (m >>= fun a => pure (f a)))
    (hop : ∀ k a b, op ≠ .makeGroup k a b) : CalmM m := by
  intro w hw
  have := calm_exec hw op fun k a b h => absurd h (hop k a b)
  rw [he, M.bind_apply] at this
  cases hm : m w with
  | mk w1 r =>
    rw [hm] at this
    cases r with
    | ok a => exact ⟨calm_ok _, this.2⟩
    | error e => exact ⟨fun h => this.1 (by cases h; rfl), this.2⟩

theorem calmM_attach (id t : Nat) (v : V) : CalmM (World.entityAttach id t v) := by
  refine .bind (.read fun _ => calm_ok _) fun b => .bind (.assert _) fun _ => .bind (.crit (fun w _ => ?_) ?_) fun _ =>
    .bind (.read fun _ => calm_ok _) fun ks => .forEach fun k => calm_groupAdd k id
  · unfold World.attachStore
    exact calm_bind calm_unwrapR fun _ _ => calm_bind calm_downcast fun _ _ =>
      calm_bind SparseSet.calm_add fun _ _ => calm_ok _
  · rw [attachStore_exact]; exact onStore_fix blind_tags _ _

theorem calmM_detach (id t : Nat) : CalmM (World.entityDetach (V := V) id t) := by
  refine .bind (.read fun _ => calm_ok _) fun b => .bind (.assert _) fun _ =>
    .bind (.read fun _ => calm_ok _) fun ks => .bind (.forEach fun k => calm_groupRemove k id) fun _ => .crit (fun w _ => ?_) ?_
  · unfold World.detachStore
    exact calm_bind calm_unwrapR fun _ _ => calm_bind calm_downcast fun _ _ =>
      calm_bind SparseSet.calm_remove fun _ _ => calm_ok _
  · rw [detachStore_exact]; exact onStore_fix blind_tags _ _

theorem calmM_aloneAll (id : Nat) : ∀ ops : List (HOp V), CalmM (HOp.aloneAll id ops)
  | [] => .pure _
  | o :: ops => by
    refine .bind ?_ fun _ => .bind (calmM_aloneAll id ops) fun _ => .pure _
    cases o with
    | attach t v => exact .bind (calmM_attach id t v) fun _ => .pure _
    | detach t => exact .bind (calmM_detach id t) fun _ => .pure _
    | read t => exact .bind (calmM_of (.read t id) rfl (by simp)) fun _ => .pure _
    | write t v => exact .bind (calmM_of (.write t id v) rfl (by simp)) fun _ => .pure _

theorem calm_alone {order : List Nat} (c : ApiCall V) (hq : ∀ q, c ≠ .query q) : CalmM (c.alone order) := by
  cases c with
  | create ops => exact .bind (calmM_of .createEntity rfl (by simp)) fun _ => .bind (calmM_aloneAll _ _) fun _ => .pure _
  | on id ops =>
    exact .bind (.bind (calm_entity id) fun _ => .read fun _ => calm_unwrapR) fun _ => calmM_aloneAll _ _
  | createMany n bs =>
    exact .bind (calmM_of (.createEntities n) rfl (by simp)) fun r =>
      .bind (.forEach fun b => calmM_of (.attachBatch r.1 r.2 b.1 b.2) rfl (by simp)) fun _ => .pure _
  | fill x y bs =>
    exact .bind (.forEach fun b => calmM_of (.attachBatch x y b.1 b.2) rfl (by simp)) fun _ => .pure _
  | remove id => exact .bind (calmM_of (.removeEntity order id) rfl (by simp)) fun _ => .pure _
  | exist id => exact .bind (calm_exist id) fun _ => .pure _
  | read t id => exact .bind (calmM_of (.read t id) rfl (by simp)) fun _ => .pure _
  | write t id v => exact .bind (calmM_of (.write t id v) rfl (by simp)) fun _ => .pure _
  | count t => exact .bind (calmM_of (.count t) rfl (by simp)) fun _ => .pure _
  | resRead t => exact .bind (calmM_of (.resourceRead t) rfl (by simp)) fun _ => .pure _
  | resWrite t v => exact .bind (calmM_of (.resourceWrite t v) rfl (by simp)) fun _ => .pure _
  | query q => exact absurd rfl (hq q)

/-- **C44.** Whatever happened before: if the world contains no owning group of a type with itself, any whole call --
creating an entity or getting a handle and a chain of attaches, detaches, reads and writes through it, creating many
entities with their components, a removal, a query without conflicting parts, iterated to the end -- that a thread makes
while the others are between calls takes all its locks and comes to an end, having released them: it returns or panics. -/
theorem C44_calls (h : Wild tr w) (hw : ∀ g ∈ w.groups, g.kind ≠ .non → g.tyA ≠ g.tyB) {order : List TypeId}
    (ho : Enumerates w order) {n i : Nat} (hi : i < n) (c : ApiCall V) (hq : ∀ q, c = .query q → q.Conflictless) :
    ∃ w' r, (Sys.calling (Config.of w order) w n i c []).Inevitably (Config.of w order) (Sys.over w' n i c r) := by
  have h1 : (c.alone order w).2 ≠ .error .deadlock := by
    by_cases hx : ∃ q, c = .query q
    · obtain ⟨q, rfl⟩ := hx
      have := C47_collect w (C44_query h (hq q rfl))
      show Calm _
      simp only [ApiCall.alone, M.bind_apply, M.read_apply, World.results]
      cases hr : w.queryAll q with
      | ok l => exact calm_ok _
      | error e => rw [hr] at this; exact fun hh => this (by simpa using hh)
    · exact (calm_alone c (fun q e => hx ⟨q, e⟩) w hw).1
  have h2 := C45_alone h ho hi c
  rcases hc : c.alone order w with ⟨w', r⟩
  rw [hc] at h1 h2
  cases r with
  | ok rs => exact ⟨w', some rs, h2⟩
  | error e => cases e <;> first | exact absurd rfl h1 | exact ⟨w', none, h2⟩

/-- Removing an entity that is in a group; asking twice to read a component. -/
example : ∃ w' r, (Sys.calling Demo.groupCfg Demo.groupW 3 1 (.remove 5) []).Inevitably Demo.groupCfg
    (Sys.over w' 3 1 (.remove 5) r) :=
  C44_calls (.of_any Demo.groupTrace.any) (by decide +kernel) Demo.groupEnumerates (by decide) _ (by simp)
example : ∃ w' r, (Sys.calling Demo.groupCfg Demo.groupW 3 0 (.query (.with2 (.comp .ref 1) (.group .part .ref .ref 1 2))) []).Inevitably
    Demo.groupCfg (Sys.over w' 3 0 (.query (.with2 (.comp .ref 1) (.group .part .ref .ref 1 2))) r) :=
  C44_calls (.of_any Demo.groupTrace.any) (by decide +kernel) Demo.groupEnumerates (by decide) _
    (by rintro q ⟨⟩; decide +kernel)

end Xecs
