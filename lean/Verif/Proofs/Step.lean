import Verif.Proofs.Refine
import Verif.Spec.Refine
/-
The refinement theorem, operation by operation, and the relation for every reachable world.
-/
set_option autoImplicit false
namespace Xecs
open Spec World
variable {V : Type}

/-- Each operation of the code does what the specification says. -/
theorem step_ref {w : World V} {s : State V} (h : Rel w s) (op : Op V) (hw : s.WellFormed op) :
    match s.step op with
    | .ok s' o => ∃ w', exec op w = (w', .ok o) ∧ Rel w' s'
    | .panics => exec op w = (w, .error .panic)
    | .unspecified => True := by
  cases op with
  | register t =>
    simp only [State.step]
    cases hc : s.comp t with
    | none =>
      obtain ⟨w', h1, h2⟩ := register_ref h hc
      exact ⟨w', by simp [exec, M.bind_apply, h1, M.pure_apply], h2⟩
    | some f => simp [exec, M.bind_apply, register_panics h hc]
  | createEntity =>
    obtain ⟨w', s', id, h1, h2, h3⟩ := createEntity_ref h
    rw [h2]
    exact ⟨w', by simp [exec, M.bind_apply, h1, M.pure_apply], h3⟩
  | createEntities n =>
    obtain ⟨w', h1, h2⟩ := createEntities_ref h n
    exact ⟨w', by simp [exec, M.bind_apply, h1, M.pure_apply], h2⟩
  | removeEntity order id =>
    simp only [State.step, State.needLive]
    by_cases hl : s.live id = true
    · simp only [hl, if_true]
      by_cases ho : State.orderSafe id s.groups = true
      · simp only [ho, if_true]
        obtain ⟨w', h1, h2⟩ := removeEntity_ref h order hw.1 hw.2 hl ho
        exact ⟨w', by simp [exec, M.bind_apply, h1, M.pure_apply], h2⟩
      · simp [ho]
    · have hl' : s.live id = false := by simpa using hl
      simp only [hl]
      by_cases hz : id = 0 ∨ s.zombie id = true
      · simp [hz]
      · simp only [hz, if_false]
        have hz' : s.zombie id = false := by
          cases hx : s.zombie id <;> simp_all
        simp [exec, M.bind_apply, removeEntity_dead h order hl' (fun h => hz (.inl h)) hz']
  | exist id =>
    simp only [State.step]
    by_cases hl : s.live id = true
    · simp only [hl, if_true]
      exact ⟨w, by simp [exec, M.bind_apply, exist_live h hl, M.pure_apply], h⟩
    · have hl' : s.live id = false := by simpa using hl
      simp only [hl]
      by_cases hz : id = 0 ∨ s.zombie id = true
      · simp [hz]
      · simp only [hz, if_false]
        have hz' : s.zombie id = false := by
          cases hx : s.zombie id <;> simp_all
        have he := exist_dead h hl' (fun h => hz (.inl h)) hz'
        by_cases hlt : id < s.next
        · simp only [hlt, if_true] at he ⊢
          exact ⟨w, by simp [exec, M.bind_apply, he, M.pure_apply], h⟩
        · simp only [hlt, if_false] at he ⊢
          simp [exec, M.bind_apply, he]
  | attach id t v =>
    simp only [State.step, State.needLive]
    by_cases hl : s.live id = true
    · simp only [hl, if_true]
      cases hc : s.comp t with
      | none => simp [exec, M.bind_apply, attach_unregistered h v hl hc]
      | some f =>
        obtain ⟨w', h1, h2⟩ := attach_ref h v hl hc
        exact ⟨w', by simp [exec, M.bind_apply, h1, M.pure_apply], h2⟩
    · have hl' : s.live id = false := by simpa using hl
      simp only [hl]
      by_cases hz : id = 0 ∨ s.zombie id = true
      · simp [hz]
      · simp only [hz, if_false]
        have hz' : s.zombie id = false := by
          cases hx : s.zombie id <;> simp_all
        simp [exec, M.bind_apply, attach_dead h v hl' (fun h => hz (.inl h)) hz']
  | detach id t =>
    simp only [State.step, State.needLive]
    by_cases hl : s.live id = true
    · simp only [hl, if_true]
      cases hc : s.comp t with
      | none => simp [exec, M.bind_apply, detach_unregistered h hl hc]
      | some f =>
        simp only []
        cases hv : f id with
        | some v =>
          obtain ⟨w', h1, h2⟩ := entityDetach_present h hc hv
          exact ⟨w', by simp [exec, M.bind_apply, detach_live h hl, h1, M.pure_apply], h2⟩
        | none =>
          have he := entityDetach_absent h hc hv
          by_cases hh : id = s.hw t
          · simp only [hh, if_true] at he ⊢
            simp [exec, M.bind_apply, detach_live h (hh ▸ hl), he]
          · simp only [hh, if_false] at he ⊢
            exact ⟨w, by simp [exec, M.bind_apply, detach_live h hl, he, M.pure_apply], h⟩
    · have hl' : s.live id = false := by simpa using hl
      simp only [hl]
      by_cases hz : id = 0 ∨ s.zombie id = true
      · simp [hz]
      · simp only [hz, if_false]
        have hz' : s.zombie id = false := by
          cases hx : s.zombie id <;> simp_all
        simp [exec, M.bind_apply, detach_dead h hl' (fun h => hz (.inl h)) hz']
  | attachBatch start stop t vs =>
    simp only [State.step]
    by_cases hr : start ≤ stop ∧ (List.range' start (stop - start)).all (fun x => s.live x) = true
    · simp only [hr, and_self, if_true]
      by_cases hlen : vs.length = stop - start
      · simp only [hlen, if_true]
        cases hc : s.comp t with
        | none => simp [exec, M.bind_apply, attachBatch_unregistered h hlen hc]
        | some f =>
          simp only []
          by_cases hn : (List.range' start (stop - start)).all (fun x => (f x).isNone) = true
          · simp only [hn, if_true]
            obtain ⟨w', h1, h2⟩ := attachBatch_ref h hlen hc
              (fun x h1 h2 => by
                have := (List.all_eq_true.1 hr.2) x (by rw [List.mem_range'_1]; omega)
                simpa using this)
              (fun x h1 h2 => by
                have := (List.all_eq_true.1 hn) x (by rw [List.mem_range'_1]; omega)
                simpa using this)
            exact ⟨w', by simp [exec, M.bind_apply, h1, M.pure_apply], h2⟩
          · simp [hn]
      · simp only [hlen, if_false]
        simp [exec, M.bind_apply, attachBatch_len hlen]
    · rw [if_neg hr]; trivial
  | makeGroup k a b =>
    simp only [State.step]
    split
    · rename_i hc
      split at hc
      · simp at hc
      · split at hc
        · simp at hc
        · rename_i h1 h2
          simp only [Outcome.ok.injEq] at hc
          obtain ⟨rfl, rfl⟩ := hc
          simp only [not_or, not_and] at h2
          have h1' := by simpa only [Bool.not_eq_true] using h1
          obtain ⟨w', r1, r2⟩ := makeGroup_ref h h1'
            (by cases hx : s.comp a <;> simp_all) (by cases hx : s.comp b <;> simp_all)
            (fun hk => h2.2.2 hk)
          exact ⟨w', by simp [exec, M.bind_apply, r1, M.pure_apply], r2⟩
    · rename_i hc
      split at hc
      · rename_i h1
        simp [exec, M.bind_apply, makeGroup_conflict h h1]
      · split at hc <;> simp at hc
    · trivial
  | read t id => exact ⟨w, by simp [exec, M.bind_apply, componentRead_eq h, M.pure_apply], h⟩
  | write t id v =>
    simp only [State.step]
    cases hc : s.comp t with
    | none =>
      exact ⟨w, by simp [exec, M.bind_apply, componentWrite_absent h v (id := id) (t := t)
        (by simp [State.has, State.get, hc]), M.pure_apply], h⟩
    | some f =>
      simp only []
      cases hv : f id with
      | none =>
        exact ⟨w, by simp [exec, M.bind_apply, componentWrite_absent h v (id := id) (t := t)
          (by simp [State.has, State.get, hc, hv]), M.pure_apply], h⟩
      | some v0 =>
        obtain ⟨w', h1, h2⟩ := componentWrite_ok h v hc (id := id) (by simp [hv])
        exact ⟨w', by simp [exec, M.bind_apply, h1, M.pure_apply], h2⟩
  | count t =>
    simp only [State.step]
    have hc := storageCount_eq h t
    cases hs : s.comp t with
    | none => exact ⟨w, by simp [exec, M.bind_apply, hc, hs, M.pure_apply], h⟩
    | some f => exact ⟨w, by simp [exec, M.bind_apply, hc, hs, M.pure_apply], h⟩
  | registerResource t v =>
    obtain ⟨w', h1, h2⟩ := registerResource_ref h t v
    exact ⟨w', by simp [exec, M.bind_apply, h1, M.pure_apply], h2⟩
  | resourceRead t => exact ⟨w, by simp [exec, M.bind_apply, resourceRead_eq h, M.pure_apply], h⟩
  | resourceWrite t v =>
    simp only [State.step]
    cases hv : s.res t with
    | none => exact ⟨w, by simp [exec, M.bind_apply, resourceWrite_absent h v hv, M.pure_apply], h⟩
    | some v0 =>
      obtain ⟨w', h1, h2⟩ := resourceWrite_ok h v hv
      exact ⟨w', by simp [exec, M.bind_apply, h1, M.pure_apply], h2⟩

theorem step_ok {w : World V} {s s' : State V} (h : Rel w s) {op : Op V} {o : Out V} (hw : s.WellFormed op)
    (hs : s.step op = .ok s' o) : ∃ w', exec op w = (w', .ok o) ∧ Rel w' s' := by
  have := step_ref h op hw
  rw [hs] at this; exact this

theorem step_panics {w : World V} {s : State V} (h : Rel w s) {op : Op V} (hw : s.WellFormed op)
    (hs : s.step op = .panics) : exec op w = (w, .error .panic) := by
  have := step_ref h op hw
  rw [hs] at this; exact this

theorem Reach.rel {w : World V} {s : State V} (h : Reach w s) : Rel w s := by
  induction h with
  | init => exact Rel.new
  | ok _ hw hs ih =>
    obtain ⟨w', h1, h2⟩ := step_ok ih hw hs
    rw [h1]; exact h2
  | panics _ hw hs ih => rw [step_panics ih hw hs]; exact ih

end Xecs
