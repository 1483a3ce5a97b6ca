import Verif.Proofs.Iter
import Verif.Spec.History
/-
Reading facts off histories.
-/
set_option autoImplicit false
namespace Xecs
open Spec World Hist
variable {V : Type}

theorem Run.reach {tr : List (Op V × Out V)} {w : World V} {s : State V} (h : Run tr w s) : Reach w s := by
  induction h with
  | init => exact .init
  | ok _ hw hs he ih => have := Reach.ok ih hw hs; rwa [he] at this
  | panics _ hw hs ih => exact .panics ih hw hs

theorem Run.rel {tr : List (Op V × Out V)} {w : World V} {s : State V} (h : Run tr w s) : Rel w s := h.reach.rel

/-- Every reachable world has a history. -/
theorem Reach.run {w : World V} {s : State V} (h : Reach w s) : ∃ tr, Run tr w s := by
  induction h with
  | init => exact ⟨[], .init⟩
  | ok hr hw hs ih =>
    obtain ⟨tr, ht⟩ := ih
    obtain ⟨w', he, _⟩ := step_ok hr.rel hw hs
    rw [he]
    exact ⟨_, .ok ht hw hs he⟩
  | panics hr hw hs ih =>
    obtain ⟨tr, ht⟩ := ih
    exact ⟨tr, .panics ht hw hs⟩

/-- Induction over histories of the specification only, with the outputs of the specification. -/
theorem Run.ind {P : List (Op V × Out V) → State V → Prop} (h0 : P [] Spec.init)
    (hstep : ∀ (tr : List (Op V × Out V)) (w : World V) (s s' : State V) (op : Op V) (o : Out V), Run tr w s →
      P tr s → s.WellFormed op → s.step op = .ok s' o → P ((op, o) :: tr) s')
    {tr : List (Op V × Out V)} {w : World V} {s : State V} (h : Run tr w s) : P tr s := by
  induction h with
  | init => exact h0
  | ok hr hw hs he ih =>
    obtain ⟨w', he', _⟩ := step_ok hr.rel hw hs
    rw [he'] at he
    simp only [Prod.mk.injEq, Except.ok.injEq] at he
    obtain ⟨rfl, rfl⟩ := he
    exact hstep _ _ _ _ _ _ hr ih hw hs
  | panics _ _ _ ih => exact ih

/-! ### What a successful step does, case by case -/

theorem step_register {s s' : State V} {t : Nat} {o : Out V} (h : s.step (.register t) = .ok s' o) :
    s.comp t = none ∧ s' = s.setComp t (fun _ => none) ∧ o = .unit := by
  simp only [State.step] at h
  split at h
  · simp at h
  · simp only [Outcome.ok.injEq] at h; exact ⟨by assumption, h.1.symm, h.2.symm⟩

theorem step_createEntity {s s' : State V} {o : Out V} (h : s.step .createEntity = .ok s' o) :
    (s.free = [] ∧ s' = { s with next := s.next + 1 } ∧ o = .id s.next) ∨
    (∃ id rest, s.free = id :: rest ∧ s' = { s with free := rest } ∧ o = .id id) := by
  simp only [State.step] at h
  split at h
  · simp only [Outcome.ok.injEq] at h; exact .inl ⟨by assumption, h.1.symm, h.2.symm⟩
  · simp only [Outcome.ok.injEq] at h; exact .inr ⟨_, _, by assumption, h.1.symm, h.2.symm⟩

theorem step_createEntities {s s' : State V} {n : Nat} {o : Out V} (h : s.step (.createEntities n) = .ok s' o) :
    s' = { s with next := s.next + n } ∧ o = .range s.next (s.next + n) := by
  simp only [State.step, Outcome.ok.injEq] at h; exact ⟨h.1.symm, h.2.symm⟩

theorem step_removeEntity {s s' : State V} {order : List Nat} {id : Nat} {o : Out V}
    (h : s.step (.removeEntity order id) = .ok s' o) :
    s.live id = true ∧ State.orderSafe id s.groups = true ∧ s' = s.removed id ∧ o = .unit := by
  simp only [State.step, State.needLive] at h
  split at h
  · split at h
    · simp only [Outcome.ok.injEq] at h; exact ⟨by assumption, by assumption, h.1.symm, h.2.symm⟩
    · simp at h
  · split at h <;> simp at h

theorem step_exist {s s' : State V} {id : Nat} {o : Out V} (h : s.step (.exist id) = .ok s' o) :
    s' = s ∧ o = .bool (s.live id) := by
  simp only [State.step] at h
  split at h
  · simp only [Outcome.ok.injEq] at h; rename_i hl; rw [hl]; exact ⟨h.1.symm, h.2.symm⟩
  · split at h
    · simp at h
    · split at h
      · simp only [Outcome.ok.injEq] at h; rename_i hl _ _; simp only [hl]; exact ⟨h.1.symm, by rw [← h.2]⟩
      · simp at h

theorem step_attach {s s' : State V} {id t : Nat} {v : V} {o : Out V} (h : s.step (.attach id t v) = .ok s' o) :
    s.live id = true ∧ ∃ f, s.comp t = some f ∧ s' = s.attached id t f v ∧ o = .unit := by
  simp only [State.step, State.needLive] at h
  split at h
  · split at h
    · simp at h
    · simp only [Outcome.ok.injEq] at h; exact ⟨by assumption, _, by assumption, h.1.symm, h.2.symm⟩
  · split at h <;> simp at h

theorem step_detach {s s' : State V} {id t : Nat} {o : Out V} (h : s.step (.detach id t) = .ok s' o) :
    s.live id = true ∧ ∃ f, s.comp t = some f ∧
      ((∃ v, f id = some v ∧ s' = s.detached id t f ∧ o = .val (some v)) ∨
       (f id = none ∧ id ≠ s.hw t ∧ s' = s ∧ o = .val none)) := by
  simp only [State.step, State.needLive] at h
  split at h
  · split at h
    · simp at h
    · rename_i f hf
      split at h
      · simp only [Outcome.ok.injEq] at h
        exact ⟨by assumption, f, hf, .inl ⟨_, by assumption, h.1.symm, h.2.symm⟩⟩
      · split at h
        · simp at h
        · simp only [Outcome.ok.injEq] at h
          exact ⟨by assumption, f, hf, .inr ⟨by assumption, by assumption, h.1.symm, h.2.symm⟩⟩
  · split at h <;> simp at h

theorem step_attachBatch {s s' : State V} {start stop t : Nat} {vs : List V} {o : Out V}
    (h : s.step (.attachBatch start stop t vs) = .ok s' o) :
    start ≤ stop ∧ (∀ x, start ≤ x → x < stop → s.live x = true) ∧ vs.length = stop - start ∧
    ∃ f, s.comp t = some f ∧ (∀ x, start ≤ x → x < stop → f x = none) ∧
      s' = s.batchAttached start t f vs ∧ o = .unit := by
  simp only [State.step] at h
  split at h
  · rename_i hr
    split at h
    · split at h
      · simp at h
      · rename_i f hf
        split at h
        · rename_i hn
          simp only [Outcome.ok.injEq] at h
          refine ⟨hr.1, ?_, by assumption, f, hf, ?_, h.1.symm, h.2.symm⟩
          · intro x h1 h2
            have := (List.all_eq_true.1 hr.2) x (by rw [List.mem_range'_1]; omega)
            simpa using this
          · intro x h1 h2
            have := (List.all_eq_true.1 hn) x (by rw [List.mem_range'_1]; omega)
            simpa using this
        · simp at h
    · simp at h
  · simp at h

theorem step_makeGroup {s s' : State V} {k : SKind} {a b : Nat} {o : Out V}
    (h : s.step (.makeGroup k a b) = .ok s' o) :
    (s.groups.any fun g => g.kind == k && g.a == a && g.b == b) = false ∧
    (∀ g ∈ s.groups, ∀ t, g.owns t = true → (SGroup.mk k a b (fun _ => false) false).owns t = false) ∧
    (s.comp a).isSome = true ∧ (s.comp b).isSome = true ∧ (k ≠ .non → a ≠ b) ∧
      s' = s.grouped k a b ∧ o = .unit := by
  simp only [State.step] at h
  split at h
  · simp at h
  · rename_i hc
    split at h
    · simp at h
    · rename_i h2
      simp only [Outcome.ok.injEq] at h
      simp only [not_or, not_and] at h2
      obtain ⟨c1, c2⟩ := (conflict_iff k a b).1 (by simpa only [Bool.not_eq_true] using hc)
      exact ⟨c1, c2, by cases hx : s.comp a <;> simp_all, by cases hx : s.comp b <;> simp_all,
        fun hk => h2.2.2 hk, h.1.symm, h.2.symm⟩

theorem step_write {s s' : State V} {t id : Nat} {v : V} {o : Out V} (h : s.step (.write t id v) = .ok s' o) :
    (s.has t id = false ∧ s' = s ∧ o = .bool false) ∨
    (∃ f, s.comp t = some f ∧ (f id).isSome = true ∧ s' = s.setComp t (fun x => if x = id then some v else f x) ∧
      o = .bool true) := by
  simp only [State.step] at h
  split at h
  · rename_i hc
    simp only [Outcome.ok.injEq] at h
    exact .inl ⟨by simp [State.has, State.get, hc], h.1.symm, h.2.symm⟩
  · rename_i f hf
    split at h
    · rename_i hv
      simp only [Outcome.ok.injEq] at h
      exact .inl ⟨by simp [State.has, State.get, hf, hv], h.1.symm, h.2.symm⟩
    · rename_i v0 hv
      simp only [Outcome.ok.injEq] at h
      exact .inr ⟨f, hf, by simp [hv], h.1.symm, h.2.symm⟩

theorem step_count {s s' : State V} {t : Nat} {o : Out V} (h : s.step (.count t) = .ok s' o) : s' = s := by
  simp only [State.step] at h
  split at h <;> simp only [Outcome.ok.injEq] at h <;> exact h.1.symm

theorem step_resourceWrite {s s' : State V} {t : Nat} {v : V} {o : Out V}
    (h : s.step (.resourceWrite t v) = .ok s' o) :
    (s.res t = none ∧ s' = s ∧ o = .bool false) ∨
    (∃ v0, s.res t = some v0 ∧ s' = { s with res := fun u => if u = t then some v else s.res u } ∧ o = .bool true) := by
  simp only [State.step] at h
  split at h <;> simp only [Outcome.ok.injEq] at h
  · exact .inl ⟨by assumption, h.1.symm, h.2.symm⟩
  · exact .inr ⟨_, by assumption, h.1.symm, h.2.symm⟩

/-! ### Components -/

theorem get_setComp {s : State V} {t u id : Nat} {f : Nat → Option V} :
    (s.setComp t f).get u id = if u = t then f id else s.get u id := by
  simp only [State.get, State.setComp]
  by_cases hu : u = t <;> simp [hu]

theorem get_attached {s : State V} {t id u x : Nat} {f : Nat → Option V} {v : V} (hf : s.comp t = some f) :
    (s.attached id t f v).get u x = if x = id ∧ u = t then some v else s.get u x := by
  have : (s.attached id t f v).get u x = (s.setComp t (fun x => if x = id then some v else f x)).get u x := rfl
  rw [this, get_setComp]
  by_cases hu : u = t
  · subst hu
    by_cases hx : x = id
    · simp [hx]
    · simp [hx, State.get, hf]
  · simp [hu]

theorem get_detached {s : State V} {t id u x : Nat} {f : Nat → Option V} (hf : s.comp t = some f) :
    (s.detached id t f).get u x = if x = id ∧ u = t then none else s.get u x := by
  have : (s.detached id t f).get u x = (s.setComp t (fun x => if x = id then none else f x)).get u x := rfl
  rw [this, get_setComp]
  by_cases hu : u = t
  · subst hu
    by_cases hx : x = id
    · simp [hx]
    · simp [hx, State.get, hf]
  · simp [hu]

theorem get_removed {s : State V} {id u x : Nat} :
    (s.removed id).get u x = if x = id then none else s.get u x := by
  simp only [State.get, State.removed]
  cases hc : s.comp u with
  | none => simp
  | some f => simp

theorem get_batch {s : State V} {t start u x : Nat} {f : Nat → Option V} {vs : List V} (hf : s.comp t = some f) :
    (s.batchAttached start t f vs).get u x =
      if u = t ∧ start ≤ x ∧ x < start + vs.length then vs[x - start]? else s.get u x := by
  have : (s.batchAttached start t f vs).get u x = (s.setComp t (fun x =>
    if start ≤ x ∧ x < start + vs.length then vs[x - start]? else f x)).get u x := rfl
  rw [this, get_setComp]
  by_cases hu : u = t
  · subst hu
    by_cases hx : start ≤ x ∧ x < start + vs.length
    · simp [hx]
    · simp [hx, State.get, hf]
  · simp [hu]

theorem get_write {s : State V} {t id u x : Nat} {f : Nat → Option V} {v : V} (hf : s.comp t = some f) :
    (s.setComp t (fun x => if x = id then some v else f x)).get u x =
      if x = id ∧ u = t then some v else s.get u x := by
  rw [get_setComp]
  by_cases hu : u = t
  · subst hu
    by_cases hx : x = id
    · simp [hx]
    · simp [hx, State.get, hf]
  · simp [hu]

theorem ite_comm2 {α : Type} {a b c d : Nat} (x y : α) :
    (if a = b ∧ c = d then x else y) = if b = a ∧ d = c then x else y := by
  by_cases h : a = b ∧ c = d
  · rw [if_pos h, if_pos ⟨h.1.symm, h.2.symm⟩]
  · rw [if_neg h, if_neg (fun h' => h ⟨h'.1.symm, h'.2.symm⟩)]

theorem ite_comm1 {α : Type} {a b : Nat} (x y : α) :
    (if a = b then x else y) = if b = a then x else y := by
  by_cases h : a = b
  · rw [if_pos h, if_pos h.symm]
  · rw [if_neg h, if_neg (fun h' => h h'.symm)]

theorem run_get {tr : List (Op V × Out V)} {w : World V} {s : State V} (h : Run tr w s) (t id : Nat) :
    s.get t id = lastValue t id tr := by
  refine Run.ind (P := fun tr s => s.get t id = lastValue t id tr) rfl ?_ h
  intro tr w s s' op o hr ih hw hs
  cases op with
  | register u =>
    obtain ⟨hn, rfl, rfl⟩ := step_register hs
    simp only [lastValue]
    rw [get_setComp, ← ih]
    by_cases hu : t = u
    · subst hu; simp [State.get, hn]
    · simp [hu]
  | createEntity =>
    simp only [lastValue]
    rcases step_createEntity hs with ⟨_, rfl, rfl⟩ | ⟨x, r, _, rfl, rfl⟩ <;> exact ih
  | createEntities n =>
    obtain ⟨rfl, rfl⟩ := step_createEntities hs
    exact ih
  | removeEntity order x =>
    obtain ⟨_, _, rfl, rfl⟩ := step_removeEntity hs
    simp only [lastValue]
    rw [get_removed, ih, ite_comm1]
  | exist x => obtain ⟨rfl, rfl⟩ := step_exist hs; exact ih
  | attach x u v =>
    obtain ⟨_, f, hf, rfl, rfl⟩ := step_attach hs
    simp only [lastValue]
    rw [get_attached hf, ih, ite_comm2]
  | detach x u =>
    obtain ⟨_, f, hf, ⟨v, _, rfl, rfl⟩ | ⟨hn, _, rfl, rfl⟩⟩ := step_detach hs
    · simp only [lastValue]
      rw [get_detached hf, ih, ite_comm2]
    · simp only [lastValue]
      split
      · rename_i he
        obtain ⟨rfl, rfl⟩ := he
        simp [State.get, hf, hn]
      · exact ih
  | attachBatch a b u vs =>
    obtain ⟨hab, _, hlen, f, hf, _, rfl, rfl⟩ := step_attachBatch hs
    simp only [lastValue]
    have : a + vs.length = b := by omega
    rw [get_batch hf, ih, this]
    by_cases hu : t = u
    · simp [hu]
    · have : u ≠ t := fun h => hu h.symm
      simp [hu, this]
  | makeGroup k a b =>
    obtain ⟨_, _, _, _, _, rfl, rfl⟩ := step_makeGroup hs
    exact ih
  | read u x =>
    simp only [State.step, Outcome.ok.injEq] at hs
    obtain ⟨rfl, rfl⟩ := hs
    exact ih
  | write u x v =>
    rcases step_write hs with ⟨_, rfl, rfl⟩ | ⟨f, hf, _, rfl, rfl⟩
    · exact ih
    · simp only [lastValue]
      rw [get_write hf, ih, ite_comm2]
  | count u => have := step_count hs; subst this; exact ih
  | registerResource u v =>
    simp only [State.step, Outcome.ok.injEq] at hs
    obtain ⟨rfl, rfl⟩ := hs
    exact ih
  | resourceRead u =>
    simp only [State.step, Outcome.ok.injEq] at hs
    obtain ⟨rfl, rfl⟩ := hs
    exact ih
  | resourceWrite u v =>
    rcases step_resourceWrite hs with ⟨_, rfl, rfl⟩ | ⟨_, _, rfl, rfl⟩ <;> exact ih

/-- Operations other than creation and removal do not touch the entity table. -/
theorem step_em {s s' : State V} {op : Op V} {o : Out V} (hs : s.step op = .ok s' o) :
    (match op with
     | .createEntity | .createEntities _ | .removeEntity _ _ => True
     | _ => s'.next = s.next ∧ s'.free = s.free) := by
  cases op with
  | register u => obtain ⟨hn, rfl, rfl⟩ := step_register hs; exact ⟨rfl, rfl⟩
  | createEntity => trivial
  | createEntities n => trivial
  | removeEntity order x => trivial
  | exist x => obtain ⟨rfl, rfl⟩ := step_exist hs; exact ⟨rfl, rfl⟩
  | attach x u v => obtain ⟨_, f, hf, rfl, rfl⟩ := step_attach hs; exact ⟨rfl, rfl⟩
  | detach x u =>
    obtain ⟨_, f, hf, ⟨v, _, rfl, rfl⟩ | ⟨hn, _, rfl, rfl⟩⟩ := step_detach hs <;> exact ⟨rfl, rfl⟩
  | attachBatch a b u vs =>
    obtain ⟨hab, _, hlen, f, hf, _, rfl, rfl⟩ := step_attachBatch hs; exact ⟨rfl, rfl⟩
  | makeGroup k a b => obtain ⟨_, _, _, _, _, rfl, rfl⟩ := step_makeGroup hs; exact ⟨rfl, rfl⟩
  | read u x =>
    simp only [State.step, Outcome.ok.injEq] at hs
    obtain ⟨rfl, rfl⟩ := hs
    exact ⟨rfl, rfl⟩
  | write u x v =>
    rcases step_write hs with ⟨_, rfl, rfl⟩ | ⟨f, hf, _, rfl, rfl⟩ <;> exact ⟨rfl, rfl⟩
  | count u => have := step_count hs; subst this; exact ⟨rfl, rfl⟩
  | registerResource u v =>
    simp only [State.step, Outcome.ok.injEq] at hs
    obtain ⟨rfl, rfl⟩ := hs
    exact ⟨rfl, rfl⟩
  | resourceRead u =>
    simp only [State.step, Outcome.ok.injEq] at hs
    obtain ⟨rfl, rfl⟩ := hs
    exact ⟨rfl, rfl⟩
  | resourceWrite u v =>
    rcases step_resourceWrite hs with ⟨_, rfl, rfl⟩ | ⟨_, _, rfl, rfl⟩ <;> exact ⟨rfl, rfl⟩

/-- The entity table according to the history. -/
theorem run_em {tr : List (Op V × Out V)} {w : World V} {s : State V} (h : Run tr w s) :
    s.free = recyclable tr ∧ 0 < s.next ∧ (∀ id, handedOut id tr = true ↔ 0 < id ∧ id < s.next) ∧
    (∀ id, alive id tr = s.live id) ∧ s.next + removals tr = created tr + 1 + s.free.length ∧
    s.next = 1 + created tr + s.free.length - removals tr := by
  have key : s.free = recyclable tr ∧ 0 < s.next ∧ (∀ id, handedOut id tr = true ↔ 0 < id ∧ id < s.next) ∧
    (∀ id, alive id tr = s.live id) ∧ s.next + removals tr = created tr + 1 + s.free.length := by
    refine Run.ind (P := fun tr s => s.free = recyclable tr ∧ 0 < s.next ∧
      (∀ id, handedOut id tr = true ↔ 0 < id ∧ id < s.next) ∧
      (∀ id, alive id tr = s.live id) ∧ s.next + removals tr = created tr + 1 + s.free.length) ?_ ?_ h
    · refine ⟨rfl, by simp [Spec.init], ?_, ?_, rfl⟩
      · intro id; simp only [handedOut, Spec.init]; constructor
        · intro h; simp at h
        · intro h; omega
      · intro id
        simp only [alive, State.live, Spec.init]
        by_cases h0 : 0 < id
        · have : ¬ id < 1 := by omega
          simp [this]
        · simp [h0]
    intro tr w s s' op o hr ⟨i1, i0, i2, i3, i4⟩ hw hs
    have hem := step_em hs
    have hsame : s'.next = s.next ∧ s'.free = s.free →
        s'.free = recyclable tr ∧ 0 < s'.next ∧ (∀ id, handedOut id tr = true ↔ 0 < id ∧ id < s'.next) ∧
        (∀ id, alive id tr = s'.live id) ∧ s'.next + removals tr = created tr + 1 + s'.free.length := by
      rintro ⟨e1, e2⟩
      refine ⟨by rw [e2, i1], by rw [e1]; exact i0, by rw [e1]; exact i2, ?_, by rw [e1, e2]; exact i4⟩
      intro id; rw [i3]; simp [State.live, e1, e2]
    cases op with
    | createEntity =>
      rcases step_createEntity hs with ⟨hf, rfl, rfl⟩ | ⟨x, r, hf, rfl, rfl⟩
      · simp only [recyclable, handedOut, alive, removals, created]
        refine ⟨?_, by simp, ?_, ?_, by omega⟩
        · simp only [hf]; rw [hf] at i1; rw [← i1]; rfl
        · intro id
          rw [Bool.or_eq_true, i2, beq_iff_eq]
          omega
        · intro id
          rw [i3, Bool.eq_iff_iff, Bool.or_eq_true, live_iff, live_iff, beq_iff_eq]
          simp only [hf, List.not_mem_nil, not_false_iff, and_true]
          omega
      · have hinv := hr.rel.em
        rw [hf] at hinv
        have hx := hinv.range x (by simp)
        have hnd := List.nodup_cons.1 hinv.nodup
        have hnx := hr.rel.next
        simp only [recyclable, handedOut, alive, removals, created]
        refine ⟨?_, i0, ?_, ?_, ?_⟩
        · skip
          rw [← i1, hf, List.erase_cons_head]
        · intro id
          rw [Bool.or_eq_true, i2, beq_iff_eq]
          constructor
          · rintro (rfl | h)
            · omega
            · exact h
          · exact .inr
        · intro id
          rw [i3, Bool.eq_iff_iff, Bool.or_eq_true, live_iff, live_iff, beq_iff_eq]
          simp only [hf, List.mem_cons, not_or]
          constructor
          · rintro (rfl | ⟨a, b, c⟩)
            · exact ⟨hx.1, by omega, hnd.1⟩
            · exact ⟨a, b, c.2⟩
          · rintro ⟨a, b, c⟩
            by_cases he : id = x
            · exact .inl he.symm
            · exact .inr ⟨a, b, he, c⟩
        · rw [hf] at i4; simp only [List.length_cons] at i4; omega
    | createEntities n =>
      obtain ⟨rfl, rfl⟩ := step_createEntities hs
      simp only [recyclable, handedOut, alive, removals, created]
      refine ⟨i1, by omega, ?_, ?_, by omega⟩
      · intro id
        rw [Bool.or_eq_true, i2, Bool.and_eq_true, decide_eq_true_iff, decide_eq_true_iff]
        omega
      · intro id
        rw [i3, Bool.eq_iff_iff, Bool.or_eq_true, live_iff, live_iff, Bool.and_eq_true, decide_eq_true_iff,
          decide_eq_true_iff]
        simp only
        constructor
        · rintro (⟨a, b⟩ | ⟨a, b, c⟩)
          · refine ⟨by omega, b, ?_⟩
            intro hm
            have := hr.rel.em.range id hm
            have := hr.rel.next
            omega
          · exact ⟨a, by omega, c⟩
        · rintro ⟨a, b, c⟩
          by_cases he : id < s.next
          · exact .inr ⟨a, he, c⟩
          · exact .inl ⟨by omega, b⟩
    | removeEntity order x =>
      obtain ⟨hl, _, rfl, rfl⟩ := step_removeEntity hs
      simp only [recyclable, handedOut, alive, removals, created]
      refine ⟨by simp [State.removed, i1], i0, i2, ?_, by simp only [State.removed, List.length_cons]; omega⟩
      intro id
      rw [i3, Bool.eq_iff_iff, Bool.and_eq_true, live_iff, live_iff]
      simp only [State.removed, List.mem_cons, not_or, Bool.not_eq_true', beq_eq_false_iff_ne, ne_eq]
      constructor
      · rintro ⟨h1, a, b, c⟩; exact ⟨a, b, fun h => h1 h.symm, c⟩
      · rintro ⟨a, b, h1, c⟩; exact ⟨fun h => h1 h.symm, a, b, c⟩
    | register u => exact hsame hem
    | exist x => exact hsame hem
    | attach x u v => exact hsame hem
    | detach x u => exact hsame hem
    | attachBatch a b u vs => exact hsame hem
    | makeGroup k a b => exact hsame hem
    | read u x => exact hsame hem
    | write u x v => exact hsame hem
    | count u => exact hsame hem
    | registerResource u v => exact hsame hem
    | resourceRead u => exact hsame hem
    | resourceWrite u v => exact hsame hem
  obtain ⟨k1, k2, k3, k4, k5⟩ := key
  exact ⟨k1, k2, k3, k4, k5, by omega⟩

/-- The registered types, according to the history. -/
theorem run_registered {tr : List (Op V × Out V)} {w : World V} {s : State V} (h : Run tr w s) (t : Nat) :
    (s.comp t).isSome = registered t tr := by
  refine Run.ind (P := fun tr s => (s.comp t).isSome = registered t tr) rfl ?_ h
  intro tr w s s' op o hr ih hw hs
  cases op with
  | register u =>
    obtain ⟨hn, rfl, rfl⟩ := step_register hs
    simp only [registered, State.setComp]
    by_cases hu : t = u
    · simp [hu]
    · have : (u == t) = false := by simp; exact fun h => hu h.symm
      simp [hu, ih, this]
  | createEntity =>
    rcases step_createEntity hs with ⟨_, rfl, rfl⟩ | ⟨x, r, _, rfl, rfl⟩ <;> exact ih
  | createEntities n => obtain ⟨rfl, rfl⟩ := step_createEntities hs; exact ih
  | removeEntity order x =>
    obtain ⟨_, _, rfl, rfl⟩ := step_removeEntity hs
    simp only [registered, State.removed, Option.isSome_map]; exact ih
  | exist x => obtain ⟨rfl, rfl⟩ := step_exist hs; exact ih
  | attach x u v =>
    obtain ⟨_, f, hf, rfl, rfl⟩ := step_attach hs
    simp only [registered, State.attached, State.setComp]
    rw [← ih]
    by_cases hu : t = u
    · simp [hu, hf]
    · simp [hu]
  | detach x u =>
    obtain ⟨_, f, hf, ⟨v, _, rfl, rfl⟩ | ⟨hn, _, rfl, rfl⟩⟩ := step_detach hs
    · simp only [registered, State.detached, State.setComp]
      rw [← ih]
      by_cases hu : t = u
      · simp [hu, hf]
      · simp [hu]
    · exact ih
  | attachBatch a b u vs =>
    obtain ⟨hab, _, hlen, f, hf, _, rfl, rfl⟩ := step_attachBatch hs
    simp only [registered, State.batchAttached, State.setComp]
    rw [← ih]
    by_cases hu : t = u
    · simp [hu, hf]
    · simp [hu]
  | makeGroup k a b => obtain ⟨_, _, _, _, _, rfl, rfl⟩ := step_makeGroup hs; exact ih
  | read u x =>
    simp only [State.step, Outcome.ok.injEq] at hs
    obtain ⟨rfl, rfl⟩ := hs
    exact ih
  | write u x v =>
    rcases step_write hs with ⟨_, rfl, rfl⟩ | ⟨f, hf, _, rfl, rfl⟩
    · exact ih
    · simp only [registered, State.setComp]
      rw [← ih]
      by_cases hu : t = u
      · simp [hu, hf]
      · simp [hu]
  | count u => have := step_count hs; subst this; exact ih
  | registerResource u v =>
    simp only [State.step, Outcome.ok.injEq] at hs
    obtain ⟨rfl, rfl⟩ := hs
    exact ih
  | resourceRead u =>
    simp only [State.step, Outcome.ok.injEq] at hs
    obtain ⟨rfl, rfl⟩ := hs
    exact ih
  | resourceWrite u v =>
    rcases step_resourceWrite hs with ⟨_, rfl, rfl⟩ | ⟨_, _, rfl, rfl⟩ <;> exact ih

/-- The resources, according to the history. -/
theorem run_res {tr : List (Op V × Out V)} {w : World V} {s : State V} (h : Run tr w s) (t : Nat) :
    s.res t = lastResource t tr := by
  refine Run.ind (P := fun tr s => s.res t = lastResource t tr) rfl ?_ h
  intro tr w s s' op o hr ih hw hs
  cases op with
  | register u => obtain ⟨hn, rfl, rfl⟩ := step_register hs; exact ih
  | createEntity =>
    rcases step_createEntity hs with ⟨_, rfl, rfl⟩ | ⟨x, r, _, rfl, rfl⟩ <;> exact ih
  | createEntities n => obtain ⟨rfl, rfl⟩ := step_createEntities hs; exact ih
  | removeEntity order x => obtain ⟨_, _, rfl, rfl⟩ := step_removeEntity hs; exact ih
  | exist x => obtain ⟨rfl, rfl⟩ := step_exist hs; exact ih
  | attach x u v => obtain ⟨_, f, hf, rfl, rfl⟩ := step_attach hs; exact ih
  | detach x u =>
    obtain ⟨_, f, hf, ⟨v, _, rfl, rfl⟩ | ⟨hn, _, rfl, rfl⟩⟩ := step_detach hs <;> exact ih
  | attachBatch a b u vs => obtain ⟨hab, _, hlen, f, hf, _, rfl, rfl⟩ := step_attachBatch hs; exact ih
  | makeGroup k a b => obtain ⟨_, _, _, _, _, rfl, rfl⟩ := step_makeGroup hs; exact ih
  | read u x =>
    simp only [State.step, Outcome.ok.injEq] at hs
    obtain ⟨rfl, rfl⟩ := hs
    exact ih
  | write u x v =>
    rcases step_write hs with ⟨_, rfl, rfl⟩ | ⟨f, hf, _, rfl, rfl⟩ <;> exact ih
  | count u => have := step_count hs; subst this; exact ih
  | registerResource u v =>
    simp only [State.step, Outcome.ok.injEq] at hs
    obtain ⟨rfl, rfl⟩ := hs
    simp only [lastResource]
    rw [← ih]
    by_cases hu : t = u
    · simp [hu]
    · have : u ≠ t := fun h => hu h.symm
      simp [hu, this]
  | resourceRead u =>
    simp only [State.step, Outcome.ok.injEq] at hs
    obtain ⟨rfl, rfl⟩ := hs
    exact ih
  | resourceWrite u v =>
    rcases step_resourceWrite hs with ⟨_, rfl, rfl⟩ | ⟨_, _, rfl, rfl⟩
    · exact ih
    · simp only [lastResource]
      rw [← ih]
      by_cases hu : t = u
      · simp [hu]
      · have : u ≠ t := fun h => hu h.symm
        simp [hu, this]

end Xecs
