import Verif.Spec.Reorder
import Verif.Proofs.Trace
/-
Operations on one entity depend only on what was done to this entity.
-/
set_option autoImplicit false
namespace Xecs
open Spec Hist
variable {V : Type}

theorem Continues.trace {tr l : List (Op V × Out V)} {w w' : World V} (ht : Trace tr w) (h : Continues tr w l w') :
    Trace (l ++ tr) w' := by
  induction h with
  | nil => exact ht
  | cons _ ha he ih => exact .ok ih ha he

theorem doneTo_cons {id : Nat} {op : Op V} {o : Out V} {l : List (Op V × Out V)} :
    doneTo id ((op, o) :: l) = if op.entity = some id then (op, o) :: doneTo id l else doneTo id l := by
  by_cases h : op.entity = some id
  · simp [doneTo, h]
  · simp [doneTo, h]

theorem doneTo_lastValue {t id : Nat} {tr : List (Op V × Out V)} : ∀ {l : List (Op V × Out V)}, (∀ x ∈ l, Movable x) →
    lastValue t id (l ++ tr) = lastValue t id (doneTo id l ++ tr)
  | [], _ => rfl
  | (op, o) :: l, h => by
    have ih := doneTo_lastValue (t := t) (id := id) (tr := tr) (l := l) fun x hx => h x (.tail _ hx)
    have hm := h _ (.head _)
    rw [doneTo_cons]
    split
    · next he =>
      cases op with
      | write t' id' v => rcases o with _ | (_ | _) | _ | _ | _ | _ <;> simp only [List.cons_append, lastValue, ih]
      | _ => first | exact hm.elim | simp only [List.cons_append, lastValue, ih]
    · next he =>
      cases op with
      | write t' id' v =>
        have : ¬ (id' = id ∧ t' = t) := fun hh => he (by rw [← hh.1]; rfl)
        rcases o with _ | (_ | _) | _ | _ | _ | _ <;> simp only [List.cons_append, lastValue, ih, if_neg this]
      | attach id' t' v =>
        have : ¬ (id' = id ∧ t' = t) := fun hh => he (by rw [← hh.1]; rfl)
        simp only [List.cons_append, lastValue, ih, if_neg this]
      | detach id' t' =>
        have : ¬ (id' = id ∧ t' = t) := fun hh => he (by rw [← hh.1]; rfl)
        simp only [List.cons_append, lastValue, ih, if_neg this]
      | removeEntity ord id' =>
        have : ¬ id' = id := fun hh => he (by rw [← hh]; rfl)
        simp only [List.cons_append, lastValue, ih, if_neg this]
      | _ => first | exact hm.elim | simp only [List.cons_append, lastValue, ih]

theorem doneTo_alive {id : Nat} {tr : List (Op V × Out V)} : ∀ {l : List (Op V × Out V)}, (∀ x ∈ l, Movable x) →
    alive id (l ++ tr) = alive id (doneTo id l ++ tr)
  | [], _ => rfl
  | (op, o) :: l, h => by
    have ih := doneTo_alive (id := id) (tr := tr) (l := l) fun x hx => h x (.tail _ hx)
    have hm := h _ (.head _)
    rw [doneTo_cons]
    split
    · next he =>
      cases op <;> first | exact hm.elim | simp only [List.cons_append, alive, ih]
    · next he =>
      cases op with
      | removeEntity ord id' =>
        have : ¬ id' = id := fun hh => he (by rw [← hh]; rfl)
        have : (id' == id) = false := by simpa using this
        simp only [List.cons_append, alive, ih, this, Bool.not_false, Bool.true_and]
      | _ => first | exact hm.elim | simp only [List.cons_append, alive, ih]

theorem movable_groups {tr : List (Op V × Out V)} : ∀ {l : List (Op V × Out V)}, (∀ x ∈ l, Movable x) →
    groupsMade (l ++ tr) = groupsMade tr ∧ (∀ t, registered t (l ++ tr) = registered t tr) ∧
    (∀ k a b, madeGroup k a b (l ++ tr) = madeGroup k a b tr) ∧ (∀ k a b, batchSince k a b (l ++ tr) = batchSince k a b tr)
  | [], _ => ⟨rfl, fun _ => rfl, fun _ _ _ => rfl, fun _ _ _ => rfl⟩
  | (op, o) :: l, h => by
    obtain ⟨h1, h2, h3, h4⟩ := movable_groups (tr := tr) (l := l) fun x hx => h x (.tail _ hx)
    have hm := h _ (.head _)
    cases op <;> first | exact hm.elim | exact ⟨h1, h2, h3, h4⟩

/-- The specification of an operation on one entity looks at nothing but this entity. -/
theorem step_local {s s' s1 : State V} {op : Op V} {o : Out V} {id : Nat} (he : op.entity = some id) (hm : Movable (op, o))
    (hs : s.step op = .ok s1 o) (hl : s'.live id = s.live id) (hg : ∀ t, s'.get t id = s.get t id)
    (hc : ∀ t, (s'.comp t).isSome = (s.comp t).isSome)
    (ho : ∀ order, op = .removeEntity order id → s.live id = true → State.orderSafe id s'.groups = true) : ∃ s2, s'.step op = .ok s2 o := by
  have hget : ∀ t, (match s'.comp t with | some f => f id | none => none) = (match s.comp t with | some f => f id | none => none) := hg
  have live : ∀ k : Outcome V, s.needLive id k = .ok s1 o → s.live id = true := by
    intro k hk
    cases h : s.live id with
    | true => rfl
    | false =>
      rw [State.needLive, if_neg (by rw [h]; simp)] at hk
      split at hk <;> cases hk
  cases op with
  | exist x =>
    cases he
    simp only [State.step] at hs ⊢
    split at hs
    · next h => cases hs; exact ⟨s', by rw [hl, if_pos h]⟩
    · split at hs
      · cases hs
      · split at hs
        · cases hs; exact hm.elim
        · cases hs
  | attach x t v =>
    cases he
    simp only [State.step] at hs ⊢
    have hlive := live _ hs
    rw [State.needLive, if_pos hlive] at hs
    rw [State.needLive, hl, if_pos hlive]
    have := hc t
    rcases h1 : s.comp t with _ | f
    · rw [h1] at hs; cases hs
    · rw [h1] at hs this
      cases hs
      rcases h2 : s'.comp t with _ | f'
      · rw [h2] at this; cases this
      · exact ⟨_, rfl⟩
  | detach x t =>
    cases he
    simp only [State.step] at hs ⊢
    have hlive := live _ hs
    rw [State.needLive, if_pos hlive] at hs
    rw [State.needLive, hl, if_pos hlive]
    have h0 := hget t
    rcases h1 : s.comp t with _ | f
    · rw [h1] at hs; cases hs
    · rw [h1] at hs h0
      dsimp only at hs h0
      rcases h3 : f id with _ | v
      · rw [h3] at hs
        dsimp only at hs
        split at hs
        · cases hs
        · cases hs; exact hm.elim
      · rw [h3] at hs h0
        cases hs
        rcases h2 : s'.comp t with _ | f'
        · rw [h2] at h0; cases h0
        · rw [h2] at h0
          dsimp only at h0 ⊢
          rw [h0]
          exact ⟨_, rfl⟩
  | read t x =>
    cases he
    simp only [State.step] at hs ⊢
    cases hs
    exact ⟨s', by rw [hg]⟩
  | write t x v =>
    cases he
    simp only [State.step] at hs ⊢
    have h0 := hget t
    have h9 := hc t
    rcases h1 : s.comp t with _ | f
    · rw [h1] at hs h9
      cases hs
      rcases h2 : s'.comp t with _ | f'
      · exact ⟨_, rfl⟩
      · rw [h2] at h9; cases h9
    · rw [h1] at hs h0 h9
      rcases h2 : s'.comp t with _ | f'
      · rw [h2] at h9; cases h9
      · rw [h2] at h0
        dsimp only at hs h0 ⊢
        rw [h0]
        rcases h3 : f id with _ | v'
        · rw [h3] at hs; cases hs; exact ⟨_, rfl⟩
        · rw [h3] at hs; cases hs; exact ⟨_, rfl⟩
  | removeEntity order x =>
    cases he
    simp only [State.step] at hs ⊢
    have hlive := live _ hs
    rw [State.needLive, if_pos hlive] at hs
    rw [State.needLive, hl, if_pos hlive]
    split at hs
    · cases hs; rw [if_pos (ho _ rfl hlive)]; exact ⟨_, rfl⟩
    · cases hs
  | _ => cases he

theorem entity_of_movable {x : Op V × Out V} (h : Movable x) : ∃ id, x.1.entity = some id := by
  obtain ⟨op, o⟩ := x
  cases op <;> first | exact ⟨_, rfl⟩ | exact h.elim

/-- Allowed there, allowed here. -/
theorem allowed_local {tr tr' : List (Op V × Out V)} {w w1 w' : World V} (ht : Trace tr w) (ht' : Trace tr' w') {op : Op V} {o : Out V}
    {id : Nat} (he : op.entity = some id) (hm : Movable (op, o)) (ha : Allowed tr op) (hx : exec op w = (w1, .ok o))
    (hl : alive id tr' = alive id tr) (hv : ∀ t, lastValue t id tr' = lastValue t id tr)
    (hg : groupsMade tr' = groupsMade tr) (hr : ∀ t, registered t tr' = registered t tr) :
    Allowed tr' op ∧ ∃ w2, exec op w' = (w2, .ok o) := by
  obtain ⟨s, h1⟩ := ht.run
  obtain ⟨s', h1'⟩ := ht'.run
  obtain ⟨hw, hsp⟩ := allowed_spec h1 ha
  have hstep : ∃ s1, s.step op = .ok s1 o := by
    cases hc : s.step op with
    | ok s1 o' =>
      obtain ⟨w2, h2, _⟩ := step_ok h1.rel hw hc
      rw [hx] at h2
      cases h2
      exact ⟨s1, rfl⟩
    | panics =>
      have := step_panics h1.rel hw hc
      rw [hx] at this; simp at this
    | unspecified => exact absurd hc hsp
  obtain ⟨s1, hstep⟩ := hstep
  have elive : s'.live id = s.live id := by rw [← (run_em h1).2.2.2.1, ← (run_em h1').2.2.2.1, hl]
  have usable : alive id tr' = true → Usable id tr' := by
    intro h
    have h2 : s'.live id = true := by rw [← (run_em h1').2.2.2.1]; exact h
    simp only [State.live, Bool.and_eq_true, decide_eq_true_eq, Bool.not_eq_true', ← Bool.not_eq_true, List.contains_iff_mem] at h2
    refine ⟨by omega, fun h3 => h2.2 ?_⟩
    rw [(run_em h1').1]
    exact List.mem_of_getLast? h3
  have live : ∀ k : Outcome V, s.needLive id k = .ok s1 o → alive id tr' = true := by
    intro k hk
    rw [hl, (run_em h1).2.2.2.1]
    cases h : s.live id with
    | true => rfl
    | false =>
      rw [State.needLive, if_neg (by rw [h]; simp)] at hk
      split at hk <;> cases hk
  have hsafe : RemoveSafe id tr → RemoveSafe id tr' := by
    unfold RemoveSafe
    rw [hg]
    simp only [hv]
    exact fun h => h
  have ha' : Allowed tr' op := by
    cases op with
    | exist x =>
      cases he
      refine usable ?_
      rw [hl, (run_em h1).2.2.2.1]
      simp only [State.step] at hstep
      split at hstep
      · next h => exact h
      · split at hstep
        · cases hstep
        · split at hstep
          · cases hstep; exact hm.elim
          · cases hstep
    | attach x t v => cases he; exact usable (live _ hstep)
    | detach x t => cases he; exact usable (live _ hstep)
    | removeEntity order x =>
      cases he
      exact ⟨usable (live _ hstep), ⟨ha.2.1.1, fun t => by rw [hr]; exact ha.2.1.2 t⟩,
        fun _ => hsafe (ha.2.2 (by rw [← hl]; exact live _ hstep))⟩
    | read t x => trivial
    | write t x v => trivial
    | _ => cases he
  refine ⟨ha', ?_⟩
  obtain ⟨hw', _⟩ := allowed_spec h1' ha'
  obtain ⟨s2, h2⟩ := step_local (s' := s') he hm hstep elive (fun t => by rw [run_get h1', run_get h1, hv])
    (fun t => by rw [run_registered h1', run_registered h1, hr]) (fun order hop hlv => by
      subst hop
      exact run_orderSafe h1' (ha'.2.2 (by rw [(run_em h1').2.2.2.1, elive]; exact hlv)))
  obtain ⟨w2, h3, _⟩ := step_ok h1'.rel hw' h2
  exact ⟨w2, h3⟩

theorem Continues.split {tr : List (Op V × Out V)} {w : World V} {x : Op V × Out V} {b : List (Op V × Out V)} :
    ∀ {a : List (Op V × Out V)} {w1 : World V}, Continues tr w (a ++ x :: b) w1 →
    ∃ w2 w3, Continues tr w b w2 ∧ Allowed (b ++ tr) x.1 ∧ exec x.1 w2 = (w3, .ok x.2)
  | [], w1, h => by
    cases h with
    | cons h1 h2 h3 => exact ⟨_, _, h1, h2, h3⟩
  | _ :: a, w1, h => by
    cases h with
    | cons h1 h2 h3 => exact h1.split

theorem Continues.reorder {tr l : List (Op V × Out V)} {w w1 : World V} (ht : Trace tr w) (hl : Continues tr w l w1)
    (hm : ∀ x ∈ l, Movable x) : ∀ (l' : List (Op V × Out V)), (∀ x ∈ l', Movable x) →
    (∀ id, ∃ p, doneTo id l = p ++ doneTo id l') → ∃ w', Continues tr w l' w'
  | [], _, _ => ⟨w, .nil⟩
  | (op, o) :: l', hm', hp => by
    obtain ⟨id, he⟩ := entity_of_movable (hm' _ (.head _))
    obtain ⟨w', h'⟩ := Continues.reorder ht hl hm l' (fun x hx => hm' x (.tail _ hx)) fun j => by
      obtain ⟨p, hp⟩ := hp j
      rw [doneTo_cons] at hp
      split at hp
      · exact ⟨p ++ [(op, o)], by rw [hp]; simp⟩
      · exact ⟨p, hp⟩
    obtain ⟨p, hp⟩ := hp id
    rw [doneTo_cons, if_pos he] at hp
    obtain ⟨l1, l2, rfl, h1, h2⟩ := List.filter_eq_append_iff.1 hp
    obtain ⟨a, b, rfl, h3, h4, h5⟩ := List.filter_eq_cons_iff.1 h2
    rw [← List.append_assoc] at hl hm
    obtain ⟨w2, w3, g1, g2, g3⟩ := hl.split
    have hb : ∀ x ∈ b, Movable x := fun x hx => hm x (List.mem_append_right _ (.tail _ hx))
    have hd : doneTo id b = doneTo id l' := h5
    have hm2 : ∀ x ∈ l', Movable x := fun x hx => hm' x (.tail _ hx)
    obtain ⟨q1, w4, q2⟩ := allowed_local (g1.trace ht) (h'.trace ht) he (hm' _ (.head _)) g2 g3
      (by rw [doneTo_alive hb, doneTo_alive hm2, hd])
      (fun t => by rw [doneTo_lastValue hb, doneTo_lastValue hm2, hd])
      (by rw [(movable_groups hb).1, (movable_groups hm2).1])
      (fun t => by rw [(movable_groups hb).2.1, (movable_groups hm2).2.1])
    exact ⟨w4, .cons h' q1 q2⟩

end Xecs
