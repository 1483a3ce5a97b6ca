import Verif.Proofs.GroupHistory
/-
Every history of allowed calls is followed by the specification.
-/
set_option autoImplicit false
namespace Xecs
open Spec World Hist
variable {V : Type}

def tag (g : SGroup) : SKind × Nat × Nat := (g.kind, g.a, g.b)

theorem step_tags {s s' : State V} {op : Op V} {o : Out V} (hs : s.step op = .ok s' o) :
    (match op with
     | .makeGroup k a b => s'.groups.map tag = s.groups.map tag ++ [(k, a, b)]
     | _ => s'.groups.map tag = s.groups.map tag) := by
  have hsame := step_groups_same hs
  cases op with
  | register u => exact congrArg _ hsame.1
  | createEntity => exact congrArg _ hsame.1
  | createEntities n => exact congrArg _ hsame.1
  | exist x => exact congrArg _ hsame.1
  | read u x => exact congrArg _ hsame.1
  | write u x v => exact congrArg _ hsame.1
  | count u => exact congrArg _ hsame.1
  | registerResource u v => exact congrArg _ hsame.1
  | resourceRead u => exact congrArg _ hsame.1
  | resourceWrite u v => exact congrArg _ hsame.1
  | attach id t v =>
    obtain ⟨_, f, hf, rfl, rfl⟩ := step_attach hs
    simp only [State.attached, List.map_map]; rfl
  | detach id t =>
    obtain ⟨_, f, hf, ⟨v, hv, rfl, rfl⟩ | ⟨hn, _, rfl, rfl⟩⟩ := step_detach hs
    · simp only [State.detached, List.map_map]; rfl
    · rfl
  | removeEntity order id =>
    obtain ⟨_, _, rfl, rfl⟩ := step_removeEntity hs
    simp only [State.removed, List.map_map]; rfl
  | attachBatch start stop t vs =>
    obtain ⟨_, _, _, f, hf, _, rfl, rfl⟩ := step_attachBatch hs
    rfl
  | makeGroup k a b =>
    obtain ⟨_, _, _, _, _, rfl, rfl⟩ := step_makeGroup hs
    simp only [State.grouped, List.map_append, List.map_map]; rfl

theorem run_tags {tr : List (Op V × Out V)} {w : World V} {s : State V} (h : Run tr w s) :
    s.groups.map tag = groupsMade tr := by
  refine Run.ind (P := fun tr s => s.groups.map tag = groupsMade tr) rfl ?_ h
  intro tr w s s' op o hr ih hw hs
  have := step_tags hs
  cases op <;> simp only at this <;> rw [this, ih] <;> rfl

theorem run_hw {tr : List (Op V × Out V)} {w : World V} {s : State V} (h : Run tr w s) (t : Nat) :
    s.hw t = highest t tr := by
  refine Run.ind (P := fun tr s => s.hw t = highest t tr) rfl ?_ h
  intro tr w s s' op o hr ih hw hs
  cases op with
  | register u => obtain ⟨hn, rfl, rfl⟩ := step_register hs; exact ih
  | createEntity =>
    rcases step_createEntity hs with ⟨_, rfl, rfl⟩ | ⟨x, r, _, rfl, rfl⟩ <;> exact ih
  | createEntities n => obtain ⟨rfl, rfl⟩ := step_createEntities hs; exact ih
  | removeEntity order x => obtain ⟨_, _, rfl, rfl⟩ := step_removeEntity hs; exact ih
  | exist x => obtain ⟨rfl, rfl⟩ := step_exist hs; exact ih
  | attach x u v =>
    obtain ⟨_, f, hf, rfl, rfl⟩ := step_attach hs
    simp only [State.attached, highest]
    by_cases hu : t = u
    · subst hu; simp [ih]
    · rw [if_neg hu, if_neg (fun h => hu h.symm), ih]
  | detach x u =>
    obtain ⟨_, f, hf, ⟨v, hv, rfl, rfl⟩ | ⟨hn, _, rfl, rfl⟩⟩ := step_detach hs <;> exact ih
  | attachBatch a b u vs =>
    obtain ⟨hab, _, hlen, f, hf, _, rfl, rfl⟩ := step_attachBatch hs
    simp only [State.batchAttached, highest]
    by_cases hu : t = u ∧ 0 < vs.length
    · rw [if_pos hu, if_pos ⟨hu.1.symm, by omega⟩, ← hu.1, ih, hlen]; congr 1; omega
    · rw [if_neg hu, if_neg (fun h => hu ⟨h.1.symm, by omega⟩), ih]
  | makeGroup k a b => obtain ⟨_, _, _, _, _, rfl, rfl⟩ := step_makeGroup hs; exact ih
  | read u x =>
    simp only [State.step, Outcome.ok.injEq] at hs
    obtain ⟨rfl, rfl⟩ := hs; exact ih
  | write u x v =>
    rcases step_write hs with ⟨_, rfl, rfl⟩ | ⟨f, hf, hsome, rfl, rfl⟩ <;> exact ih
  | count u => have := step_count hs; subst this; exact ih
  | registerResource u v =>
    simp only [State.step, Outcome.ok.injEq] at hs
    obtain ⟨rfl, rfl⟩ := hs; exact ih
  | resourceRead u =>
    simp only [State.step, Outcome.ok.injEq] at hs
    obtain ⟨rfl, rfl⟩ := hs; exact ih
  | resourceWrite u v =>
    rcases step_resourceWrite hs with ⟨_, rfl, rfl⟩ | ⟨_, _, rfl, rfl⟩ <;> exact ih

theorem orderSafe_of_pairwise {id : Nat} : ∀ (l : List SGroup),
    l.Pairwise (fun g h => ¬ (g.mem id = true ∧ h.mem id = true ∧ (g.owns h.a || g.owns h.b) = true)) →
    State.orderSafe id l = true := by
  intro l
  induction l with
  | nil => intro _; rfl
  | cons g gs ih =>
    intro hp
    rw [List.pairwise_cons] at hp
    simp only [State.orderSafe, Bool.and_eq_true, List.all_eq_true]
    refine ⟨fun h hh => ?_, ih hp.2⟩
    have := hp.1 h hh
    cases h1 : g.mem id <;> cases h2 : h.mem id <;> cases h3 : (g.owns h.a || g.owns h.b) <;>
      simp_all

theorem run_orderSafe {tr : List (Op V × Out V)} {w : World V} {s : State V} (h : Run tr w s) {id : Nat}
    (hs : RemoveSafe id tr) : State.orderSafe id s.groups = true := by
  apply orderSafe_of_pairwise
  unfold RemoveSafe at hs
  rw [← run_tags h, List.pairwise_map] at hs
  refine hs.imp_of_mem ?_
  intro g g' hg hg' hp hc
  obtain ⟨m1, m2, ho⟩ := hc
  obtain ⟨i, hi⟩ := List.mem_iff_getElem?.1 hg
  obtain ⟨j, hj⟩ := List.mem_iff_getElem?.1 hg'
  have b1 := Rel.mem_both h.rel.core hi m1
  have b2 := Rel.mem_both h.rel.core hj m2
  simp only [State.both, Bool.and_eq_true, has_eq, run_get h] at b1 b2
  refine hp ?_ ⟨b1.1, b1.2, b2.1, b2.2⟩
  have : ∀ t, groupOwns (tag g) t = g.owns t := by
    intro t
    cases hk : g.kind <;> simp [groupOwns, tag, SGroup.owns, hk]
  rw [this, this]; exact ho

/-- Allowed calls are specified. -/
theorem allowed_spec {tr : List (Op V × Out V)} {w : World V} {s : State V} (h : Run tr w s) {op : Op V}
    (ha : Allowed tr op) : s.WellFormed op ∧ s.step op ≠ .unspecified := by
  obtain ⟨e1, e2, e3, e4, e5, e6⟩ := run_em h
  have hz : ∀ id, Usable id tr → ¬ (id = 0 ∨ s.zombie id = true) := by
    rintro id ⟨h0, h1⟩ (h | h)
    · exact h0 h
    · rw [State.zombie, e1, beq_iff_eq] at h; exact h1 h
  cases op with
  | register u => refine ⟨trivial, ?_⟩; simp only [State.step]; split <;> simp
  | createEntity => refine ⟨trivial, ?_⟩; simp only [State.step]; split <;> simp
  | createEntities n => exact ⟨trivial, by simp [State.step]⟩
  | removeEntity order x =>
    obtain ⟨hu, ⟨hn, ho⟩, hsafe⟩ := ha
    refine ⟨⟨hn, fun t => ?_⟩, ?_⟩
    · rw [ho, ← run_registered h]; cases s.comp t <;> simp
    · simp only [State.step, State.needLive]
      by_cases hl : s.live x = true
      · rw [if_pos hl, run_orderSafe h (hsafe (by rw [e4]; exact hl))]; simp
      · rw [if_neg hl, if_neg (hz x hu)]; simp
  | exist x =>
    refine ⟨trivial, ?_⟩
    simp only [State.step]
    rw [if_neg (hz x ha)]
    repeat' split
    all_goals simp
  | attach x u v =>
    refine ⟨trivial, ?_⟩
    simp only [State.step, State.needLive]
    rw [if_neg (hz x ha)]
    repeat' split
    all_goals simp
  | detach x u =>
    refine ⟨trivial, ?_⟩
    simp only [State.step, State.needLive]
    rw [if_neg (hz x ha)]
    repeat' split
    all_goals simp
  | attachBatch a b u vs =>
    obtain ⟨hab, hlive, hnone⟩ := ha
    refine ⟨trivial, ?_⟩
    simp only [State.step]
    have hall : (List.range' a (b - a)).all (fun x => s.live x) = true := by
      rw [List.all_eq_true]
      intro x hx
      rw [List.mem_range'_1] at hx
      have := hlive x hx.1 (by omega)
      rwa [e4] at this
    rw [if_pos ⟨hab, hall⟩]
    split
    · rename_i hlen
      split
      · simp
      · rename_i f hf
        have hn : (List.range' a (b - a)).all (fun x => (f x).isNone) = true := by
          rw [List.all_eq_true]
          intro x hx
          rw [List.mem_range'_1] at hx
          have := hnone hlen x hx.1 (by omega)
          rw [← run_get h] at this
          simpa [State.get, hf] using this
        rw [if_pos hn]; simp
    · simp
  | makeGroup k a b =>
    obtain ⟨ra, rb, hk⟩ := ha
    rw [← run_registered h] at ra rb
    refine ⟨trivial, ?_⟩
    simp only [State.step]
    split
    · simp
    · rw [if_neg]
      · simp
      · rintro (h | h | ⟨h1, h2⟩)
        · simp [Option.isNone_iff_eq_none.1 h] at ra
        · simp [Option.isNone_iff_eq_none.1 h] at rb
        · exact hk h1 h2
  | read u x => exact ⟨trivial, by simp [State.step]⟩
  | write u x v => refine ⟨trivial, ?_⟩; simp only [State.step]; repeat' split
                   all_goals simp
  | count u => refine ⟨trivial, ?_⟩; simp only [State.step]; split <;> simp
  | registerResource u v => exact ⟨trivial, by simp [State.step]⟩
  | resourceRead u => exact ⟨trivial, by simp [State.step]⟩
  | resourceWrite u v => refine ⟨trivial, ?_⟩; simp only [State.step]; split <;> simp

theorem Trace.run {tr : List (Op V × Out V)} {w : World V} (h : Trace tr w) : ∃ s, Run tr w s := by
  induction h with
  | init => exact ⟨_, .init⟩
  | ok _ ha he ih =>
    rename_i op o _
    obtain ⟨s, hr⟩ := ih
    obtain ⟨hw, hs⟩ := allowed_spec hr ha
    cases hc : s.step op with
    | ok s' o' => exact ⟨s', .ok hr hw hc he⟩
    | panics =>
      have := step_panics hr.rel hw hc
      rw [he] at this; simp at this
    | unspecified => exact absurd hc hs
  | fails _ ha he ih =>
    rename_i op _ _
    obtain ⟨s, hr⟩ := ih
    obtain ⟨hw, hs⟩ := allowed_spec hr ha
    cases hc : s.step op with
    | ok s' o' =>
      obtain ⟨w', h1, _⟩ := step_ok hr.rel hw hc
      rw [he] at h1; simp at h1
    | panics =>
      have := Run.panics hr hw hc
      rw [he] at this
      exact ⟨s, this⟩
    | unspecified => exact absurd hc hs

/-- Every allowed call returns normally or panics leaving the world as it was. -/
theorem Trace.safe {tr : List (Op V × Out V)} {w : World V} (h : Trace tr w) {op : Op V} (ha : Allowed tr op) :
    (∃ w' o, exec op w = (w', .ok o)) ∨ exec op w = (w, .error .panic) := by
  obtain ⟨s, hr⟩ := h.run
  obtain ⟨hw, hs⟩ := allowed_spec hr ha
  cases hc : s.step op with
  | ok s' o' =>
    obtain ⟨w', h1, _⟩ := step_ok hr.rel hw hc
    exact .inl ⟨w', o', h1⟩
  | panics => exact .inr (step_panics hr.rel hw hc)
  | unspecified => exact absurd hc hs

end Xecs
