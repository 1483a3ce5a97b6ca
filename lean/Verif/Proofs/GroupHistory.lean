import Verif.Proofs.History
/-
Groups, read off histories.
-/
set_option autoImplicit false
namespace Xecs
open Spec World Hist
variable {V : Type}

theorem has_eq {s : State V} {t x : Nat} : s.has t x = (s.get t x).isSome := rfl

/-- Operations that touch neither the groups nor which entity has which component. -/
theorem step_groups_same {s s' : State V} {op : Op V} {o : Out V} (hs : s.step op = .ok s' o) :
    (match op with
     | .attach _ _ _ | .removeEntity _ _ | .attachBatch _ _ _ _ | .makeGroup _ _ _ => True
     | .detach id t => s.has t id = true ∨ (s'.groups = s.groups ∧ ∀ t x, s'.has t x = s.has t x)
     | _ => s'.groups = s.groups ∧ ∀ t x, s'.has t x = s.has t x) := by
  cases op with
  | register u =>
    obtain ⟨hn, rfl, rfl⟩ := step_register hs
    refine ⟨rfl, fun t x => ?_⟩
    rw [has_eq, get_setComp, has_eq]
    by_cases hu : t = u
    · subst hu; simp [State.get, hn]
    · simp [hu]
  | createEntity =>
    rcases step_createEntity hs with ⟨_, rfl, rfl⟩ | ⟨x, r, _, rfl, rfl⟩ <;> exact ⟨rfl, fun _ _ => rfl⟩
  | createEntities n => obtain ⟨rfl, rfl⟩ := step_createEntities hs; exact ⟨rfl, fun _ _ => rfl⟩
  | removeEntity order x => trivial
  | exist x => obtain ⟨rfl, rfl⟩ := step_exist hs; exact ⟨rfl, fun _ _ => rfl⟩
  | attach x u v => trivial
  | detach x u =>
    obtain ⟨_, f, hf, ⟨v, hv, rfl, rfl⟩ | ⟨hn, _, rfl, rfl⟩⟩ := step_detach hs
    · exact .inl (by simp [State.has, State.get, hf, hv])
    · exact .inr ⟨rfl, fun _ _ => rfl⟩
  | attachBatch a b u vs => trivial
  | makeGroup k a b => trivial
  | read u x =>
    simp only [State.step, Outcome.ok.injEq] at hs
    obtain ⟨rfl, rfl⟩ := hs
    exact ⟨rfl, fun _ _ => rfl⟩
  | write u x v =>
    rcases step_write hs with ⟨_, rfl, rfl⟩ | ⟨f, hf, hsome, rfl, rfl⟩
    · exact ⟨rfl, fun _ _ => rfl⟩
    · refine ⟨rfl, fun t y => ?_⟩
      rw [has_eq, get_write hf, has_eq]
      split
      · rename_i h; obtain ⟨rfl, rfl⟩ := h
        simp [State.get, hf, hsome]
      · rfl
  | count u => have := step_count hs; subst this; exact ⟨rfl, fun _ _ => rfl⟩
  | registerResource u v =>
    simp only [State.step, Outcome.ok.injEq] at hs
    obtain ⟨rfl, rfl⟩ := hs
    exact ⟨rfl, fun _ _ => rfl⟩
  | resourceRead u =>
    simp only [State.step, Outcome.ok.injEq] at hs
    obtain ⟨rfl, rfl⟩ := hs
    exact ⟨rfl, fun _ _ => rfl⟩
  | resourceWrite u v =>
    rcases step_resourceWrite hs with ⟨_, rfl, rfl⟩ | ⟨_, _, rfl, rfl⟩ <;> exact ⟨rfl, fun _ _ => rfl⟩

theorem both_eq {s s' : State V} {g g' : SGroup} (ha : g'.a = g.a) (hb : g'.b = g.b)
    (h : ∀ t x, s'.has t x = s.has t x) (x : Nat) : s'.both g' x = s.both g x := by
  simp [State.both, ha, hb, h]

/-- What the history says about groups. -/
structure GroupFacts (tr : List (Op V × Out V)) (s : State V) : Prop where
  made : ∀ k a b, madeGroup k a b tr = true ↔ ∃ g ∈ s.groups, g.kind = k ∧ g.a = a ∧ g.b = b
  sync : ∀ g ∈ s.groups, batchSince g.kind g.a g.b tr = false → ∀ x, g.mem x = s.both g x
  owned : ∀ t, ownedEver t tr = true ↔ ∃ g ∈ s.groups, g.owns t = true
  fresh : ∀ g ∈ s.groups, g.kind = .non → movedSince g.a g.b tr = false → ownedEver g.a tr = false →
    ownedEver g.b tr = false → g.fresh = true

/-- Steps that leave kinds and types of the groups alone. -/
theorem GroupFacts.like {tr tr' : List (Op V × Out V)} {s s' : State V} (h : GroupFacts tr s) (upd : SGroup → SGroup)
    (hg : s'.groups = s.groups.map upd) (hk : ∀ g, (upd g).kind = g.kind ∧ (upd g).a = g.a ∧ (upd g).b = g.b)
    (h1 : ∀ k a b, madeGroup k a b tr' = madeGroup k a b tr)
    (h2 : ∀ t, ownedEver t tr' = ownedEver t tr)
    (h3 : ∀ g ∈ s.groups, batchSince g.kind g.a g.b tr' = false →
      batchSince g.kind g.a g.b tr = false ∧ ((∀ x, g.mem x = s.both g x) → ∀ x, (upd g).mem x = s'.both g x))
    (h4 : ∀ g ∈ s.groups, g.kind = .non → movedSince g.a g.b tr' = false → ownedEver g.a tr = false →
      ownedEver g.b tr = false → movedSince g.a g.b tr = false ∧ (g.fresh = true → (upd g).fresh = true)) :
    GroupFacts tr' s' := by
  have hmem : ∀ g', g' ∈ s'.groups ↔ ∃ g ∈ s.groups, upd g = g' := by
    intro g'; rw [hg, List.mem_map]
  have howns : ∀ g t, (upd g).owns t = g.owns t := by
    intro g t; simp [SGroup.owns, (hk g).1, (hk g).2.1, (hk g).2.2]
  refine ⟨?_, ?_, ?_, ?_⟩
  · intro k a b
    rw [h1, h.made]
    constructor
    · rintro ⟨g, hg, e⟩; exact ⟨upd g, (hmem _).2 ⟨g, hg, rfl⟩, by rw [(hk g).1, (hk g).2.1, (hk g).2.2]; exact e⟩
    · rintro ⟨g', hg', e⟩
      obtain ⟨g, hg, rfl⟩ := (hmem _).1 hg'
      rw [(hk g).1, (hk g).2.1, (hk g).2.2] at e
      exact ⟨g, hg, e⟩
  · intro g' hg' hb x
    obtain ⟨g, hg, rfl⟩ := (hmem _).1 hg'
    rw [(hk g).1, (hk g).2.1, (hk g).2.2] at hb
    obtain ⟨e1, e2⟩ := h3 g hg hb
    have := e2 (h.sync g hg e1) x
    simpa [State.both, (hk g).2.1, (hk g).2.2] using this
  · intro t
    rw [h2, h.owned]
    constructor
    · rintro ⟨g, hg, e⟩; exact ⟨upd g, (hmem _).2 ⟨g, hg, rfl⟩, by rw [howns]; exact e⟩
    · rintro ⟨g', hg', e⟩
      obtain ⟨g, hg, rfl⟩ := (hmem _).1 hg'
      rw [howns] at e
      exact ⟨g, hg, e⟩
  · intro g' hg' hkk hm ha hb
    obtain ⟨g, hg, rfl⟩ := (hmem _).1 hg'
    rw [(hk g).1] at hkk
    rw [(hk g).2.1, (hk g).2.2] at hm
    rw [(hk g).2.1, h2] at ha
    rw [(hk g).2.2, h2] at hb
    obtain ⟨e1, e2⟩ := h4 g hg hkk hm ha hb
    exact e2 (h.fresh g hg hkk e1 ha hb)

theorem GroupFacts.same {tr tr' : List (Op V × Out V)} {s s' : State V} (h : GroupFacts tr s)
    (hg : s'.groups = s.groups) (hh : ∀ t x, s'.has t x = s.has t x)
    (h1 : ∀ k a b, madeGroup k a b tr' = madeGroup k a b tr)
    (h2 : ∀ t, ownedEver t tr' = ownedEver t tr)
    (h3 : ∀ k a b, batchSince k a b tr' = batchSince k a b tr)
    (h4 : ∀ a b, movedSince a b tr' = false → movedSince a b tr = false) : GroupFacts tr' s' := by
  refine h.like id (by simp [hg]) (fun g => ⟨rfl, rfl, rfl⟩) h1 h2 ?_ ?_
  · intro g _ hb
    rw [h3] at hb
    exact ⟨hb, fun h x => by rw [both_eq rfl rfl hh]; exact h x⟩
  · intro g _ _ hm _ _; exact ⟨h4 _ _ hm, fun h => h⟩

theorem has_attached {s : State V} {t id u x : Nat} {f : Nat → Option V} {v : V} (hf : s.comp t = some f) :
    (s.attached id t f v).has u x = (s.has u x || (x == id && u == t)) := by
  rw [has_eq, get_attached hf]
  by_cases h : x = id ∧ u = t
  · obtain ⟨rfl, rfl⟩ := h; simp
  · rw [if_neg h]
    have : (x == id && u == t) = false := by
      rw [Bool.and_eq_false_iff]
      by_cases hx : x = id
      · exact .inr (by simp; exact fun hu => h ⟨hx, hu⟩)
      · exact .inl (by simp [hx])
    rw [this, Bool.or_false, has_eq]

theorem has_detached {s : State V} {t id u x : Nat} {f : Nat → Option V} (hf : s.comp t = some f) :
    (s.detached id t f).has u x = (s.has u x && !(x == id && u == t)) := by
  rw [has_eq, get_detached hf]
  by_cases h : x = id ∧ u = t
  · obtain ⟨rfl, rfl⟩ := h; simp
  · rw [if_neg h]
    have : (x == id && u == t) = false := by
      rw [Bool.and_eq_false_iff]
      by_cases hx : x = id
      · exact .inr (by simp; exact fun hu => h ⟨hx, hu⟩)
      · exact .inl (by simp [hx])
    rw [this, has_eq]; simp

theorem has_removed {s : State V} {id u x : Nat} : (s.removed id).has u x = (s.has u x && !(x == id)) := by
  rw [has_eq, get_removed]
  by_cases h : x = id
  · simp [h]
  · have : (x == id) = false := by simp [h]
    rw [if_neg h, this, has_eq]; simp

theorem has_batch {s : State V} {t start u x : Nat} {f : Nat → Option V} {vs : List V} (hf : s.comp t = some f)
    (hu : u ≠ t) : (s.batchAttached start t f vs).has u x = s.has u x := by
  rw [has_eq, get_batch hf, has_eq]; simp [hu]

theorem run_groups {tr : List (Op V × Out V)} {w : World V} {s : State V} (h : Run tr w s) : GroupFacts tr s := by
  refine Run.ind (P := fun tr s => GroupFacts tr s) ?_ ?_ h
  · refine ⟨?_, ?_, ?_, ?_⟩
    · intro k a b; simp [madeGroup, Spec.init]
    · intro g hg; simp [Spec.init] at hg
    · intro t; simp [ownedEver, Spec.init]
    · intro g hg; simp [Spec.init] at hg
  intro tr w s s' op o hr ih hw hs
  have hsame := step_groups_same hs
  cases op with
  | register u =>
    exact ih.same hsame.1 hsame.2 (fun _ _ _ => rfl) (fun _ => rfl) (fun _ _ _ => rfl) (fun _ _ h => h)
  | createEntity =>
    exact ih.same hsame.1 hsame.2 (fun _ _ _ => rfl) (fun _ => rfl) (fun _ _ _ => rfl) (fun _ _ h => h)
  | createEntities n =>
    exact ih.same hsame.1 hsame.2 (fun _ _ _ => rfl) (fun _ => rfl) (fun _ _ _ => rfl) (fun _ _ h => h)
  | exist x =>
    exact ih.same hsame.1 hsame.2 (fun _ _ _ => rfl) (fun _ => rfl) (fun _ _ _ => rfl) (fun _ _ h => h)
  | read u x =>
    exact ih.same hsame.1 hsame.2 (fun _ _ _ => rfl) (fun _ => rfl) (fun _ _ _ => rfl) (fun _ _ h => h)
  | write u x v =>
    exact ih.same hsame.1 hsame.2 (fun _ _ _ => rfl) (fun _ => rfl) (fun _ _ _ => rfl) (fun _ _ h => h)
  | count u =>
    exact ih.same hsame.1 hsame.2 (fun _ _ _ => rfl) (fun _ => rfl) (fun _ _ _ => rfl) (fun _ _ h => h)
  | registerResource u v =>
    exact ih.same hsame.1 hsame.2 (fun _ _ _ => rfl) (fun _ => rfl) (fun _ _ _ => rfl) (fun _ _ h => h)
  | resourceRead u =>
    exact ih.same hsame.1 hsame.2 (fun _ _ _ => rfl) (fun _ => rfl) (fun _ _ _ => rfl) (fun _ _ h => h)
  | resourceWrite u v =>
    exact ih.same hsame.1 hsame.2 (fun _ _ _ => rfl) (fun _ => rfl) (fun _ _ _ => rfl) (fun _ _ h => h)
  | attach id t v =>
    obtain ⟨hl, f, hf, rfl, rfl⟩ := step_attach hs
    refine ih.like (fun g =>
      { g with
        mem := fun x => g.mem x || (x == id && g.touches t && (s.attached id t f v).both g id)
        fresh := g.fresh && !(s.groups.any fun h =>
          h.touches t && !h.mem id && (s.attached id t f v).both h id && (h.owns g.a || h.owns g.b)) }) rfl (fun g => ⟨rfl, rfl, rfl⟩) (fun _ _ _ => rfl)
      (fun _ => rfl) ?_ ?_
    · intro g hg hb
      refine ⟨hb, fun hsy x => ?_⟩
      simp only [State.both, has_attached hf, hsy, SGroup.touches]
      by_cases hx : x = id
      · subst hx
        have e1 : (t == g.a) = (g.a == t) := Bool.beq_comm
        have e2 : (t == g.b) = (g.b == t) := Bool.beq_comm
        rw [e1, e2]
        cases s.has g.a x <;> cases s.has g.b x <;> cases (g.a == t) <;> cases (g.b == t) <;> simp
      · have : (x == id) = false := by simp [hx]
        simp [this]
    · intro g hg hk hm ha hb
      refine ⟨hm, fun hfr => ?_⟩
      simp only [hfr, Bool.true_and, Bool.not_eq_true', List.any_eq_false]
      intro g' hg'
      have e1 : g'.owns g.a = false := by
        cases hx : g'.owns g.a with
        | false => rfl
        | true => rw [(ih.owned g.a).2 ⟨g', hg', hx⟩] at ha; simp at ha
      have e2 : g'.owns g.b = false := by
        cases hx : g'.owns g.b with
        | false => rfl
        | true => rw [(ih.owned g.b).2 ⟨g', hg', hx⟩] at hb; simp at hb
      simp [e1, e2]
  | detach id t =>
    obtain ⟨_, f, hf, ⟨v, hv, rfl, rfl⟩ | ⟨hn, _, rfl, rfl⟩⟩ := step_detach hs
    · refine ih.like (fun g =>
      { g with
        mem := fun x => g.mem x && !(x == id && g.touches t)
        fresh := g.fresh && !g.touches t && !(s.groups.any fun h =>
          h.touches t && h.mem id && (h.owns g.a || h.owns g.b)) }) rfl (fun g => ⟨rfl, rfl, rfl⟩) (fun _ _ _ => rfl)
        (fun _ => rfl) ?_ ?_
      · intro g hg hb
        refine ⟨hb, fun hsy x => ?_⟩
        simp only [State.both, has_detached hf, hsy, SGroup.touches]
        have e1 : (t == g.a) = (g.a == t) := Bool.beq_comm
        have e2 : (t == g.b) = (g.b == t) := Bool.beq_comm
        rw [e1, e2]
        cases s.has g.a x <;> cases s.has g.b x <;> cases (g.a == t) <;> cases (g.b == t) <;>
          cases (x == id) <;> simp
      · intro g hg hk hm ha hb
        simp only [movedSince, Bool.or_eq_false_iff] at hm
        refine ⟨hm.2, fun hfr => ?_⟩
        simp only [hfr, Bool.true_and, Bool.and_eq_true, Bool.not_eq_true', List.any_eq_false, SGroup.touches,
          Bool.or_eq_false_iff]
        refine ⟨hm.1, ?_⟩
        intro g' hg'
        have e1 : g'.owns g.a = false := by
          cases hx : g'.owns g.a with
          | false => rfl
          | true => rw [(ih.owned g.a).2 ⟨g', hg', hx⟩] at ha; simp at ha
        have e2 : g'.owns g.b = false := by
          cases hx : g'.owns g.b with
          | false => rfl
          | true => rw [(ih.owned g.b).2 ⟨g', hg', hx⟩] at hb; simp at hb
        simp [e1, e2]
    · exact ih.same rfl (fun _ _ => rfl) (fun _ _ _ => rfl) (fun _ => rfl) (fun _ _ _ => rfl)
        (fun _ _ h => h)
  | removeEntity order id =>
    obtain ⟨hl, _, rfl, rfl⟩ := step_removeEntity hs
    refine ih.like (fun g =>
      { g with
        mem := fun x => g.mem x && !(x == id)
        fresh := g.fresh && !s.has g.a id && !s.has g.b id }) rfl (fun g => ⟨rfl, rfl, rfl⟩) (fun _ _ _ => rfl)
      (fun _ => rfl) ?_ ?_
    · intro g hg hb
      refine ⟨hb, fun hsy x => ?_⟩
      simp only [State.both, has_removed, hsy]
      cases s.has g.a x <;> cases s.has g.b x <;> cases (x == id) <;> simp
    · intro g hg hk hm ha hb
      simp only [movedSince, Bool.or_eq_false_iff] at hm
      refine ⟨hm.2, fun hfr => ?_⟩
      have e1 : s.has g.a id = false := by rw [has_eq, run_get hr]; exact hm.1.1
      have e2 : s.has g.b id = false := by rw [has_eq, run_get hr]; exact hm.1.2
      simp [hfr, e1, e2]
  | attachBatch start stop t vs =>
    obtain ⟨hab, _, hlen, f, hf, _, rfl, rfl⟩ := step_attachBatch hs
    refine ih.like id (by simp [State.batchAttached, State.setComp]) (fun g => ⟨rfl, rfl, rfl⟩) (fun _ _ _ => rfl)
      (fun _ => rfl) ?_ ?_
    · intro g hg hb
      simp only [batchSince, Bool.or_eq_false_iff, beq_eq_false_iff_ne, ne_eq] at hb
      refine ⟨hb.2, fun hsy x => ?_⟩
      rw [State.both, has_batch hf (fun h => hb.1.1 h.symm), has_batch hf (fun h => hb.1.2 h.symm)]
      exact hsy x
    · intro g hg hk hm ha hb
      exact ⟨hm, fun h => h⟩
  | makeGroup k a b =>
    obtain ⟨c1, c2, _, _, _, rfl, rfl⟩ := step_makeGroup hs
    have hnew : ∀ g ∈ s.groups, ¬ (g.kind = k ∧ g.a = a ∧ g.b = b) := by
      intro g hg ⟨e1, e2, e3⟩
      rw [List.any_eq_false] at c1
      exact c1 g hg (by simp [e1, e2, e3])
    have hmem : ∀ g', g' ∈ (s.grouped k a b).groups ↔
        (∃ g ∈ s.groups, { g with fresh := g.fresh &&
          !((SGroup.mk k a b (fun x => s.has a x && s.has b x) true).owns g.a ||
            (SGroup.mk k a b (fun x => s.has a x && s.has b x) true).owns g.b) } = g') ∨
        g' = ⟨k, a, b, fun x => s.has a x && s.has b x, true⟩ := by
      intro g'
      simp only [State.grouped, List.mem_append, List.mem_map, List.mem_singleton]
    have hown : ∀ t, ownedEver t ((.makeGroup k a b, .unit) :: tr : List (Op V × Out V)) =
        ((SGroup.mk k a b (fun x => s.has a x && s.has b x) true).owns t || ownedEver t tr) := by
      intro t; cases k <;> simp [ownedEver, SGroup.owns]
    refine ⟨?_, ?_, ?_, ?_⟩
    · intro k' a' b'
      simp only [madeGroup, Bool.or_eq_true, ih.made, Bool.and_eq_true, beq_iff_eq]
      constructor
      · rintro (⟨⟨rfl, rfl⟩, rfl⟩ | ⟨g, hg, e⟩)
        · exact ⟨_, (hmem _).2 (.inr rfl), rfl, rfl, rfl⟩
        · exact ⟨_, (hmem _).2 (.inl ⟨g, hg, rfl⟩), e⟩
      · rintro ⟨g', hg', e⟩
        rcases (hmem _).1 hg' with ⟨g, hg, rfl⟩ | rfl
        · exact .inr ⟨g, hg, e⟩
        · exact .inl ⟨⟨e.1, e.2.1⟩, e.2.2⟩
    · intro g' hg' hb x
      rcases (hmem _).1 hg' with ⟨g, hg, rfl⟩ | rfl
      · have hn := hnew g hg
        have : ¬ (k = g.kind ∧ a = g.a ∧ b = g.b) := fun ⟨e1, e2, e3⟩ => hn ⟨e1.symm, e2.symm, e3.symm⟩
        simp only [batchSince, this, if_false] at hb
        exact ih.sync g hg hb x
      · rfl
    · intro t
      rw [hown, Bool.or_eq_true, ih.owned]
      constructor
      · rintro (h1 | ⟨g, hg, e⟩)
        · exact ⟨_, (hmem _).2 (.inr rfl), h1⟩
        · exact ⟨_, (hmem _).2 (.inl ⟨g, hg, rfl⟩), e⟩
      · rintro ⟨g', hg', e⟩
        rcases (hmem _).1 hg' with ⟨g, hg, rfl⟩ | rfl
        · exact .inr ⟨g, hg, e⟩
        · exact .inl e
    · intro g' hg' hk hm ha hb
      rcases (hmem _).1 hg' with ⟨g, hg, rfl⟩ | rfl
      · have hn := hnew g hg
        simp only at hk hm ha hb ⊢
        rw [hown, Bool.or_eq_false_iff] at ha hb
        have : ¬ (k = .non ∧ a = g.a ∧ b = g.b) := fun ⟨e1, e2, e3⟩ => hn ⟨by rw [hk, e1], e2.symm, e3.symm⟩
        simp only [movedSince, this, if_false] at hm
        rw [ih.fresh g hg hk hm ha.2 hb.2, ha.1, hb.1]; rfl
      · rfl

end Xecs
