import Verif.Proofs.Answer
/-
Facts that hold after *any* calls, whatever state the groups and the entity table are in: group
bookkeeping only permutes storages; storages stay maps.
-/
set_option autoImplicit false
namespace Xecs
open Spec World Hist
variable {V : Type}

/-- Kind and types of a group. -/
def gtag (g : Group) : Kind × Nat × Nat := (g.kind, g.tyA, g.tyB)

/-- The entity table, the resources and the kinds and types of the groups are unchanged, every storage has
changed according to `R`. -/
structure Evo (R : SparseSet V → SparseSet V → Prop) (w w' : World V) : Prop where
  em : w'.em = w.em
  res : w'.res = w.res
  tags : w'.groups.map gtag = w.groups.map gtag
  comps : ∀ t, match w.comps t, w'.comps t with
    | none, none => True
    | some st, some st' => st'.ty = st.ty ∧ R st.set st'.set
    | _, _ => False

/-- Same map. -/
def Same (S S' : SparseSet V) : Prop := S.WF → S'.WF ∧ ∀ x, S'.lookup x = S.lookup x

/-- Same map, except that `id` may have lost its value. -/
def Less (id : Nat) (S S' : SparseSet V) : Prop :=
  S.WF → S'.WF ∧ (∀ x, x ≠ id → S'.lookup x = S.lookup x) ∧
    (S'.lookup id = S.lookup id ∨ S'.lookup id = none)

theorem Same.refl (S : SparseSet V) : Same S S := fun h => ⟨h, fun _ => rfl⟩
theorem Same.trans {S S' S'' : SparseSet V} (h : Same S S') (h' : Same S' S'') : Same S S'' := by
  intro hw
  obtain ⟨h1, h2⟩ := h hw
  obtain ⟨h3, h4⟩ := h' h1
  exact ⟨h3, fun x => (h4 x).trans (h2 x)⟩
theorem Same.less {S S' : SparseSet V} (h : Same S S') (id : Nat) : Less id S S' := by
  intro hw
  obtain ⟨h1, h2⟩ := h hw
  exact ⟨h1, fun x _ => h2 x, .inl (h2 id)⟩
theorem Less.refl (id : Nat) (S : SparseSet V) : Less id S S := (Same.refl S).less id
theorem Less.trans {id : Nat} {S S' S'' : SparseSet V} (h : Less id S S') (h' : Less id S' S'') : Less id S S'' := by
  intro hw
  obtain ⟨h1, h2, h3⟩ := h hw
  obtain ⟨h4, h5, h6⟩ := h' h1
  refine ⟨h4, fun x hx => (h5 x hx).trans (h2 x hx), ?_⟩
  rcases h6 with h6 | h6
  · rw [h6]; exact h3
  · exact .inr h6

theorem Evo.refl {R : SparseSet V → SparseSet V → Prop} (hR : ∀ S, R S S) (w : World V) : Evo R w w := by
  refine ⟨rfl, rfl, rfl, fun t => ?_⟩
  cases w.comps t with
  | none => trivial
  | some st => exact ⟨rfl, hR _⟩

theorem Evo.trans {R : SparseSet V → SparseSet V → Prop} (hR : ∀ S S' S'', R S S' → R S' S'' → R S S'')
    {w w' w'' : World V} (h : Evo R w w') (h' : Evo R w' w'') : Evo R w w'' := by
  refine ⟨h'.em.trans h.em, h'.res.trans h.res, h'.tags.trans h.tags, fun t => ?_⟩
  have h1 := h.comps t; have h2 := h'.comps t
  cases e1 : w.comps t <;> cases e2 : w'.comps t <;> cases e3 : w''.comps t <;>
    simp_all
  exact hR _ _ _ h1.2 h2.2

theorem Evo.mono {R R' : SparseSet V → SparseSet V → Prop} (hR : ∀ S S', R S S' → R' S S')
    {w w' : World V} (h : Evo R w w') : Evo R' w w' := by
  refine ⟨h.em, h.res, h.tags, fun t => ?_⟩
  have h1 := h.comps t
  cases e1 : w.comps t <;> cases e2 : w'.comps t <;> simp_all

theorem Evo.get {R : SparseSet V → SparseSet V → Prop} {w w' : World V} (h : Evo R w w') {t : Nat} {st : Storage V}
    (hs : w.comps t = some st) : ∃ st', w'.comps t = some st' ∧ st'.ty = st.ty ∧ R st.set st'.set := by
  have h1 := h.comps t
  rw [hs] at h1
  cases e2 : w'.comps t with
  | none => rw [e2] at h1; exact h1.elim
  | some st' => rw [e2] at h1; exact ⟨st', rfl, h1⟩

theorem Evo.get_none {R : SparseSet V → SparseSet V → Prop} {w w' : World V} (h : Evo R w w') {t : Nat}
    (hs : w.comps t = none) : w'.comps t = none := by
  have h1 := h.comps t
  rw [hs] at h1
  cases e2 : w'.comps t with
  | none => rfl
  | some st' => rw [e2] at h1; exact h1.elim

/-! ### Group operations -/

theorem unwrapR_ok {α : Type} {o : Option α} {a : α} (h : unwrapR o = .ok a) : o = some a := by
  cases o with
  | none => simp at h
  | some b => simp at h; rw [h]

theorem swap_same {S S' : SparseSet V} {i j : Nat} (h : S.swapByIndex i j = .ok S') : Same S S' := by
  intro hw
  by_cases hij : i = j
  · simp [SparseSet.swapByIndex, hij] at h; subst h; exact ⟨hw, fun _ => rfl⟩
  have hi : i < S.entities.length := by
    apply Classical.byContradiction; intro hc
    have : i ≥ S.len := by simp only [SparseSet.len]; omega
    simp [SparseSet.swapByIndex, hij, this] at h
  have hj : j < S.entities.length := by
    apply Classical.byContradiction; intro hc
    have : j ≥ S.len := by simp only [SparseSet.len]; omega
    have hi' : ¬ i ≥ S.len := by simp only [SparseSet.len]; omega
    simp [SparseSet.swapByIndex, hij, this, hi'] at h
  obtain ⟨S2, e1, e2, -, -, -, e3, -⟩ := SparseSet.swapByIndex_spec hw hi hj
  rw [e1] at h; simp at h; subst h
  exact ⟨e2, e3⟩

/-- What a group operation may do. -/
structure GOp (g g' : Group) (A B A' B' : SparseSet V) : Prop where
  tag : gtag g' = gtag g
  a : Same A A'
  b : Same B B'
  non : g.kind = .non → A' = A ∧ B' = B

theorem GOp.refl (g : Group) (A B : SparseSet V) : GOp g g A B A B :=
  ⟨rfl, .refl A, .refl B, fun _ => ⟨rfl, rfl⟩⟩

theorem add_gop {g g' : Group} {A B A' B' : SparseSet V} {id : Nat} (h : g.add id A B = .ok (g', A', B')) :
    GOp g g' A B A' B' := by
  unfold Group.add at h
  split at h
  · simp at h; obtain ⟨rfl, rfl, rfl⟩ := h; exact .refl _ _ _
  rw [bind_eq_ok] at h
  obtain ⟨b, hb, h⟩ := h
  split at h
  · simp at h; obtain ⟨rfl, rfl, rfl⟩ := h; exact .refl _ _ _
  cases g with
  | full l a b =>
    simp only [bind_eq_ok] at h
    obtain ⟨i, _, j, _, A2, hA, B2, hB, h⟩ := h
    simp at h; obtain ⟨rfl, rfl, rfl⟩ := h
    exact ⟨rfl, swap_same hA, swap_same hB, fun h => by simp [Group.kind] at h⟩
  | part l a b =>
    simp only [bind_eq_ok] at h
    obtain ⟨i, _, A2, hA, h⟩ := h
    simp at h; obtain ⟨rfl, rfl, rfl⟩ := h
    exact ⟨rfl, swap_same hA, .refl _, fun h => by simp [Group.kind] at h⟩
  | non s a b =>
    simp only [bind_eq_ok] at h
    obtain ⟨i, _, j, _, s2, _, h⟩ := h
    simp at h; obtain ⟨rfl, rfl, rfl⟩ := h
    exact ⟨rfl, .refl _, .refl _, fun _ => ⟨rfl, rfl⟩⟩

theorem remove_gop {g g' : Group} {A B A' B' : SparseSet V} {id : Nat} (h : g.remove id A B = .ok (g', A', B')) :
    GOp g g' A B A' B' := by
  unfold Group.remove at h
  rw [bind_eq_ok] at h
  obtain ⟨b, hb, h⟩ := h
  split at h
  · simp at h; obtain ⟨rfl, rfl, rfl⟩ := h; exact .refl _ _ _
  cases g with
  | full l a b =>
    simp only [bind_eq_ok] at h
    obtain ⟨i, _, j, _, A2, hA, B2, hB, h⟩ := h
    simp at h; obtain ⟨rfl, rfl, rfl⟩ := h
    exact ⟨rfl, swap_same hA, swap_same hB, fun h => by simp [Group.kind] at h⟩
  | part l a b =>
    simp only [bind_eq_ok] at h
    obtain ⟨i, _, A2, hA, h⟩ := h
    simp at h; obtain ⟨rfl, rfl, rfl⟩ := h
    exact ⟨rfl, swap_same hA, .refl _, fun h => by simp [Group.kind] at h⟩
  | non s a b =>
    simp only [bind_eq_ok] at h
    obtain ⟨⟨s2, r⟩, _, _, _, h⟩ := h
    simp at h; obtain ⟨rfl, rfl, rfl⟩ := h
    exact ⟨rfl, .refl _, .refl _, fun _ => ⟨rfl, rfl⟩⟩

theorem makeFullLoopA_same (l : List Nat) : ∀ {n n' : Nat} {A B A' B' : SparseSet V},
    Group.makeFullLoopA n A B l = .ok (n', A', B') → Same A A' ∧ Same B B' := by
  induction l with
  | nil => intro n n' A B A' B' h; simp [Group.makeFullLoopA] at h; obtain ⟨_, rfl, rfl⟩ := h; exact ⟨.refl _, .refl _⟩
  | cons i l ih =>
    intro n n' A B A' B' h
    simp only [Group.makeFullLoopA, bind_eq_ok] at h
    obtain ⟨id, _, h⟩ := h
    split at h
    · simp only [bind_eq_ok] at h
      obtain ⟨A2, hA, B2, hB, h⟩ := h
      obtain ⟨e1, e2⟩ := ih h
      exact ⟨(swap_same hA).trans e1, (swap_same hB).trans e2⟩
    · exact ih h

theorem makeFullLoopB_same (l : List Nat) : ∀ {n n' : Nat} {A B A' B' : SparseSet V},
    Group.makeFullLoopB n A B l = .ok (n', A', B') → Same A A' ∧ Same B B' := by
  induction l with
  | nil => intro n n' A B A' B' h; simp [Group.makeFullLoopB] at h; obtain ⟨_, rfl, rfl⟩ := h; exact ⟨.refl _, .refl _⟩
  | cons i l ih =>
    intro n n' A B A' B' h
    simp only [Group.makeFullLoopB, bind_eq_ok] at h
    obtain ⟨id, _, h⟩ := h
    split at h
    · simp only [bind_eq_ok] at h
      obtain ⟨A2, hA, B2, hB, h⟩ := h
      obtain ⟨e1, e2⟩ := ih h
      exact ⟨(swap_same hA).trans e1, (swap_same hB).trans e2⟩
    · exact ih h

theorem makePartLoop_same (l : List Nat) : ∀ {n n' : Nat} {A B A' : SparseSet V},
    Group.makePartLoop n A B l = .ok (n', A') → Same A A' := by
  induction l with
  | nil => intro n n' A B A' h; simp [Group.makePartLoop] at h; obtain ⟨_, rfl⟩ := h; exact .refl _
  | cons i l ih =>
    intro n n' A B A' h
    simp only [Group.makePartLoop, bind_eq_ok] at h
    obtain ⟨id, _, h⟩ := h
    split at h
    · simp only [bind_eq_ok] at h
      obtain ⟨A2, hA, h⟩ := h
      exact (swap_same hA).trans (ih h)
    · exact ih h

theorem make_gop {g g' : Group} {A B A' B' : SparseSet V} (h : g.make A B = .ok (g', A', B')) :
    GOp g g' A B A' B' := by
  unfold Group.make at h
  cases g with
  | full l a b =>
    simp only at h
    split at h
    · simp only [bind_eq_ok] at h
      obtain ⟨⟨n, A2, B2⟩, hl, h⟩ := h
      simp at h; obtain ⟨rfl, rfl, rfl⟩ := h
      obtain ⟨e1, e2⟩ := makeFullLoopA_same _ hl
      exact ⟨rfl, e1, e2, fun h => by simp [Group.kind] at h⟩
    · simp only [bind_eq_ok] at h
      obtain ⟨⟨n, A2, B2⟩, hl, h⟩ := h
      simp at h; obtain ⟨rfl, rfl, rfl⟩ := h
      obtain ⟨e1, e2⟩ := makeFullLoopB_same _ hl
      exact ⟨rfl, e1, e2, fun h => by simp [Group.kind] at h⟩
  | part l a b =>
    simp only [bind_eq_ok] at h
    obtain ⟨⟨n, A2⟩, hl, h⟩ := h
    simp at h; obtain ⟨rfl, rfl, rfl⟩ := h
    exact ⟨rfl, makePartLoop_same _ hl, .refl _, fun h => by simp [Group.kind] at h⟩
  | non s a b =>
    simp only at h
    split at h <;>
    · simp only [bind_eq_ok] at h
      obtain ⟨s2, hl, h⟩ := h
      simp at h; obtain ⟨rfl, rfl, rfl⟩ := h
      exact ⟨rfl, .refl _, .refl _, fun _ => ⟨rfl, rfl⟩⟩

/-! ### Critical sections -/

theorem lockPair_inv {w : World V} {g : Group} {A B : SparseSet V} (h : w.lockPair g = .ok (A, B)) :
    ∃ stA stB, w.comps g.tyA = some stA ∧ w.comps g.tyB = some stB ∧ A = stA.set ∧ B = stB.set ∧
      (g.tyA = g.tyB → g.kind = .non) := by
  simp only [lockPair, bind_eq_ok] at h
  obtain ⟨stA, hA, h⟩ := h
  split at h
  · simp at h
  · rename_i hn
    simp only [bind_eq_ok] at h
    obtain ⟨stB, hB, h⟩ := h
    simp at h
    refine ⟨stA, stB, unwrapR_ok hA, unwrapR_ok hB, h.1.symm, h.2.symm, fun he => ?_⟩
    apply Classical.byContradiction; intro hk
    exact hn ⟨he, hk⟩

theorem set_tags {l : List Group} {k : Nat} {g g' : Group} (hk : l[k]? = some g) (ht : gtag g' = gtag g) :
    (l.set k g').map gtag = l.map gtag := by
  apply List.ext_getElem?
  intro i
  simp only [List.getElem?_map, List.getElem?_set]
  by_cases hi : k = i
  · subst hi
    have := (List.getElem?_eq_some_iff.1 hk).1
    rw [hk]; simp [this, ht]
  · simp [hi]

theorem putPair_evo {R : SparseSet V → SparseSet V → Prop} (hR : ∀ S, R S S) {w : World V} {k : Nat}
    {g g' : Group} {stA stB : Storage V} {A' B' : SparseSet V} (hk : w.groups[k]? = some g)
    (hA : w.comps g.tyA = some stA) (hB : w.comps g.tyB = some stB) (ht : gtag g' = gtag g)
    (hab : g.tyA = g.tyB → A' = B') (h1 : R stA.set A') (h2 : R stB.set B') :
    Evo R w (w.putPair k (g', A', B')) := by
  have e1 : g'.tyA = g.tyA := congrArg (·.2.1) ht
  have e2 : g'.tyB = g.tyB := congrArg (·.2.2) ht
  refine ⟨rfl, rfl, set_tags hk ht, fun t => ?_⟩
  rw [putPair_comps e1 e2 hA hB hab]
  by_cases ha : t = g.tyA
  · subst ha; simp [hA, h1]
  · by_cases hb : t = g.tyB
    · subst hb; simp [ha, hB, h2]
    · simp only [ha, hb, if_false]
      cases w.comps t with
      | none => trivial
      | some st => exact ⟨rfl, hR _⟩

theorem getR_ok {α : Type} {l : List α} {i : Nat} {a : α} (h : getR l i = .ok a) : l[i]? = some a := by
  unfold getR at h
  cases hl : l[i]? with
  | none => simp [hl] at h
  | some b => simp [hl] at h; rw [h]

theorem gop_evo {w : World V} {k : Nat} {g g' : Group} {A B A' B' : SparseSet V} (hk : w.groups[k]? = some g)
    (hl : w.lockPair g = .ok (A, B)) (ho : GOp g g' A B A' B') : Evo Same w (w.putPair k (g', A', B')) := by
  obtain ⟨stA, stB, hA, hB, rfl, rfl, hn⟩ := lockPair_inv hl
  refine putPair_evo Same.refl hk hA hB ho.tag ?_ ho.a ho.b
  intro he
  obtain ⟨x, y⟩ := ho.non (hn he)
  rw [x, y]
  rw [he, hB] at hA
  simp at hA; rw [hA]

theorem groupAdd_evo {w w' : World V} {k id : Nat} (h : groupAdd k id w = .ok (w', ())) : Evo Same w w' := by
  simp only [groupAdd, bind_eq_ok] at h
  obtain ⟨g, hg, ⟨A, B⟩, hl, ⟨g', A', B'⟩, ha, h⟩ := h
  simp at h; subst h
  exact gop_evo (getR_ok hg) hl (add_gop ha)

theorem groupRemove_evo {w w' : World V} {k id : Nat} (h : groupRemove k id w = .ok (w', ())) : Evo Same w w' := by
  simp only [groupRemove, bind_eq_ok] at h
  obtain ⟨g, hg, ⟨A, B⟩, hl, ⟨g', A', B'⟩, ha, h⟩ := h
  simp at h; subst h
  exact gop_evo (getR_ok hg) hl (remove_gop ha)

theorem groupMake_evo {w w' : World V} {k : Nat} (h : groupMake k w = .ok (w', ())) : Evo Same w w' := by
  simp only [groupMake, bind_eq_ok] at h
  obtain ⟨g, hg, ⟨A, B⟩, hl, ⟨g', A', B'⟩, ha, h⟩ := h
  simp at h; subst h
  exact gop_evo (getR_ok hg) hl (make_gop ha)

theorem removeUnwrap_less {S S' : SparseSet V} {id : Nat} (h : S.removeUnwrap id = .ok S') :
    Less id S S' ∧ (S.WF → S'.lookup id = none) := by
  have key : S.WF → S'.WF ∧ ∀ x, S'.lookup x = if x = id then none else S.lookup x := by
    intro hw
    by_cases he : id ∈ S.entities
    · obtain ⟨i, hi⟩ := List.mem_iff_getElem?.1 he
      obtain ⟨S2, e1, e2, -, -, -, e3, -⟩ := SparseSet.removeUnwrap_present hw hi
      rw [e1] at h; simp at h; subst h
      exact ⟨e2, e3⟩
    · simp only [SparseSet.removeUnwrap, SparseSet.remove_absent hw he] at h
      split at h <;> simp at h
  constructor
  · intro hw
    obtain ⟨h1, h2⟩ := key hw
    refine ⟨h1, fun x hx => by rw [h2, if_neg hx], .inr (by rw [h2, if_pos rfl])⟩
  · intro hw
    rw [(key hw).2, if_pos rfl]

theorem groupErase_evo {w w' : World V} {k id : Nat} (h : groupErase k id w = .ok (w', ())) : Evo (Less id) w w' := by
  simp only [groupErase, bind_eq_ok] at h
  obtain ⟨g, hg, ⟨A, B⟩, hl, ⟨g', A', B'⟩, ha, h⟩ := h
  have ho := remove_gop ha
  obtain ⟨stA, stB, hA, hB, rfl, rfl, hn⟩ := lockPair_inv hl
  cases g with
  | full l a b =>
    simp only [bind_eq_ok] at h
    obtain ⟨A2, hA2, B2, hB2, h⟩ := h
    simp at h; subst h
    refine putPair_evo (Less.refl id) (getR_ok hg) hA hB ho.tag ?_
      ((ho.a.less id).trans (removeUnwrap_less hA2).1) ((ho.b.less id).trans (removeUnwrap_less hB2).1)
    intro he; have := hn he; simp [Group.kind] at this
  | part l a b =>
    simp only [bind_eq_ok] at h
    obtain ⟨A2, hA2, h⟩ := h
    simp at h; subst h
    refine putPair_evo (Less.refl id) (getR_ok hg) hA hB ho.tag ?_
      ((ho.a.less id).trans (removeUnwrap_less hA2).1) (ho.b.less id)
    intro he; have := hn he; simp [Group.kind] at this
  | non s a b =>
    simp at h; subst h
    refine putPair_evo (Less.refl id) (getR_ok hg) hA hB ho.tag ?_ (ho.a.less id) (ho.b.less id)
    intro he
    obtain ⟨x, y⟩ := ho.non rfl
    rw [x, y]
    rw [he, hB] at hA
    simp at hA; rw [hA]

theorem storeErase_evo {w w' : World V} {t id : Nat} (h : storeErase t id w = .ok (w', ())) :
    Evo (Less id) w w' ∧ ∃ st', w'.comps t = some st' ∧ (∀ st, w.comps t = some st → st.set.WF → st'.set.lookup id = none) := by
  simp only [storeErase, bind_eq_ok] at h
  obtain ⟨st, hst, S, hS, h⟩ := h
  simp at h; subst h
  have hst := unwrapR_ok hst
  obtain ⟨hl, hn⟩ := removeUnwrap_less hS
  constructor
  · refine ⟨rfl, rfl, rfl, fun u => ?_⟩
    rw [setSet_comps]
    by_cases hu : u = t
    · subst hu; simp [hst, hl]
    · simp only [hu, if_false]
      cases w.comps u with
      | none => trivial
      | some st => exact ⟨rfl, Less.refl id _⟩
  · refine ⟨⟨st.ty, S⟩, by simp [setSet_comps, hst], ?_⟩
    intro st2 h2 hw
    rw [hst] at h2; simp at h2; subst h2
    exact hn hw

/-! ### Sections statement by statement, also when they fault -/

theorem swapByIndexX_same (S : SparseSet V) (i j : Nat) : Same S (SparseSet.swapByIndexX i j S).1 := by
  cases h : S.swapByIndex i j with
  | ok S' =>
    have := (SparseSet.swapByIndexX_does i j).ok (s := S) (s' := S') (a := ()) (by rw [h]; rfl)
    rw [this]
    exact swap_same h
  | error e =>
    intro hw
    by_cases hij : i = j
    · simp [SparseSet.swapByIndex, hij] at h
    suffices hs : (SparseSet.swapByIndexX i j S).1 = S by rw [hs]; exact ⟨hw, fun _ => rfl⟩
    simp only [SparseSet.swapByIndexX, if_neg hij, Stm.bind_apply, Stm.read_apply]
    by_cases h1 : i ≥ S.len
    · rw [if_pos h1]
    by_cases h2 : j ≥ S.len
    · simp only [if_neg h1, if_pos h2]
    obtain ⟨S2, e1, -⟩ := SparseSet.swapByIndex_spec hw (i := i) (j := j) (by simp only [SparseSet.len] at h1; omega)
      (by simp only [SparseSet.len] at h2; omega)
    rw [e1] at h
    cases h

theorem removeUnwrapX_less (S : SparseSet V) (id : Nat) : Less id S (SparseSet.removeUnwrapX id S).1 := by
  cases h : S.removeUnwrap id with
  | ok S' =>
    have := (SparseSet.removeUnwrapX_does id).ok (s := S) (s' := S') (a := ()) (by rw [h]; rfl)
    rw [this]
    exact (removeUnwrap_less h).1
  | error e =>
    intro hw
    suffices hs : (SparseSet.removeUnwrapX id S).1 = S by
      rw [hs]
      exact ⟨hw, fun _ _ => rfl, .inl rfl⟩
    rw [SparseSet.removeUnwrapX, Stm.bind_apply]
    cases hr : S.remove id with
    | error e' =>
      have h1 := removeX_state_of_error hw hr
      have h2 := (SparseSet.removeX_does id).error hr
      rcases hx : SparseSet.removeX id S with ⟨S1, r⟩
      rw [hx] at h1 h2
      cases h2
      exact h1
    | ok p =>
      obtain ⟨S1, r⟩ := p
      rw [(SparseSet.removeX_does id).ok hr]
      simp only [SparseSet.removeUnwrap, hr] at h
      cases r with
      | some v => cases h
      | none =>
        have hn : id ∉ S.entities := by
          intro hm
          obtain ⟨i, hi⟩ := List.mem_iff_getElem?.1 hm
          obtain ⟨S2, e1, e2, -⟩ := SparseSet.removeUnwrap_present hw hi
          simp only [SparseSet.removeUnwrap, hr] at e1
          cases e1
        rw [SparseSet.remove_absent hw hn] at hr
        split at hr
        · cases hr
        · cases hr
          rfl

/-- What work on a group and its storages may do, also if it faults. -/
structure Goes (R : SparseSet V → SparseSet V → Prop) (x y : Group.Trio V) : Prop where
  tag : gtag y.1 = gtag x.1
  a : R x.2.1 y.2.1
  b : R x.2.2 y.2.2
  part : x.1.kind = .part → y.2.2 = x.2.2
  non : x.1.kind = .non → y.2 = x.2

/-- `R` allows doing nothing, doing several things, and rearranging. -/
structure Lax (R : SparseSet V → SparseSet V → Prop) : Prop where
  refl : ∀ S, R S S
  swap : ∀ S i j, R S (SparseSet.swapByIndexX i j S).1
  trans : ∀ {S S' S''}, R S S' → R S' S'' → R S S''

theorem lax_same : Lax (Same (V := V)) := ⟨Same.refl, swapByIndexX_same, Same.trans⟩
theorem lax_less (id : Nat) : Lax (Less (V := V) id) := ⟨Less.refl id, fun S i j => (swapByIndexX_same S i j).less id, Less.trans⟩
theorem lax_true : Lax (fun _ _ : SparseSet V => True) := ⟨fun _ => trivial, fun _ _ _ => trivial, fun _ _ => trivial⟩

namespace Goes
variable {R : SparseSet V → SparseSet V → Prop} {α β : Type}

theorem kind {x y : Group.Trio V} (h : Goes R x y) : y.1.kind = x.1.kind := congrArg (·.1) h.tag

theorem refl (hR : Lax R) (x : Group.Trio V) : Goes R x x :=
  ⟨rfl, hR.refl _, hR.refl _, fun _ => rfl, fun _ => rfl⟩

theorem trans (hR : Lax R) {x y z : Group.Trio V} (h : Goes R x y) (h' : Goes R y z) : Goes R x z :=
  ⟨h'.tag.trans h.tag, hR.trans h.a h'.a, hR.trans h.b h'.b,
    fun hk => (h'.part (h.kind.trans hk)).trans (h.part hk), fun hk => (h'.non (h.kind.trans hk)).trans (h.non hk)⟩

theorem bind (hR : Lax R) {m : Stm (Group.Trio V) α} {f : α → Stm (Group.Trio V) β} {x : Group.Trio V} (h : Goes R x (m x).1)
    (h' : ∀ a y, m x = (y, .ok a) → gtag y.1 = gtag x.1 → Goes R y (f a y).1) : Goes R x ((m >>= f) x).1 := by
  rw [Stm.bind_apply]
  rcases hm : m x with ⟨y, r⟩
  rw [hm] at h
  cases r with
  | error e => exact h
  | ok a => exact h.trans hR (h' a y hm h.tag)

theorem read (hR : Lax R) (f : Group.Trio V → Xecs.R α) (x : Group.Trio V) : Goes R x (Stm.read f x).1 := refl hR x

theorem pure (hR : Lax R) (a : α) (x : Group.Trio V) : Goes R x ((Pure.pure a : Stm (Group.Trio V) α) x).1 := refl hR x

theorem onA (hR : Lax R) {m : Stm (SparseSet V) α} {x : Group.Trio V} (h : R x.2.1 (m x.2.1).1) (hk : x.1.kind ≠ .non) :
    Goes R x (Group.onA m x).1 := by
  rw [Group.onA_apply]
  exact ⟨rfl, h, hR.refl _, fun _ => rfl, fun h => absurd h hk⟩

theorem onB (hR : Lax R) {m : Stm (SparseSet V) α} {x : Group.Trio V} (h : R x.2.2 (m x.2.2).1) (hk : x.1.kind = .full) :
    Goes R x (Group.onB m x).1 := by
  rw [Group.onB_apply]
  exact ⟨rfl, hR.refl _, h, fun h => by (rw [hk] at h; cases h), fun h => by (rw [hk] at h; cases h)⟩

theorem set (hR : Lax R) {g : Group} {x : Group.Trio V} (h : gtag g = gtag x.1) : Goes R x (Group.set g x).1 :=
  ⟨h, hR.refl _, hR.refl _, fun _ => rfl, fun _ => rfl⟩

theorem onSet (hR : Lax R) {m : Stm (SparseSet (Nat × Nat)) α} {s : SparseSet (Nat × Nat)} {a b : Nat} {x : Group.Trio V}
    (h : gtag x.1 = (.non, a, b)) : Goes R x (Group.onSet m s a b x).1 := by
  rw [Group.onSet_apply]
  exact ⟨h.symm, hR.refl _, hR.refl _, fun _ => rfl, fun _ => rfl⟩

theorem forEach (hR : Lax R) {γ : Type} {body : γ → Stm (Group.Trio V) Unit} {tag : Kind × Nat × Nat}
    (h : ∀ c x, gtag x.1 = tag → Goes R x (body c x).1) (l : List γ) : ∀ x, gtag x.1 = tag → Goes R x (Stm.forEach l body x).1 := by
  induction l with
  | nil => exact fun x _ => refl hR x
  | cons c l ih =>
    intro x hx
    exact bind hR (h c x hx) fun _ y _ hy => ih y (hy.trans hx)

end Goes

variable {R : SparseSet V → SparseSet V → Prop}

theorem goes_swapA (hR : Lax R) {x : Group.Trio V} (i j : Nat) (hk : x.1.kind ≠ .non) :
    Goes R x (Group.onA (SparseSet.swapByIndexX i j) x).1 := .onA hR (hR.swap _ i j) hk

theorem goes_swapB (hR : Lax R) {x : Group.Trio V} (i j : Nat) (hk : x.1.kind = .full) :
    Goes R x (Group.onB (SparseSet.swapByIndexX i j) x).1 := .onB hR (hR.swap _ i j) hk

theorem read_eq {α : Type} {f : Group.Trio V → α} {x y : Group.Trio V} {a : α}
    (h : Stm.read (fun x => .ok (f x)) x = (y, .ok a)) : x = y ∧ f x = a := by
  simpa [Stm.read_apply] using h

theorem kind_of_tag {g : Group} {k : Kind} {a b : Nat} (h : gtag g = (k, a, b)) : g.kind = k := congrArg (·.1) h

theorem not_non {g : Group} {k : Kind} {a b : Nat} (h : gtag g = (k, a, b)) (hk : k ≠ .non) : g.kind ≠ .non := kind_of_tag h ▸ hk

theorem addX_goes (hR : Lax R) (id : Nat) (x : Group.Trio V) : Goes R x (Group.addX id x).1 := by
  unfold Group.addX
  refine .bind hR (.read hR _ _) fun b y1 hy _ => ?_
  clear hy
  split
  · exact .pure hR _ _
  refine .bind hR (.read hR _ _) fun b y2 hy _ => ?_
  clear hy
  split
  · exact .pure hR _ _
  refine .bind hR (.read hR _ _) fun g y hg _ => ?_
  obtain ⟨rfl, rfl⟩ := read_eq hg
  obtain ⟨g, A, B⟩ := y2
  cases g with
  | full n a b =>
    refine .bind hR (.read hR _ _) fun i y _ h1 => .bind hR (.read hR _ _) fun j z _ h2 =>
      .bind hR (goes_swapA hR _ _ ?_) fun _ u _ h3 => .bind hR (goes_swapB hR _ _ ?_) fun _ v _ h4 => .set hR ?_
    · first | exact not_non (k := .full) (h2.trans h1) (by decide) | exact not_non (k := .part) (h2.trans h1) (by decide)
    · exact kind_of_tag (h3.trans (h2.trans h1))
    · exact (h4.trans (h3.trans (h2.trans h1))).symm
  | part n a b =>
    refine .bind hR (.read hR _ _) fun i y _ h1 => 
      .bind hR (goes_swapA hR _ _ ?_) fun _ u _ h3 => .set hR ?_
    · first | exact not_non (k := .full) h1 (by decide) | exact not_non (k := .part) h1 (by decide)
    · exact (h3.trans h1).symm
  | non s a b =>
    exact .bind hR (.read hR _ _) fun i y _ h1 => .bind hR (.read hR _ _) fun j z _ h2 => .onSet hR (h2.trans h1)

theorem removeX_goes (hR : Lax R) (id : Nat) (x : Group.Trio V) : Goes R x (Group.removeX id x).1 := by
  unfold Group.removeX
  refine .bind hR (.read hR _ _) fun b y1 hy _ => ?_
  clear hy
  split
  · exact .pure hR _ _
  refine .bind hR (.read hR _ _) fun g y hg _ => ?_
  obtain ⟨rfl, rfl⟩ := read_eq hg
  obtain ⟨g, A, B⟩ := y1
  cases g with
  | full n a b =>
    refine .bind hR (.read hR _ _) fun i y _ h1 => .bind hR (.read hR _ _) fun j z _ h2 =>
      .bind hR (.set hR ?_) fun _ u _ h3 => .bind hR (goes_swapA hR _ _ ?_) fun _ v _ h4 => goes_swapB hR _ _ ?_
    · exact (h2.trans h1).symm
    · first | exact not_non (k := .full) (h3.trans (h2.trans h1)) (by decide) | exact not_non (k := .part) (h3.trans (h2.trans h1)) (by decide)
    · exact kind_of_tag (h4.trans (h3.trans (h2.trans h1)))
  | part n a b =>
    refine .bind hR (.read hR _ _) fun i y _ h1 => .bind hR (.set hR ?_) fun _ u _ h3 => goes_swapA hR _ _ ?_
    · exact h1.symm
    · first | exact not_non (k := .full) (h3.trans h1) (by decide) | exact not_non (k := .part) (h3.trans h1) (by decide)
  | non s a b => exact .onSet hR rfl

theorem makeX_goes (hR : Lax R) (x : Group.Trio V) : Goes R x (Group.makeX x).1 := by
  unfold Group.makeX
  refine .bind hR (.read hR _ _) fun la y1 h1 _ => .bind hR (.read hR _ _) fun lb y2 h2 _ => .bind hR (.read hR _ _) fun g y hg _ => ?_
  clear h1 h2
  obtain ⟨rfl, rfl⟩ := read_eq hg
  obtain ⟨g, A, B⟩ := y2
  cases g with
  | full n a b =>
    refine .bind hR (.set hR rfl) fun _ y _ h1 => ?_
    split
    · refine .forEach hR (tag := (.full, a, b)) (fun i x hx => ?_) _ y h1
      refine .bind hR (.read hR _ _) fun id y _ h1 => .bind hR (.read hR _ _) fun j z _ h2 => ?_
      have hz := h2.trans (h1.trans hx)
      cases j with
      | none => exact .pure hR _ _
      | some j =>
        refine .bind hR (.read hR _ _) fun n u _ h3 => .bind hR (goes_swapA hR _ _ ?_) fun _ u _ h4 =>
          .bind hR (goes_swapB hR _ _ ?_) fun _ v _ h5 => .set hR ?_
        · first | exact not_non (k := .full) (h3.trans hz) (by decide) | exact not_non (k := .part) (h3.trans hz) (by decide)
        · exact kind_of_tag (h4.trans (h3.trans hz))
        · exact (h5.trans (h4.trans (h3.trans hz))).symm
    · refine .forEach hR (tag := (.full, a, b)) (fun i x hx => ?_) _ y h1
      refine .bind hR (.read hR _ _) fun id y _ h1 => .bind hR (.read hR _ _) fun j z _ h2 => ?_
      have hz := h2.trans (h1.trans hx)
      cases j with
      | none => exact .pure hR _ _
      | some j =>
        refine .bind hR (.read hR _ _) fun n u _ h3 => .bind hR (goes_swapA hR _ _ ?_) fun _ u _ h4 =>
          .bind hR (goes_swapB hR _ _ ?_) fun _ v _ h5 => .set hR ?_
        · first | exact not_non (k := .full) (h3.trans hz) (by decide) | exact not_non (k := .part) (h3.trans hz) (by decide)
        · exact kind_of_tag (h4.trans (h3.trans hz))
        · exact (h5.trans (h4.trans (h3.trans hz))).symm
  | part n a b =>
    refine .bind hR (.set hR rfl) fun _ y _ h1 => ?_
    refine .forEach hR (tag := (.part, a, b)) (fun i x hx => ?_) _ y h1
    refine .bind hR (.read hR _ _) fun id y _ h1 => .bind hR (.read hR _ _) fun j z _ h2 => ?_
    have hz := h2.trans (h1.trans hx)
    split
    · refine .bind hR (.read hR _ _) fun n u _ h3 => .bind hR (goes_swapA hR _ _ ?_) fun _ u _ h4 => .set hR ?_
      · first | exact not_non (k := .full) (h3.trans hz) (by decide) | exact not_non (k := .part) (h3.trans hz) (by decide)
      · exact (h4.trans (h3.trans hz)).symm
    · exact .pure hR _ _
  | non s a b =>
    refine .bind hR (.set hR rfl) fun _ y _ h1 => ?_
    have key : ∀ (m : Stm (SparseSet (Nat × Nat)) Unit) (x : Group.Trio V), gtag x.1 = (.non, a, b) →
        Goes R x (Group.onNon m x).1 := by
      intro m x hx
      unfold Group.onNon
      refine .bind hR (.read hR _ _) fun g y hg _ => ?_
      obtain ⟨rfl, rfl⟩ := read_eq hg
      obtain ⟨g, A, B⟩ := x
      cases g with
      | non s' a' b' => exact .onSet hR rfl
      | full n a b => exact .read hR _ _
      | part n a b => exact .read hR _ _
    split
    · refine .forEach hR (tag := (.non, a, b)) (fun i x hx => ?_) _ y h1
      refine .bind hR (.read hR _ _) fun id y _ h1 => .bind hR (.read hR _ _) fun j z _ h2 => ?_
      cases j with
      | none => exact .pure hR _ _
      | some j => exact key _ _ (h2.trans (h1.trans hx))
    · refine .forEach hR (tag := (.non, a, b)) (fun i x hx => ?_) _ y h1
      refine .bind hR (.read hR _ _) fun id y _ h1 => .bind hR (.read hR _ _) fun j z _ h2 => ?_
      cases j with
      | none => exact .pure hR _ _
      | some j => exact key _ _ (h2.trans (h1.trans hx))

theorem eraseX_goes {id : Nat} (hR : Lax R) (hL : ∀ S, R S (SparseSet.removeUnwrapX id S).1) (x : Group.Trio V) :
    Goes R x ((do
      let g ← Stm.read fun x => .ok x.1
      Group.removeX id
      match g with
      | .full .. => do Group.onA (SparseSet.removeUnwrapX id); Group.onB (SparseSet.removeUnwrapX id)
      | .part .. => Group.onA (SparseSet.removeUnwrapX id)
      | .non .. => pure () : Stm (Group.Trio V) Unit) x).1 := by
  refine .bind hR (.read hR _ _) fun g y hg _ => ?_
  obtain ⟨rfl, rfl⟩ := read_eq hg
  refine .bind hR (removeX_goes hR id _) fun _ y _ h1 => ?_
  obtain ⟨g, A, B⟩ := x
  cases g with
  | full n a b =>
    refine .bind hR (.onA hR (hL _) ?_) fun _ z _ h2 => .onB hR (hL _) ?_
    · rw [show y.1.kind = .full from kind_of_tag h1]; decide
    · exact kind_of_tag (h2.trans h1)
  | part n a b =>
    refine .onA hR (hL _) ?_
    rw [show y.1.kind = .part from kind_of_tag h1]; decide
  | non s a b => exact .pure hR _ _

/-- Work on a group and its storages, also if it faults. -/
theorem onPair_evo (hR : Lax R) {α : Type} {m : Stm (Group.Trio V) α} (hm : ∀ x, Goes R x (m x).1) (k : Nat) (w : World V) :
    Evo R w (onPair k m w).1 := by
  unfold onPair
  cases hg : getR w.groups k with
  | error e => exact .refl (fun _ => hR.refl _) w
  | ok g =>
    simp only [Xecs.R.bind_ok]
    cases hp : w.lockPair g with
    | error e => exact .refl (fun _ => hR.refl _) w
    | ok p =>
      obtain ⟨A, B⟩ := p
      have ho := hm (g, A, B)
      obtain ⟨stA, stB, hA, hB, rfl, rfl, hn⟩ := lockPair_inv hp
      refine putPair_evo (fun _ => hR.refl _) (getR_ok hg) hA hB ho.tag ?_ ho.a ho.b
      intro he
      have := ho.non (hn he)
      rw [he, hB] at hA
      simp only [Option.some.injEq] at hA
      subst hA
      exact (congrArg Prod.fst this).trans (congrArg Prod.snd this).symm

theorem groupAddX_evo (k id : Nat) (w : World V) : Evo Same w (groupAddX k id w).1 := onPair_evo lax_same (addX_goes lax_same id) k w
theorem groupRemoveX_evo (k id : Nat) (w : World V) : Evo Same w (groupRemoveX k id w).1 :=
  onPair_evo lax_same (removeX_goes lax_same id) k w
theorem groupMakeX_evo (k : Nat) (w : World V) : Evo Same w (groupMakeX k w).1 := onPair_evo lax_same (makeX_goes lax_same) k w
theorem groupEraseX_evo (k id : Nat) (w : World V) : Evo (Less id) w (groupEraseX k id w).1 :=
  onPair_evo (lax_less id) (eraseX_goes (lax_less id) (fun S => removeUnwrapX_less S id)) k w

theorem setSet_evo (hR : ∀ S : SparseSet V, R S S) {w : World V} {t : Nat} {st : Storage V} {S : SparseSet V} (hs : w.comps t = some st)
    (h : R st.set S) : Evo R w (w.setSet t S) := by
  refine ⟨rfl, rfl, rfl, fun u => ?_⟩
  rw [setSet_comps]
  by_cases hu : u = t
  · subst hu; simp [hs, h]
  · simp only [hu, if_false]
    cases w.comps u with
    | none => trivial
    | some st => exact ⟨rfl, hR _⟩

theorem storeEraseX_evo (t id : Nat) (w : World V) : Evo (Less id) w (storeEraseX t id w).1 := by
  unfold storeEraseX onRaw
  cases hs : unwrapR (w.comps t) with
  | error e => exact .refl (Less.refl id) w
  | ok st => exact setSet_evo (Less.refl id) (unwrapR_ok hs) (removeUnwrapX_less _ id)

/-- A loop of critical sections. -/
theorem forEach_evo {γ : Type} (hr : ∀ S, R S S)
    (ht : ∀ S S' S'', R S S' → R S' S'' → R S S'') {f : γ → World V → Xecs.R (World V × Unit)} {x : γ → M V Unit}
    (hf : ∀ x w w', f x w = .ok (w', ()) → Evo R w w') (hx : ∀ c w, Evo R w (x c w).1) (l : List γ) :
    ∀ {w w' : World V} {r : Xecs.R Unit}, M.forEach l (fun c => M.crit (f c) (x c)) w = (w', r) → Evo R w w' := by
  induction l with
  | nil => intro w w' r h; simp only [M.forEach_nil, Prod.mk.injEq] at h; rw [← h.1]; exact .refl hr w
  | cons c l ih =>
    intro w w' r h
    rw [M.forEach_cons] at h
    cases hc : f c w with
    | error e =>
      rw [M.crit_error hc] at h
      simp only [Prod.mk.injEq] at h
      rw [← h.1]; exact hx c w
    | ok p =>
      obtain ⟨w1, _⟩ := p
      rw [M.crit_ok hc] at h
      exact (hf c w w1 hc).trans ht (ih h)

end Xecs
