import Verif.Proofs.SparseSet
/-
Groups: invariants and behaviour of add, remove and make for the three kinds.
-/
set_option autoImplicit false
namespace Xecs



namespace Group
variable {V : Type}

/-- The members of a group: for the owning kinds the first `length` entries of the first storage, for
the non-owning kind the keys of the group's own set. -/
def Mem (g : Group) (A : SparseSet V) (e : Nat) : Prop :=
  match g with
  | full l _ _ => ∃ i, i < l ∧ A.entities[i]? = some e
  | part l _ _ => ∃ i, i < l ∧ A.entities[i]? = some e
  | non s _ _ => e ∈ s.entities

/-- The representation is consistent: every member has both components, owned storages start with the
members (in the same order if both are owned). -/
def Sound (g : Group) (A B : SparseSet V) : Prop :=
  match g with
  | full l _ _ => ∀ i, i < l → ∃ e, A.entities[i]? = some e ∧ B.entities[i]? = some e
  | part l _ _ => ∀ i, i < l → ∃ e, A.entities[i]? = some e ∧ e ∈ B.entities
  | non s _ _ => s.WF ∧ ∀ e ∈ s.entities, e ∈ A.entities ∧ e ∈ B.entities

/-- The cached slots of a non-owning group are those of the storages. -/
def Fresh (g : Group) (A B : SparseSet V) : Prop :=
  match g with
  | non s _ _ => ∀ e ia ib, s.lookup e = some (ia, ib) → A.getIndex e = some ia ∧ B.getIndex e = some ib
  | _ => True

/-- Same kind and types. -/
def Like (g h : Group) : Prop := g.kind = h.kind ∧ g.tyA = h.tyA ∧ g.tyB = h.tyB

theorem Like.refl (g : Group) : g.Like g := ⟨rfl, rfl, rfl⟩

theorem Like.owned {g h : Group} (hl : g.Like h) (t : Nat) : g.owned t = h.owned t := by
  obtain ⟨h1, h2, h3⟩ := hl
  cases g <;> cases h <;> simp_all [kind, tyA, tyB, Group.owned]

theorem Sound.mem_both {g : Group} {A B : SparseSet V} (hs : g.Sound A B) {e : Nat} (hm : g.Mem A e) :
    e ∈ A.entities ∧ e ∈ B.entities := by
  cases g with
  | full l a b =>
    obtain ⟨i, hi, he⟩ := hm
    obtain ⟨e', h1, h2⟩ := hs i hi
    rw [he] at h1; simp at h1; subst h1
    exact ⟨List.mem_of_getElem? he, List.mem_of_getElem? h2⟩
  | part l a b =>
    obtain ⟨i, hi, he⟩ := hm
    obtain ⟨e', h1, h2⟩ := hs i hi
    rw [he] at h1; simp at h1; subst h1
    exact ⟨List.mem_of_getElem? he, h2⟩
  | non s a b => exact hs.2 e hm

/-- `in_components` decides "has both components". -/
theorem inComponents_eq {g : Group} {A B : SparseSet V} (hA : A.WF) (hB : B.WF) {e : Nat} :
    g.inComponents e A B = true ↔ e ∈ A.entities ∧ e ∈ B.entities := by
  simp [inComponents, SparseSet.exist_iff hA, SparseSet.exist_iff hB]

open Classical in
/-- `in_group` decides membership. -/
theorem inGroup_eq {g : Group} {A B : SparseSet V} (hA : A.WF) (hB : B.WF) (hs : g.Sound A B) (e : Nat) :
    g.inGroup e A B = .ok (decide (g.Mem A e)) := by
  unfold inGroup
  by_cases hc : g.inComponents e A B = true
  · obtain ⟨h1, h2⟩ := (inComponents_eq hA hB).1 hc
    obtain ⟨ia, hia⟩ := List.mem_iff_getElem?.1 h1
    obtain ⟨ib, hib⟩ := List.mem_iff_getElem?.1 h2
    have hga := (SparseSet.getIndex_iff hA).2 hia
    have hgb := (SparseSet.getIndex_iff hB).2 hib
    simp only [hc, Bool.not_true, Bool.false_eq_true, if_false]
    cases g with
    | full l a b =>
      simp only [hga, hgb, unwrapR_some, ok_bind, Mem]
      congr 1
      by_cases hl : ia < l
      · obtain ⟨e', h3, h4⟩ := hs ia hl
        rw [hia] at h3; simp at h3; subst h3
        have := SparseSet.entities_inj hB hib h4
        have hm : ∃ i, i < l ∧ A.entities[i]? = some e := ⟨ia, hl, hia⟩
        have hbl : ib < l := by omega
        simp [hl, hbl, hm]
      · have hm : ¬ ∃ i, i < l ∧ A.entities[i]? = some e := by
          rintro ⟨i, h5, h6⟩
          have := SparseSet.entities_inj hA hia h6; omega
        simp [hl, hm]
    | part l a b =>
      simp only [hga, unwrapR_some, ok_bind, Mem]
      congr 1
      by_cases hl : ia < l
      · have hm : ∃ i, i < l ∧ A.entities[i]? = some e := ⟨ia, hl, hia⟩
        simp [hl, hm]
      · have hm : ¬ ∃ i, i < l ∧ A.entities[i]? = some e := by
          rintro ⟨i, h5, h6⟩
          have := SparseSet.entities_inj hA hia h6; omega
        simp [hl, hm]
    | non s a b =>
      simp only [Mem]
      congr 1
      have := SparseSet.exist_iff hs.1 (e := e)
      by_cases hm : e ∈ s.entities
      · simp [hm, this.2 hm]
      · simp only [hm, decide_false]
        cases hx : s.exist e with
        | true => exact absurd (this.1 hx) hm
        | false => rfl
  · have hm : ¬ g.Mem A e := fun hm => hc ((inComponents_eq hA hB).2 (hs.mem_both hm))
    simp [hc, hm]

/-- Properties shared by add, remove and make: types kept, storages only reordered, and only if owned. -/
structure Upd (g g' : Group) (A B A' B' : SparseSet V) : Prop where
  like : g'.Like g
  wfA : A'.WF
  wfB : B'.WF
  lookA : ∀ x, A'.lookup x = A.lookup x
  lookB : ∀ x, B'.lookup x = B.lookup x
  ilenA : A'.indices.length = A.indices.length
  ilenB : B'.indices.length = B.indices.length
  lenA : A'.entities.length = A.entities.length
  lenB : B'.entities.length = B.entities.length
  keepA : g.owned g.tyA = false → A' = A
  keepB : g.owned g.tyB = false → B' = B
  sound : g'.Sound A' B'

theorem Upd.refl {g : Group} {A B : SparseSet V} (hA : A.WF) (hB : B.WF) (hs : g.Sound A B) :
    Upd g g A B A B :=
  ⟨.refl g, hA, hB, fun _ => rfl, fun _ => rfl, rfl, rfl, rfl, rfl, fun _ => rfl, fun _ => rfl, hs⟩

theorem Upd.memA {g g' : Group} {A B A' B' : SparseSet V} (h : Upd g g' A B A' B') (hA : A.WF) (x : Nat) :
    x ∈ A'.entities ↔ x ∈ A.entities := by
  rw [← SparseSet.lookup_isSome h.wfA, ← SparseSet.lookup_isSome hA, h.lookA]
theorem Upd.memB {g g' : Group} {A B A' B' : SparseSet V} (h : Upd g g' A B A' B') (hB : B.WF) (x : Nat) :
    x ∈ B'.entities ↔ x ∈ B.entities := by
  rw [← SparseSet.lookup_isSome h.wfB, ← SparseSet.lookup_isSome hB, h.lookB]

/-- `Group.add`: `id` becomes a member iff it has both components; nothing else changes. -/
theorem add_spec {g : Group} {A B : SparseSet V} (hA : A.WF) (hB : B.WF) (hs : g.Sound A B)
    (hab : g.kind ≠ .non → g.tyA ≠ g.tyB) (id : Nat) :
    ∃ g' A' B', g.add id A B = .ok (g', A', B') ∧ Upd g g' A B A' B' ∧
      (∀ e, g'.Mem A' e ↔ g.Mem A e ∨ (e = id ∧ id ∈ A.entities ∧ id ∈ B.entities)) ∧
      (g.Fresh A B → g'.Fresh A' B') ∧
      (g.Mem A id ∨ ¬ (id ∈ A.entities ∧ id ∈ B.entities) → A' = A ∧ B' = B ∧ g' = g) := by
  unfold add
  by_cases hc : g.inComponents id A B = true
  rotate_left
  · have hn : ¬ (id ∈ A.entities ∧ id ∈ B.entities) := fun h => hc ((inComponents_eq hA hB).2 h)
    refine ⟨g, A, B, by simp [hc], .refl hA hB hs, ?_, fun h => h, fun _ => ⟨rfl, rfl, rfl⟩⟩
    intro e
    exact ⟨.inl, fun h => h.elim id_of fun h => absurd h.2 hn⟩
  obtain ⟨h1, h2⟩ := (inComponents_eq hA hB).1 hc
  simp only [hc, Bool.not_true, Bool.false_eq_true, if_false, inGroup_eq hA hB hs, ok_bind]
  by_cases hm : g.Mem A id
  · refine ⟨g, A, B, by simp [hm], .refl hA hB hs, ?_, fun h => h, fun _ => ⟨rfl, rfl, rfl⟩⟩
    intro e
    exact ⟨.inl, fun h => h.elim id_of fun h => h.1 ▸ hm⟩
  obtain ⟨ia, hia⟩ := List.mem_iff_getElem?.1 h1
  obtain ⟨ib, hib⟩ := List.mem_iff_getElem?.1 h2
  have hga := (SparseSet.getIndex_iff hA).2 hia
  have hgb := (SparseSet.getIndex_iff hB).2 hib
  have hial : ia < A.entities.length := (List.getElem?_eq_some_iff.1 hia).1
  have hibl : ib < B.entities.length := (List.getElem?_eq_some_iff.1 hib).1
  simp only [hm, decide_false, Bool.false_eq_true, if_false]
  cases g with
  | full l a b =>
    have hne := hab (by simp [kind])
    have hla : l ≤ ia := Nat.not_lt.1 fun h => hm ⟨ia, h, hia⟩
    have hlb : l ≤ ib := by
      apply Nat.not_lt.1; intro h
      obtain ⟨e', h3, h4⟩ := hs ib h
      rw [hib] at h4; simp at h4; subst h4
      exact hm ⟨ib, h, h3⟩
    obtain ⟨A', hA', wA, iA, lA, eA, kA, mA⟩ := SparseSet.swapByIndex_spec hA hial (j := l) (by omega)
    obtain ⟨B', hB', wB, iB, lB, eB, kB, mB⟩ := SparseSet.swapByIndex_spec hB hibl (j := l) (by omega)
    refine ⟨full (l+1) a b, A', B', by simp [hga, hgb, hA', hB'], ?_, ?_, fun _ => trivial, ?_⟩
    · refine ⟨⟨rfl, rfl, rfl⟩, wA, wB, kA, kB, iA, iB, lA, lB, by simp [owned, tyA], by simp [owned, tyB], ?_⟩
      intro i hi
      rw [eA, eB]
      by_cases hil : i = l
      · simp [hil, hia, hib]
      · obtain ⟨e, h3, h4⟩ := hs i (by omega)
        have : i ≠ ia := by omega
        have : i ≠ ib := by omega
        refine ⟨e, ?_, ?_⟩ <;> simp [hil, *]
    · intro e
      simp only [Mem]
      constructor
      · rintro ⟨i, hi, he⟩
        rw [eA] at he
        by_cases hil : i = l
        · simp [hil, hia] at he; exact .inr ⟨he.symm, h1, h2⟩
        · have : i ≠ ia := by omega
          simp only [hil, this, if_false] at he
          exact .inl ⟨i, by omega, he⟩
      · rintro (⟨i, hi, he⟩ | ⟨rfl, _, _⟩)
        · refine ⟨i, by omega, ?_⟩
          rw [eA, if_neg (by omega), if_neg (by omega), he]
        · exact ⟨l, by omega, by rw [eA, if_pos rfl, hia]⟩
    · rintro (h | h)
      · exact h.elim
      · exact absurd ⟨h1, h2⟩ h
  | part l a b =>
    have hne := hab (by simp [kind])
    have hla : l ≤ ia := Nat.not_lt.1 fun h => hm ⟨ia, h, hia⟩
    obtain ⟨A', hA', wA, iA, lA, eA, kA, mA⟩ := SparseSet.swapByIndex_spec hA hial (j := l) (by omega)
    refine ⟨part (l+1) a b, A', B, by simp [hga, hA'], ?_, ?_, fun _ => trivial, ?_⟩
    · refine ⟨⟨rfl, rfl, rfl⟩, wA, hB, kA, fun _ => rfl, iA, rfl, lA, rfl, by simp [owned, tyA],
        fun _ => rfl, ?_⟩
      intro i hi
      rw [eA]
      by_cases hil : i = l
      · simp [hil, hia, h2]
      · obtain ⟨e, h3, h4⟩ := hs i (by omega)
        have : i ≠ ia := by omega
        refine ⟨e, ?_, h4⟩; simp [hil, *]
    · intro e
      simp only [Mem]
      constructor
      · rintro ⟨i, hi, he⟩
        rw [eA] at he
        by_cases hil : i = l
        · simp [hil, hia] at he; exact .inr ⟨he.symm, h1, h2⟩
        · have : i ≠ ia := by omega
          simp only [hil, this, if_false] at he
          exact .inl ⟨i, by omega, he⟩
      · rintro (⟨i, hi, he⟩ | ⟨rfl, _, _⟩)
        · refine ⟨i, by omega, ?_⟩
          rw [eA, if_neg (by omega), if_neg (by omega), he]
        · exact ⟨l, by omega, by rw [eA, if_pos rfl, hia]⟩
    · rintro (h | h)
      · exact h.elim
      · exact absurd ⟨h1, h2⟩ h
  | non s a b =>
    obtain ⟨s', hs', ws, es, ds, is, ks, gs⟩ := SparseSet.add_absent hs.1 (ia, ib) (e := id) hm
    refine ⟨non s' a b, A, B, by simp [hga, hgb, hs'], ?_, ?_, ?_, ?_⟩
    · refine ⟨⟨rfl, rfl, rfl⟩, hA, hB, fun _ => rfl, fun _ => rfl, rfl, rfl, rfl, rfl, fun _ => rfl,
        fun _ => rfl, ws, ?_⟩
      intro e he
      rw [es, List.mem_append, List.mem_singleton] at he
      rcases he with he | rfl
      · exact hs.2 e he
      · exact ⟨h1, h2⟩
    · intro e
      simp only [Mem, es, List.mem_append, List.mem_singleton]
      constructor
      · rintro (h | h)
        · exact .inl h
        · exact .inr ⟨h, h1, h2⟩
      · rintro (h | h)
        · exact .inl h
        · exact .inr h.1
    · intro hf e xa xb hx
      rw [ks] at hx
      by_cases he : e = id
      · subst he; simp at hx; obtain ⟨rfl, rfl⟩ := hx; exact ⟨hga, hgb⟩
      · simp only [he, if_false] at hx; exact hf e xa xb hx
    · rintro (h | h)
      · exact h.elim
      · exact absurd ⟨h1, h2⟩ h
where id_of {p : Prop} (h : p) : p := h

/-- `Group.remove`: `id` stops being a member; nothing else changes. -/
theorem remove_spec {g : Group} {A B : SparseSet V} (hA : A.WF) (hB : B.WF) (hs : g.Sound A B)
    (hab : g.kind ≠ .non → g.tyA ≠ g.tyB) (id : Nat) :
    ∃ g' A' B', g.remove id A B = .ok (g', A', B') ∧ Upd g g' A B A' B' ∧
      (∀ e, g'.Mem A' e ↔ g.Mem A e ∧ e ≠ id) ∧
      (g.Fresh A B → g'.Fresh A' B') ∧
      (¬ g.Mem A id → A' = A ∧ B' = B ∧ g' = g) := by
  unfold remove
  simp only [inGroup_eq hA hB hs, ok_bind]
  by_cases hm : g.Mem A id
  rotate_left
  · refine ⟨g, A, B, by simp [hm], .refl hA hB hs, ?_, fun h => h, fun _ => ⟨rfl, rfl, rfl⟩⟩
    intro e
    exact ⟨fun h => ⟨h, fun he => hm (he ▸ h)⟩, fun h => h.1⟩
  obtain ⟨h1, h2⟩ := hs.mem_both hm
  simp only [hm, decide_true, Bool.not_true, Bool.false_eq_true, if_false]
  cases g with
  | full l a b =>
    obtain ⟨i, hil, hia⟩ := hm
    obtain ⟨e', h3, hib⟩ := hs i hil
    rw [hia] at h3; simp at h3; subst h3
    have hga := (SparseSet.getIndex_iff hA).2 hia
    have hgb := (SparseSet.getIndex_iff hB).2 hib
    have hial : i < A.entities.length := (List.getElem?_eq_some_iff.1 hia).1
    have hibl : i < B.entities.length := (List.getElem?_eq_some_iff.1 hib).1
    obtain ⟨z, hza, hzb⟩ := hs (l-1) (by omega)
    have hlA : l - 1 < A.entities.length := (List.getElem?_eq_some_iff.1 hza).1
    have hlB : l - 1 < B.entities.length := (List.getElem?_eq_some_iff.1 hzb).1
    obtain ⟨A', hA', wA, iA, lA, eA, kA, mA⟩ := SparseSet.swapByIndex_spec hA hial hlA
    obtain ⟨B', hB', wB, iB, lB, eB, kB, mB⟩ := SparseSet.swapByIndex_spec hB hibl hlB
    refine ⟨full (l-1) a b, A', B', by simp [hga, hgb, hA', hB'], ?_, ?_, fun _ => trivial,
      fun h => absurd trivial h⟩
    · refine ⟨⟨rfl, rfl, rfl⟩, wA, wB, kA, kB, iA, iB, lA, lB, by simp [owned, tyA], by simp [owned, tyB], ?_⟩
      intro j hj
      have hjl : j ≠ l - 1 := by omega
      simp only [eA, eB, hjl, if_false]
      by_cases hji : j = i
      · simp [hji, hza, hzb]
      · simp only [hji, if_false]; exact hs j (by omega)
    · intro e
      simp only [Mem]
      constructor
      · rintro ⟨j, hj, he⟩
        rw [eA, if_neg (by omega)] at he
        by_cases hji : j = i
        · subst hji
          rw [if_pos rfl] at he
          refine ⟨⟨l-1, by omega, he⟩, ?_⟩
          rintro rfl
          have := SparseSet.entities_inj hA he hia; omega
        · rw [if_neg hji] at he
          refine ⟨⟨j, by omega, he⟩, ?_⟩
          rintro rfl
          exact hji (SparseSet.entities_inj hA he hia)
      · rintro ⟨⟨j, hj, he⟩, hne⟩
        have hji : j ≠ i := by rintro rfl; rw [hia] at he; simp at he; exact hne he.symm
        by_cases hjl : j = l - 1
        · refine ⟨i, by omega, ?_⟩
          rw [eA, if_neg (by omega), if_pos rfl, ← hjl, he]
        · refine ⟨j, by omega, ?_⟩
          rw [eA, if_neg hjl, if_neg hji, he]
  | part l a b =>
    obtain ⟨i, hil, hia⟩ := hm
    have hga := (SparseSet.getIndex_iff hA).2 hia
    have hial : i < A.entities.length := (List.getElem?_eq_some_iff.1 hia).1
    obtain ⟨z, hza, hzb⟩ := hs (l-1) (by omega)
    have hlA : l - 1 < A.entities.length := (List.getElem?_eq_some_iff.1 hza).1
    obtain ⟨A', hA', wA, iA, lA, eA, kA, mA⟩ := SparseSet.swapByIndex_spec hA hial hlA
    refine ⟨part (l-1) a b, A', B, by simp [hga, hA'], ?_, ?_, fun _ => trivial,
      fun h => absurd trivial h⟩
    · refine ⟨⟨rfl, rfl, rfl⟩, wA, hB, kA, fun _ => rfl, iA, rfl, lA, rfl, by simp [owned, tyA],
        fun _ => rfl, ?_⟩
      intro j hj
      rw [eA, if_neg (by omega)]
      by_cases hji : j = i
      · simp [hji, hza, hzb]
      · simp only [hji, if_false]; exact hs j (by omega)
    · intro e
      simp only [Mem]
      constructor
      · rintro ⟨j, hj, he⟩
        rw [eA, if_neg (by omega)] at he
        by_cases hji : j = i
        · subst hji
          rw [if_pos rfl] at he
          refine ⟨⟨l-1, by omega, he⟩, ?_⟩
          rintro rfl
          have := SparseSet.entities_inj hA he hia; omega
        · rw [if_neg hji] at he
          refine ⟨⟨j, by omega, he⟩, ?_⟩
          rintro rfl
          exact hji (SparseSet.entities_inj hA he hia)
      · rintro ⟨⟨j, hj, he⟩, hne⟩
        have hji : j ≠ i := by rintro rfl; rw [hia] at he; simp at he; exact hne he.symm
        by_cases hjl : j = l - 1
        · refine ⟨i, by omega, ?_⟩
          rw [eA, if_neg (by omega), if_pos rfl, ← hjl, he]
        · refine ⟨j, by omega, ?_⟩
          rw [eA, if_neg hjl, if_neg hji, he]
  | non s a b =>
    obtain ⟨i, hi⟩ := List.mem_iff_getElem?.1 (show id ∈ s.entities from hm)
    obtain ⟨s', hs', ws, is, ls, es, ks, ms⟩ := SparseSet.remove_present hs.1 hi
    have hv : ∃ v, s.lookup id = some v :=
      Option.isSome_iff_exists.1 ((SparseSet.lookup_isSome hs.1).2 hm)
    obtain ⟨v, hv⟩ := hv
    refine ⟨non s' a b, A, B, by simp [hs', hv], ?_, ?_, ?_, fun h => absurd trivial h⟩
    · refine ⟨⟨rfl, rfl, rfl⟩, hA, hB, fun _ => rfl, fun _ => rfl, rfl, rfl, rfl, rfl, fun _ => rfl,
        fun _ => rfl, ws, ?_⟩
      intro e he
      exact hs.2 e ((ms e).1 he).2
    · intro e
      simp only [Mem]
      rw [ms]; exact And.comm
    · intro hf e xa xb hx
      rw [ks] at hx
      by_cases he : e = id
      · simp [he] at hx
      · simp only [he, if_false] at hx; exact hf e xa xb hx

/-! ### make -/

theorem range_cons (i n : Nat) : List.range' i (n + 1) = i :: List.range' (i + 1) n := rfl

theorem makeFullLoopA_spec (n : Nat) : ∀ (i l : Nat) (A B : SparseSet V), A.WF → B.WF →
    i + n = A.entities.length → l ≤ i →
    (∀ k, k < l → ∃ e, A.entities[k]? = some e ∧ B.entities[k]? = some e) →
    (∀ k e : Nat, l ≤ k → k < i → A.entities[k]? = some e → e ∉ B.entities) →
    ∃ l' A' B', makeFullLoopA l A B (List.range' i n) = .ok (l', A', B') ∧ A'.WF ∧ B'.WF ∧
      (∀ x, A'.lookup x = A.lookup x) ∧ (∀ x, B'.lookup x = B.lookup x) ∧
      A'.indices.length = A.indices.length ∧ B'.indices.length = B.indices.length ∧
      A'.entities.length = A.entities.length ∧ B'.entities.length = B.entities.length ∧
      (∀ k, k < l' → ∃ e, A'.entities[k]? = some e ∧ B'.entities[k]? = some e) ∧
      (∀ k e : Nat, l' ≤ k → A'.entities[k]? = some e → e ∉ B'.entities) := by
  induction n with
  | zero =>
    intro i l A B hA hB hin hli hs hd
    refine ⟨l, A, B, rfl, hA, hB, fun _ => rfl, fun _ => rfl, rfl, rfl, rfl, rfl, hs, ?_⟩
    intro k e hk he
    have := (List.getElem?_eq_some_iff.1 he).1
    exact hd k e hk (by omega) he
  | succ n ih =>
    intro i l A B hA hB hin hli hs hd
    have hil : i < A.entities.length := by omega
    have hia : A.entities[i]? = some A.entities[i] := List.getElem?_eq_getElem hil
    generalize A.entities[i] = id at hia
    rw [range_cons]
    simp only [makeFullLoopA, SparseSet.idAt, hia, unwrapR_some, ok_bind]
    cases hgb : B.getIndex id with
    | none =>
      simp only
      apply ih (i+1) l A B hA hB (by omega) (by omega) hs
      intro k e hk hk' he
      by_cases hki : k = i
      · subst hki; rw [hia] at he; simp at he; subst he
        exact (SparseSet.getIndex_none hB).1 hgb
      · exact hd k e hk (by omega) he
    | some ib =>
      have hib := (SparseSet.getIndex_iff hB).1 hgb
      have hibl := (List.getElem?_eq_some_iff.1 hib).1
      have hlb : l ≤ ib := by
        apply Nat.not_lt.1; intro h
        obtain ⟨e', h3, h4⟩ := hs ib h
        rw [hib] at h4; simp at h4; subst h4
        have := SparseSet.entities_inj hA h3 hia
        omega
      obtain ⟨A', hA', wA, iA, lA, eA, kA, mA⟩ := SparseSet.swapByIndex_spec hA hil (j := l) (by omega)
      obtain ⟨B', hB', wB, iB, lB, eB, kB, mB⟩ := SparseSet.swapByIndex_spec hB hibl (j := l) (by omega)
      simp only [hA', hB', ok_bind]
      obtain ⟨l', A'', B'', h0, h1, h2, h3, h4, h5, h6, h7, h8, h9, h10⟩ :=
        ih (i+1) (l+1) A' B' wA wB (by omega) (by omega) (by
          intro k hk
          rw [eA, eB]
          by_cases hkl : k = l
          · simp [hkl, hia, hib]
          · obtain ⟨e, h3, h4⟩ := hs k (by omega)
            refine ⟨e, ?_, ?_⟩
            · rw [if_neg hkl, if_neg (by omega), h3]
            · rw [if_neg hkl, if_neg (by omega), h4]) (by
          intro k e hk hk' he
          rw [mB]
          rw [eA, if_neg (by omega)] at he
          by_cases hki : k = i
          · rw [if_pos hki] at he
            exact hd l e (by omega) (by omega) he
          · rw [if_neg hki] at he
            exact hd k e (by omega) (by omega) he)
      exact ⟨l', A'', B'', h0, h1, h2, fun x => by rw [h3, kA], fun x => by rw [h4, kB], by omega,
        by omega, by omega, by omega, h9, h10⟩

theorem makeFullLoopB_of_A (is : List Nat) : ∀ (l : Nat) (A B A' B' : SparseSet V) (l' : Nat),
    makeFullLoopA l B A is = .ok (l', B', A') → makeFullLoopB l A B is = .ok (l', A', B') := by
  induction is with
  | nil =>
    intro l A B A' B' l' h
    simp [makeFullLoopA] at h
    simp [makeFullLoopB, h]
  | cons i is ih =>
    intro l A B A' B' l' h
    simp only [makeFullLoopA] at h
    simp only [makeFullLoopB]
    cases hid : unwrapR (B.idAt i) with
    | error e => simp [hid] at h
    | ok id =>
      simp only [hid, ok_bind] at h ⊢
      cases hg : A.getIndex id with
      | none => simp only [hg] at h ⊢; exact ih _ _ _ _ _ _ h
      | some ia =>
        simp only [hg] at h ⊢
        cases hsB : B.swapByIndex i l with
        | error e => simp [hsB] at h
        | ok B1 =>
          simp only [hsB, ok_bind] at h ⊢
          cases hsA : A.swapByIndex ia l with
          | error e => simp [hsA] at h
          | ok A1 =>
            simp only [hsA, ok_bind] at h ⊢
            exact ih _ _ _ _ _ _ h

theorem makePartLoop_spec (n : Nat) : ∀ (i l : Nat) (A B : SparseSet V), A.WF → B.WF →
    i + n = A.entities.length → l ≤ i →
    (∀ k, k < l → ∃ e, A.entities[k]? = some e ∧ e ∈ B.entities) →
    (∀ k e : Nat, l ≤ k → k < i → A.entities[k]? = some e → e ∉ B.entities) →
    ∃ l' A', makePartLoop l A B (List.range' i n) = .ok (l', A') ∧ A'.WF ∧
      (∀ x, A'.lookup x = A.lookup x) ∧
      A'.indices.length = A.indices.length ∧
      A'.entities.length = A.entities.length ∧
      (∀ k, k < l' → ∃ e, A'.entities[k]? = some e ∧ e ∈ B.entities) ∧
      (∀ k e : Nat, l' ≤ k → A'.entities[k]? = some e → e ∉ B.entities) := by
  induction n with
  | zero =>
    intro i l A B hA hB hin hli hs hd
    refine ⟨l, A, rfl, hA, fun _ => rfl, rfl, rfl, hs, ?_⟩
    intro k e hk he
    have := (List.getElem?_eq_some_iff.1 he).1
    exact hd k e hk (by omega) he
  | succ n ih =>
    intro i l A B hA hB hin hli hs hd
    have hil : i < A.entities.length := by omega
    have hia : A.entities[i]? = some A.entities[i] := List.getElem?_eq_getElem hil
    generalize A.entities[i] = id at hia
    rw [range_cons]
    simp only [makePartLoop, SparseSet.idAt, hia, unwrapR_some, ok_bind]
    have hex := SparseSet.exist_iff hB (e := id)
    cases hgb : B.exist id with
    | false =>
      simp only [Bool.false_eq_true, if_false]
      apply ih (i+1) l A B hA hB (by omega) (by omega) hs
      intro k e hk hk' he
      by_cases hki : k = i
      · subst hki; rw [hia] at he; simp at he; subst he
        rw [← hex, hgb]; simp
      · exact hd k e hk (by omega) he
    | true =>
      have hmem := hex.1 hgb
      obtain ⟨A', hA', wA, iA, lA, eA, kA, mA⟩ := SparseSet.swapByIndex_spec hA hil (j := l) (by omega)
      simp only [hA', ok_bind, if_true]
      obtain ⟨l', A'', h0, h1, h3, h5, h7, h9, h10⟩ :=
        ih (i+1) (l+1) A' B wA hB (by omega) (by omega) (by
          intro k hk
          rw [eA]
          by_cases hkl : k = l
          · simp [hkl, hia, hmem]
          · obtain ⟨e, h3, h4⟩ := hs k (by omega)
            refine ⟨e, ?_, h4⟩
            rw [if_neg hkl, if_neg (by omega), h3]) (by
          intro k e hk hk' he
          rw [eA, if_neg (by omega)] at he
          by_cases hki : k = i
          · rw [if_pos hki] at he
            exact hd l e (by omega) (by omega) he
          · rw [if_neg hki] at he
            exact hd k e (by omega) (by omega) he)
      exact ⟨l', A'', h0, h1, fun x => by rw [h3, kA], by omega, by omega, h9, h10⟩

theorem makeNonLoopA_spec (n : Nat) : ∀ (i : Nat) (s : SparseSet (Nat × Nat)) (A B : SparseSet V),
    A.WF → B.WF → s.WF → i + n = A.entities.length →
    (∀ e : Nat, e ∈ s.entities ↔ e ∈ B.entities ∧ ∃ k, k < i ∧ A.entities[k]? = some e) →
    (∀ e ia ib, s.lookup e = some (ia, ib) → A.getIndex e = some ia ∧ B.getIndex e = some ib) →
    ∃ s', makeNonLoopA s A B (List.range' i n) = .ok s' ∧ s'.WF ∧
      (∀ e : Nat, e ∈ s'.entities ↔ e ∈ B.entities ∧ e ∈ A.entities) ∧
      (∀ e ia ib, s'.lookup e = some (ia, ib) → A.getIndex e = some ia ∧ B.getIndex e = some ib) := by
  induction n with
  | zero =>
    intro i s A B hA hB hs hin hm hf
    refine ⟨s, rfl, hs, ?_, hf⟩
    intro e
    rw [hm, List.mem_iff_getElem? (l := A.entities)]
    constructor
    · rintro ⟨h, k, _, hk⟩; exact ⟨h, k, hk⟩
    · rintro ⟨h, k, hk⟩; exact ⟨h, k, by have := (List.getElem?_eq_some_iff.1 hk).1; omega, hk⟩
  | succ n ih =>
    intro i s A B hA hB hs hin hm hf
    have hil : i < A.entities.length := by omega
    have hia : A.entities[i]? = some A.entities[i] := List.getElem?_eq_getElem hil
    generalize A.entities[i] = id at hia
    rw [range_cons]
    simp only [makeNonLoopA, SparseSet.idAt, hia, unwrapR_some, ok_bind]
    have hsplit : ∀ e : Nat, (∃ k, k < i + 1 ∧ A.entities[k]? = some e) ↔
        (∃ k, k < i ∧ A.entities[k]? = some e) ∨ e = id := by
      intro e
      constructor
      · rintro ⟨k, hk, he⟩
        by_cases hki : k = i
        · subst hki; rw [hia] at he; simp at he; exact .inr he.symm
        · exact .inl ⟨k, by omega, he⟩
      · rintro (⟨k, hk, he⟩ | rfl)
        · exact ⟨k, by omega, he⟩
        · exact ⟨i, by omega, hia⟩
    cases hgb : B.getIndex id with
    | none =>
      have hnb := (SparseSet.getIndex_none hB).1 hgb
      apply ih (i+1) s A B hA hB hs (by omega) _ hf
      intro e
      rw [hm, hsplit]
      constructor
      · rintro ⟨h1, h2⟩; exact ⟨h1, .inl h2⟩
      · rintro ⟨h1, h2 | rfl⟩
        · exact ⟨h1, h2⟩
        · exact absurd h1 hnb
    | some ib =>
      have hib := (SparseSet.getIndex_iff hB).1 hgb
      have hnb : id ∈ B.entities := List.mem_of_getElem? hib
      have hns : id ∉ s.entities := by
        rw [hm]; rintro ⟨_, k, hk, he⟩
        have := SparseSet.entities_inj hA he hia; omega
      obtain ⟨s', hs', ws, es, ds, is, ks, gs⟩ := SparseSet.add_absent hs (i, ib) hns
      simp only [hs', ok_bind]
      apply ih (i+1) s' A B hA hB ws (by omega)
      · intro e
        rw [es, List.mem_append, List.mem_singleton, hm, hsplit]
        constructor
        · rintro (⟨h1, h2⟩ | rfl)
          · exact ⟨h1, .inl h2⟩
          · exact ⟨hnb, .inr rfl⟩
        · rintro ⟨h1, h2 | rfl⟩
          · exact .inl ⟨h1, h2⟩
          · exact .inr rfl
      · intro e xa xb hx
        rw [ks] at hx
        by_cases he : e = id
        · subst he; simp at hx; obtain ⟨rfl, rfl⟩ := hx
          exact ⟨(SparseSet.getIndex_iff hA).2 hia, hgb⟩
        · simp only [he, if_false] at hx; exact hf e xa xb hx

theorem makeNonLoopB_spec (n : Nat) : ∀ (i : Nat) (s : SparseSet (Nat × Nat)) (A B : SparseSet V),
    A.WF → B.WF → s.WF → i + n = B.entities.length →
    (∀ e : Nat, e ∈ s.entities ↔ e ∈ A.entities ∧ ∃ k, k < i ∧ B.entities[k]? = some e) →
    (∀ e ia ib, s.lookup e = some (ia, ib) → A.getIndex e = some ia ∧ B.getIndex e = some ib) →
    ∃ s', makeNonLoopB s A B (List.range' i n) = .ok s' ∧ s'.WF ∧
      (∀ e : Nat, e ∈ s'.entities ↔ e ∈ B.entities ∧ e ∈ A.entities) ∧
      (∀ e ia ib, s'.lookup e = some (ia, ib) → A.getIndex e = some ia ∧ B.getIndex e = some ib) := by
  induction n with
  | zero =>
    intro i s A B hA hB hs hin hm hf
    refine ⟨s, rfl, hs, ?_, hf⟩
    intro e
    rw [hm]
    constructor
    · rintro ⟨h, k, _, hk⟩; exact ⟨List.mem_of_getElem? hk, h⟩
    · rintro ⟨h1, h⟩
      obtain ⟨k, hk⟩ := List.mem_iff_getElem?.1 h1
      exact ⟨h, k, by have := (List.getElem?_eq_some_iff.1 hk).1; omega, hk⟩
  | succ n ih =>
    intro i s A B hA hB hs hin hm hf
    have hil : i < B.entities.length := by omega
    have hia : B.entities[i]? = some B.entities[i] := List.getElem?_eq_getElem hil
    generalize B.entities[i] = id at hia
    rw [range_cons]
    simp only [makeNonLoopB, SparseSet.idAt, hia, unwrapR_some, ok_bind]
    have hsplit : ∀ e : Nat, (∃ k, k < i + 1 ∧ B.entities[k]? = some e) ↔
        (∃ k, k < i ∧ B.entities[k]? = some e) ∨ e = id := by
      intro e
      constructor
      · rintro ⟨k, hk, he⟩
        by_cases hki : k = i
        · subst hki; rw [hia] at he; simp at he; exact .inr he.symm
        · exact .inl ⟨k, by omega, he⟩
      · rintro (⟨k, hk, he⟩ | rfl)
        · exact ⟨k, by omega, he⟩
        · exact ⟨i, by omega, hia⟩
    cases hgb : A.getIndex id with
    | none =>
      have hnb := (SparseSet.getIndex_none hA).1 hgb
      apply ih (i+1) s A B hA hB hs (by omega) _ hf
      intro e
      rw [hm, hsplit]
      constructor
      · rintro ⟨h1, h2⟩; exact ⟨h1, .inl h2⟩
      · rintro ⟨h1, h2 | rfl⟩
        · exact ⟨h1, h2⟩
        · exact absurd h1 hnb
    | some ib =>
      have hib := (SparseSet.getIndex_iff hA).1 hgb
      have hnb : id ∈ A.entities := List.mem_of_getElem? hib
      have hns : id ∉ s.entities := by
        rw [hm]; rintro ⟨_, k, hk, he⟩
        have := SparseSet.entities_inj hB he hia; omega
      obtain ⟨s', hs', ws, es, ds, is, ks, gs⟩ := SparseSet.add_absent hs (ib, i) hns
      simp only [hs', ok_bind]
      apply ih (i+1) s' A B hA hB ws (by omega)
      · intro e
        rw [es, List.mem_append, List.mem_singleton, hm, hsplit]
        constructor
        · rintro (⟨h1, h2⟩ | rfl)
          · exact ⟨h1, .inl h2⟩
          · exact ⟨hnb, .inr rfl⟩
        · rintro ⟨h1, h2 | rfl⟩
          · exact .inl ⟨h1, h2⟩
          · exact .inr rfl
      · intro e xa xb hx
        rw [ks] at hx
        by_cases he : e = id
        · subst he; simp at hx; obtain ⟨rfl, rfl⟩ := hx
          exact ⟨hgb, (SparseSet.getIndex_iff hB).2 hia⟩
        · simp only [he, if_false] at hx; exact hf e xa xb hx

/-- `Group.make`: afterwards the members are exactly the entities having both components. -/
theorem make_spec {g : Group} {A B : SparseSet V} (hA : A.WF) (hB : B.WF) :
    ∃ g' A' B', g.make A B = .ok (g', A', B') ∧ Upd g g' A B A' B' ∧
      (∀ e, g'.Mem A' e ↔ e ∈ A.entities ∧ e ∈ B.entities) ∧ g'.Fresh A' B' := by
  unfold make
  cases g with
  | full l a b =>
    by_cases hlt : A.len < B.len
    · obtain ⟨l', A', B', h0, h1, h2, h3, h4, h5, h6, h7, h8, h9, h10⟩ :=
        makeFullLoopA_spec A.entities.length 0 0 A B hA hB (by omega) (by omega)
          (by intro k hk; omega) (by intro k e hk hk'; omega)
      rw [← List.range_eq_range'] at h0
      have hU : Upd (full l a b) (full l' a b) A B A' B' :=
        ⟨⟨rfl, rfl, rfl⟩, h1, h2, h3, h4, h5, h6, h7, h8, by simp [owned, tyA], by simp [owned, tyB], h9⟩
      refine ⟨full l' a b, A', B', by simp only [SparseSet.len] at hlt ⊢; simp [hlt, h0], hU, ?_, trivial⟩
      intro e
      rw [← hU.memA hA, ← hU.memB hB]
      constructor
      · intro h; exact hU.sound.mem_both h
      · rintro ⟨he1, he2⟩
        obtain ⟨k, hk⟩ := List.mem_iff_getElem?.1 he1
        exact ⟨k, Nat.not_le.1 fun hle => h10 k e hle hk he2, hk⟩
    · obtain ⟨l', B', A', h0, h1, h2, h3, h4, h5, h6, h7, h8, h9, h10⟩ :=
        makeFullLoopA_spec B.entities.length 0 0 B A hB hA (by omega) (by omega)
          (by intro k hk; omega) (by intro k e hk hk'; omega)
      rw [← List.range_eq_range'] at h0
      have h0' := makeFullLoopB_of_A _ _ _ _ _ _ _ h0
      have hU : Upd (full l a b) (full l' a b) A B A' B' :=
        ⟨⟨rfl, rfl, rfl⟩, h2, h1, h4, h3, h6, h5, h8, h7, by simp [owned, tyA], by simp [owned, tyB], by
          intro i hi; obtain ⟨e, x, y⟩ := h9 i hi; exact ⟨e, y, x⟩⟩
      refine ⟨full l' a b, A', B', by simp only [SparseSet.len] at hlt ⊢; simp [hlt, h0'], hU, ?_, trivial⟩
      intro e
      rw [← hU.memA hA, ← hU.memB hB]
      constructor
      · intro h; exact hU.sound.mem_both h
      · rintro ⟨he1, he2⟩
        obtain ⟨k, hk⟩ := List.mem_iff_getElem?.1 he2
        have hkl : k < l' := Nat.not_le.1 fun hle => h10 k e hle hk he1
        obtain ⟨e', x, y⟩ := h9 k hkl
        rw [hk] at x; simp at x; subst x
        exact ⟨k, hkl, y⟩
  | part l a b =>
    obtain ⟨l', A', h0, h1, h3, h5, h7, h9, h10⟩ :=
      makePartLoop_spec A.entities.length 0 0 A B hA hB (by omega) (by omega)
        (by intro k hk; omega) (by intro k e hk hk'; omega)
    rw [← List.range_eq_range'] at h0
    have hU : Upd (part l a b) (part l' a b) A B A' B :=
      ⟨⟨rfl, rfl, rfl⟩, h1, hB, h3, fun _ => rfl, h5, rfl, h7, rfl, by simp [owned, tyA], fun _ => rfl, h9⟩
    refine ⟨part l' a b, A', B, by simp [SparseSet.len, h0], hU, ?_, trivial⟩
    intro e
    rw [← hU.memA hA]
    constructor
    · intro h; exact hU.sound.mem_both h
    · rintro ⟨he1, he2⟩
      obtain ⟨k, hk⟩ := List.mem_iff_getElem?.1 he1
      exact ⟨k, Nat.not_le.1 fun hle => h10 k e hle hk he2, hk⟩
  | non s a b =>
    have hclr : s.clear.WF := SparseSet.wf_new
    have hclr0 : ∀ e, s.clear.lookup e = none := SparseSet.lookup_new
    by_cases hlt : A.len < B.len
    · obtain ⟨s', h0, h1, h2, h3⟩ := makeNonLoopA_spec A.entities.length 0 s.clear A B hA hB hclr
        (by omega) (by intro e; simp [SparseSet.clear]) (by intro e ia ib h; rw [hclr0] at h; simp at h)
      rw [← List.range_eq_range'] at h0
      refine ⟨non s' a b, A, B, by simp only [SparseSet.len] at hlt ⊢; simp [hlt, h0], ?_, ?_, h3⟩
      · exact ⟨⟨rfl, rfl, rfl⟩, hA, hB, fun _ => rfl, fun _ => rfl, rfl, rfl, rfl, rfl, fun _ => rfl,
          fun _ => rfl, h1, fun e he => ⟨((h2 e).1 he).2, ((h2 e).1 he).1⟩⟩
      · intro e; simp only [Mem]; rw [h2]; exact And.comm
    · obtain ⟨s', h0, h1, h2, h3⟩ := makeNonLoopB_spec B.entities.length 0 s.clear A B hA hB hclr
        (by omega) (by intro e; simp [SparseSet.clear]) (by intro e ia ib h; rw [hclr0] at h; simp at h)
      rw [← List.range_eq_range'] at h0
      refine ⟨non s' a b, A, B, by simp only [SparseSet.len] at hlt ⊢; simp [hlt, h0], ?_, ?_, h3⟩
      · exact ⟨⟨rfl, rfl, rfl⟩, hA, hB, fun _ => rfl, fun _ => rfl, rfl, rfl, rfl, rfl, fun _ => rfl,
          fun _ => rfl, h1, fun e he => ⟨((h2 e).1 he).2, ((h2 e).1 he).1⟩⟩
      · intro e; simp only [Mem]; rw [h2]; exact And.comm

end Group
end Xecs
