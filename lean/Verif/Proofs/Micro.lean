import Verif.Spec.Refine
import Verif.Proofs.Group
import Verif.Proofs.EntityManager
/-
Refinement of the critical sections of the code (one batch of work done under its locks) by small steps of
the specification.
-/
set_option autoImplicit false
namespace Xecs
open Spec
variable {V : Type}

/-! ### Small steps of the specification -/
namespace Spec.State

/-- Store a component; groups not yet updated. -/
def put (s : State V) (id : Nat) (t : Nat) (f : Nat → Option V) (v : V) : State V :=
  { s.setComp t (fun x => if x = id then some v else f x) with
    hw := fun u => if u = t then max (s.hw t) (id + 1) else s.hw u }

/-- Erase a component; groups not updated. -/
def erase (s : State V) (id : Nat) (t : Nat) (f : Nat → Option V) : State V :=
  { s.setComp t (fun x => if x = id then none else f x) with
    groups := s.groups.map fun g => { g with fresh := g.fresh && !g.touches t } }

/-- Group number `k` takes up `id` if it has both components. -/
def join (s : State V) (id k : Nat) : State V :=
  match s.groups[k]? with
  | none => s
  | some gk =>
    { s with groups := s.groups.mapIdx fun i g =>
        { g with
          mem := fun x => g.mem x || (decide (i = k) && x == id && s.both g id)
          fresh := g.fresh && !(!gk.mem id && s.both gk id && (gk.owns g.a || gk.owns g.b)) } }

/-- Group number `k` drops `id`. -/
def leave (s : State V) (id k : Nat) : State V :=
  match s.groups[k]? with
  | none => s
  | some gk =>
    { s with groups := s.groups.mapIdx fun i g =>
        { g with
          mem := fun x => g.mem x && !(decide (i = k) && x == id)
          fresh := g.fresh && !(gk.mem id && (gk.owns g.a || gk.owns g.b)) } }

end Spec.State

/-! ### The relation -/

/-- One storage. -/
def StRel (t : Nat) (o : Option (Storage V)) (f : Option (Nat → Option V)) (n : Nat) : Prop :=
  match o, f with
  | none, none => n = 0
  | some st, some f => st.ty = t ∧ st.set.WF ∧ (∀ e, st.set.lookup e = f e) ∧ st.set.indices.length = n
  | _, _ => False

/-- One group. -/
structure GRel (comps : Nat → Option (Storage V)) (g : Group) (gs : SGroup) : Prop where
  kind : g.kind = toKind gs.kind
  tyA : g.tyA = gs.a
  tyB : g.tyB = gs.b
  ne : gs.kind ≠ .non → gs.a ≠ gs.b
  ex : ∃ A B, comps gs.a = some A ∧ comps gs.b = some B ∧ g.Sound A.set B.set ∧
    (∀ e, gs.mem e = true ↔ g.Mem A.set e) ∧ (gs.fresh = true → g.Fresh A.set B.set)

/-- Components and groups. -/
structure CRel (comps : Nat → Option (Storage V)) (groups : List Group) (s : State V) : Prop where
  st : ∀ t, StRel t (comps t) (s.comp t) (s.hw t)
  glen : groups.length = s.groups.length
  grp : ∀ (k : Nat) g gs, groups[k]? = some g → s.groups[k]? = some gs → GRel comps g gs
  excl : ∀ (i j : Nat) gi gj, s.groups[i]? = some gi → s.groups[j]? = some gj → i ≠ j →
    ∀ t, gi.owns t = true → gj.owns t = false

theorem owns_eq {g : Group} {gs : SGroup} (hk : g.kind = toKind gs.kind) (ha : g.tyA = gs.a)
    (hb : g.tyB = gs.b) (t : Nat) : g.owned t = gs.owns t := by
  cases g <;> cases hkk : gs.kind <;> simp_all [Group.kind, toKind, Group.tyA, Group.tyB, Group.owned, SGroup.owns]

theorem GRel.owns {comps : Nat → Option (Storage V)} {g : Group} {gs : SGroup} (h : GRel comps g gs) (t : Nat) :
    g.owned t = gs.owns t := owns_eq h.kind h.tyA h.tyB t

theorem CRel.comp_some {comps : Nat → Option (Storage V)} {groups : List Group} {s : State V}
    (h : CRel comps groups s) {t : Nat} {f : Nat → Option V} (hf : s.comp t = some f) :
    ∃ st, comps t = some st ∧ st.ty = t ∧ st.set.WF ∧ (∀ e, st.set.lookup e = f e) ∧
      st.set.indices.length = s.hw t := by
  have := h.st t
  rw [hf] at this
  cases hc : comps t with
  | none => rw [hc] at this; exact this.elim
  | some st => rw [hc] at this; exact ⟨st, rfl, this⟩

theorem CRel.comp_none {comps : Nat → Option (Storage V)} {groups : List Group} {s : State V}
    (h : CRel comps groups s) {t : Nat} (hf : s.comp t = none) : comps t = none ∧ s.hw t = 0 := by
  have := h.st t
  rw [hf] at this
  cases hc : comps t with
  | none => rw [hc] at this; exact ⟨rfl, this⟩
  | some st => rw [hc] at this; exact this.elim

theorem CRel.st_some {comps : Nat → Option (Storage V)} {groups : List Group} {s : State V}
    (h : CRel comps groups s) {t : Nat} {st : Storage V} (hs : comps t = some st) :
    st.ty = t ∧ st.set.WF ∧ (∀ e, st.set.lookup e = s.get t e) ∧ st.set.indices.length = s.hw t ∧
      (s.comp t).isSome = true := by
  have := h.st t
  rw [hs] at this
  cases hc : s.comp t with
  | none => rw [hc] at this; exact this.elim
  | some f =>
    rw [hc] at this
    exact ⟨this.1, this.2.1, fun e => by rw [this.2.2.1, State.get, hc], this.2.2.2, rfl⟩

theorem CRel.mem_iff {comps : Nat → Option (Storage V)} {groups : List Group} {s : State V}
    (h : CRel comps groups s) {t : Nat} {st : Storage V} (hs : comps t = some st) (e : Nat) :
    e ∈ st.set.entities ↔ s.has t e = true := by
  obtain ⟨_, hw, hl, _⟩ := h.st_some hs
  rw [← SparseSet.lookup_isSome hw, hl]; rfl

/-- Lowering `fresh` flags keeps the relation. -/
theorem CRel.weaken {comps : Nat → Option (Storage V)} {groups : List Group} {s s' : State V}
    (h : CRel comps groups s) (hc : ∀ t, s'.comp t = s.comp t) (hh : ∀ t, s'.hw t = s.hw t)
    (hl : s'.groups.length = s.groups.length)
    (hg : ∀ (k : Nat) g g', s.groups[k]? = some g → s'.groups[k]? = some g' →
      g'.kind = g.kind ∧ g'.a = g.a ∧ g'.b = g.b ∧ (∀ e, g'.mem e = g.mem e) ∧
      (g'.fresh = true → g.fresh = true)) : CRel comps groups s' := by
  have hex : ∀ (k : Nat) g', s'.groups[k]? = some g' → ∃ g, s.groups[k]? = some g := by
    intro k g' hk
    have := (List.getElem?_eq_some_iff.1 hk).1
    exact ⟨_, List.getElem?_eq_getElem (by omega)⟩
  constructor
  · intro t; rw [hc, hh]; exact h.st t
  · rw [hl]; exact h.glen
  · intro k g gs' hk hk'
    obtain ⟨gs, hgs⟩ := hex k gs' hk'
    obtain ⟨h1, h2, h3, h4, h5⟩ := hg k gs gs' hgs hk'
    have hr := h.grp k g gs hk hgs
    obtain ⟨A, B, e1, e2, e3, e4, e5⟩ := hr.ex
    exact ⟨by rw [h1]; exact hr.kind, by rw [h2]; exact hr.tyA, by rw [h3]; exact hr.tyB,
      by rw [h1, h2, h3]; exact hr.ne,
      A, B, by rw [h2]; exact e1, by rw [h3]; exact e2, e3, fun e => by rw [h4]; exact e4 e,
      fun hf => e5 (h5 hf)⟩
  · intro i j gi gj hi hj hij t ht
    obtain ⟨gi0, hi0⟩ := hex i gi hi
    obtain ⟨gj0, hj0⟩ := hex j gj hj
    obtain ⟨a1, a2, a3, _⟩ := hg i gi0 gi hi0 hi
    obtain ⟨b1, b2, b3, _⟩ := hg j gj0 gj hj0 hj
    have h1 : gi0.owns t = true := by simpa [SGroup.owns, a1, a2, a3] using ht
    have h2 := h.excl i j gi0 gj0 hi0 hj0 hij t h1
    simpa [SGroup.owns, b1, b2, b3] using h2

/-! ### Frame lemmas for one group -/

/-- Reordering storages the group does not own does not disturb it. -/
theorem GRel.reorder {comps comps' : Nat → Option (Storage V)} {g : Group} {gs gs' : SGroup}
    (h : GRel comps g gs) (wf : ∀ t st, comps t = some st → st.set.WF) (own : Nat → Bool)
    (hc : ∀ t st, comps t = some st → ∃ st', comps' t = some st' ∧ st'.set.WF ∧
      (∀ x, st'.set.lookup x = st.set.lookup x) ∧ (own t = false → st'.set = st.set))
    (hown : ∀ t, own t = true → gs.owns t = false)
    (e1 : gs'.kind = gs.kind) (e2 : gs'.a = gs.a) (e3 : gs'.b = gs.b)
    (e4 : ∀ x, gs'.mem x = gs.mem x)
    (e5 : gs'.fresh = true → gs.fresh = true ∧ own gs.a = false ∧ own gs.b = false) :
    GRel comps' g gs' := by
  obtain ⟨A, B, hA, hB, hs, hm, hf⟩ := h.ex
  obtain ⟨A', hA', wA', lA', kA'⟩ := hc _ _ hA
  obtain ⟨B', hB', wB', lB', kB'⟩ := hc _ _ hB
  have wA := wf _ _ hA
  have wB := wf _ _ hB
  have memA : ∀ x, x ∈ A'.set.entities ↔ x ∈ A.set.entities := fun x => by
    rw [← SparseSet.lookup_isSome wA', ← SparseSet.lookup_isSome wA, lA']
  have memB : ∀ x, x ∈ B'.set.entities ↔ x ∈ B.set.entities := fun x => by
    rw [← SparseSet.lookup_isSome wB', ← SparseSet.lookup_isSome wB, lB']
  have oA : gs.owns gs.a = true → A'.set = A.set := by
    intro ho; apply kA'
    cases hx : own gs.a with
    | false => rfl
    | true => rw [hown _ hx] at ho; simp at ho
  have oB : gs.owns gs.b = true → B'.set = B.set := by
    intro ho; apply kB'
    cases hx : own gs.b with
    | false => rfl
    | true => rw [hown _ hx] at ho; simp at ho
  refine ⟨by rw [e1]; exact h.kind, by rw [e2]; exact h.tyA, by rw [e3]; exact h.tyB,
    by rw [e1, e2, e3]; exact h.ne, A', B', by rw [e2]; exact hA', by rw [e3]; exact hB', ?_, ?_, ?_⟩
  · cases g with
    | full l a b =>
      have hk := h.kind
      have h1 : gs.owns gs.a = true := by
        cases hkk : gs.kind <;> simp_all [Group.kind, toKind, SGroup.owns]
      have h2 : gs.owns gs.b = true := by
        cases hkk : gs.kind <;> simp_all [Group.kind, toKind, SGroup.owns]
      rw [oA h1, oB h2]; exact hs
    | part l a b =>
      have hk := h.kind
      have h1 : gs.owns gs.a = true := by
        cases hkk : gs.kind <;> simp_all [Group.kind, toKind, SGroup.owns]
      rw [oA h1]
      intro i hi
      obtain ⟨e, x, y⟩ := hs i hi
      exact ⟨e, x, (memB e).2 y⟩
    | non s a b =>
      refine ⟨hs.1, fun e he => ?_⟩
      obtain ⟨x, y⟩ := hs.2 e he
      exact ⟨(memA e).2 x, (memB e).2 y⟩
  · intro e
    rw [e4, hm]
    cases g with
    | full l a b =>
      have hk := h.kind
      have h1 : gs.owns gs.a = true := by
        cases hkk : gs.kind <;> simp_all [Group.kind, toKind, SGroup.owns]
      rw [oA h1]
    | part l a b =>
      have hk := h.kind
      have h1 : gs.owns gs.a = true := by
        cases hkk : gs.kind <;> simp_all [Group.kind, toKind, SGroup.owns]
      rw [oA h1]
    | non s a b => exact Iff.rfl
  · intro hfr
    obtain ⟨f1, f2, f3⟩ := e5 hfr
    have := hf f1
    rw [kA' f2, kB' f3]; exact this

/-- Appending to a storage does not disturb any group. -/
theorem GRel.extend {comps comps' : Nat → Option (Storage V)} {g : Group} {gs : SGroup}
    (h : GRel comps g gs)
    (hc : ∀ t st, comps t = some st → ∃ st', comps' t = some st' ∧
      (∃ l, st'.set.entities = st.set.entities ++ l) ∧
      (∀ x, x ∈ st.set.entities → st'.set.getIndex x = st.set.getIndex x)) :
    GRel comps' g gs := by
  obtain ⟨A, B, hA, hB, hs, hm, hf⟩ := h.ex
  obtain ⟨A', hA', ⟨la, lA'⟩, iA'⟩ := hc _ _ hA
  obtain ⟨B', hB', ⟨lb, lB'⟩, iB'⟩ := hc _ _ hB
  have getA : ∀ (i e : Nat), A.set.entities[i]? = some e → A'.set.entities[i]? = some e := by
    intro i e he
    rw [lA', List.getElem?_append_left (List.getElem?_eq_some_iff.1 he).1]; exact he
  have getB : ∀ (i e : Nat), B.set.entities[i]? = some e → B'.set.entities[i]? = some e := by
    intro i e he
    rw [lB', List.getElem?_append_left (List.getElem?_eq_some_iff.1 he).1]; exact he
  have memA : ∀ x, x ∈ A.set.entities → x ∈ A'.set.entities := fun x hx => by
    rw [lA']; exact List.mem_append_left _ hx
  have memB : ∀ x, x ∈ B.set.entities → x ∈ B'.set.entities := fun x hx => by
    rw [lB']; exact List.mem_append_left _ hx
  refine ⟨h.kind, h.tyA, h.tyB, h.ne, A', B', hA', hB', ?_, ?_, ?_⟩
  · cases g with
    | full l a b =>
      intro i hi
      obtain ⟨e, x, y⟩ := hs i hi
      exact ⟨e, getA _ _ x, getB _ _ y⟩
    | part l a b =>
      intro i hi
      obtain ⟨e, x, y⟩ := hs i hi
      exact ⟨e, getA _ _ x, memB _ y⟩
    | non s a b =>
      refine ⟨hs.1, fun e he => ?_⟩
      obtain ⟨x, y⟩ := hs.2 e he
      exact ⟨memA e x, memB e y⟩
  · intro e
    rw [hm]
    cases g with
    | full l a b =>
      constructor
      · rintro ⟨i, hi, he⟩; exact ⟨i, hi, getA _ _ he⟩
      · rintro ⟨i, hi, he⟩
        obtain ⟨e', x, y⟩ := hs i hi
        rw [getA _ _ x] at he; simp at he; subst he
        exact ⟨i, hi, x⟩
    | part l a b =>
      constructor
      · rintro ⟨i, hi, he⟩; exact ⟨i, hi, getA _ _ he⟩
      · rintro ⟨i, hi, he⟩
        obtain ⟨e', x, y⟩ := hs i hi
        rw [getA _ _ x] at he; simp at he; subst he
        exact ⟨i, hi, x⟩
    | non s a b => exact Iff.rfl
  · intro hfr
    have := hf hfr
    cases g with
    | full l a b => trivial
    | part l a b => trivial
    | non s a b =>
      intro e ia ib he
      obtain ⟨x, y⟩ := this e ia ib he
      have hes : e ∈ s.entities := (SparseSet.lookup_isSome hs.1).1 (by rw [he]; rfl)
      obtain ⟨m1, m2⟩ := hs.2 e hes
      exact ⟨by rw [iA' e m1]; exact x, by rw [iB' e m2]; exact y⟩

/-- Erasing from a storage an entity that is not a member does not disturb the group, except that cached
positions become invalid. -/
theorem GRel.shrink {comps comps' : Nat → Option (Storage V)} {g : Group} {gs gs' : SGroup}
    (h : GRel comps g gs) (wf : ∀ t st, comps t = some st → st.set.WF) (id t : Nat)
    (hc : ∀ u st, comps u = some st → ∃ st', comps' u = some st' ∧ (u ≠ t → st'.set = st.set) ∧
      (u = t → ∀ i : Nat, st.set.entities[i]? = some id →
        (∀ k : Nat, k < i → st'.set.entities[k]? = st.set.entities[k]?) ∧
        (∀ x, x ∈ st'.set.entities ↔ x ≠ id ∧ x ∈ st.set.entities)) ∧
      (u = t → id ∉ st.set.entities → st'.set = st.set))
    (hn : gs.touches t = true → gs.mem id = false)
    (e1 : gs'.kind = gs.kind) (e2 : gs'.a = gs.a) (e3 : gs'.b = gs.b)
    (e4 : ∀ x, gs'.mem x = gs.mem x)
    (e5 : gs'.fresh = true → gs.fresh = true ∧ gs.touches t = false) :
    GRel comps' g gs' := by
  obtain ⟨A, B, hA, hB, hs, hm, hf⟩ := h.ex
  obtain ⟨A', hA', a1, a2, a3⟩ := hc _ _ hA
  obtain ⟨B', hB', b1, b2, b3⟩ := hc _ _ hB
  have wA := wf _ _ hA
  have wB := wf _ _ hB
  have hmem_ne : ∀ e, g.Mem A.set e → gs.touches t = true → e ≠ id := by
    rintro e he ht rfl
    have := (hm e).2 he
    rw [hn ht] at this; simp at this
  have tA : gs.a = t → gs.touches t = true := fun h => by simp [SGroup.touches, h]
  have tB : gs.b = t → gs.touches t = true := fun h => by simp [SGroup.touches, h]
  -- members stay where they are
  have keepA : ∀ e, g.Mem A.set e → e ∈ A.set.entities → e ∈ A'.set.entities := by
    intro e he hea
    by_cases ht : gs.a = t
    · by_cases hid : id ∈ A.set.entities
      · obtain ⟨i, hi⟩ := List.mem_iff_getElem?.1 hid
        exact ((a2 ht i hi).2 e).2 ⟨hmem_ne e he (tA ht), hea⟩
      · rw [a3 ht hid]; exact hea
    · rw [a1 ht]; exact hea
  have keepB : ∀ e, g.Mem A.set e → e ∈ B.set.entities → e ∈ B'.set.entities := by
    intro e he hea
    by_cases ht : gs.b = t
    · by_cases hid : id ∈ B.set.entities
      · obtain ⟨i, hi⟩ := List.mem_iff_getElem?.1 hid
        exact ((b2 ht i hi).2 e).2 ⟨hmem_ne e he (tB ht), hea⟩
      · rw [b3 ht hid]; exact hea
    · rw [b1 ht]; exact hea
  -- an owned prefix is preserved
  have prefA : ∀ l : Nat, (∀ i, i < l → ∃ e, A.set.entities[i]? = some e ∧ g.Mem A.set e) →
      ∀ k, k < l → A'.set.entities[k]? = A.set.entities[k]? := by
    intro l hl k hk
    by_cases ht : gs.a = t
    · by_cases hid : id ∈ A.set.entities
      · obtain ⟨i, hi⟩ := List.mem_iff_getElem?.1 hid
        apply (a2 ht i hi).1
        apply Nat.not_le.1; intro hle
        obtain ⟨e, x, y⟩ := hl i (by omega)
        rw [hi] at x; simp at x; exact hmem_ne e y (tA ht) x.symm
      · rw [a3 ht hid]
    · rw [a1 ht]
  have prefB : ∀ l : Nat, (∀ i, i < l → ∃ e, B.set.entities[i]? = some e ∧ g.Mem A.set e) →
      ∀ k, k < l → B'.set.entities[k]? = B.set.entities[k]? := by
    intro l hl k hk
    by_cases ht : gs.b = t
    · by_cases hid : id ∈ B.set.entities
      · obtain ⟨i, hi⟩ := List.mem_iff_getElem?.1 hid
        apply (b2 ht i hi).1
        apply Nat.not_le.1; intro hle
        obtain ⟨e, x, y⟩ := hl i (by omega)
        rw [hi] at x; simp at x; exact hmem_ne e y (tB ht) x.symm
      · rw [b3 ht hid]
    · rw [b1 ht]
  refine ⟨by rw [e1]; exact h.kind, by rw [e2]; exact h.tyA, by rw [e3]; exact h.tyB,
    by rw [e1, e2, e3]; exact h.ne, A', B', by rw [e2]; exact hA', by rw [e3]; exact hB', ?_, ?_, ?_⟩
  · cases g with
    | full l a b =>
      intro i hi
      obtain ⟨e, x, y⟩ := hs i hi
      refine ⟨e, ?_, ?_⟩
      · rw [prefA l (fun j hj => ?_) i hi, x]
        obtain ⟨e', x', y'⟩ := hs j hj
        exact ⟨e', x', j, hj, x'⟩
      · rw [prefB l (fun j hj => ?_) i hi, y]
        obtain ⟨e', x', y'⟩ := hs j hj
        exact ⟨e', y', j, hj, x'⟩
    | part l a b =>
      intro i hi
      obtain ⟨e, x, y⟩ := hs i hi
      refine ⟨e, ?_, keepB e ⟨i, hi, x⟩ y⟩
      rw [prefA l (fun j hj => ?_) i hi, x]
      obtain ⟨e', x', y'⟩ := hs j hj
      exact ⟨e', x', j, hj, x'⟩
    | non s a b =>
      refine ⟨hs.1, fun e he => ?_⟩
      obtain ⟨x, y⟩ := hs.2 e he
      exact ⟨keepA e he x, keepB e he y⟩
  · intro e
    rw [e4, hm]
    cases g with
    | full l a b =>
      have hp := prefA l (fun j hj => by
        obtain ⟨e', x', y'⟩ := hs j hj
        exact ⟨e', x', j, hj, x'⟩)
      constructor
      · rintro ⟨i, hi, he⟩; exact ⟨i, hi, by rw [hp i hi]; exact he⟩
      · rintro ⟨i, hi, he⟩; exact ⟨i, hi, by rw [hp i hi] at he; exact he⟩
    | part l a b =>
      have hp := prefA l (fun j hj => by
        obtain ⟨e', x', y'⟩ := hs j hj
        exact ⟨e', x', j, hj, x'⟩)
      constructor
      · rintro ⟨i, hi, he⟩; exact ⟨i, hi, by rw [hp i hi]; exact he⟩
      · rintro ⟨i, hi, he⟩; exact ⟨i, hi, by rw [hp i hi] at he; exact he⟩
    | non s a b => exact Iff.rfl
  · intro hfr
    obtain ⟨f1, f2⟩ := e5 hfr
    have := hf f1
    have na : gs.a ≠ t := fun h => by rw [tA h] at f2; simp at f2
    have nb : gs.b ≠ t := fun h => by rw [tB h] at f2; simp at f2
    rw [a1 na, b1 nb]; exact this

end Xecs
