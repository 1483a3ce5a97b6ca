import Verif.Proofs.Micro
/-
Each critical section of the code refines its small step of the specification.
-/
set_option autoImplicit false
namespace Xecs
open Spec World
variable {V : Type}

/-- Components and groups of a world correspond to those of the specification. -/
abbrev WRel (w : World V) (s : State V) : Prop := CRel w.comps w.groups s

/-- The parts of the world a component operation leaves alone. -/
structure Keeps (w w' : World V) : Prop where
  em : w'.em = w.em
  res : w'.res = w.res
  glen : w'.groups.length = w.groups.length

theorem Keeps.refl (w : World V) : Keeps w w := ⟨rfl, rfl, rfl⟩
theorem Keeps.trans {w w' w'' : World V} (h : Keeps w w') (h' : Keeps w' w'') : Keeps w w'' :=
  ⟨h'.em.trans h.em, h'.res.trans h.res, h'.glen.trans h.glen⟩

theorem setSet_comps (w : World V) (t : Nat) (S : SparseSet V) (u : Nat) :
    (w.setSet t S).comps u = if u = t then (w.comps t).map (fun st => Storage.mk st.ty S) else w.comps u :=
  rfl

theorem WRel.wf {w : World V} {s : State V} (h : WRel w s) (t : Nat) (st : Storage V)
    (hs : w.comps t = some st) : st.set.WF := (h.st_some hs).2.1

/-- Storages after `putPair`. -/
theorem putPair_comps {w : World V} {k : Nat} {g' : Group} {A' B' : SparseSet V} {a b : Nat}
    {A B : Storage V} (ha : g'.tyA = a) (hb : g'.tyB = b)
    (hA : w.comps a = some A) (hB : w.comps b = some B) (hab : a = b → A' = B') (u : Nat) :
    (w.putPair k (g', A', B')).comps u =
      if u = a then some ⟨A.ty, A'⟩ else if u = b then some ⟨B.ty, B'⟩ else w.comps u := by
  simp only [putPair, setSet_comps, ha, hb]
  by_cases hua : u = a
  · by_cases hub : u = b
    · have : a = b := hua ▸ hub
      subst this
      rw [hA] at hB; simp at hB; subst hB
      simp [hua, hA, hab rfl]
    · simp [hub, hua, hA]
      intro h; exact absurd (hua.trans h) hub
  · by_cases hub : u = b
    · have hba : ¬ b = a := fun h => hua (hub.trans h)
      simp [hub, hba, hB]
    · simp [hua, hub]

/-- Writing back a group and its two storages after `add`, `remove` or `make`. -/
theorem putPair_ref {w : World V} {s s' : State V} (h : WRel w s) {k : Nat} {g g' : Group} {gs : SGroup}
    (hk : w.groups[k]? = some g) (hks : s.groups[k]? = some gs) {A B : Storage V} {A' B' : SparseSet V}
    (hA : w.comps g.tyA = some A) (hB : w.comps g.tyB = some B)
    (hU : Group.Upd g g' A.set B.set A' B') (changed : Bool)
    (hch : changed = false → A' = A.set ∧ B' = B.set)
    (hc : ∀ t, s'.comp t = s.comp t) (hh : ∀ t, s'.hw t = s.hw t)
    (hl : s'.groups.length = s.groups.length)
    (hgk : ∀ gs', s'.groups[k]? = some gs' → gs'.kind = gs.kind ∧ gs'.a = gs.a ∧ gs'.b = gs.b ∧
      (∀ e, gs'.mem e = true ↔ g'.Mem A' e) ∧ (gs'.fresh = true → g'.Fresh A' B'))
    (hgo : ∀ (j : Nat) gj gj', j ≠ k → s.groups[j]? = some gj → s'.groups[j]? = some gj' →
      gj'.kind = gj.kind ∧ gj'.a = gj.a ∧ gj'.b = gj.b ∧ (∀ e, gj'.mem e = gj.mem e) ∧
      (gj'.fresh = true → gj.fresh = true ∧ (changed && gs.owns gj.a) = false ∧
        (changed && gs.owns gj.b) = false)) :
    WRel (w.putPair k (g', A', B')) s' ∧ Keeps w (w.putPair k (g', A', B')) := by
  have hr := h.grp k g gs hk hks
  have hkl : k < w.groups.length := (List.getElem?_eq_some_iff.1 hk).1
  have hex : ∀ (k : Nat) g', s'.groups[k]? = some g' → ∃ g, s.groups[k]? = some g := by
    intro k g' hk
    have := (List.getElem?_eq_some_iff.1 hk).1
    exact ⟨_, List.getElem?_eq_getElem (by omega)⟩
  have hsame : g.tyA = g.tyB → A' = B' := by
    intro hab
    have hnon : gs.kind = .non := by
      cases hkk : gs.kind with
      | non => rfl
      | full => exact absurd (hr.tyA.symm.trans (hab.trans hr.tyB)) (hr.ne (by rw [hkk]; simp))
      | part => exact absurd (hr.tyA.symm.trans (hab.trans hr.tyB)) (hr.ne (by rw [hkk]; simp))
    have h1 : g.owned g.tyA = false := by rw [hr.owns]; simp [SGroup.owns, hnon]
    have h2 : g.owned g.tyB = false := by rw [hr.owns]; simp [SGroup.owns, hnon]
    rw [hU.keepA h1, hU.keepB h2]
    rw [hab, hB] at hA; simp at hA; rw [hA]
  have hcomps := putPair_comps (w := w) (k := k) hU.like.2.1 hU.like.2.2 hA hB hsame
  have hgroups : (w.putPair k (g', A', B')).groups = w.groups.set k g' := rfl
  -- what happened to each storage
  have hst : ∀ t st, w.comps t = some st → ∃ st', (w.putPair k (g', A', B')).comps t = some st' ∧
      st'.ty = st.ty ∧ st'.set.WF ∧ (∀ x, st'.set.lookup x = st.set.lookup x) ∧
      st'.set.indices.length = st.set.indices.length ∧
      ((changed && gs.owns t) = false → st'.set = st.set) := by
    intro t st hst
    rw [hcomps]
    by_cases hta : t = g.tyA
    · subst hta
      rw [hA] at hst; simp at hst; subst hst
      refine ⟨⟨A.ty, A'⟩, by simp, rfl, hU.wfA, hU.lookA, hU.ilenA, ?_⟩
      intro hf
      cases hcc : changed with
      | false => exact (hch hcc).1
      | true =>
        rw [hcc] at hf
        exact hU.keepA (by rw [hr.owns]; simpa using hf)
    · by_cases htb : t = g.tyB
      · subst htb
        rw [hB] at hst; simp at hst; subst hst
        refine ⟨⟨B.ty, B'⟩, by simp [hta], rfl, hU.wfB, hU.lookB, hU.ilenB, ?_⟩
        intro hf
        cases hcc : changed with
        | false => exact (hch hcc).2
        | true =>
          rw [hcc] at hf
          exact hU.keepB (by rw [hr.owns]; simpa using hf)
      · exact ⟨st, by simp [hta, htb, hst], rfl, h.wf t st hst, fun _ => rfl, rfl, fun _ => rfl⟩
  have hnone : ∀ t, w.comps t = none → (w.putPair k (g', A', B')).comps t = none := by
    intro t ht
    rw [hcomps]
    have h1 : t ≠ g.tyA := by rintro rfl; rw [hA] at ht; simp at ht
    have h2 : t ≠ g.tyB := by rintro rfl; rw [hB] at ht; simp at ht
    simp [h1, h2, ht]
  refine ⟨⟨?_, ?_, ?_, ?_⟩, ⟨rfl, rfl, by simp [hgroups]⟩⟩
  · intro t
    rw [hc, hh]
    have := h.st t
    cases hw : w.comps t with
    | none => rw [hw] at this; rw [hnone t hw]; exact this
    | some st =>
      obtain ⟨st', h1, h2, h3, h4, h5, h6⟩ := hst t st hw
      rw [hw] at this; rw [h1]
      cases hs : s.comp t with
      | none => rw [hs] at this; exact this.elim
      | some f =>
        rw [hs] at this
        exact ⟨h2.trans this.1, h3, fun e => (h4 e).trans (this.2.2.1 e), h5.trans this.2.2.2⟩
  · rw [hgroups, List.length_set, hl]; exact h.glen
  · intro j gj gj' hj hj'
    rw [hgroups, List.getElem?_set] at hj
    by_cases hjk : k = j
    · subst hjk
      simp only [if_true, hkl] at hj
      simp at hj; subst hj
      obtain ⟨e1, e2, e3, e4, e5⟩ := hgk gj' hj'
      have htyA : g.tyA = gj'.a := by rw [e2]; exact hr.tyA
      have htyB : g.tyB = gj'.b := by rw [e3]; exact hr.tyB
      refine ⟨by rw [hU.like.1, e1]; exact hr.kind, by rw [hU.like.2.1]; exact htyA,
        by rw [hU.like.2.2]; exact htyB, by rw [e1, e2, e3]; exact hr.ne, ⟨A.ty, A'⟩, ⟨B.ty, B'⟩, ?_, ?_,
        hU.sound, e4, e5⟩
      · rw [hcomps]; simp [htyA]
      · rw [hcomps]
        by_cases hba : gj'.b = g.tyA
        · have hab : g.tyA = g.tyB := hba.symm.trans htyB.symm
          have : A = B := by rw [hab, hB] at hA; simpa using hA.symm
          simp [hba, hsame hab, this]
        · simp [hba, htyB]
    · simp only [hjk, if_false] at hj
      obtain ⟨gj0, hj0⟩ := hex j gj' hj'
      obtain ⟨e1, e2, e3, e4, e5⟩ := hgo j gj0 gj' (fun h => hjk h.symm) hj0 hj'
      refine (h.grp j gj gj0 hj hj0).reorder h.wf (fun t => changed && gs.owns t) ?_ ?_ e1 e2 e3 e4 e5
      · intro t st hs
        obtain ⟨st', h1, h2, h3, h4, h5, h6⟩ := hst t st hs
        exact ⟨st', h1, h3, h4, h6⟩
      · intro t ht
        exact h.excl k j gs gj0 hks hj0 hjk t (by simp at ht; exact ht.2)
  · intro i j gi gj hi hj hij t ht
    obtain ⟨gi0, hi0⟩ := hex i gi hi
    obtain ⟨gj0, hj0⟩ := hex j gj hj
    have key : ∀ (i : Nat) gi gi0, s'.groups[i]? = some gi → s.groups[i]? = some gi0 →
        gi.owns t = gi0.owns t := by
      intro i gi gi0 hi hi0
      by_cases hik : i = k
      · subst hik
        obtain ⟨e1, e2, e3, _⟩ := hgk gi hi
        rw [hks] at hi0; simp at hi0; subst hi0
        simp [SGroup.owns, e1, e2, e3]
      · obtain ⟨e1, e2, e3, _⟩ := hgo i gi0 gi hik hi0 hi
        simp [SGroup.owns, e1, e2, e3]
    rw [key j gj gj0 hj hj0]
    rw [key i gi gi0 hi hi0] at ht
    exact h.excl i j gi0 gj0 hi0 hj0 hij t ht

/-- Storages of a group and the pair of guards taken on them. -/
theorem lockPair_ok {w : World V} {s : State V} (h : WRel w s) {k : Nat} {g : Group} {gs : SGroup}
    (hk : w.groups[k]? = some g) (hks : s.groups[k]? = some gs) :
    ∃ A B, w.comps g.tyA = some A ∧ w.comps g.tyB = some B ∧ w.lockPair g = .ok (A.set, B.set) ∧
      A.set.WF ∧ B.set.WF ∧ g.Sound A.set B.set ∧ (g.kind ≠ .non → g.tyA ≠ g.tyB) ∧
      (∀ e, gs.mem e = true ↔ g.Mem A.set e) ∧ (gs.fresh = true → g.Fresh A.set B.set) ∧
      (∀ e, e ∈ A.set.entities ↔ s.has gs.a e = true) ∧ (∀ e, e ∈ B.set.entities ↔ s.has gs.b e = true) := by
  have hr := h.grp k g gs hk hks
  obtain ⟨A, B, hA, hB, hs, hm, hf⟩ := hr.ex
  have hab : g.kind ≠ .non → g.tyA ≠ g.tyB := by
    rw [hr.kind, hr.tyA, hr.tyB]
    intro hkk; apply hr.ne
    cases hx : gs.kind <;> simp_all [toKind]
  refine ⟨A, B, by rw [hr.tyA]; exact hA, by rw [hr.tyB]; exact hB, ?_, h.wf _ _ hA, h.wf _ _ hB, hs, hab,
    hm, hf, fun e => h.mem_iff hA e, fun e => h.mem_iff hB e⟩
  have : ¬ (g.tyA = g.tyB ∧ g.kind ≠ .non) := fun ⟨h1, h2⟩ => hab h2 h1
  simp only [lockPair]
  rw [hr.tyA, hr.tyB] at this ⊢
  simp [hA, hB, this]

theorem group_at {w : World V} {s : State V} (h : WRel w s) {k : Nat} {gs : SGroup}
    (hks : s.groups[k]? = some gs) : ∃ g, w.groups[k]? = some g := by
  have := (List.getElem?_eq_some_iff.1 hks).1
  have := h.glen
  exact ⟨_, List.getElem?_eq_getElem (by omega)⟩

/-- One iteration of the group loop of `attach`. -/
theorem groupAdd_ref {w : World V} {s : State V} (h : WRel w s) (id : Nat) {k : Nat} {gs : SGroup}
    (hks : s.groups[k]? = some gs) :
    ∃ w', groupAdd k id w = .ok (w', ()) ∧ WRel w' (s.join id k) ∧ Keeps w w' := by
  obtain ⟨g, hk⟩ := group_at h hks
  obtain ⟨A, B, hA, hB, hlp, wA, wB, hs, hab, hm, hf, mA, mB⟩ := lockPair_ok h hk hks
  obtain ⟨g', A', B', hadd, hU, hmem, hfresh, hsame⟩ := Group.add_spec wA wB hs hab id
  refine ⟨w.putPair k (g', A', B'), by simp [groupAdd, getR_some hk, hlp, hadd], ?_⟩
  have hboth : s.both gs id = true ↔ id ∈ A.set.entities ∧ id ∈ B.set.entities := by
    rw [mA, mB]; simp [State.both]
  have hjoin : s.join id k = { s with groups := s.groups.mapIdx fun i g =>
        { g with
          mem := fun x => g.mem x || (decide (i = k) && x == id && s.both g id)
          fresh := g.fresh && !(!gs.mem id && s.both gs id && (gs.owns g.a || gs.owns g.b)) } } := by
    simp [State.join, hks]
  rw [hjoin]
  apply putPair_ref h hk hks hA hB hU (!gs.mem id && s.both gs id)
  · intro hc
    have : g.Mem A.set id ∨ ¬ (id ∈ A.set.entities ∧ id ∈ B.set.entities) := by
      simp only [Bool.and_eq_false_iff, Bool.not_eq_false'] at hc
      rcases hc with hc | hc
      · exact .inl ((hm id).1 hc)
      · right; rw [← hboth, hc]; simp
    exact ⟨(hsame this).1, (hsame this).2.1⟩
  · intro t; rfl
  · intro t; rfl
  · simp
  · intro gs' hgs'
    simp only [List.getElem?_mapIdx, hks, Option.map_some, Option.some.injEq] at hgs'
    subst hgs'
    refine ⟨rfl, rfl, rfl, ?_, ?_⟩
    · intro e
      rw [hmem, ← hm]
      simp only [decide_true, Bool.true_and, Bool.or_eq_true, Bool.and_eq_true, beq_iff_eq]
      rw [hboth]
    · intro hfr
      simp only [Bool.and_eq_true] at hfr
      exact hfresh (hf hfr.1)
  · intro j gj gj' hjk hj hj'
    simp only [List.getElem?_mapIdx, hj, Option.map_some, Option.some.injEq] at hj'
    subst hj'
    refine ⟨rfl, rfl, rfl, ?_, ?_⟩
    · intro e; simp [hjk]
    · intro hfr
      simp only [Bool.and_eq_true, Bool.not_eq_true'] at hfr
      refine ⟨hfr.1, ?_, ?_⟩
      · have := hfr.2
        cases hx : (!gs.mem id && s.both gs id) <;> simp_all
      · have := hfr.2
        cases hx : (!gs.mem id && s.both gs id) <;> simp_all

/-- One iteration of the group loop of `detach`. -/
theorem groupRemove_ref {w : World V} {s : State V} (h : WRel w s) (id : Nat) {k : Nat} {gs : SGroup}
    (hks : s.groups[k]? = some gs) :
    ∃ w', groupRemove k id w = .ok (w', ()) ∧ WRel w' (s.leave id k) ∧ Keeps w w' ∧
      ∃ g A B g' A' B', w.groups[k]? = some g ∧ w.lockPair g = .ok (A, B) ∧
        g.remove id A B = .ok (g', A', B') ∧ w' = w.putPair k (g', A', B') := by
  obtain ⟨g, hk⟩ := group_at h hks
  obtain ⟨A, B, hA, hB, hlp, wA, wB, hs, hab, hm, hf, mA, mB⟩ := lockPair_ok h hk hks
  obtain ⟨g', A', B', hrem, hU, hmem, hfresh, hsame⟩ := Group.remove_spec wA wB hs hab id
  have hleave : s.leave id k = { s with groups := s.groups.mapIdx fun i g =>
        { g with
          mem := fun x => g.mem x && !(decide (i = k) && x == id)
          fresh := g.fresh && !(gs.mem id && (gs.owns g.a || gs.owns g.b)) } } := by
    simp [State.leave, hks]
  refine ⟨w.putPair k (g', A', B'), by simp [groupRemove, getR_some hk, hlp, hrem], ?_⟩
  rw [← and_assoc]
  refine ⟨?_, g, _, _, g', A', B', hk, hlp, hrem, rfl⟩
  rw [hleave]
  apply putPair_ref h hk hks hA hB hU (gs.mem id)
  · intro hc
    have : ¬ g.Mem A.set id := by rw [← hm, hc]; simp
    exact ⟨(hsame this).1, (hsame this).2.1⟩
  · intro t; rfl
  · intro t; rfl
  · simp
  · intro gs' hgs'
    simp only [List.getElem?_mapIdx, hks, Option.map_some, Option.some.injEq] at hgs'
    subst hgs'
    refine ⟨rfl, rfl, rfl, ?_, ?_⟩
    · intro e
      rw [hmem, ← hm]
      simp
    · intro hfr
      simp only [Bool.and_eq_true] at hfr
      exact hfresh (hf hfr.1)
  · intro j gj gj' hjk hj hj'
    simp only [List.getElem?_mapIdx, hj, Option.map_some, Option.some.injEq] at hj'
    subst hj'
    refine ⟨rfl, rfl, rfl, ?_, ?_⟩
    · intro e; simp [hjk]
    · intro hfr
      simp only [Bool.and_eq_true, Bool.not_eq_true'] at hfr
      refine ⟨hfr.1, ?_, ?_⟩
      · have := hfr.2
        cases hx : gs.mem id <;> simp_all
      · have := hfr.2
        cases hx : gs.mem id <;> simp_all

/-- The storage part of `attach`. -/
theorem attachStore_ref {w : World V} {s : State V} (h : WRel w s) (id t : Nat) (v : V)
    {f : Nat → Option V} (hf : s.comp t = some f) :
    ∃ w', attachStore t id v w = .ok (w', ()) ∧ WRel w' (s.put id t f v) ∧ Keeps w w' ∧
      w'.groups = w.groups := by
  obtain ⟨st, hst, hty, hwf, hlook, hlen⟩ := h.comp_some hf
  have hadd : ∃ S, st.set.add id v = .ok S ∧ S.WF ∧ (∃ l, S.entities = st.set.entities ++ l) ∧
      S.indices.length = max (s.hw t) (id + 1) ∧
      (∀ x, S.lookup x = if x = id then some v else st.set.lookup x) ∧
      (∀ x, x ∈ st.set.entities → S.getIndex x = st.set.getIndex x) := by
    by_cases he : id ∈ st.set.entities
    · obtain ⟨S, h1, h2, h3, h4, h5, h6⟩ := SparseSet.add_present hwf v he
      obtain ⟨i, hi⟩ := List.mem_iff_getElem?.1 he
      have := (List.getElem?_eq_some_iff.1 ((hwf.idx id i).2 hi)).1
      exact ⟨S, h1, h2, ⟨[], by simp [h3]⟩, by omega, h5, fun x _ => h6 x⟩
    · obtain ⟨S, h1, h2, h3, h3', h4, h5, h6⟩ := SparseSet.add_absent hwf v he
      refine ⟨S, h1, h2, ⟨[id], h3⟩, by omega, h5, fun x hx => ?_⟩
      rw [h6, if_neg]; rintro rfl; exact he hx
  obtain ⟨S, hS, wS, hent, hil, hlk, hgi⟩ := hadd
  refine ⟨w.setSet t S, by simp [attachStore, hst, downcast, hty, hS], ⟨?_, h.glen, ?_, h.excl⟩,
    ⟨rfl, rfl, rfl⟩, rfl⟩
  · intro u
    simp only [setSet_comps, State.put, State.setComp]
    by_cases hut : u = t
    · subst hut
      simp only [if_true, hst, Option.map_some]
      refine ⟨hty, wS, fun e => ?_, hil⟩
      show S.lookup e = _
      rw [hlk, hlook]
    · simp only [hut, if_false]; exact h.st u
  · intro k g gs hk hks
    refine (h.grp k g gs hk hks).extend ?_
    intro u st' hu
    by_cases hut : u = t
    · subst hut
      rw [hst] at hu; simp at hu; subst hu
      exact ⟨⟨st.ty, S⟩, by simp [setSet_comps, hst], hent, hgi⟩
    · exact ⟨st', by simp [setSet_comps, hut, hu], ⟨[], by simp⟩, fun _ _ => rfl⟩

/-- Writing an existing component. -/
theorem write_ref {w : World V} {s : State V} (h : WRel w s) {id t : Nat} (v : V)
    {f : Nat → Option V} (hf : s.comp t = some f) {st : Storage V} (hst : w.comps t = some st)
    (he : (f id).isSome = true) :
    ∃ S, st.set.setUnchecked id v = .ok S ∧
      WRel (w.setSet t S) (s.setComp t fun x => if x = id then some v else f x) := by
  obtain ⟨st', hst', hty, hwf, hlook, hlen⟩ := h.comp_some hf
  rw [hst] at hst'; simp at hst'; subst hst'
  have hmem : id ∈ st.set.entities := (SparseSet.lookup_isSome hwf).1 (by rw [hlook]; exact he)
  obtain ⟨S, hS, wS, hent, hidx, hlk, hgi⟩ := SparseSet.setUnchecked_present hwf v hmem
  refine ⟨S, hS, ⟨?_, h.glen, ?_, h.excl⟩⟩
  · intro u
    simp only [setSet_comps, State.setComp]
    by_cases hut : u = t
    · subst hut
      simp only [if_true, hst, Option.map_some]
      refine ⟨hty, wS, fun e => ?_, by simp [hidx, hlen]⟩
      show S.lookup e = _
      rw [hlk, hlook]
    · simp only [hut, if_false]; exact h.st u
  · intro k g gs hk hks
    refine (h.grp k g gs hk hks).extend ?_
    intro u st' hu
    by_cases hut : u = t
    · subst hut
      rw [hst] at hu; simp at hu; subst hu
      exact ⟨⟨st.ty, S⟩, by simp [setSet_comps, hst], ⟨[], by simp [hent]⟩, fun x _ => hgi x⟩
    · exact ⟨st', by simp [setSet_comps, hut, hu], ⟨[], by simp⟩, fun _ _ => rfl⟩

/-- Erasing a component of an entity that is in no group over that component. -/
theorem erase_ref {w : World V} {s : State V} (h : WRel w s) {id t : Nat}
    {f : Nat → Option V} (hf : s.comp t = some f) {v : V} (he : f id = some v)
    (hn : ∀ (k : Nat) gs, s.groups[k]? = some gs → gs.touches t = true → gs.mem id = false) :
    ∃ st S, w.comps t = some st ∧ st.ty = t ∧ st.set.remove id = .ok (S, some v) ∧
      st.set.removeUnwrap id = .ok S ∧ WRel (w.setSet t S) (s.erase id t f) := by
  obtain ⟨st, hst, hty, hwf, hlook, hlen⟩ := h.comp_some hf
  have hmem : id ∈ st.set.entities := (SparseSet.lookup_isSome hwf).1 (by rw [hlook, he]; rfl)
  obtain ⟨i, hi⟩ := List.mem_iff_getElem?.1 hmem
  obtain ⟨S, hS, wS, hil, hel, hent, hlk, hm⟩ := SparseSet.remove_present hwf hi
  rw [hlook, he] at hS
  refine ⟨st, S, hst, hty, hS, by simp [SparseSet.removeUnwrap, hS], ⟨?_, ?_, ?_, ?_⟩⟩
  · intro u
    simp only [setSet_comps, State.erase, State.setComp]
    by_cases hut : u = t
    · subst hut
      simp only [if_true, hst, Option.map_some]
      refine ⟨hty, wS, fun e => ?_, by rw [hil]; exact hlen⟩
      show S.lookup e = _
      rw [hlk, hlook]
    · simp only [hut, if_false]; exact h.st u
  · simp [State.erase, State.setComp]; exact h.glen
  · intro k g gs' hk hks'
    simp only [State.erase, State.setComp, List.getElem?_map, Option.map_eq_some_iff] at hks'
    obtain ⟨gs, hks, rfl⟩ := hks'
    refine (h.grp k g gs hk hks).shrink h.wf id t ?_ (hn k gs hks) rfl rfl rfl (fun _ => rfl) ?_
    · intro u st' hu
      by_cases hut : u = t
      · subst hut
        rw [hst] at hu; simp at hu; subst hu
        refine ⟨⟨st.ty, S⟩, by simp [setSet_comps, hst], fun h => absurd rfl h, fun _ j hj => ⟨?_, hm⟩, ?_⟩
        · intro k hk
          have hji : i = j := SparseSet.entities_inj hwf hi hj
          have := (List.getElem?_eq_some_iff.1 hi).1
          show S.entities[k]? = _
          rw [hent, if_pos (by omega), if_neg (by omega)]
        · intro _ hn; exact absurd hmem hn
      · exact ⟨st', by simp [setSet_comps, hut, hu], fun _ => rfl, fun h => absurd h hut, fun h => absurd h hut⟩
    · intro hfr; simpa using hfr
  · intro a b ga gb ha hb hab u hu
    simp only [State.erase, State.setComp, List.getElem?_map, Option.map_eq_some_iff] at ha hb
    obtain ⟨ga0, ha0, rfl⟩ := ha
    obtain ⟨gb0, hb0, rfl⟩ := hb
    exact h.excl a b ga0 gb0 ha0 hb0 hab u hu

end Xecs
