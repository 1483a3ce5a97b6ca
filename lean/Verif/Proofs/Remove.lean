import Verif.Proofs.Loops
/-
remove_entity.
-/
set_option autoImplicit false
namespace Xecs
open Spec World
variable {V : Type}

/-- An intermediate state of `remove_entity`: `id` has left the groups in `P` and the storages in `E`. -/
structure RemMid (s s' : State V) (id : Nat) (P E : Nat → Bool) : Prop where
  comp : ∀ t, s'.comp t = (s.comp t).map fun f x => if x = id ∧ E t = true then none else f x
  hw : s'.hw = s.hw
  len : s'.groups.length = s.groups.length
  grp : ∀ (i : Nat) g g', s.groups[i]? = some g → s'.groups[i]? = some g' →
    g'.kind = g.kind ∧ g'.a = g.a ∧ g'.b = g.b ∧
    (∀ x, g'.mem x = (g.mem x && !(P i && x == id))) ∧
    (g.fresh = true → s.has g.a id = false → s.has g.b id = false → g'.fresh = true)
  clean : ∀ (i : Nat) g g', s.groups[i]? = some g → s'.groups[i]? = some g' → g.fresh = true → E g.a = false →
    E g.b = false → (∀ (j : Nat) gj, s.groups[j]? = some gj → gj.owns g.a = false ∧ gj.owns g.b = false) → g'.fresh = true

theorem RemMid.refl (s : State V) (id : Nat) : RemMid s s id (fun _ => false) (fun _ => false) := by
  refine ⟨fun t => ?_, rfl, rfl, ?_, ?_⟩
  · cases s.comp t <;> simp
  · intro i g g' h h'
    rw [h] at h'; simp at h'; subst h'
    exact ⟨rfl, rfl, rfl, by simp, fun h _ _ => h⟩
  · intro i g g' h h' hf _ _ _
    rw [h] at h'; simp at h'; subst h'
    exact hf

theorem RemMid.has_le {s s' : State V} {id : Nat} {P E : Nat → Bool} (h : RemMid s s' id P E) (t x : Nat)
    (hh : s'.has t x = true) : s.has t x = true := by
  simp only [State.has, State.get, h.comp] at hh ⊢
  cases hc : s.comp t with
  | none => simp [hc] at hh
  | some f =>
    simp only [hc, Option.map_some] at hh ⊢
    split at hh
    · simp at hh
    · exact hh

theorem RemMid.group {s s' : State V} {id : Nat} {P E : Nat → Bool} (h : RemMid s s' id P E) {i : Nat}
    {g' : SGroup} (hg : s'.groups[i]? = some g') : ∃ g, s.groups[i]? = some g := by
  have h1 := (List.getElem?_eq_some_iff.1 hg).1
  have h2 := h.len
  exact ⟨_, List.getElem?_eq_getElem (by omega)⟩

theorem RemMid.erase {s s' : State V} {id : Nat} {P E : Nat → Bool} (h : RemMid s s' id P E) {t : Nat}
    {f : Nat → Option V} (hf : s'.comp t = some f) (hs : (f id).isSome = true) :
    RemMid s (s'.erase id t f) id P (fun u => E u || u == t) := by
  have hhas : s.has t id = true := by
    apply h.has_le; simp [State.has, State.get, hf, hs]
  refine ⟨?_, h.hw, by simpa [State.erase, State.setComp] using h.len, ?_, ?_⟩
  · intro u
    simp only [State.erase, State.setComp]
    by_cases hu : u = t
    · subst hu
      simp only [if_true]
      have := h.comp u
      rw [hf] at this
      cases hc : s.comp u with
      | none => simp [hc] at this
      | some f0 =>
        simp only [hc, Option.map_some, Option.some.injEq] at this ⊢
        funext x
        subst this
        by_cases hx : x = id <;> simp [hx]
    · simp only [hu, if_false]
      rw [h.comp]
      have : (u == t) = false := by simp [hu]
      simp [this]
  · intro i g g' hg hg'
    simp only [State.erase, State.setComp, List.getElem?_map, Option.map_eq_some_iff] at hg'
    obtain ⟨g1, hg1, rfl⟩ := hg'
    obtain ⟨e1, e2, e3, e4, e5⟩ := h.grp i g g1 hg hg1
    refine ⟨e1, e2, e3, e4, ?_⟩
    intro hfr ha hb
    simp only [Bool.and_eq_true, Bool.not_eq_true']
    refine ⟨e5 hfr ha hb, ?_⟩
    simp only [SGroup.touches, e2, e3, Bool.or_eq_false_iff, beq_eq_false_iff_ne]
    constructor
    · rintro rfl; rw [ha] at hhas; simp at hhas
    · rintro rfl; rw [hb] at hhas; simp at hhas
  · intro i g g' hg hg' hfr ha hb ho
    simp only [State.erase, State.setComp, List.getElem?_map, Option.map_eq_some_iff] at hg'
    obtain ⟨g1, hg1, rfl⟩ := hg'
    obtain ⟨_, e2, e3, _⟩ := h.grp i g g1 hg hg1
    simp only [Bool.or_eq_false_iff, beq_eq_false_iff_ne] at ha hb
    simp only [Bool.and_eq_true, Bool.not_eq_true', SGroup.touches, e2, e3, Bool.or_eq_false_iff, beq_eq_false_iff_ne]
    exact ⟨h.clean i g g1 hg hg1 hfr ha.1 hb.1 ho, ha.2.symm, hb.2.symm⟩

theorem RemMid.leave {s s' : State V} {id : Nat} {P E : Nat → Bool} (h : RemMid s s' id P E) {k : Nat}
    {gk : SGroup} (hk : s'.groups[k]? = some gk) (hb : gk.mem id = true → s'.both gk id = true) :
    RemMid s (s'.leave id k) id (fun i => P i || i == k) E := by
  refine ⟨?_, by rw [leave_hw]; exact h.hw, by rw [leave_len]; exact h.len, ?_, ?_⟩
  · intro t; rw [leave_comp]; exact h.comp t
  · intro i g g' hg hg'
    rw [leave_groups s' id k hk, Option.map_eq_some_iff] at hg'
    obtain ⟨g1, hg1, rfl⟩ := hg'
    obtain ⟨e1, e2, e3, e4, e5⟩ := h.grp i g g1 hg hg1
    refine ⟨e1, e2, e3, ?_, ?_⟩
    · intro x
      simp only [e4]
      by_cases hik : i = k
      · subst hik
        cases g.mem x <;> cases P i <;> cases (x == id) <;> simp
      · have : (i == k) = false := by simp [hik]
        simp [hik, this]
    · intro hfr ha hbb
      simp only [Bool.and_eq_true, Bool.not_eq_true']
      refine ⟨e5 hfr ha hbb, ?_⟩
      cases hm : gk.mem id with
      | false => simp
      | true =>
        have hboth := hb hm
        simp only [State.both, Bool.and_eq_true] at hboth
        have hA := h.has_le _ _ hboth.1
        have hB := h.has_le _ _ hboth.2
        have hown : ∀ u, s.has u id = false → gk.owns u = false := by
          intro u hu
          have n1 : u ≠ gk.a := by rintro rfl; rw [hu] at hA; simp at hA
          have n2 : u ≠ gk.b := by rintro rfl; rw [hu] at hB; simp at hB
          unfold SGroup.owns
          split <;> simp [n1, n2]
        rw [e2, e3]
        simp [hown _ ha, hown _ hbb]
  · intro i g g' hg hg' hfr ha hb' ho
    rw [leave_groups s' id k hk, Option.map_eq_some_iff] at hg'
    obtain ⟨g1, hg1, rfl⟩ := hg'
    obtain ⟨_, e2, e3, _⟩ := h.grp i g g1 hg hg1
    obtain ⟨g0, hg0⟩ := h.group hk
    obtain ⟨f1, f2, f3, _⟩ := h.grp k g0 gk hg0 hk
    have hown : ∀ u, gk.owns u = g0.owns u := by intro u; simp [SGroup.owns, f1, f2, f3]
    have := ho k g0 hg0
    simp only [h.clean i g g1 hg hg1 hfr ha hb' ho, e2, e3, hown, this.1, this.2, Bool.or_self, Bool.and_false, Bool.not_false,
      Bool.and_self]

/-- The updated owning group and storages written back by `remove_entity`. -/
theorem putPair_setSet {w : World V} {k : Nat} {g' : Group} {A' B' A'' B'' : SparseSet V} {A B : Storage V}
    (hA : w.comps g'.tyA = some A) (hB : w.comps g'.tyB = some B) (hab : g'.tyA ≠ g'.tyB) :
    ((w.putPair k (g', A', B')).setSet g'.tyA A'').setSet g'.tyB B'' = w.putPair k (g', A'', B'') := by
  have h1 : ((w.putPair k (g', A', B')).setSet g'.tyA A'').setSet g'.tyB B'' =
      ⟨w.em, (((w.putPair k (g', A', B')).setSet g'.tyA A'').setSet g'.tyB B'').comps,
        w.groups.set k g', w.res⟩ := rfl
  have h2 : w.putPair k (g', A'', B'') =
      ⟨w.em, (w.putPair k (g', A'', B'')).comps, w.groups.set k g', w.res⟩ := rfl
  rw [h1, h2]
  congr 1
  funext u
  have e1 := putPair_comps (w := w) (k := k) (g' := g') (A' := A') (B' := B') rfl rfl hA hB
    (fun h => absurd h hab)
  have e2 := putPair_comps (w := w) (k := k) (g' := g') (A' := A'') (B' := B'') rfl rfl hA hB
    (fun h => absurd h hab)
  rw [e2]
  simp only [setSet_comps, e1]
  have hba : ¬ g'.tyB = g'.tyA := fun h => hab h.symm
  by_cases u1 : u = g'.tyA
  · subst u1; simp [hab]
  · by_cases u2 : u = g'.tyB
    · subst u2; simp [hba]
    · simp [u1, u2]

theorem owned_ne {g : Group} {u : Nat} (h : g.owned u = true) : u = g.tyA ∨ u = g.tyB := by
  cases g <;> simp_all [Group.owned, Group.tyA, Group.tyB]

/-- One iteration of the group loop of `remove_entity`. -/
theorem groupErase_ref {w : World V} {s s' : State V} {id : Nat} {P E : Nat → Bool} (h : WRel w s')
    (hmid : RemMid s s' id P E) {k : Nat} {gk : SGroup} (hk : s'.groups[k]? = some gk)
    (hmem : gk.mem id = true)
    (hothers : ∀ (j : Nat) gj, j ≠ k → s'.groups[j]? = some gj → gj.mem id = true →
      gk.owns gj.a = false ∧ gk.owns gj.b = false) :
    ∃ w' s'', groupErase k id w = .ok (w', ()) ∧ WRel w' s'' ∧ Keeps w w' ∧
      RemMid s s'' id (fun i => P i || i == k) (fun u => E u || gk.owns u) := by
  obtain ⟨w1, hr1, hw1, hk1, g, A, B, g', A', B', hg, hlp, hrem, rfl⟩ := groupRemove_ref h id hk
  obtain ⟨A0, B0, hA, hB, hlp', wA, wB, hs, hab, hm, hf, mA, mB⟩ := lockPair_ok h hg hk
  rw [hlp] at hlp'; simp only [Except.ok.injEq, Prod.mk.injEq] at hlp'
  obtain ⟨rfl, rfl⟩ := hlp'
  obtain ⟨g2, A2, B2, hrem2, hU, -⟩ := Group.remove_spec wA wB hs hab id
  rw [hrem] at hrem2; simp only [Except.ok.injEq, Prod.mk.injEq] at hrem2
  obtain ⟨rfl, rfl, rfl⟩ := hrem2
  have hgr := h.grp k g gk hg hk
  obtain ⟨m1, m2⟩ := hs.mem_both ((hm id).1 hmem)
  have hboth : s'.both gk id = true := by
    simp [State.both, (mA id).1 m1, (mB id).1 m2]
  have hmid1 := hmid.leave hk (fun _ => hboth)
  -- after leaving, nobody over an owned type has `id`
  have hfree : ∀ (j : Nat) gj u, (s'.leave id k).groups[j]? = some gj → gk.owns u = true →
      gj.touches u = true → gj.mem id = false := by
    intro j gj u hj hu ht
    rw [leave_groups s' id k hk, Option.map_eq_some_iff] at hj
    obtain ⟨g1, hg1, rfl⟩ := hj
    by_cases hjk : j = k
    · simp [hjk]
    · simp only [hjk, decide_false, Bool.false_and, Bool.not_false, Bool.and_true]
      cases hx : g1.mem id with
      | false => rfl
      | true =>
        obtain ⟨o1, o2⟩ := hothers j g1 hjk hg1 hx
        simp only [SGroup.touches, Bool.or_eq_true, beq_iff_eq] at ht
        rcases ht with rfl | rfl
        · rw [o1] at hu; simp at hu
        · rw [o2] at hu; simp at hu
  have hasA : ∃ f, s'.comp gk.a = some f ∧ ∃ v, f id = some v := by
    have := (mA id).1 m1
    simp only [State.has, State.get] at this
    cases hc : s'.comp gk.a with
    | none => simp [hc] at this
    | some f => simp only [hc] at this; exact ⟨f, rfl, Option.isSome_iff_exists.1 this⟩
  have hasB : ∃ f, s'.comp gk.b = some f ∧ ∃ v, f id = some v := by
    have := (mB id).1 m2
    simp only [State.has, State.get] at this
    cases hc : s'.comp gk.b with
    | none => simp [hc] at this
    | some f => simp only [hc] at this; exact ⟨f, rfl, Option.isSome_iff_exists.1 this⟩
  obtain ⟨fa, hfa, va, hva⟩ := hasA
  obtain ⟨fb, hfb, vb, hvb⟩ := hasB
  have hlike := hU.like
  have hA' : w.comps g'.tyA = some A0 := by rw [hlike.2.1]; exact hA
  have hB' : w.comps g'.tyB = some B0 := by rw [hlike.2.2]; exact hB
  have htyA : g'.tyA = gk.a := hlike.2.1.trans hgr.tyA
  have htyB : g'.tyB = gk.b := hlike.2.2.trans hgr.tyB
  cases g with
  | non set a b =>
    refine ⟨w.putPair k (g', A', B'), s'.leave id k, ?_, hw1, hk1, ?_⟩
    · simp [groupErase, getR_some hg, hlp, hrem]
    · have : ∀ u, gk.owns u = false := by
        intro u; rw [← hgr.owns]; rfl
      simpa [this] using hmid1
  | part l a b =>
    have hne : g'.tyA ≠ g'.tyB := by
      rw [hlike.2.1, hlike.2.2]; exact hab (by simp [Group.kind])
    have hownA : gk.owns gk.a = true := by
      rw [← hgr.owns, ← hgr.tyA]; simp [Group.owned, Group.tyA]
    have e1 := putPair_comps (w := w) (k := k) (g' := g') (A' := A') (B' := B') rfl rfl hA' hB'
      (fun h => absurd h hne)
    obtain ⟨st, S, h1, h2, h3, h4, h5⟩ := erase_ref hw1 (id := id) (t := gk.a) (f := fa)
      (by rw [leave_comp]; exact hfa) hva (fun j gj hj ht => hfree j gj gk.a hj hownA ht)
    have hst : st.set = A' := by
      rw [e1, if_pos htyA.symm] at h1; simp at h1; rw [← h1]
    rw [hst] at h4
    refine ⟨w.putPair k (g', S, B'), (s'.leave id k).erase id gk.a fa, ?_, ?_, ⟨rfl, rfl, ?_⟩, ?_⟩
    · simp [groupErase, getR_some hg, hlp, hrem, h4]
    · have hww : (w.putPair k (g', A', B')).setSet gk.a S = w.putPair k (g', S, B') := by
        have hpp := putPair_setSet (k := k) (A' := A') (B' := B') (A'' := S) (B'' := B') hA' hB' hne
        rw [htyA] at hpp
        rw [← hpp]
        have hBB : ((w.putPair k (g', A', B')).setSet gk.a S).comps g'.tyB = some ⟨B0.ty, B'⟩ := by
          rw [setSet_comps, if_neg (by rw [← htyA]; exact fun h => hne h.symm), e1,
            if_neg (fun h => hne h.symm), if_pos rfl]
        have : ∀ (x : World V) (t : Nat) (st : Storage V), x.comps t = some st → x.setSet t st.set = x := by
          intro x t st hx
          have : (x.setSet t st.set).comps = x.comps := by
            funext u; rw [setSet_comps]
            by_cases hu : u = t
            · simp [hu, hx]
            · simp [hu]
          show (⟨x.em, (x.setSet t st.set).comps, x.groups, x.res⟩ : World V) = x
          rw [this]
        exact (this _ _ _ hBB).symm
      rw [← hww]; exact h5
    · simp [putPair]
    · have := hmid1.erase (t := gk.a) (f := fa) (by rw [leave_comp]; exact hfa) (by rw [hva]; rfl)
      have hE : (fun u => E u || gk.owns u) = (fun u => E u || u == gk.a) := by
        funext u
        rw [← hgr.owns, ← hgr.tyA]; simp [Group.owned, Group.tyA]
      rw [hE]; exact this
  | full l a b =>
    have hne : g'.tyA ≠ g'.tyB := by
      rw [hlike.2.1, hlike.2.2]; exact hab (by simp [Group.kind])
    have hownA : gk.owns gk.a = true := by
      rw [← hgr.owns, ← hgr.tyA]; simp [Group.owned, Group.tyA]
    have hownB : gk.owns gk.b = true := by
      rw [← hgr.owns, ← hgr.tyB]; simp [Group.owned, Group.tyB]
    have hnek : gk.b ≠ gk.a := by rw [← htyA, ← htyB]; exact fun h => hne h.symm
    have e1 := putPair_comps (w := w) (k := k) (g' := g') (A' := A') (B' := B') rfl rfl hA' hB'
      (fun h => absurd h hne)
    obtain ⟨st, S, h1, h2, h3, h4, h5⟩ := erase_ref hw1 (id := id) (t := gk.a) (f := fa)
      (by rw [leave_comp]; exact hfa) hva (fun j gj hj ht => hfree j gj gk.a hj hownA ht)
    have hst : st.set = A' := by
      rw [e1, if_pos htyA.symm] at h1; simp at h1; rw [← h1]
    rw [hst] at h4
    have hcb : ((s'.leave id k).erase id gk.a fa).comp gk.b = some fb := by
      simp only [State.erase, State.setComp, hnek, if_false]
      rw [leave_comp]; exact hfb
    obtain ⟨st2, S2, i1, i2, i3, i4, i5⟩ := erase_ref h5 (id := id) (t := gk.b) (f := fb)
      hcb hvb (by
        intro j gj hj ht
        simp only [State.erase, State.setComp, List.getElem?_map, Option.map_eq_some_iff] at hj
        obtain ⟨g1, hg1, rfl⟩ := hj
        exact hfree j g1 gk.b hg1 hownB ht)
    have hst2 : st2.set = B' := by
      rw [setSet_comps, if_neg hnek, e1, if_neg (by rw [htyA]; exact hnek), if_pos htyB.symm] at i1
      simp at i1; rw [← i1]
    rw [hst2] at i4
    refine ⟨w.putPair k (g', S, S2), ((s'.leave id k).erase id gk.a fa).erase id gk.b fb, ?_, ?_,
      ⟨rfl, rfl, ?_⟩, ?_⟩
    · simp [groupErase, getR_some hg, hlp, hrem, h4, i4]
    · rw [← putPair_setSet (A' := A') (B' := B') hA' hB' hne, htyA, htyB]; exact i5
    · simp [putPair]
    · have x1 := hmid1.erase (t := gk.a) (f := fa) (by rw [leave_comp]; exact hfa) (by rw [hva]; rfl)
      have x2 := x1.erase hcb (by rw [hvb]; rfl)
      have hE : (fun u => E u || gk.owns u) = (fun u => (E u || u == gk.a) || u == gk.b) := by
        funext u
        rw [← hgr.owns, ← hgr.tyA, ← hgr.tyB]; simp [Group.owned, Group.tyA, Group.tyB, Bool.or_assoc]
      rw [hE]; exact x2

/-- The group loop of `remove_entity`. -/
theorem forEach_groupErase {s : State V} (id : Nat) (ks : List Nat) :
    ∀ (w : World V) (s' : State V) (P E : Nat → Bool), WRel w s' → RemMid s s' id P E →
    ks.Nodup →
    (∀ k ∈ ks, P k = false ∧ ∃ g, s.groups[k]? = some g ∧ g.mem id = true) →
    (∀ (k : Nat) g, s.groups[k]? = some g → g.mem id = true → P k = true ∨ k ∈ ks) →
    ks.Pairwise (fun i j => ∀ gi gj, s.groups[i]? = some gi → s.groups[j]? = some gj →
      gi.owns gj.a = false ∧ gi.owns gj.b = false) →
    ∃ w' s'' P' E', M.forEach ks (fun k => M.crit (groupErase k id) (groupEraseX k id)) w = (w', .ok ()) ∧ WRel w' s'' ∧
      Keeps w w' ∧ RemMid s s'' id P' E' ∧
      (∀ (k : Nat) g, s.groups[k]? = some g → g.mem id = true → P' k = true) := by
  induction ks with
  | nil =>
    intro w s' P E h hmid _ _ hall _
    exact ⟨w, s', P, E, rfl, h, .refl w, hmid, fun k g hg hm => by simpa using hall k g hg hm⟩
  | cons k ks ih =>
    intro w s' P E h hmid hnd hks hall hpw
    rw [List.nodup_cons] at hnd
    rw [List.pairwise_cons] at hpw
    obtain ⟨hPk, g0, hg0, hm0⟩ := hks k (by simp)
    have hgk : ∃ gk, s'.groups[k]? = some gk :=
      ⟨_, List.getElem?_eq_getElem (by rw [hmid.len]; exact (List.getElem?_eq_some_iff.1 hg0).1)⟩
    obtain ⟨gk, hgk⟩ := hgk
    obtain ⟨e1, e2, e3, e4, -⟩ := hmid.grp k g0 gk hg0 hgk
    have hown : ∀ u, gk.owns u = g0.owns u := by intro u; simp [SGroup.owns, e1, e2, e3]
    obtain ⟨w1, s1, h1, h2, h3, h4⟩ := groupErase_ref h hmid hgk (by rw [e4, hm0, hPk]; simp) (by
      intro j gj hjk hj hm
      obtain ⟨gj0, hj0⟩ := hmid.group hj
      obtain ⟨f1, f2, f3, f4, -⟩ := hmid.grp j gj0 gj hj0 hj
      rw [f4] at hm
      simp only [Bool.and_eq_true, Bool.not_eq_true', beq_self_eq_true, Bool.and_true] at hm
      have hj' : j ∈ ks := by
        have := hall j gj0 hj0 hm.1
        rw [hm.2] at this
        simpa [hjk] using this
      rw [hown, hown, f2, f3]
      exact hpw.1 j hj' g0 gj0 hg0 hj0)
    obtain ⟨w2, s2, P2, E2, i1, i2, i3, i4, i5⟩ := ih w1 s1 _ _ h2 h4 hnd.2 (by
      intro k' hk'
      have hne : k' ≠ k := fun h => hnd.1 (h ▸ hk')
      obtain ⟨x, y⟩ := hks k' (List.mem_cons_of_mem _ hk')
      exact ⟨by simp [x, hne], y⟩) (by
      intro k' g' hg' hm'
      rcases hall k' g' hg' hm' with hp | hp
      · left; simp [hp]
      · rw [List.mem_cons] at hp
        rcases hp with hp | hp
        · left; simp [hp]
        · exact .inr hp) hpw.2
    refine ⟨w2, s2, P2, E2, ?_, i2, h3.trans i3, i4, i5⟩
    rw [M.forEach_cons, M.crit_ok h1]; exact i1

/-- The storage loop of `remove_entity`. -/
theorem forEach_storeErase {s : State V} (id : Nat) (ts : List Nat) :
    ∀ (w : World V) (s' : State V) (P E : Nat → Bool), WRel w s' → RemMid s s' id P E → ts.Nodup →
    (∀ t ∈ ts, s'.has t id = true) →
    (∀ (k : Nat) g, s'.groups[k]? = some g → g.mem id = false) →
    ∃ w' s'' E', M.forEach ts (fun t => M.crit (storeErase t id) (storeEraseX t id)) w = (w', .ok ()) ∧ WRel w' s'' ∧
      Keeps w w' ∧ RemMid s s'' id P E' ∧ (∀ t, s''.has t id = true ↔ s'.has t id = true ∧ t ∉ ts) := by
  induction ts with
  | nil =>
    intro w s' P E h hmid _ _ _
    exact ⟨w, s', E, rfl, h, .refl w, hmid, by simp⟩
  | cons t ts ih =>
    intro w s' P E h hmid hnd hts hg
    rw [List.nodup_cons] at hnd
    have hhas := hts t (by simp)
    have : ∃ f v, s'.comp t = some f ∧ f id = some v := by
      simp only [State.has, State.get] at hhas
      cases hc : s'.comp t with
      | none => simp [hc] at hhas
      | some f =>
        simp only [hc] at hhas
        obtain ⟨v, hv⟩ := Option.isSome_iff_exists.1 hhas
        exact ⟨f, v, rfl, hv⟩
    obtain ⟨f, v, hf, hv⟩ := this
    obtain ⟨st, S, h1, h2, h3, h4, h5⟩ := erase_ref h hf hv (fun k gs hk _ => hg k gs hk)
    have hstep : storeErase t id w = .ok (w.setSet t S, ()) := by simp [storeErase, h1, h4]
    have hmid' := hmid.erase hf (by rw [hv]; rfl)
    have hhas' : ∀ u, (s'.erase id t f).has u id = true ↔ s'.has u id = true ∧ u ≠ t := by
      intro u
      by_cases hu : u = t
      · subst hu; simp [State.has, State.get, State.erase, State.setComp]
      · simp [State.has, State.get, State.erase, State.setComp, hu]
    obtain ⟨w2, s2, E2, i1, i2, i3, i4, i5⟩ := ih (w.setSet t S) _ P _ h5 hmid' hnd.2 (by
      intro u hu
      rw [hhas']
      exact ⟨hts u (List.mem_cons_of_mem _ hu), fun h => hnd.1 (h ▸ hu)⟩) (by
      intro k g hk
      simp only [State.erase, State.setComp, List.getElem?_map, Option.map_eq_some_iff] at hk
      obtain ⟨g1, hg1, rfl⟩ := hk
      exact hg k g1 hg1)
    refine ⟨w2, s2, E2, ?_, i2, ⟨i3.em, i3.res, i3.glen⟩, i4, ?_⟩
    · rw [M.forEach_cons, M.crit_ok hstep]; exact i1
    · intro u
      rw [i5, hhas', List.mem_cons, not_or, and_assoc]

/-- The positions of the groups that contain `id`. -/
theorem needRemoveList_ok {w : World V} {s : State V} (h : WRel w s) (id : Nat) :
    ∀ (n j : Nat), j + n = w.groups.length →
    w.needRemoveList id j (w.groups.drop j) = .ok ((List.range' j n).filter fun k =>
      match s.groups[k]? with
      | some g => g.mem id
      | none => false) := by
  intro n
  induction n with
  | zero =>
    intro j hj
    have : w.groups.drop j = [] := List.drop_eq_nil_of_le (by omega)
    simp [this, needRemoveList]
  | succ n ih =>
    intro j hj
    have hjl : j < w.groups.length := by omega
    rw [List.drop_eq_getElem_cons hjl]
    have hg := List.getElem?_eq_getElem hjl
    have hjs : j < s.groups.length := by rw [← h.glen]; exact hjl
    have hgs := List.getElem?_eq_getElem hjs
    obtain ⟨A, B, hA, hB, hlp, wA, wB, hs, hab, hm, hf, mA, mB⟩ := lockPair_ok h hg hgs
    have hn : w.needRemove id w.groups[j] = .ok (s.groups[j].mem id) := by
      simp only [needRemove, hA, hB, unwrapR_some, ok_bind, Group.inGroup_eq wA wB hs]
      congr 1
      have := hm id
      cases hx : s.groups[j].mem id with
      | true => simpa using this.1 hx
      | false => rw [hx] at this; simp at this; simpa using this
    simp only [needRemoveList, hn, ok_bind, ih (j+1) (by omega), List.range'_succ, List.filter_cons, hgs]

end Xecs
