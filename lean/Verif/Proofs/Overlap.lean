import Verif.Proofs.Robust
/-
remove_entity when an older group owns a type of a newer one.
-/
set_option autoImplicit false
namespace Xecs
open Spec World Hist
variable {V : Type}

/-- The group loop of `remove_entity`, half way, from `w0`: the groups in `rest` have not had their turn. -/
structure Half (w0 w : World V) (id : Nat) (rest : Nat → Prop) : Prop where
  evo : Evo (Less id) w0 w
  recd : ∀ k, rest k → w.groups[k]? = w0.groups[k]?
  own : ∀ k g, rest k → w0.groups[k]? = some g → ∀ u, g.owned u = true → w.comps u = w0.comps u

theorem Half.start (w : World V) (id : Nat) : Half w w id (fun _ => True) :=
  ⟨.refl (Less.refl id) w, fun _ _ => rfl, fun _ _ _ _ _ _ => rfl⟩

theorem Evo.storage {w0 w : World V} {id t : Nat} {st : Storage V} (h : Evo (Less id) w0 w) (h0 : w0.comps t = some st)
    (hw : st.set.WF) : ∃ st', w.comps t = some st' ∧ st'.set.WF ∧ (∀ x, x ≠ id → (x ∈ st'.set.entities ↔ x ∈ st.set.entities)) ∧
      (id ∈ st'.set.entities → id ∈ st.set.entities) := by
  have := h.comps t
  rw [h0] at this
  cases h1 : w.comps t with
  | none => rw [h1] at this; exact this.elim
  | some st' =>
    rw [h1] at this
    obtain ⟨_, h2⟩ := this
    obtain ⟨h3, h4, h5⟩ := h2 hw
    refine ⟨st', rfl, h3, fun x hx => ?_, fun hi => ?_⟩
    · rw [← SparseSet.lookup_isSome h3, ← SparseSet.lookup_isSome hw, h4 x hx]
    · rw [← SparseSet.lookup_isSome hw]
      rw [← SparseSet.lookup_isSome h3] at hi
      rcases h5 with h5 | h5
      · rw [← h5]; exact hi
      · rw [h5] at hi; cases hi

theorem Group.Sound.again {g : Group} {A B A0 B0 : SparseSet V} (hs : g.Sound A0 B0)
    (hA : g.owned g.tyA = true → A = A0) (hB : g.owned g.tyB = true → B = B0)
    (mA : ∀ x, x ∈ A0.entities → x ∈ A.entities) (mB : ∀ x, x ∈ B0.entities → x ∈ B.entities) : g.Sound A B := by
  cases g with
  | full l a b =>
    rw [hA (by simp [Group.owned, Group.tyA]), hB (by simp [Group.owned, Group.tyB])]; exact hs
  | part l a b =>
    rw [hA (by simp [Group.owned, Group.tyA])]
    intro i hi
    obtain ⟨e, h1, h2⟩ := hs i hi
    exact ⟨e, h1, mB e h2⟩
  | non s a b => exact ⟨hs.1, fun e he => ⟨mA e (hs.2 e he).1, mB e (hs.2 e he).2⟩⟩

theorem groupErase_half {w0 w : World V} {s : State V} {id k : Nat} {rest : Nat → Prop} (h : WRel w0 s)
    (hh : Half w0 w id rest) (hk : rest k) {g : Group} {gs : SGroup} (hg : w0.groups[k]? = some g) (hgs : s.groups[k]? = some gs)
    (hmem : gs.mem id = true) :
    ∃ w', groupErase k id w = .ok (w', ()) ∧ Half w0 w' id (fun j => rest j ∧ j ≠ k) ∧
      (∀ u, g.owned u = true → ∃ st, w'.comps u = some st ∧ id ∉ st.set.entities) ∧
      ((∃ u st, (u = g.tyA ∨ u = g.tyB) ∧ w.comps u = some st ∧ id ∉ st.set.entities) → w'.groups[k]? = some g) ∧
      (∀ j, j ≠ k → w'.groups[j]? = w.groups[j]?) := by
  obtain ⟨A0, B0, hA0, hB0, -, wA0, wB0, hs, hab, hm, -, -, -⟩ := lockPair_ok h hg hgs
  obtain ⟨m1, m2⟩ := hs.mem_both ((hm id).1 hmem)
  obtain ⟨A, hA, wA, mA, nA⟩ := hh.evo.storage hA0 wA0
  obtain ⟨B, hB, wB, mB, nB⟩ := hh.evo.storage hB0 wB0
  have oA : g.owned g.tyA = true → A = A0 := by
    intro ho
    have := hh.own k g hk hg _ ho
    rw [hA, hA0] at this; exact Option.some.inj this
  have oB : g.owned g.tyB = true → B = B0 := by
    intro ho
    have := hh.own k g hk hg _ ho
    rw [hB, hB0] at this; exact Option.some.inj this
  have hlock : w.lockPair g = .ok (A.set, B.set) := by
    simp only [lockPair, hA, unwrapR_some, ok_bind]
    rw [if_neg (fun hx => hab hx.2 hx.1), hB]
    simp
  have hgw : w.groups[k]? = some g := by rw [hh.recd k hk]; exact hg
  have unw : ∀ {S : SparseSet V}, S.WF → id ∈ S.entities → ∃ S', S.removeUnwrap id = .ok S' ∧ id ∉ S'.entities := by
    intro S hw hi
    obtain ⟨i, hi⟩ := List.mem_iff_getElem?.1 hi
    obtain ⟨S', e1, _, _, _, _, _, e2⟩ := SparseSet.removeUnwrap_present hw hi
    exact ⟨S', e1, fun hx => ((e2 id).1 hx).1 rfl⟩
  have main : ∃ g' A'' B'', groupErase k id w = .ok (w.putPair k (g', A'', B''), ()) ∧ gtag g' = gtag g ∧
      (g.owned g.tyA = false → A'' = A.set) ∧ (g.owned g.tyB = false → B'' = B.set) ∧
      (g.owned g.tyA = true → id ∉ A''.entities) ∧ (g.owned g.tyB = true → id ∉ B''.entities) ∧
      ((id ∉ A.set.entities ∨ id ∉ B.set.entities) → g' = g) := by
    by_cases hb : id ∈ A.set.entities ∧ id ∈ B.set.entities
    · have mA' : ∀ x, x ∈ A0.set.entities → x ∈ A.set.entities := by
        intro x hx
        by_cases he : x = id
        · subst he; exact hb.1
        · exact (mA x he).2 hx
      have mB' : ∀ x, x ∈ B0.set.entities → x ∈ B.set.entities := by
        intro x hx
        by_cases he : x = id
        · subst he; exact hb.2
        · exact (mB x he).2 hx
      have hs' : g.Sound A.set B.set := hs.again (fun ho => by rw [oA ho]) (fun ho => by rw [oB ho]) mA' mB'
      obtain ⟨g', A', B', hrem, hU, -⟩ := Group.remove_spec wA wB hs' hab id
      have iA : id ∈ A'.entities := by
        rw [← SparseSet.lookup_isSome hU.wfA, hU.lookA, SparseSet.lookup_isSome wA]; exact hb.1
      have iB : id ∈ B'.entities := by
        rw [← SparseSet.lookup_isSome hU.wfB, hU.lookB, SparseSet.lookup_isSome wB]; exact hb.2
      have htag : gtag g' = gtag g := by simp only [gtag, hU.like.1, hU.like.2.1, hU.like.2.2]
      obtain ⟨A2, e1, e2⟩ := unw hU.wfA iA
      obtain ⟨B2, e3, e4⟩ := unw hU.wfB iB
      have hno : ¬ (id ∉ A.set.entities ∨ id ∉ B.set.entities) := by
        rintro (hx | hx)
        · exact hx hb.1
        · exact hx hb.2
      cases g with
      | full l a b =>
        exact ⟨g', A2, B2, by simp [groupErase, getR_some hgw, hlock, hrem, e1, e3], htag,
          fun hx => by simp [Group.owned, Group.tyA] at hx, fun hx => by simp [Group.owned, Group.tyB] at hx,
          fun _ => e2, fun _ => e4, fun hx => absurd hx hno⟩
      | part l a b =>
        have hne : a ≠ b := hab (by simp [Group.kind])
        exact ⟨g', A2, B', by simp [groupErase, getR_some hgw, hlock, hrem, e1], htag,
          fun hx => by simp [Group.owned, Group.tyA] at hx, hU.keepB,
          fun _ => e2, fun hx => by simp [Group.owned, Group.tyB] at hx; exact absurd hx.symm hne, fun hx => absurd hx hno⟩
      | non s a b =>
        exact ⟨g', A', B', by simp [groupErase, getR_some hgw, hlock, hrem], htag, hU.keepA, hU.keepB,
          fun hx => by simp [Group.owned] at hx, fun hx => by simp [Group.owned] at hx, fun hx => absurd hx hno⟩
    · have hc : g.inComponents id A.set B.set = false := by
        cases hx : g.inComponents id A.set B.set with
        | false => rfl
        | true => exact absurd ((Group.inComponents_eq wA wB).1 hx) hb
      have hrem : g.remove id A.set B.set = .ok (g, A.set, B.set) := by
        simp [Group.remove, Group.inGroup, hc]
      cases g with
      | full l a b =>
        refine absurd ?_ hb
        rw [oA (by simp [Group.owned, Group.tyA]), oB (by simp [Group.owned, Group.tyB])]
        exact ⟨m1, m2⟩
      | part l a b =>
        have hne : a ≠ b := hab (by simp [Group.kind])
        obtain ⟨A2, e1, e2⟩ := unw wA (by rw [oA (by simp [Group.owned, Group.tyA])]; exact m1)
        exact ⟨_, A2, B.set, by simp [groupErase, getR_some hgw, hlock, hrem, e1], rfl,
          fun hx => by simp [Group.owned, Group.tyA] at hx, fun _ => rfl,
          fun _ => e2, fun hx => by simp [Group.owned, Group.tyB] at hx; exact absurd hx.symm hne, fun _ => rfl⟩
      | non s a b =>
        exact ⟨_, A.set, B.set, by simp [groupErase, getR_some hgw, hlock, hrem], rfl, fun _ => rfl, fun _ => rfl,
          fun hx => by simp [Group.owned] at hx, fun hx => by simp [Group.owned] at hx, fun _ => rfl⟩
  obtain ⟨g', A'', B'', hx, htag, k1, k2, k3, k4, k5⟩ := main
  have tA : g'.tyA = g.tyA := congrArg (·.2.1) htag
  have tB : g'.tyB = g.tyB := congrArg (·.2.2) htag
  have hab' : g.tyA = g.tyB → A'' = B'' := by
    intro he
    have hn : g.kind = .non := by
      apply Classical.byContradiction; intro hk; exact hab hk he
    have o : ∀ u, g.owned u = false := by
      intro u
      cases g <;> simp_all [Group.kind, Group.owned]
    rw [k1 (o _), k2 (o _)]
    rw [he, hB] at hA
    cases hA; rfl
  have hcomps := putPair_comps (w := w) (k := k) (A' := A'') (B' := B'') tA tB hA hB hab'
  have hklt := (List.getElem?_eq_some_iff.1 hgw).1
  have hgrp : (w.putPair k (g', A'', B'')).groups[k]? = some g' := by
    simp [putPair, hklt]
  have hgrp' : ∀ j, j ≠ k → (w.putPair k (g', A'', B'')).groups[j]? = w.groups[j]? := by
    intro j hj
    simp [putPair, Ne.symm hj]
  refine ⟨_, hx, ⟨Evo.trans (R := Less id) (fun _ _ _ a b => a.trans b) hh.evo (groupErase_evo hx), fun j hj => ?_, fun j gj hj hgj u hu => ?_⟩, ?_, ?_, hgrp'⟩
  · rw [hgrp' j hj.2, hh.recd j hj.1]
  · rw [← hh.own j gj hj.1 hgj u hu]
    have hjl : j < s.groups.length := by rw [← h.glen]; exact (List.getElem?_eq_some_iff.1 hgj).1
    have hgsj := List.getElem?_eq_getElem hjl
    have hnot : g.owned u = false := by
      rw [(h.grp k g gs hg hgs).owns]
      exact h.excl j k _ gs hgsj hgs hj.2 u (by rw [← (h.grp j gj _ hgj hgsj).owns]; exact hu)
    rw [hcomps]
    by_cases u1 : u = g.tyA
    · subst u1; rw [if_pos rfl, k1 hnot, hA]
    · rw [if_neg u1]
      by_cases u2 : u = g.tyB
      · subst u2; rw [if_pos rfl, k2 hnot, hB]
      · rw [if_neg u2]
  · intro u hu
    rw [hcomps]
    by_cases u1 : u = g.tyA
    · subst u1; rw [if_pos rfl]; exact ⟨_, rfl, k3 hu⟩
    · rw [if_neg u1]
      have u2 : u = g.tyB := (owned_ne hu).resolve_left u1
      subst u2; rw [if_pos rfl]; exact ⟨_, rfl, k4 hu⟩
  · rintro ⟨u, st, hu, hst, hn⟩
    rw [hgrp, k5]
    rcases hu with rfl | rfl
    · rw [hA] at hst; cases hst; exact .inl hn
    · rw [hB] at hst; cases hst; exact .inr hn

/-- Once a storage has lost `id`, it stays so. -/
theorem Evo.lost {w w' : World V} {id u : Nat} {st : Storage V} (h : Evo (Less id) w w') (h0 : w.comps u = some st) (hw : st.set.WF)
    (hn : id ∉ st.set.entities) : ∃ st', w'.comps u = some st' ∧ id ∉ st'.set.entities := by
  obtain ⟨st', h1, _, _, h2⟩ := h.storage h0 hw
  exact ⟨st', h1, fun hx => hn (h2 hx)⟩

/-- The group loop of `remove_entity`, whatever groups share types: it succeeds, and a group that comes after one that
owns one of its types is not changed. -/
theorem forEach_half {w0 : World V} {s : State V} {id : Nat} (h : WRel w0 s) : ∀ (ks : List Nat) (w : World V) (rest : Nat → Prop)
    (_ : Half w0 w id rest) (_ : ks.Nodup) (_ : ∀ k ∈ ks, rest k ∧ ∃ gs, s.groups[k]? = some gs ∧ gs.mem id = true),
    ∃ w' rest', M.forEach ks (fun k => M.crit (groupErase k id) (groupEraseX k id)) w = (w', .ok ()) ∧ Half w0 w' id rest' ∧
      (∀ j, j ∉ ks → w'.groups[j]? = w.groups[j]?) ∧
      (∀ j g u st, j ∈ ks → w0.groups[j]? = some g → (u = g.tyA ∨ u = g.tyB) → w.comps u = some st → st.set.WF →
        id ∉ st.set.entities → w'.groups[j]? = some g) ∧
      (∀ l1 i l2 j gi gj u, ks = l1 ++ i :: l2 → j ∈ l2 → w0.groups[i]? = some gi → w0.groups[j]? = some gj →
        gi.owned u = true → (u = gj.tyA ∨ u = gj.tyB) → w'.groups[j]? = some gj)
  | [], w, rest, hh, _, _ => ⟨w, rest, rfl, hh, fun _ _ => rfl, (by intro j g u st hj; cases hj),
      (by intro l1 i l2 j gi gj u hl; simp at hl)⟩
  | k :: ks, w, rest, hh, hnd, hks => by
    rw [List.nodup_cons] at hnd
    obtain ⟨hk, gs, hgs, hm⟩ := hks k (.head _)
    obtain ⟨g, hg⟩ : ∃ g, w0.groups[k]? = some g :=
      ⟨_, List.getElem?_eq_getElem (by rw [h.glen]; exact (List.getElem?_eq_some_iff.1 hgs).1)⟩
    obtain ⟨w1, x1, x2, x3, x4, x5⟩ := groupErase_half h hh hk hg hgs hm
    obtain ⟨w2, rest2, y1, y2, y3, y4, y5⟩ := forEach_half h ks w1 _ x2 hnd.2 fun j hj =>
      ⟨⟨(hks j (.tail _ hj)).1, fun he => hnd.1 (he ▸ hj)⟩, (hks j (.tail _ hj)).2⟩
    refine ⟨w2, rest2, ?_, y2, ?_, ?_, ?_⟩
    · rw [M.forEach_cons, M.crit_ok x1]; exact y1
    · intro j hj
      rw [List.mem_cons, not_or] at hj
      rw [y3 j hj.2, x5 j hj.1]
    · intro j gj u st hj hgj hu hst hwf hn
      rcases List.mem_cons.1 hj with rfl | hj
      · rw [hg] at hgj; cases hgj
        rw [y3 j hnd.1]; exact x4 ⟨u, st, hu, hst, hn⟩
      · obtain ⟨st1, s1, s2, _, s4⟩ := (groupErase_evo x1).storage hst hwf
        exact y4 j gj u st1 hj hgj hu s1 s2 (fun hx => hn (s4 hx))
    · intro l1 i l2 j gi gj u hl hj hgi hgj ho hu
      cases l1 with
      | nil =>
        cases hl
        rw [hg] at hgi; cases hgi
        obtain ⟨st, s1, s2⟩ := x3 u ho
        have hwf : st.set.WF := by
          have hu' : (w0.comps u).isSome = true := by
            have := x2.evo.comps u
            rw [s1] at this
            cases hc : w0.comps u with
            | none => rw [hc] at this; exact this.elim
            | some st0 => rfl
          obtain ⟨st0, hst0⟩ := Option.isSome_iff_exists.1 hu'
          obtain ⟨st', t1, t2, _⟩ := x2.evo.storage hst0 (h.wf _ _ hst0)
          rw [s1] at t1; cases t1; exact t2
        exact y4 j gj u st hj hgj hu s1 hwf s2
      | cons a l1 =>
        cases hl
        exact y5 l1 i l2 j gi gj u rfl hj hgi hgj ho hu

/-- The storage loop of `remove_entity`. -/
theorem forEach_storeErase_any {id : Nat} : ∀ (ts : List Nat) (w : World V), ts.Nodup →
    (∀ t ∈ ts, ∃ st, w.comps t = some st ∧ st.set.WF ∧ id ∈ st.set.entities) →
    ∃ w', M.forEach ts (fun t => M.crit (storeErase t id) (storeEraseX t id)) w = (w', .ok ()) ∧ w'.em = w.em ∧ w'.groups = w.groups
  | [], w, _, _ => ⟨w, rfl, rfl, rfl⟩
  | t :: ts, w, hnd, hts => by
    rw [List.nodup_cons] at hnd
    obtain ⟨st, h1, h2, h3⟩ := hts t (.head _)
    obtain ⟨i, hi⟩ := List.mem_iff_getElem?.1 h3
    obtain ⟨S, e1, _⟩ := SparseSet.removeUnwrap_present h2 hi
    have hstep : storeErase t id w = .ok (w.setSet t S, ()) := by simp [storeErase, h1, e1]
    obtain ⟨w', x1, x2, x3⟩ := forEach_storeErase_any ts (w.setSet t S) hnd.2 fun u hu => by
      have hne : u ≠ t := fun he => hnd.1 (he ▸ hu)
      rw [setSet_comps, if_neg hne]; exact hts u (.tail _ hu)
    exact ⟨w', by rw [M.forEach_cons, M.crit_ok hstep]; exact x1, x2, x3⟩

/-- `remove_entity` of a living entity always succeeds after specified calls; a group containing the entity that comes
after one that contains it and owns one of its types is left as it is. -/
theorem removeEntity_any {w : World V} {s : State V} (h : Rel w s) {id : Nat} {order : List Nat}
    (hnd : order.Nodup) (hl : s.live id = true) :
    ∃ w', World.removeEntity order id w = (w', .ok ()) ∧ w'.groups.map gtag = w.groups.map gtag ∧
      ∀ (i j : Nat) si sj gi gj u, i < j → s.groups[i]? = some si → s.groups[j]? = some sj → si.mem id = true → sj.mem id = true →
        w.groups[i]? = some gi → w.groups[j]? = some gj → gi.owned u = true → (u = gj.tyA ∨ u = gj.tyB) →
        w'.groups[j]? = some gj := by
  have hneed := needRemoveList_ok h.core id w.groups.length 0 (by omega)
  rw [List.drop_zero] at hneed
  generalize hks : ((List.range' 0 w.groups.length).filter fun k =>
      match s.groups[k]? with
      | some g => g.mem id
      | none => false) = ks at hneed
  have hmk : ∀ k, k ∈ ks ↔ ∃ g, s.groups[k]? = some g ∧ g.mem id = true := by
    intro k
    rw [← hks, List.mem_filter, List.mem_range']
    constructor
    · rintro ⟨_, hk⟩
      cases hg : s.groups[k]? with
      | none => simp [hg] at hk
      | some g => exact ⟨g, rfl, by simpa [hg] using hk⟩
    · rintro ⟨g, hg, hm⟩
      have := (List.getElem?_eq_some_iff.1 hg).1
      refine ⟨⟨k, by rw [h.core.glen]; exact this, by omega⟩, by simp [hg, hm]⟩
  have hlt : ks.Pairwise (· < ·) := by
    rw [← hks]
    apply List.Pairwise.filter
    simpa using List.pairwise_lt_range' (s := 0) (n := w.groups.length) (step := 1)
  obtain ⟨w1, rest, h1, h2, h3, h4, h5⟩ := forEach_half h.core ks w _ (.start w id) (hlt.imp (fun h => by omega))
    fun k hk => ⟨trivial, (hmk k).1 hk⟩
  obtain ⟨w2, r1, r2, r3⟩ := forEach_storeErase_any (id := id) (w1.storagesWith id order) w1 (List.Pairwise.filter _ hnd) fun t ht => by
    rw [storagesWith, List.mem_filter] at ht
    cases hc : w1.comps t with
    | none => rw [hc] at ht; cases ht.2
    | some st =>
      rw [hc] at ht
      have hw : st.set.WF := by
        have := h2.evo.comps t
        rw [hc] at this
        cases hc0 : w.comps t with
        | none => rw [hc0] at this; exact this.elim
        | some st0 =>
          rw [hc0] at this
          exact (this.2 (h.core.wf _ _ hc0)).1
      exact ⟨st, rfl, hw, (SparseSet.exist_iff hw).1 ht.2⟩
  obtain ⟨l0, l1, l2⟩ := live_iff.1 hl
  obtain ⟨em, m1, _⟩ := EntityManager.remove_live h.em l0 (by rw [h.next]; exact l1) l2
  refine ⟨{ w2 with em := em }, ?_, by show w2.groups.map gtag = _; rw [r3]; exact h2.evo.tags, ?_⟩
  · simp only [World.removeEntity, M.bind_apply, exist_live h hl, M.assert_true, M.read_apply, hneed, h1, r1]
    rw [M.crit_ok (w' := { w2 with em := em }) (a := ())]
    simp [release, r2, h2.evo.em, m1]
  · intro i j si sj gi gj u hij hsi hsj mi mj hgi hgj ho hu
    show w2.groups[j]? = some gj
    rw [r3]
    have hi := (hmk i).2 ⟨si, hsi, mi⟩
    have hj := (hmk j).2 ⟨sj, hsj, mj⟩
    obtain ⟨l1, l2, rfl⟩ := List.append_of_mem hi
    refine h5 l1 i l2 j gi gj u rfl ?_ hgi hgj ho hu
    rw [List.pairwise_append] at hlt
    rcases List.mem_append.1 hj with hj | hj
    · have := hlt.2.2 j hj i (.head _); omega
    · rcases List.mem_cons.1 hj with rfl | hj
      · omega
      · exact hj

end Xecs
