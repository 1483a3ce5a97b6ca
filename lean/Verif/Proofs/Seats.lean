import Verif.Spec.Seats
import Verif.Proofs.Order
import Verif.Proofs.GroupQueries
/-
What the index set of a non-owning group contains.
-/
set_option autoImplicit false
namespace Xecs
open Spec World Hist
variable {V : Type} {k a b : Nat} {w w' : World V}

/-- What the code knows about the non-owning group number `k`: the orders of the two storages, the order of the members, and
the places remembered for them. -/
structure View (k a b : Nat) (w : World V) (EA EB L : List Nat) (f : Nat → Nat × Nat) : Prop where
  set : ∃ s, w.groups[k]? = some (.non s a b) ∧ s.WF ∧ s.entities = L ∧ ∀ x ∈ L, s.lookup x = some (f x)
  stA : ∃ A, w.comps a = some A ∧ A.set.WF ∧ A.set.entities = EA
  stB : ∃ B, w.comps b = some B ∧ B.set.WF ∧ B.set.entities = EB
  sub : ∀ x ∈ L, x ∈ EA ∧ x ∈ EB
  ua : Unheld a w
  ub : Unheld b w

/-- The places after `L` got new members. -/
def seated (EA EB L : List Nat) (f : Nat → Nat × Nat) (x : Nat) : Nat × Nat := if x ∈ L then f x else (EA.idxOf x, EB.idxOf x)

/-- An entity joins if it has both components and is no member yet. -/
def enter (id : Nat) (EA EB L : List Nat) : List Nat := if id ∈ EA ∧ id ∈ EB ∧ id ∉ L then L ++ [id] else L

variable {EA EB L : List Nat} {f : Nat → Nat × Nat} {id : Nat}

theorem View.congr (h : View k a b w EA EB L f) {f' : Nat → Nat × Nat} (hf : ∀ x ∈ L, f' x = f x) : View k a b w EA EB L f' := by
  obtain ⟨⟨s, h1, h2, h3, h4⟩, h5, h6, h7, h8, h9⟩ := h
  exact ⟨⟨s, h1, h2, h3, fun x hx => by rw [hf x hx]; exact h4 x hx⟩, h5, h6, h7, h8, h9⟩

theorem View.seated (h : View k a b w EA EB L f) : View k a b w EA EB L (seated EA EB L f) :=
  h.congr fun x hx => by unfold Xecs.seated; rw [if_pos hx]

/-- The storages' orders and the unowned types after work on a group. -/
theorem View.moved {α : Type} {m : M V α} (hm : ∀ t, M.Moves t Rests m) (h : View k a b w EA EB L f) (hx : (m w).1 = w') :
    (∃ A, w'.comps a = some A ∧ A.set.WF ∧ A.set.entities = EA) ∧ (∃ B, w'.comps b = some B ∧ B.set.WF ∧ B.set.entities = EB) ∧
      Unheld a w' ∧ Unheld b w' := by
  subst hx
  obtain ⟨A, a1, a2, a3⟩ := h.stA
  obtain ⟨B, b1, b2, b3⟩ := h.stB
  obtain ⟨m1, m2⟩ := hm a w
  obtain ⟨n1, n2⟩ := hm b w
  obtain ⟨A', c1, c2⟩ := m2 h.ua A a1
  obtain ⟨B', d1, d2⟩ := n2 h.ub B b1
  refine ⟨⟨A', c1, (c2 a2).1, by rw [(c2 a2).2, a3]⟩, ⟨B', d1, (d2 b2).1, by rw [(d2 b2).2, b3]⟩, ?_, ?_⟩
  · have := h.ua; unfold Unheld at this ⊢; rw [m1]; exact this
  · have := h.ub; unfold Unheld at this ⊢; rw [m1]; exact this

theorem idxOf_of_getIndex {S : SparseSet V} (hw : S.WF) {x i : Nat} (h : S.getIndex x = some i) : S.entities.idxOf x = i := by
  rw [SparseSet.getIndex_iff hw] at h
  obtain ⟨hl, he⟩ := List.getElem?_eq_some_iff.1 h
  rw [← he]; exact (SparseSet.nodup hw).idxOf_getElem i hl

theorem getIndex_of_mem {S : SparseSet V} (hw : S.WF) {x : Nat} (h : x ∈ S.entities) : S.getIndex x = some (S.entities.idxOf x) := by
  obtain ⟨i, hi⟩ := List.mem_iff_getElem?.1 h
  have := (SparseSet.getIndex_iff hw).2 hi
  rw [this, idxOf_of_getIndex hw this]

/-- Work on another group. -/
theorem groups_other {w w' : World V} {j : Nat} {r : Group × SparseSet V × SparseSet V} (hj : j ≠ k) (h : w' = w.putPair j r) :
    w'.groups[k]? = w.groups[k]? := by
  subst h
  show (w.groups.set j r.1)[k]? = _
  rw [List.getElem?_set_ne hj]

theorem View.groupAdd (h : View k a b w EA EB L f) {j : Nat} {u : Unit} (hx : groupAdd j id w = .ok (w', u)) :
    View k a b w' EA EB (if j = k then enter id EA EB L else L) (Xecs.seated EA EB L f) := by
  have hw : (M.crit (World.groupAdd j id) (groupAddX j id) w).1 = w' := by rw [M.crit_ok hx]
  obtain ⟨m1, m2, m3, m4⟩ := h.moved (fun t => groupAdd_moves j id) hw
  obtain ⟨s, h1, h2, h3, h4⟩ := h.set
  simp only [World.groupAdd, bind_eq_ok] at hx
  obtain ⟨g, hg, ⟨A, B⟩, hp, r, hr, hx⟩ := hx
  simp only [Except.ok.injEq, Prod.mk.injEq] at hx
  obtain ⟨rfl, _⟩ := hx
  by_cases hj : j = k
  · subst hj
    rw [if_pos rfl]
    have hg' := getR_ok hg
    rw [h1] at hg'
    cases hg'
    obtain ⟨stA, stB, hA, hB, rfl, rfl, _⟩ := lockPair_inv hp
    obtain ⟨A', a1, a2, a3⟩ := h.stA
    obtain ⟨B', b1, b2, b3⟩ := h.stB
    rw [show stA = A' by rw [show (Group.non s a b).tyA = a from rfl, a1] at hA; cases hA; rfl] at hr
    rw [show stB = B' by rw [show (Group.non s a b).tyB = b from rfl, b1] at hB; cases hB; rfl] at hr
    subst a3 b3
    have hlen : j < w.groups.length := (List.getElem?_eq_some_iff.1 h1).1
    have hset : ∀ s', r.1 = Group.non s' a b → (w.putPair j r).groups[j]? = some (.non s' a b) := by
      intro s' e
      show (w.groups.set j r.1)[j]? = _
      rw [List.getElem?_set_self hlen, e]
    unfold Group.add at hr
    by_cases hc : A'.set.exist id = true ∧ B'.set.exist id = true
    · rw [SparseSet.exist_iff a2, SparseSet.exist_iff b2] at hc
      obtain ⟨c1, c2⟩ := hc
      have e1 := (SparseSet.exist_iff a2).2 c1
      have e2 := (SparseSet.exist_iff b2).2 c2
      by_cases hs : id ∈ s.entities
      · have e3 := (SparseSet.exist_iff h2).2 hs
        simp only [Group.inComponents, Group.inGroup, e1, e2, e3, Bool.and_self, Bool.not_true, Bool.false_eq_true, if_false, ok_bind,
          if_true, Except.ok.injEq] at hr
        subst hr
        have hen : enter id A'.set.entities B'.set.entities L = L := by
          unfold enter; rw [if_neg (fun h => h.2.2 (h3 ▸ hs))]
        rw [hen]
        exact View.seated ⟨⟨s, hset s rfl, h2, h3, h4⟩, m1, m2, h.sub, m3, m4⟩
      · have e3 : s.exist id = false := by
          rw [← Bool.not_eq_true]; exact fun h => hs ((SparseSet.exist_iff h2).1 h)
        simp only [Group.inComponents, Group.inGroup, e1, e2, e3, Bool.and_self, Bool.not_true, Bool.false_eq_true, if_false, ok_bind,
          getIndex_of_mem a2 c1, getIndex_of_mem b2 c2, unwrapR_some] at hr
        obtain ⟨s', s1, s2, s3, _, _, s4, _⟩ := SparseSet.add_absent h2 (A'.set.entities.idxOf id, B'.set.entities.idxOf id) hs
        rw [s1] at hr
        simp only [ok_bind, Except.ok.injEq] at hr
        have hL : id ∉ L := h3 ▸ hs
        have hen : enter id A'.set.entities B'.set.entities L = L ++ [id] := by
          unfold enter; rw [if_pos ⟨c1, c2, hL⟩]
        rw [hen]
        refine ⟨⟨s', hset s' (by rw [← hr]), s2, by rw [s3, h3], ?_⟩, m1, m2, ?_, m3, m4⟩
        · intro x hx
          rw [s4]
          unfold Xecs.seated
          by_cases he : x = id
          · subst he
            rw [if_pos rfl, if_neg hL]
          · have : x ∈ L := by simpa [he] using hx
            rw [if_neg he, if_pos this]; exact h4 x this
        · intro x hx
          by_cases he : x = id
          · subst he; exact ⟨c1, c2⟩
          · exact h.sub x (by simpa [he] using hx)
    · have hc' : (A'.set.exist id && B'.set.exist id) = false := by
        rw [← Bool.not_eq_true, Bool.and_eq_true]; exact hc
      simp only [Group.inComponents, hc', Bool.not_false, if_true, Except.ok.injEq] at hr
      subst hr
      have hen : enter id A'.set.entities B'.set.entities L = L := by
        unfold enter
        rw [if_neg]
        rintro ⟨q1, q2, _⟩
        exact hc ⟨(SparseSet.exist_iff a2).2 q1, (SparseSet.exist_iff b2).2 q2⟩
      rw [hen]
      exact View.seated ⟨⟨s, hset s rfl, h2, h3, h4⟩, m1, m2, h.sub, m3, m4⟩
  · rw [if_neg hj]
    refine View.seated ⟨⟨s, ?_, h2, h3, h4⟩, m1, m2, h.sub, m3, m4⟩
    rw [groups_other hj rfl]; exact h1

theorem enter_mem {x : Nat} (h : x ∈ L) : x ∈ enter id EA EB L := by
  unfold enter; split
  · exact List.mem_append_left _ h
  · exact h

theorem enter_twice : enter id EA EB (enter id EA EB L) = enter id EA EB L := by
  by_cases h : id ∈ EA ∧ id ∈ EB ∧ id ∉ L
  · have : enter id EA EB L = L ++ [id] := by unfold enter; rw [if_pos h]
    rw [this]; unfold enter; rw [if_neg (by simp)]
  · have : enter id EA EB L = L := by unfold enter; rw [if_neg h]
    rw [this, this]

/-- The group loop of an attach. -/
theorem View.adds (ks : List Nat) : ∀ {w w' : World V} {L : List Nat} {f : Nat → Nat × Nat}, View k a b w EA EB L f →
    M.forEach ks (fun j => M.crit (World.groupAdd j id) (groupAddX j id)) w = (w', .ok ()) →
    View k a b w' EA EB (if k ∈ ks then enter id EA EB L else L) (Xecs.seated EA EB L f) := by
  induction ks with
  | nil => intro w w' L f h hx; cases hx; rw [if_neg (by simp)]; exact h.seated
  | cons j ks ih =>
    intro w w' L f h hx
    rw [M.forEach_cons] at hx
    cases hj : World.groupAdd j id w with
    | error e => rw [M.crit_error hj] at hx; cases hx
    | ok p =>
      obtain ⟨w1, u⟩ := p
      rw [M.crit_ok hj] at hx
      have h1 := h.groupAdd hj
      have h2 := ih h1 hx
      have hsub : ∀ x ∈ L, x ∈ (if j = k then enter id EA EB L else L) := by
        intro x hx; split
        · exact enter_mem hx
        · exact hx
      have hL : (if k ∈ ks then enter id EA EB (if j = k then enter id EA EB L else L) else if j = k then enter id EA EB L else L) =
          if k ∈ j :: ks then enter id EA EB L else L := by
        by_cases h1 : j = k
        · subst h1; simp only [if_true, enter_twice, ite_self, List.mem_cons, true_or]
        · simp only [h1, if_false, List.mem_cons, Ne.symm h1, false_or]
      rw [hL] at h2
      refine h2.congr fun x hx => ?_
      unfold Xecs.seated
      by_cases hxL : x ∈ L
      · rw [if_pos hxL, if_pos (hsub x hxL)]
      · rw [if_neg hxL]
        exact (ite_self _).symm

theorem swapOut_mem {l : List Nat} (hn : l.Nodup) {x : Nat} : x ∈ swapOut id l ↔ x ≠ id ∧ x ∈ l := by
  by_cases hm : id ∈ l
  · obtain ⟨i, hi⟩ := List.mem_iff_getElem?.1 hm
    obtain ⟨hlt, he⟩ := List.getElem?_eq_some_iff.1 hi
    have hne : l ≠ [] := by intro h; rw [h] at hlt; simp at hlt
    have hz : l.getLast? = some (l.getLast hne) := List.getLast?_eq_some_getLast hne
    have hix : l.idxOf id = i := by rw [← he]; exact hn.idxOf_getElem i hlt
    have hzz : l[l.length - 1]? = l.getLast? := List.getLast?_eq_getElem?.symm
    have hk : ∀ k : Nat, (swapOut id l)[k]? = if k < l.length - 1 then (if k = i then l[l.length - 1]? else l[k]?) else none := by
      intro k
      unfold swapOut
      rw [hz]
      simp only [hm, if_true, hix]
      rw [List.getElem?_dropLast, List.length_set, List.getElem?_set]
      by_cases hkl : k < l.length - 1
      · rw [if_pos hkl, if_pos hkl]
        by_cases hki : k = i
        · subst hki
          rw [if_pos rfl, if_pos rfl, if_pos hlt, hzz, hz]
        · rw [if_neg hki, if_neg (fun h => hki h.symm)]
      · rw [if_neg hkl, if_neg hkl]
    have inj : ∀ {p q : Nat} {y : Nat}, l[p]? = some y → l[q]? = some y → p = q := by
      intro p q y hp hq
      obtain ⟨p1, p2⟩ := List.getElem?_eq_some_iff.1 hp
      obtain ⟨q1, q2⟩ := List.getElem?_eq_some_iff.1 hq
      have e1 := hn.idxOf_getElem p p1
      have e2 := hn.idxOf_getElem q q1
      rw [p2] at e1; rw [q2] at e2; omega
    constructor
    · intro hx
      obtain ⟨k, hxk⟩ := List.mem_iff_getElem?.1 hx
      rw [hk] at hxk
      split at hxk
      · rename_i hkl
        split at hxk
        · rename_i hki
          refine ⟨?_, List.mem_of_getElem? hxk⟩
          rintro rfl
          have := inj hxk hi; omega
        · rename_i hki
          refine ⟨?_, List.mem_of_getElem? hxk⟩
          rintro rfl
          exact hki (inj hxk hi)
      · cases hxk
    · rintro ⟨hne', hx⟩
      obtain ⟨k, hxk⟩ := List.mem_iff_getElem?.1 hx
      have hkl := (List.getElem?_eq_some_iff.1 hxk).1
      by_cases hlast : k = l.length - 1
      · subst hlast
        refine List.mem_of_getElem? (i := i) ?_
        have hil : i ≠ l.length - 1 := by
          rintro rfl; rw [hi] at hxk; cases hxk; exact hne' rfl
        rw [hk, if_pos (by omega), if_pos rfl]; exact hxk
      · refine List.mem_of_getElem? (i := k) ?_
        have hki : k ≠ i := by
          rintro rfl; rw [hi] at hxk; cases hxk; exact hne' rfl
        rw [hk, if_pos (by omega), if_neg hki]; exact hxk
  · rw [swapOut_absent hm]
    exact ⟨fun h => ⟨fun e => hm (e ▸ h), h⟩, fun h => h.2⟩

theorem View.nodup (h : View k a b w EA EB L f) : L.Nodup := by
  obtain ⟨s, _, h2, h3, _⟩ := h.set
  rw [← h3]; exact SparseSet.nodup h2

/-- What leaving does to the index set. -/
theorem index_leaves {s : SparseSet (Nat × Nat)} (h2 : s.WF) (hs : id ∈ s.entities) {F : Nat → Nat × Nat} (h4 : ∀ x ∈ s.entities, s.lookup x = some (F x)) :
    ∃ s' v, s.remove id = .ok (s', some v) ∧ s'.WF ∧ s'.entities = swapOut id s.entities ∧ ∀ x ∈ s'.entities, s'.lookup x = some (F x) := by
  obtain ⟨i, hi⟩ := List.mem_iff_getElem?.1 hs
  obtain ⟨s', s1, s2, _, s3, s4, s5, s6⟩ := SparseSet.remove_present h2 hi
  rw [h4 id hs] at s1
  refine ⟨s', _, s1, s2, swapOut_at (SparseSet.nodup h2) hi s3 s4, fun x hx => ?_⟩
  obtain ⟨n1, n2⟩ := (s6 x).1 hx
  rw [s5, if_neg n1]; exact h4 x n2

/-- `Group.remove` on a non-owning group. -/
theorem nonRemove {s : SparseSet (Nat × Nat)} {A B : SparseSet V} {r : Group × SparseSet V × SparseSet V} (hA : A.WF) (hB : B.WF) (hs : s.WF)
    (hsub : ∀ x ∈ s.entities, x ∈ A.entities ∧ x ∈ B.entities) {F : Nat → Nat × Nat} (hF : ∀ x ∈ s.entities, s.lookup x = some (F x))
    (hr : (Group.non s a b).remove id A B = .ok r) :
    ∃ s', r = (.non s' a b, A, B) ∧ s'.WF ∧ s'.entities = swapOut id s.entities ∧ ∀ x ∈ s'.entities, s'.lookup x = some (F x) := by
  unfold Group.remove at hr
  by_cases hm : id ∈ s.entities
  · obtain ⟨c1, c2⟩ := hsub id hm
    have e1 := (SparseSet.exist_iff hA).2 c1
    have e2 := (SparseSet.exist_iff hB).2 c2
    have e3 := (SparseSet.exist_iff hs).2 hm
    obtain ⟨s', v, s1, s2, s3, s4⟩ := index_leaves hs hm hF
    simp only [Group.inComponents, Group.inGroup, e1, e2, e3, Bool.and_self, Bool.not_true, Bool.false_eq_true, if_false, ok_bind, s1,
      unwrapR_some, Except.ok.injEq] at hr
    exact ⟨s', hr.symm, s2, s3, s4⟩
  · have e3 : s.exist id = false := by
      rw [← Bool.not_eq_true]; exact fun h => hm ((SparseSet.exist_iff hs).1 h)
    have : (Group.non s a b).inGroup id A B = .ok false := by
      unfold Group.inGroup
      split
      · rfl
      · simp only [e3]
    simp only [this, ok_bind, Bool.not_false, if_true, Except.ok.injEq] at hr
    exact ⟨s, hr.symm, hs, (swapOut_absent hm).symm, hF⟩

theorem View.groupRemove (h : View k a b w EA EB L f) {j : Nat} {u : Unit} (hx : World.groupRemove j id w = .ok (w', u)) :
    View k a b w' EA EB (if j = k then swapOut id L else L) f := by
  have hw : (M.crit (World.groupRemove j id) (groupRemoveX j id) w).1 = w' := by rw [M.crit_ok hx]
  obtain ⟨m1, m2, m3, m4⟩ := h.moved (fun t => groupRemove_moves j id) hw
  obtain ⟨s, h1, h2, h3, h4⟩ := h.set
  simp only [World.groupRemove, bind_eq_ok] at hx
  obtain ⟨g, hg, ⟨A, B⟩, hp, r, hr, hx⟩ := hx
  simp only [Except.ok.injEq, Prod.mk.injEq] at hx
  obtain ⟨rfl, _⟩ := hx
  by_cases hj : j = k
  · subst hj
    rw [if_pos rfl]
    have hg' := getR_ok hg
    rw [h1] at hg'
    cases hg'
    obtain ⟨stA, stB, hA, hB, rfl, rfl, _⟩ := lockPair_inv hp
    obtain ⟨A', a1, a2, a3⟩ := h.stA
    obtain ⟨B', b1, b2, b3⟩ := h.stB
    rw [show stA = A' by rw [show (Group.non s a b).tyA = a from rfl, a1] at hA; cases hA; rfl] at hr
    rw [show stB = B' by rw [show (Group.non s a b).tyB = b from rfl, b1] at hB; cases hB; rfl] at hr
    subst a3 b3 h3
    have hlen : j < w.groups.length := (List.getElem?_eq_some_iff.1 h1).1
    obtain ⟨s', rfl, s2, s3, s4⟩ := nonRemove a2 b2 h2 h.sub h4 hr
    refine ⟨⟨s', ?_, s2, s3, fun x hx => s4 x (s3 ▸ hx)⟩, m1, m2, fun x hx => h.sub x ((swapOut_mem (SparseSet.nodup h2)).1 hx).2, m3, m4⟩
    show (w.groups.set j (Group.non s' a b))[j]? = _
    rw [List.getElem?_set_self hlen]
  · rw [if_neg hj]
    refine ⟨⟨s, ?_, h2, h3, h4⟩, m1, m2, h.sub, m3, m4⟩
    rw [groups_other hj rfl]; exact h1

theorem swapOut_twice (hn : L.Nodup) : swapOut id (swapOut id L) = swapOut id L :=
  swapOut_absent fun h => ((swapOut_mem hn).1 h).1 rfl

/-- A loop that takes `id` out of groups. -/
theorem View.takes {sec : Nat → World V → R (World V × Unit)} {secX : Nat → M V Unit}
    (hs : ∀ {j : Nat} {w w' : World V} {L : List Nat} {u : Unit}, View k a b w EA EB L f → sec j w = .ok (w', u) →
      View k a b w' EA EB (if j = k then swapOut id L else L) f) (ks : List Nat) :
    ∀ {w w' : World V} {L : List Nat}, View k a b w EA EB L f →
    M.forEach ks (fun j => M.crit (sec j) (secX j)) w = (w', .ok ()) →
    View k a b w' EA EB (if k ∈ ks then swapOut id L else L) f := by
  induction ks with
  | nil => intro w w' L h hx; cases hx; rw [if_neg (by simp)]; exact h
  | cons j ks ih =>
    intro w w' L h hx
    rw [M.forEach_cons] at hx
    cases hj : sec j w with
    | error e => rw [M.crit_error hj] at hx; cases hx
    | ok p =>
      obtain ⟨w1, u⟩ := p
      rw [M.crit_ok hj] at hx
      have h2 := ih (hs h hj) hx
      have hL : (if k ∈ ks then swapOut id (if j = k then swapOut id L else L) else if j = k then swapOut id L else L) =
          if k ∈ j :: ks then swapOut id L else L := by
        by_cases h1 : j = k
        · subst h1; simp only [if_true, swapOut_twice h.nodup, ite_self, List.mem_cons, true_or]
        · simp only [h1, if_false, List.mem_cons, Ne.symm h1, false_or]
      rw [hL] at h2
      exact h2

theorem View.groupErase (h : View k a b w EA EB L f) {j : Nat} {u : Unit} (hx : World.groupErase j id w = .ok (w', u)) :
    View k a b w' EA EB (if j = k then swapOut id L else L) f := by
  have hw : (M.crit (World.groupErase j id) (groupEraseX j id) w).1 = w' := by rw [M.crit_ok hx]
  obtain ⟨m1, m2, m3, m4⟩ := h.moved (fun t => groupErase_moves j id) hw
  obtain ⟨s, h1, h2, h3, h4⟩ := h.set
  by_cases hj : j = k
  · subst hj
    rw [if_pos rfl]
    obtain ⟨A', a1, a2, a3⟩ := h.stA
    obtain ⟨B', b1, b2, b3⟩ := h.stB
    have hlen : j < w.groups.length := (List.getElem?_eq_some_iff.1 h1).1
    simp only [World.groupErase, getR, h1, ok_bind, Group.tyA, Group.tyB, a1, b1, unwrapR_some, World.lockPair, Group.kind,
      ne_eq, not_true, and_false, if_false, bind_eq_ok] at hx
    obtain ⟨r, hr, hx⟩ := hx
    subst a3 b3 h3
    obtain ⟨s', rfl, s2, s3, s4⟩ := nonRemove a2 b2 h2 h.sub h4 hr
    simp only [Except.ok.injEq, Prod.mk.injEq] at hx
    obtain ⟨rfl, _⟩ := hx
    refine ⟨⟨s', ?_, s2, s3, fun x hx => s4 x (s3 ▸ hx)⟩, m1, m2, fun x hx => h.sub x ((swapOut_mem (SparseSet.nodup h2)).1 hx).2, m3, m4⟩
    show (w.groups.set j (Group.non s' a b))[j]? = _
    rw [List.getElem?_set_self hlen]
  · rw [if_neg hj]
    refine ⟨⟨s, ?_, h2, h3, h4⟩, m1, m2, h.sub, m3, m4⟩
    have : ∃ r, w' = w.putPair j r := by
      simp only [World.groupErase, bind_eq_ok] at hx
      obtain ⟨g, hg, ⟨A, B⟩, hp, ⟨g', A', B'⟩, hr, hx⟩ := hx
      cases g with
      | full l c d =>
        simp only [bind_eq_ok] at hx
        obtain ⟨A2, _, B2, _, hx⟩ := hx
        cases hx; exact ⟨_, rfl⟩
      | part l c d =>
        simp only [bind_eq_ok] at hx
        obtain ⟨A2, _, hx⟩ := hx
        cases hx; exact ⟨_, rfl⟩
      | non s c d => cases hx; exact ⟨_, rfl⟩
    obtain ⟨r, hr⟩ := this
    rw [groups_other hj hr]; exact h1

/-! ### Making the group -/

theorem makeA_order {A B : SparseSet V} (hB : B.WF) (l : List Nat) : ∀ {s s' : SparseSet (Nat × Nat)}, s.WF → A.WF →
    (∀ i ∈ l, ∀ e, A.entities[i]? = some e → e ∉ s.entities) → l.Nodup → Group.makeNonLoopA s A B l = .ok s' →
    s'.entities = s.entities ++ (l.filterMap fun i => A.entities[i]?).filter fun x => decide (x ∈ B.entities) := by
  induction l with
  | nil => intro s s' _ _ _ _ h; cases h; simp
  | cons i l ih =>
    intro s s' hs hA hni hn h
    obtain ⟨hn1, hn2⟩ := List.nodup_cons.1 hn
    simp only [Group.makeNonLoopA, bind_eq_ok] at h
    obtain ⟨e, he, h⟩ := h
    have he' : A.entities[i]? = some e := unwrapR_ok he
    cases hg : B.getIndex e with
    | none =>
      rw [hg] at h
      have hnb := (SparseSet.getIndex_none hB).1 hg
      rw [ih hs hA (fun j hj => hni j (List.mem_cons_of_mem _ hj)) hn2 h]
      simp [he', hnb]
    | some j =>
      rw [hg] at h
      simp only [bind_eq_ok] at h
      obtain ⟨s1, hs1, h⟩ := h
      have hmb : e ∈ B.entities := List.mem_of_getElem? ((SparseSet.getIndex_iff hB).1 hg)
      obtain ⟨s2, c1, c2, c3, _⟩ := SparseSet.add_absent hs (i, j) (hni i (List.mem_cons_self ..) e he')
      rw [hs1] at c1; cases c1
      rw [ih c2 hA ?_ hn2 h, c3]
      · simp [he', hmb]
      · intro p hp x hx hm
        rw [c3] at hm
        rcases List.mem_append.1 hm with hm | hm
        · exact hni p (List.mem_cons_of_mem _ hp) x hx hm
        · rw [List.mem_singleton] at hm
          subst hm
          exact hn1 (SparseSet.entities_inj hA hx he' ▸ hp)

theorem makeB_order {A B : SparseSet V} (hA : A.WF) (l : List Nat) : ∀ {s s' : SparseSet (Nat × Nat)}, s.WF → B.WF →
    (∀ i ∈ l, ∀ e, B.entities[i]? = some e → e ∉ s.entities) → l.Nodup → Group.makeNonLoopB s A B l = .ok s' →
    s'.entities = s.entities ++ (l.filterMap fun i => B.entities[i]?).filter fun x => decide (x ∈ A.entities) := by
  induction l with
  | nil => intro s s' _ _ _ _ h; cases h; simp
  | cons i l ih =>
    intro s s' hs hB hni hn h
    obtain ⟨hn1, hn2⟩ := List.nodup_cons.1 hn
    simp only [Group.makeNonLoopB, bind_eq_ok] at h
    obtain ⟨e, he, h⟩ := h
    have he' : B.entities[i]? = some e := unwrapR_ok he
    cases hg : A.getIndex e with
    | none =>
      rw [hg] at h
      have hnb := (SparseSet.getIndex_none hA).1 hg
      rw [ih hs hB (fun j hj => hni j (List.mem_cons_of_mem _ hj)) hn2 h]
      simp [he', hnb]
    | some j =>
      rw [hg] at h
      simp only [bind_eq_ok] at h
      obtain ⟨s1, hs1, h⟩ := h
      have hmb : e ∈ A.entities := List.mem_of_getElem? ((SparseSet.getIndex_iff hA).1 hg)
      obtain ⟨s2, c1, c2, c3, _⟩ := SparseSet.add_absent hs (j, i) (hni i (List.mem_cons_self ..) e he')
      rw [hs1] at c1; cases c1
      rw [ih c2 hB ?_ hn2 h, c3]
      · simp [he', hmb]
      · intro p hp x hx hm
        rw [c3] at hm
        rcases List.mem_append.1 hm with hm | hm
        · exact hni p (List.mem_cons_of_mem _ hp) x hx hm
        · rw [List.mem_singleton] at hm
          subst hm
          exact hn1 (SparseSet.entities_inj hB hx he' ▸ hp)

theorem filterMap_range (l : List Nat) : ((List.range l.length).filterMap fun i => l[i]?) = l := by
  have : ∀ (l p : List Nat), ((List.range' p.length l.length).filterMap fun i => (p ++ l)[i]?) = l := by
    intro l
    induction l with
    | nil => intro p; rfl
    | cons x l ih =>
      intro p
      have := ih (p ++ [x])
      rw [List.length_append, List.append_assoc] at this
      simp only [List.length_cons, List.length_nil, List.singleton_append, Nat.zero_add] at this ⊢
      rw [List.range'_succ, List.filterMap_cons]
      simp only [List.getElem?_append_right (Nat.le_refl _), Nat.sub_self, List.getElem?_cons_zero]
      rw [this]
  have := this l []
  rwa [List.length_nil, List.nil_append, ← List.range_eq_range'] at this

/-- What `make` puts into the index set. -/
theorem makeNon_spec {A B : SparseSet V} (hA : A.WF) (hB : B.WF) {s : SparseSet (Nat × Nat)} {r : Group × SparseSet V × SparseSet V}
    (h : (Group.non s a b).make A B = .ok r) : ∃ s', r = (.non s' a b, A, B) ∧ s'.WF ∧
      s'.entities = (if A.entities.length < B.entities.length then A.entities.filter fun x => decide (x ∈ B.entities)
        else B.entities.filter fun x => decide (x ∈ A.entities)) ∧
      ∀ x ∈ s'.entities, s'.lookup x = some (A.entities.idxOf x, B.entities.idxOf x) := by
  have hclr : s.clear.WF := SparseSet.wf_new
  have hclr0 : ∀ e, s.clear.lookup e = none := SparseSet.lookup_new
  have hlook : ∀ s' : SparseSet (Nat × Nat), s'.WF →
      (∀ e ia ib, s'.lookup e = some (ia, ib) → A.getIndex e = some ia ∧ B.getIndex e = some ib) →
      ∀ x ∈ s'.entities, s'.lookup x = some (A.entities.idxOf x, B.entities.idxOf x) := by
    intro s' hw hf x hx
    obtain ⟨⟨ia, ib⟩, hp⟩ := Option.isSome_iff_exists.1 ((SparseSet.lookup_isSome hw).2 hx)
    obtain ⟨f1, f2⟩ := hf x ia ib hp
    rw [hp, idxOf_of_getIndex hA f1, idxOf_of_getIndex hB f2]
  simp only [Group.make] at h
  by_cases hlt : A.entities.length < B.entities.length
  · rw [if_pos (show A.len < B.len from hlt)] at h
    rw [if_pos hlt]
    obtain ⟨s', h0, h1, h2, h3⟩ := Group.makeNonLoopA_spec A.entities.length 0 s.clear A B hA hB hclr
      (by omega) (by intro e; simp [SparseSet.clear]) (by intro e ia ib h; rw [hclr0] at h; simp at h)
    rw [← List.range_eq_range'] at h0
    simp only [SparseSet.len] at h
    rw [h0] at h
    simp only [ok_bind, Except.ok.injEq] at h
    refine ⟨s', h.symm, h1, ?_, hlook s' h1 h3⟩
    rw [makeA_order hB _ hclr hA (by intro i _ e _; simp [SparseSet.clear]) List.nodup_range h0, filterMap_range]
    rfl
  · rw [if_neg (show ¬ A.len < B.len from hlt)] at h
    rw [if_neg hlt]
    obtain ⟨s', h0, h1, h2, h3⟩ := Group.makeNonLoopB_spec B.entities.length 0 s.clear A B hA hB hclr
      (by omega) (by intro e; simp [SparseSet.clear]) (by intro e ia ib h; rw [hclr0] at h; simp at h)
    rw [← List.range_eq_range'] at h0
    simp only [SparseSet.len] at h
    rw [h0] at h
    simp only [ok_bind, Except.ok.injEq] at h
    refine ⟨s', h.symm, h1, ?_, hlook s' h1 h3⟩
    rw [makeB_order hA _ hclr hB (by intro i _ e _; simp [SparseSet.clear]) List.nodup_range h0, filterMap_range]
    rfl

/-! ### Histories -/

variable {tr : List (Op V × Out V)}

theorem members_unmade : ∀ {tr : List (Op V × Out V)}, madeGroup .non a b tr = false → members a b tr = [] := by
  intro tr
  induction tr with
  | nil => intro _; rfl
  | cons x tr ih =>
    obtain ⟨op, o⟩ := x
    intro h
    cases op with
    | makeGroup k a' b' =>
      simp only [madeGroup, Bool.or_eq_false_iff, Bool.and_eq_false_iff, beq_eq_false_iff_ne] at h
      simp only [members]
      rw [if_neg (by rintro ⟨rfl, rfl, rfl⟩; simp at h), ih h.2]
    | attach id t v =>
      have h' : madeGroup .non a b tr = false := h
      simp only [members]
      rw [if_neg (by rw [h']; simp), ih h']
    | detach id t => simp only [members, ih h]; split <;> rfl
    | removeEntity order id => simp only [members, ih h]; rfl
    | _ => exact ih h

/-- The storages behind a non-owning group after a history. -/
theorem Trace.base (h : Trace tr w) {s : SparseSet (Nat × Nat)} (hg : w.groups[k]? = some (.non s a b)) (ua : Unheld a w) (ub : Unheld b w) :
    s.WF ∧ (∃ A, w.comps a = some A ∧ A.set.WF ∧ A.set.entities = slots a tr) ∧ (∃ B, w.comps b = some B ∧ B.set.WF ∧ B.set.entities = slots b tr) ∧
      (∀ x ∈ s.entities, x ∈ slots a tr ∧ x ∈ slots b tr) ∧ madeGroup .non a b tr = true := by
  obtain ⟨st, hr⟩ := h.run
  have hc := hr.rel.core
  have hk : k < st.groups.length := by rw [← hc.glen]; exact (List.getElem?_eq_some_iff.1 hg).1
  have hgs := List.getElem?_eq_getElem hk
  have hgr := hc.grp k _ _ hg hgs
  obtain ⟨A, B, hA, hB, ⟨hs1, hs2⟩, _, _⟩ := hgr.ex
  have ea : st.groups[k].a = a := hgr.tyA.symm
  have eb : st.groups[k].b = b := hgr.tyB.symm
  rw [ea] at hA
  rw [eb] at hB
  have sa := any_slots h.any h.live.1 ua
  have sb := any_slots h.any h.live.1 ub
  rw [hA] at sa
  rw [hB] at sb
  have hl := any_look h.any h.live.1
  refine ⟨hs1, ⟨A, hA, (hl.at_some hA).2.2.1, sa⟩, ⟨B, hB, (hl.at_some hB).2.2.1, sb⟩, fun x hx => ?_, ?_⟩
  · rw [← sa, ← sb]; exact hs2 x hx
  · have hh : w.hasGroup .non a b = true :=
      List.any_eq_true.2 ⟨_, List.mem_of_getElem? hg, by simp [Group.same, Group.fresh, Group.kind, Group.tyA, Group.tyB]⟩
    rw [hasGroup_of_group? hc] at hh
    rw [group?_isSome hr] at hh
    exact hh

/-- The calls that do not touch groups. -/
def Spec.Op.aloof : Op V → Bool
  | .attach .. | .detach .. | .removeEntity .. | .makeGroup .. => false
  | _ => true

theorem aloof_groups {op : Op V} (ho : op.aloof = true) {o : Out V} (he : exec op w = (w', .ok o)) : w'.groups = w.groups := by
  have last : ∀ {α : Type} {m : M V α} {g : α → Out V}, Fixes (fun w : World V => w.groups) m →
      ((do Pure.pure (g (← m)) : M V (Out V)) w) = (w', .ok o) → w'.groups = w.groups := by
    intro α m g hm he
    rw [M.bind_apply] at he
    have := hm w
    rcases hx : m w with ⟨w1, r⟩
    rw [hx] at he this
    cases r with
    | error e => cases he
    | ok x => cases he; exact this
  cases op with
  | attach id t v => cases ho
  | detach id t => cases ho
  | removeEntity order id => cases ho
  | makeGroup k a b => cases ho
  | register u =>
    refine last (g := fun _ => Out.unit) ?_ he
    exact .bind (.read _) fun _ => .bind (.assert _) fun _ => .crit fun w w' _ h => by cases h; rfl
  | createEntity =>
    simp only [exec, bind_pure_ok] at he
    obtain ⟨id, he, _⟩ := he
    obtain ⟨em, _, rfl, _⟩ := createEntity_inv he
    rfl
  | createEntities n => exact last (g := fun r : Nat × Nat => Out.range r.1 r.2) (.crit fun w w' _ h => by cases h; rfl) he
  | exist id => exact last (g := Out.bool) (.read _) he
  | attachBatch start stop u vs =>
    simp only [exec, bind_pure_ok] at he
    obtain ⟨_, he, _⟩ := he
    obtain ⟨_, st, S, _, _, _, rfl⟩ := attachBatch_inv he
    rfl
  | read u id => exact last (g := Out.val) (.read _) he
  | write u id v =>
    simp only [exec, bind_pure_ok] at he
    obtain ⟨_, he, _⟩ := he
    rcases componentWrite_inv he with ⟨_, rfl⟩ | ⟨_, st, S, _, _, _, rfl⟩ <;> rfl
  | count u => exact last (g := Out.count) (.read _) he
  | registerResource u v => exact last (g := fun _ => Out.unit) (.crit fun w w' _ h => by cases h; rfl) he
  | resourceRead u => exact last (g := Out.val) (.read _) he
  | resourceWrite u v =>
    refine last (g := Out.bool) (.crit fun w w' _ h => ?_) he
    cases hr : w.res u with
    | none => simp only [hr, Except.ok.injEq, Prod.mk.injEq] at h; rw [← h.1]
    | some r =>
      simp only [hr, bind_eq_ok] at h
      obtain ⟨_, _, h⟩ := h
      cases h; rfl

/-- After a call, groups are where they were. -/
theorem group_before {op : Op V} (hop : ∀ k a b, op ≠ .makeGroup k a b) {o : Out V} (he : exec op w = (w', .ok o))
    {s : SparseSet (Nat × Nat)} (hg : w'.groups[k]? = some (.non s a b)) : ∃ s0, w.groups[k]? = some (.non s0 a b) := by
  have ht := (exec_stirs op hop a w).1
  rw [he] at ht
  have := congrArg (fun l : List (Kind × Nat × Nat) => l[k]?) ht
  simp only [List.getElem?_map, hg, Option.map_some] at this
  cases hw : w.groups[k]? with
  | none => rw [hw] at this; cases this
  | some g =>
    rw [hw] at this
    simp only [Option.map_some, Option.some.injEq] at this
    cases g with
    | full n c d => cases this
    | part n c d => cases this
    | non s0 c d => cases this; exact ⟨s0, rfl⟩

theorem mem_groupsOf_non {s : SparseSet (Nat × Nat)} (hg : w.groups[k]? = some (.non s a b)) (t : Nat) : k ∈ w.groupsOf t ↔ t = a ∨ t = b := by
  simp only [groupsOf, List.mem_filter, List.mem_range, hg, Group.tyA, Group.tyB, Bool.or_eq_true, beq_iff_eq]
  constructor
  · rintro ⟨_, h | h⟩
    · exact .inl h.symm
    · exact .inr h.symm
  · rintro (rfl | rfl)
    · exact ⟨(List.getElem?_eq_some_iff.1 hg).1, .inl rfl⟩
    · exact ⟨(List.getElem?_eq_some_iff.1 hg).1, .inr rfl⟩

/-- Storing a component before the groups are told. -/
theorem stored {t : Nat} {v : V} {S : SparseSet V} {st : Storage V} (hst : w.comps t = some st) (hS : st.set.add id v = .ok S) {c : Nat} {E : List Nat}
    (h : ∃ A, w.comps c = some A ∧ A.set.WF ∧ A.set.entities = E) :
    ∃ A, (w.setSet t S).comps c = some A ∧ A.set.WF ∧ ∀ x ∈ E, x ∈ A.set.entities := by
  obtain ⟨A, h1, h2, h3⟩ := h
  rw [setSet_comps]
  by_cases hc : c = t
  · subst hc
    rw [h1] at hst; cases hst
    rw [if_pos rfl, h1]
    refine ⟨_, rfl, ?_⟩
    have hg := addX_gains id v st.set h2
    rw [(SparseSet.addX_does id v).ok (s := st.set) (s' := S) (a := ()) (by rw [hS]; rfl)] at hg
    refine ⟨hg.1, fun x hx => ?_⟩
    rw [← h3] at hx
    rcases hg.2 with e | ⟨_, e⟩
    · show x ∈ S.entities; rw [e]; exact hx
    · show x ∈ S.entities; rw [e]; exact List.mem_append_left _ hx
  · rw [if_neg hc]
    exact ⟨A, h1, h2, fun x hx => h3 ▸ hx⟩

/-- The index set contains what the history says. -/
theorem trace_seats (h : Trace tr w) : ∀ {k : Nat} {s : SparseSet (Nat × Nat)}, w.groups[k]? = some (.non s a b) → Unheld a w → Unheld b w →
    s.entities = members a b tr ∧ ∀ x ∈ members a b tr, s.lookup x = some (seat a b x tr) := by
  induction h with
  | init => intro k s hg; cases hg
  | fails hprev ha he ih =>
    rcases hprev.safe ha with ⟨w2, o, hs⟩ | hs
    · rw [hs] at he; cases he
    · rw [hs] at he; cases he; exact ih
  | ok hprev ha he ih =>
    rename_i tr w w' op o
    intro k s hg ua ub
    have hnow : Trace ((op, o) :: tr) w' := .ok hprev ha he
    have hw : (exec op w).1 = w' := by rw [he]
    have ua0 : Unheld a w := unheld_back op (by rw [hw]; exact ua)
    have ub0 : Unheld b w := unheld_back op (by rw [hw]; exact ub)
    obtain ⟨_, ⟨A', a1', a2', a3'⟩, ⟨B', b1', b2', b3'⟩, _, hmade'⟩ := hnow.base hg ua ub
    -- the world before, if the group was there
    have view : ∀ {s0 : SparseSet (Nat × Nat)}, w.groups[k]? = some (.non s0 a b) →
        View k a b w (slots a tr) (slots b tr) (members a b tr) (fun x => seat a b x tr) ∧ madeGroup .non a b tr = true := by
      intro s0 hg0
      obtain ⟨b1, b2, b3, b4, b5⟩ := hprev.base hg0 ua0 ub0
      obtain ⟨i1, i2⟩ := ih hg0 ua0 ub0
      exact ⟨⟨⟨s0, hg0, b1, i1, i2⟩, b2, b3, fun x hx => b4 x (i1 ▸ hx), ua0, ub0⟩, b5⟩
    have keep : ∀ {x : Nat}, x ∈ members a b tr → seat a b x ((op, o) :: tr) = seat a b x tr := by
      intro x hx; simp only [seat, if_pos hx]
    by_cases ho : op.aloof = true
    · rw [aloof_groups ho he] at hg
      have hm : members a b ((op, o) :: tr) = members a b tr := by cases op <;> first | rfl | cases ho
      obtain ⟨i1, i2⟩ := ih hg ua0 ub0
      rw [hm]
      exact ⟨i1, fun x hx => by rw [keep hx]; exact i2 x hx⟩
    · cases op with
      | attach id t v =>
        obtain ⟨s0, hg0⟩ := group_before (by intro k a b h; cases h) he hg
        obtain ⟨hv, hmade⟩ := view hg0
        simp only [exec, bind_pure_ok] at he
        obtain ⟨_, he, _⟩ := he
        simp only [World.attach, World.entityAttach, M.bind_ok, M.read_ok, M.assert_iff, M.crit_iff] at he
        obtain ⟨w1, o', he1, w2, x, ⟨rfl, hx⟩, w3, r, ⟨rfl, hr⟩, w4, _, ⟨rfl, hreg⟩, w5, _, hs, w6, ks, ⟨rfl, hks⟩, hl⟩ := he
        obtain ⟨rfl, ⟨hb, rfl⟩ | ⟨hb, rfl⟩⟩ := entity_ok he1
        · simp at hx; subst hx
          simp only [attachStore, bind_eq_ok] at hs
          obtain ⟨st, hst, S0, hd, S, hS, hs⟩ := hs
          obtain rfl := downcast_eq hd
          cases hs
          cases hks
          have hst := unwrapR_ok hst
          obtain ⟨A5, p1, p2, p3⟩ := stored hst hS hv.stA
          obtain ⟨B5, q1, q2, q3⟩ := stored hst hS hv.stB
          obtain ⟨set0, g1, g2, g3, g4⟩ := hv.set
          have hv5 : View k a b (World.setSet _ t S) A5.set.entities B5.set.entities (members a b tr) (fun x => seat a b x tr) :=
            ⟨⟨set0, g1, g2, g3, g4⟩, ⟨A5, p1, p2, rfl⟩, ⟨B5, q1, q2, rfl⟩, fun x hx => ⟨p3 x (hv.sub x hx).1, q3 x (hv.sub x hx).2⟩, ua0, ub0⟩
          have hv' := View.adds _ hv5 hl
          obtain ⟨⟨s', g1', g2', g3', g4'⟩, ⟨A6, r1, _, r2⟩, ⟨B6, t1, _, t2⟩, _⟩ := hv'
          rw [a1'] at r1; cases r1
          rw [b1'] at t1; cases t1
          rw [hg] at g1'; cases g1'
          have hmem : members a b ((.attach id t v, o) :: tr) = s.entities := by
            rw [g3', ← r2, ← t2, a3', b3']
            simp only [members, enter, mem_groupsOf_non (w := w4.setSet t S) (k := k) (a := a) (b := b) (s := set0) g1]
            by_cases hta : t = a ∨ t = b
            · simp only [hta, hmade, true_and, if_true]
              by_cases hc : id ∉ members a b tr ∧ id ∈ slots a ((.attach id t v, o) :: tr) ∧ id ∈ slots b ((.attach id t v, o) :: tr)
              · rw [if_pos hc, if_pos ⟨hc.2.1, hc.2.2, hc.1⟩]
              · rw [if_neg hc, if_neg (fun h => hc ⟨h.2.2, h.1, h.2.1⟩)]
            · simp only [hta, false_and, and_false, if_false]
          rw [hmem]
          refine ⟨rfl, fun y hy => ?_⟩
          rw [g3'] at hy
          rw [g4' y hy]
          simp only [seated, seat, ← r2, ← t2, a3', b3']
        · simp at hx
      | detach id t =>
        obtain ⟨s0, hg0⟩ := group_before (by intro k a b h; cases h) he hg
        obtain ⟨hv, hmade⟩ := view hg0
        simp only [exec, bind_pure_ok] at he
        obtain ⟨_, he, _⟩ := he
        simp only [World.detach, World.entityDetach, M.bind_ok, M.read_ok, M.assert_iff, M.crit_iff] at he
        obtain ⟨w1, o', he1, w2, x, ⟨rfl, hx⟩, w3, c, ⟨rfl, hr⟩, w4, _, ⟨rfl, hreg⟩, w5, ks, ⟨rfl, hks⟩, w6, _, hl, hs⟩ := he
        obtain ⟨rfl, ⟨hb, rfl⟩ | ⟨hb, rfl⟩⟩ := entity_ok he1
        · simp at hx; subst hx
          cases hks
          have hv' := View.takes (fun h hx => h.groupRemove hx) _ hv hl
          simp only [detachStore, bind_eq_ok] at hs
          obtain ⟨st, hst, S0, hd, ⟨S, r'⟩, hS, hs⟩ := hs
          cases hs
          obtain ⟨⟨s', g1', g2', g3', g4'⟩, _⟩ := hv'
          have : (w6.setSet t S).groups = w6.groups := rfl
          rw [this, g1'] at hg
          cases hg
          have hmem : members a b ((.detach id t, o) :: tr) = s.entities := by
            rw [g3']; simp only [members, mem_groupsOf_non hg0]
          rw [hmem]
          refine ⟨rfl, fun y hy => ?_⟩
          rw [g3'] at hy
          rw [g4' y hy, keep]
          split at hy
          · exact ((swapOut_mem hv.nodup).1 hy).2
          · exact hy
        · simp at hx
      | removeEntity order id =>
        obtain ⟨s0, hg0⟩ := group_before (by intro k a b h; cases h) he hg
        obtain ⟨hv, hmade⟩ := view hg0
        simp only [exec, bind_pure_ok] at he
        obtain ⟨_, he, _⟩ := he
        simp only [World.removeEntity, World.release, World.exist, M.bind_ok, M.read_ok, M.assert_iff, M.crit_iff, bind_eq_ok] at he
        obtain ⟨w1, c, ⟨rfl, hb⟩, w2, _, ⟨rfl, rfl⟩, w3, ks, ⟨rfl, hks⟩, w4, _, hl, w5, ts, ⟨rfl, hts⟩, w6, _, hs, em, hem, hw6⟩ := he
        simp only [Except.ok.injEq, Prod.mk.injEq] at hw6
        obtain ⟨rfl, _⟩ := hw6
        have hv' := View.takes (fun h hx => h.groupErase hx) _ hv hl
        obtain ⟨⟨s', g1', g2', g3', g4'⟩, _⟩ := hv'
        have hgr : w6.groups = w5.groups := by
          have hf : Fixes (fun w : World V => w.groups) (M.forEach ts fun t => M.crit (storeErase t id) (storeEraseX t id)) := by
            refine Fixes.forEach fun t => ?_
            rw [storeErase_exact]
            intro w
            unfold storeEraseX onRaw
            split <;> rfl
          have := hf w5
          rw [hs] at this
          exact this
        have hg6 : w6.groups[k]? = some (.non s a b) := hg
        rw [hgr, g1'] at hg6
        cases hg6
        have hin : k ∈ ks ↔ id ∈ s0.entities := by
          obtain ⟨st, hr⟩ := hprev.run
          have hc := hr.rel.core
          have hk : k < st.groups.length := by rw [← hc.glen]; exact (List.getElem?_eq_some_iff.1 hg0).1
          have hgs := List.getElem?_eq_getElem hk
          obtain ⟨A, B, hA, hB, _, hmem, _⟩ := (hc.grp k _ _ hg0 hgs).ex
          have := needRemoveList_ok hc id w3.groups.length 0 (by omega)
          rw [List.drop_zero, hks] at this
          simp only [Except.ok.injEq] at this
          rw [this, List.mem_filter, hgs]
          simp only [List.mem_range'_1]
          rw [hmem id]
          have hkw := (List.getElem?_eq_some_iff.1 hg0).1
          exact ⟨fun h => h.2, fun h => ⟨⟨Nat.zero_le _, by omega⟩, h⟩⟩
        obtain ⟨s1, k1, _, k3, _⟩ := hv.set
        rw [hg0] at k1; cases k1
        have hmem : members a b ((.removeEntity order id, o) :: tr) = s.entities := by
          rw [g3']
          simp only [members]
          by_cases hkk : k ∈ ks
          · rw [if_pos hkk]
          · rw [if_neg hkk, swapOut_absent]
            rw [← k3]; exact fun h => hkk (hin.2 h)
        rw [hmem]
        refine ⟨rfl, fun y hy => ?_⟩
        rw [g3'] at hy
        rw [g4' y hy, keep]
        split at hy
        · exact ((swapOut_mem hv.nodup).1 hy).2
        · exact hy
      | makeGroup kd c d =>
        simp only [exec, bind_pure_ok] at he
        obtain ⟨_, he, _⟩ := he
        simp only [World.makeGroup, M.bind_ok, M.read_ok, M.assert_iff, M.crit_iff] at he
        obtain ⟨w1, x, ⟨rfl, hx⟩, w2, _, ⟨rfl, hxt⟩, w3, y, ⟨rfl, hy⟩, w4, _, ⟨rfl, hyt⟩, w5, pos, hp, hm⟩ := he
        simp only [Except.ok.injEq, Prod.mk.injEq] at hx hy hp
        obtain ⟨rfl, rfl⟩ := hp
        subst hx hy
        have hno : w4.hasGroup (toKind kd) c d = false := by simpa using hxt
        simp only [groupMake, bind_eq_ok] at hm
        obtain ⟨g, hgg, ⟨GA, GB⟩, hpair, r, hr, hm⟩ := hm
        simp only [Except.ok.injEq, Prod.mk.injEq] at hm
        obtain ⟨rfl, _⟩ := hm
        have hgg := getR_ok hgg
        simp only [List.getElem?_append_right (Nat.le_refl _), Nat.sub_self, List.getElem?_cons_zero, Option.some.injEq] at hgg
        subst hgg
        have hlk : ((w4.groups ++ [Group.fresh (toKind kd) c d]).set w4.groups.length r.1)[k]? = some (.non s a b) := hg
        by_cases hk : k = w4.groups.length
        · subst hk
          rw [List.getElem?_set_self (by simp)] at hlk
          simp only [Option.some.injEq] at hlk
          obtain ⟨stA, stB, hA, hB, rfl, rfl, _⟩ := lockPair_inv hpair
          have htag : gtag r.1 = gtag (Group.fresh (toKind kd) c d) := by
            have := (makeX_goes lax_true (Group.fresh (toKind kd) c d, stA.set, stB.set)).tag
            rw [Group.makeX_does.ok (s := (Group.fresh (toKind kd) c d, stA.set, stB.set)) (s' := r) (a := ()) (by dsimp only; rw [hr]; rfl)] at this
            exact this
          rw [hlk] at htag
          have hkd : kd = .non ∧ c = a ∧ d = b := by
            cases kd <;> cases htag
            exact ⟨rfl, rfl, rfl⟩
          obtain ⟨rfl, rfl, rfl⟩ := hkd
          have hun : madeGroup .non c d tr = false := by
            obtain ⟨st, hrun⟩ := hprev.run
            rw [show madeGroup .non c d tr = (st.group? .non c d).isSome from (group?_isSome hrun .non c d).symm, ← hasGroup_of_group? hrun.rel.core .non c d]
            exact hno
          have hA' : stA.set.WF ∧ stA.set.entities = slots c tr := by
            have := any_slots hprev.any hprev.live.1 ua0
            rw [show w4.comps c = some stA from hA] at this
            exact ⟨((any_look hprev.any hprev.live.1).at_some hA).2.2.1, this⟩
          have hB' : stB.set.WF ∧ stB.set.entities = slots d tr := by
            have := any_slots hprev.any hprev.live.1 ub0
            rw [show w4.comps d = some stB from hB] at this
            exact ⟨((any_look hprev.any hprev.live.1).at_some hB).2.2.1, this⟩
          obtain ⟨s', e, h1, h2, h3⟩ := makeNon_spec hA'.1 hB'.1 hr
          rw [e] at hlk
          cases hlk
          rw [hA'.2, hB'.2] at h2 h3
          have hmem : members c d ((.makeGroup .non c d, o) :: tr) = s.entities := by
            rw [h2]; simp only [members, and_self, if_true]
          rw [hmem]
          refine ⟨rfl, fun x hx => ?_⟩
          rw [h3 x hx]
          simp only [seat, members_unmade hun, List.not_mem_nil, if_false, slots]
        · rw [List.getElem?_set_ne (Ne.symm hk)] at hlk
          have hlt : k < w4.groups.length := by
            have := (List.getElem?_eq_some_iff.1 hlk).1
            simp only [List.length_append, List.length_cons, List.length_nil] at this
            omega
          rw [List.getElem?_append_left hlt] at hlk
          obtain ⟨i1, i2⟩ := ih hlk ua0 ub0
          have hnn : ¬ (kd = .non ∧ c = a ∧ d = b) := by
            rintro ⟨rfl, rfl, rfl⟩
            have : w4.hasGroup .non c d = true :=
              List.any_eq_true.2 ⟨_, List.mem_of_getElem? hlk, by simp [Group.same, Group.fresh, Group.kind, Group.tyA, Group.tyB]⟩
            rw [show w4.hasGroup .non c d = false from hno] at this
            cases this
          have hmem : members a b ((.makeGroup kd c d, o) :: tr) = members a b tr := by simp only [members, if_neg hnn]
          rw [hmem]
          exact ⟨i1, fun x hx => by rw [keep hx]; exact i2 x hx⟩
      | _ => exact absurd rfl ho

end Xecs
