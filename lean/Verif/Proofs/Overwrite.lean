import Verif.Proofs.Shape
/-
Attaching a component to an entity that already has it.
-/
set_option autoImplicit false
namespace Xecs
open Spec World Hist
variable {V : Type}

theorem putPair_same {w : World V} {s : State V} (h : WRel w s) {k : Nat} {g : Group} (hk : w.groups[k]? = some g)
    {A B : Storage V} (hA : w.comps g.tyA = some A) (hB : w.comps g.tyB = some B) :
    w.putPair k (g, A.set, B.set) = w := by
  have hset : w.groups.set k g = w.groups := by
    apply List.ext_getElem?
    intro i
    rw [List.getElem?_set]
    split
    · rename_i hki; subst hki
      split
      · exact hk.symm
      · rename_i hh; exact absurd (List.getElem?_eq_some_iff.1 hk).1 hh
    · rfl
  have hcomp : (w.putPair k (g, A.set, B.set)).comps = w.comps := by
    funext u
    rw [putPair_comps (a := g.tyA) (b := g.tyB) rfl rfl hA hB (by
      intro hab; rw [hab, hB] at hA; simp at hA; rw [hA])]
    by_cases h1 : u = g.tyA
    · rw [if_pos h1, h1, hA]
    · by_cases h2 : u = g.tyB
      · rw [if_neg h1, if_pos h2, h2, hB]
      · rw [if_neg h1, if_neg h2]
  have h1 : w.putPair k (g, A.set, B.set) =
      ⟨w.em, (w.putPair k (g, A.set, B.set)).comps, w.groups.set k g, w.res⟩ := rfl
  rw [h1, hcomp, hset]

/-- The group loop of `attach` does nothing for groups that are in sync for `id`. -/
theorem forEach_groupAdd_id (id : Nat) (ks : List Nat) (w : World V) (s : State V) (h : WRel w s)
    (hlt : ∀ k ∈ ks, ∃ gs, s.groups[k]? = some gs ∧ gs.mem id = s.both gs id) :
    M.forEach ks (fun k => M.crit (groupAdd k id) (groupAddX k id)) w = (w, .ok ()) := by
  induction ks with
  | nil => rfl
  | cons k ks ih =>
    obtain ⟨gs, hks, hm⟩ := hlt k (by simp)
    obtain ⟨g, hk⟩ := group_at h hks
    obtain ⟨A, B, hA, hB, hlp, wA, wB, hs, hab, hmm, hf, mA, mB⟩ := lockPair_ok h hk hks
    obtain ⟨g', A', B', hadd, hU, hmem, hfresh, hsame⟩ := Group.add_spec wA wB hs hab id
    have hcase : g.Mem A.set id ∨ ¬ (id ∈ A.set.entities ∧ id ∈ B.set.entities) := by
      by_cases hb : id ∈ A.set.entities ∧ id ∈ B.set.entities
      · left
        rw [← hmm, hm, State.both, Bool.and_eq_true, ← mA, ← mB]; exact hb
      · exact .inr hb
    obtain ⟨rfl, rfl, rfl⟩ := hsame hcase
    have : groupAdd k id w = .ok (w, ()) := by
      simp [groupAdd, getR_some hk, hlp, hadd, putPair_same h hk hA hB]
    rw [M.forEach_cons, M.crit_ok this]
    exact ih (fun k' hk' => hlt k' (List.mem_cons_of_mem _ hk'))

/-- Overwriting a component only replaces the value in place, when the groups over the type are in sync. -/
theorem attach_overwrite {w : World V} {s : State V} (h : Rel w s) {id t : Nat} {v v' : V}
    (hl : s.live id = true) (hv : s.get t id = some v')
    (hsync : ∀ gs ∈ s.groups, gs.touches t = true → gs.mem id = s.both gs id) :
    ∃ st S, w.comps t = some st ∧ st.set.add id v = .ok S ∧ SetShape st.set S ∧
      World.attach id t v w = (w.setSet t S, .ok ()) := by
  obtain ⟨f, hf⟩ : ∃ f, s.comp t = some f := by
    unfold State.get at hv
    cases hc : s.comp t with
    | none => rw [hc] at hv; cases hv
    | some f => exact ⟨f, rfl⟩
  obtain ⟨st, hst, hty, hwf, hlook, hlen⟩ := h.core.comp_some hf
  have hmem : id ∈ st.set.entities := by
    rw [h.core.mem_iff hst, State.has, hv]; rfl
  obtain ⟨S, hS, hSw, hents, hilen, hlk, hidx⟩ := SparseSet.add_present hwf v hmem
  obtain ⟨w1, h1, h2, h3, h4⟩ := attachStore_ref h.core id t v hf
  have hw1 : w1 = w.setSet t S := by
    simp [attachStore, hst, downcast, hty, hS] at h1; exact h1.symm
  have hreg := hasRegistered_eq h.core t
  rw [hf] at hreg
  have h5 := forEach_groupAdd_id id (w1.groupsOf t) w1 _ h2 (by
    intro k hk
    obtain ⟨gs, hgs, ht⟩ := (mem_groupsOf h2 t k).1 hk
    refine ⟨gs, hgs, ?_⟩
    rw [hsync gs (List.mem_of_getElem? (show s.groups[k]? = some gs from hgs)) ht]
    have hid : ∀ u, (s.put id t f v).has u id = s.has u id := by
      intro u
      rw [put_has hf]
      by_cases hu : u = t
      · subst hu; simp [State.has, hv]
      · have : (u == t) = false := by simp [hu]
        simp [this]
    simp only [State.both, hid])
  refine ⟨st, S, hst, hS, ⟨hents, hidx, by rw [← hSw.len, ← hwf.len, hents]⟩, ?_⟩
  simp only [World.attach, M.bind_apply, entity_live h hl, M.read_apply, unwrapR_some, World.entityAttach,
    hreg, Option.isSome_some, M.assert_true, M.crit_ok h1, h5]
  rw [hw1]

end Xecs
