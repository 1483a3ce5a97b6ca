import Verif.Proofs.Compose
/-
What happens when a query is started, in any world.
-/
set_option autoImplicit false
namespace Xecs
open Spec World Hist
variable {V : Type}

/-- Everything the query names is in the world. -/
def Named (w : World V) : Query → Prop :=
  Parts (fun t => w.hasRegistered t = true)
    (fun k a b => w.hasRegistered a = true ∧ w.hasRegistered b = true ∧ w.hasGroup k a b = true)

theorem lock_cases {w : World V} (ht : ∀ t st, w.comps t = some st → st.ty = t) {held : Query.Held} {m : Mode} {t : Nat}
    (hr : w.hasRegistered t = true) (hp : ∀ x ∈ held, ¬ Query.Clash x (t, m)) :
    Query.lock w held m t = .ok (held ++ [(t, m)]) := by
  obtain ⟨st, hst⟩ := Option.isSome_iff_exists.1 hr
  simp only [Query.lock, hst, unwrapR, ok_bind, downcast, ht t st hst, if_true]
  rw [if_neg]
  rw [List.any_eq_true]
  rintro ⟨x, hx, hc⟩
  simp only [Bool.and_eq_true, Bool.or_eq_true, beq_iff_eq] at hc
  exact hp x hx ⟨hc.1, hc.2⟩

/-- Starting a query without clashing accesses either panics or takes exactly the guards it asks for, and the
latter iff everything it names is there. -/
theorem prepare_cases {w : World V} (ht : ∀ t st, w.comps t = some st → st.ty = t) (q : Query) : ∀ held : Query.Held,
    (held ++ q.accesses).Pairwise (fun x y => ¬ Query.Clash x y) →
    (Named w q ∧ ∃ p, q.prepare w held = .ok (p, held ++ q.accesses)) ∨
    (¬ Named w q ∧ q.prepare w held = .error .panic) := by
  induction q with
  | comp m t =>
    intro held hp
    simp only [Query.accesses, List.pairwise_append, List.mem_singleton, forall_eq] at hp
    simp only [Named, Parts, Query.prepare]
    cases hr : w.hasRegistered t with
    | false => right; exact ⟨by simp, rfl⟩
    | true =>
      left
      rw [lock_cases ht hr (fun x hx => hp.2.2 x hx)]
      exact ⟨rfl, _, rfl⟩
  | group k ma mb a b =>
    intro held hp
    have hp1 : ∀ x ∈ held, ¬ Query.Clash x (a, ma) := fun x hx => by
      rw [List.pairwise_append] at hp; exact hp.2.2 x hx _ (by simp [Query.accesses])
    have hp2 : ∀ x ∈ held ++ [(a, ma)], ¬ Query.Clash x (b, mb) := fun x hx => by
      have e : held ++ (Query.group k ma mb a b).accesses = (held ++ [(a, ma)]) ++ [(b, mb)] := by simp [Query.accesses]
      rw [e, List.pairwise_append] at hp; exact hp.2.2 x hx _ (by simp)
    simp only [Named, Parts, Query.prepare]
    cases hra : w.hasRegistered a with
    | false => right; exact ⟨by simp, rfl⟩
    | true =>
      cases hrb : w.hasRegistered b with
      | false => right; exact ⟨by simp, rfl⟩
      | true =>
        simp only [Bool.and_self, assertR, if_true, ok_bind, lock_cases ht hra hp1, lock_cases ht hrb hp2]
        cases hg : w.hasGroup k a b with
        | false => right; exact ⟨by simp, rfl⟩
        | true =>
          left
          refine ⟨by simp, ?_⟩
          simp only [if_true, ok_bind]
          have hs : (Query.findGroup w k a b).isSome = true := by
            rw [Query.findGroup, List.findIdx?_isSome]; exact hg
          obtain ⟨pos, hpos⟩ := Option.isSome_iff_exists.1 hs
          have hlt : pos < w.groups.length := by
            rw [Query.findGroup, List.findIdx?_eq_some_iff_getElem] at hpos; exact hpos.1
          simp only [hpos, unwrapR, ok_bind, getR_some (List.getElem?_eq_getElem hlt), Query.accesses]
          cases k <;> simp
  | with2 a b iha ihb =>
    intro held hp
    simp only [Query.accesses, ← List.append_assoc] at hp
    simp only [Named, Parts, Query.prepare] at iha ihb ⊢
    rcases iha held (hp.sublist (by repeat (first | exact List.Sublist.refl _ | refine List.Sublist.trans ?_ (List.sublist_append_left _ _)))) with ⟨n1, p1, e1⟩ | ⟨n1, e1⟩
    · rw [e1]; simp only [ok_bind]
      rcases ihb _ hp with ⟨n2, p2, e2⟩ | ⟨n2, e2⟩
      · rw [e2]; left; exact ⟨⟨n1, n2⟩, _, by simp only [ok_bind, Query.accesses, List.append_assoc]; rfl⟩
      · rw [e2]; right; exact ⟨fun h => n2 h.2, rfl⟩
    · rw [e1]; right; exact ⟨fun h => n1 h.1, rfl⟩
  | withoutL a b iha ihb =>
    intro held hp
    simp only [Query.accesses, ← List.append_assoc] at hp
    simp only [Named, Parts, Query.prepare] at iha ihb ⊢
    rcases iha held (hp.sublist (by repeat (first | exact List.Sublist.refl _ | refine List.Sublist.trans ?_ (List.sublist_append_left _ _)))) with ⟨n1, p1, e1⟩ | ⟨n1, e1⟩
    · rw [e1]; simp only [ok_bind]
      rcases ihb _ hp with ⟨n2, p2, e2⟩ | ⟨n2, e2⟩
      · rw [e2]; left; exact ⟨⟨n1, n2⟩, _, by simp only [ok_bind, Query.accesses, List.append_assoc]; rfl⟩
      · rw [e2]; right; exact ⟨fun h => n2 h.2, rfl⟩
    · rw [e1]; right; exact ⟨fun h => n1 h.1, rfl⟩
  | withoutR a b iha ihb =>
    intro held hp
    simp only [Query.accesses, ← List.append_assoc] at hp
    simp only [Named, Parts, Query.prepare] at iha ihb ⊢
    rcases iha held (hp.sublist (by repeat (first | exact List.Sublist.refl _ | refine List.Sublist.trans ?_ (List.sublist_append_left _ _)))) with ⟨n1, p1, e1⟩ | ⟨n1, e1⟩
    · rw [e1]; simp only [ok_bind]
      rcases ihb _ hp with ⟨n2, p2, e2⟩ | ⟨n2, e2⟩
      · rw [e2]; left; exact ⟨⟨n1, n2⟩, _, by simp only [ok_bind, Query.accesses, List.append_assoc]; rfl⟩
      · rw [e2]; right; exact ⟨fun h => n2 h.2, rfl⟩
    · rw [e1]; right; exact ⟨fun h => n1 h.1, rfl⟩
  | with3 a b c iha ihb ihc =>
    intro held hp
    simp only [Query.accesses, ← List.append_assoc] at hp
    simp only [Named, Parts, Query.prepare] at iha ihb ihc ⊢
    rcases iha held (hp.sublist (by repeat (first | exact List.Sublist.refl _ | refine List.Sublist.trans ?_ (List.sublist_append_left _ _)))) with ⟨n1, p1, e1⟩ | ⟨n1, e1⟩
    · rw [e1]; simp only [ok_bind]
      rcases ihb _ (hp.sublist (by repeat (first | exact List.Sublist.refl _ | refine List.Sublist.trans ?_ (List.sublist_append_left _ _)))) with ⟨n2, p2, e2⟩ | ⟨n2, e2⟩
      · rw [e2]; simp only [ok_bind]
        rcases ihc _ hp with ⟨n3, p3, e3⟩ | ⟨n3, e3⟩
        · rw [e3]; left; exact ⟨⟨n1, n2, n3⟩, _, by simp only [ok_bind, Query.accesses, List.append_assoc]; rfl⟩
        · rw [e3]; right; exact ⟨fun h => n3 h.2.2, rfl⟩
      · rw [e2]; right; exact ⟨fun h => n2 h.2.1, rfl⟩
    · rw [e1]; right; exact ⟨fun h => n1 h.1, rfl⟩
  | with4 a b c d iha ihb ihc ihd =>
    intro held hp
    simp only [Query.accesses, ← List.append_assoc] at hp
    simp only [Named, Parts, Query.prepare] at iha ihb ihc ihd ⊢
    rcases iha held (hp.sublist (by repeat (first | exact List.Sublist.refl _ | refine List.Sublist.trans ?_ (List.sublist_append_left _ _)))) with ⟨n1, p1, e1⟩ | ⟨n1, e1⟩
    · rw [e1]; simp only [ok_bind]
      rcases ihb _ (hp.sublist (by repeat (first | exact List.Sublist.refl _ | refine List.Sublist.trans ?_ (List.sublist_append_left _ _)))) with ⟨n2, p2, e2⟩ | ⟨n2, e2⟩
      · rw [e2]; simp only [ok_bind]
        rcases ihc _ (hp.sublist (by repeat (first | exact List.Sublist.refl _ | refine List.Sublist.trans ?_ (List.sublist_append_left _ _)))) with ⟨n3, p3, e3⟩ | ⟨n3, e3⟩
        · rw [e3]; simp only [ok_bind]
          rcases ihd _ hp with ⟨n4, p4, e4⟩ | ⟨n4, e4⟩
          · rw [e4]; left; exact ⟨⟨n1, n2, n3, n4⟩, _, by simp only [ok_bind, Query.accesses, List.append_assoc]; rfl⟩
          · rw [e4]; right; exact ⟨fun h => n4 h.2.2.2, rfl⟩
        · rw [e3]; right; exact ⟨fun h => n3 h.2.2.1, rfl⟩
      · rw [e2]; right; exact ⟨fun h => n2 h.2.1, rfl⟩
    · rw [e1]; right; exact ⟨fun h => n1 h.1, rfl⟩
  | with5 a b c d e iha ihb ihc ihd ihe =>
    intro held hp
    simp only [Query.accesses, ← List.append_assoc] at hp
    simp only [Named, Parts, Query.prepare] at iha ihb ihc ihd ihe ⊢
    rcases iha held (hp.sublist (by repeat (first | exact List.Sublist.refl _ | refine List.Sublist.trans ?_ (List.sublist_append_left _ _)))) with ⟨n1, p1, e1⟩ | ⟨n1, e1⟩
    · rw [e1]; simp only [ok_bind]
      rcases ihb _ (hp.sublist (by repeat (first | exact List.Sublist.refl _ | refine List.Sublist.trans ?_ (List.sublist_append_left _ _)))) with ⟨n2, p2, e2⟩ | ⟨n2, e2⟩
      · rw [e2]; simp only [ok_bind]
        rcases ihc _ (hp.sublist (by repeat (first | exact List.Sublist.refl _ | refine List.Sublist.trans ?_ (List.sublist_append_left _ _)))) with ⟨n3, p3, e3⟩ | ⟨n3, e3⟩
        · rw [e3]; simp only [ok_bind]
          rcases ihd _ (hp.sublist (by repeat (first | exact List.Sublist.refl _ | refine List.Sublist.trans ?_ (List.sublist_append_left _ _)))) with ⟨n4, p4, e4⟩ | ⟨n4, e4⟩
          · rw [e4]; simp only [ok_bind]
            rcases ihe _ hp with ⟨n5, p5, e5⟩ | ⟨n5, e5⟩
            · rw [e5]; left; exact ⟨⟨n1, n2, n3, n4, n5⟩, _, by simp only [ok_bind, Query.accesses, List.append_assoc]; rfl⟩
            · rw [e5]; right; exact ⟨fun h => n5 h.2.2.2.2, rfl⟩
          · rw [e4]; right; exact ⟨fun h => n4 h.2.2.2.1, rfl⟩
        · rw [e3]; right; exact ⟨fun h => n3 h.2.2.1, rfl⟩
      · rw [e2]; right; exact ⟨fun h => n2 h.2.1, rfl⟩
    · rw [e1]; right; exact ⟨fun h => n1 h.1, rfl⟩

end Xecs
