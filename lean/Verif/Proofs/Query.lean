import Verif.Proofs.Step
import Verif.Spec.Query
/-
Queries: building an iterator, `from_id`, iteration.
-/
set_option autoImplicit false
namespace Xecs
open Spec World
variable {V : Type}

theorem bind_eq_ok {α β : Type} {x : R α} {f : α → R β} {b : β} :
    (x >>= f) = .ok b ↔ ∃ a, x = .ok a ∧ f a = .ok b := by
  cases x with
  | ok a => simp
  | error e => simp

theorem bind_eq_error {α β : Type} {x : R α} {f : α → R β} {e : Fault} :
    (x >>= f) = .error e ↔ x = .error e ∨ ∃ a, x = .ok a ∧ f a = .error e := by
  cases x with
  | ok a => simp
  | error e => simp

/-! ### Groups named by queries -/

theorem toKind_ofKind (k : Kind) : toKind (ofKind k) = k := by cases k <;> rfl

theorem findGroup_eq {w : World V} {s : State V} (h : WRel w s) (k : Kind) (a b : Nat) :
    Query.findGroup w k a b = s.groups.findIdx? fun g => g.kind == ofKind k && g.a == a && g.b == b := by
  have e1 : ∀ (l : List Group), l.findIdx? (fun g => g.same (Group.fresh k a b)) =
      (l.map fun g => g.same (Group.fresh k a b)).findIdx? id := by
    intro l; rw [List.findIdx?_map]; rfl
  have e2 : ∀ (l : List SGroup), l.findIdx? (fun g => g.kind == ofKind k && g.a == a && g.b == b) =
      (l.map fun g => g.kind == ofKind k && g.a == a && g.b == b).findIdx? id := by
    intro l; rw [List.findIdx?_map]; rfl
  rw [Query.findGroup, e1, e2]
  congr 1
  apply List.ext_getElem?
  intro i
  rw [List.getElem?_map, List.getElem?_map]
  by_cases hi : i < w.groups.length
  · have hg := List.getElem?_eq_getElem hi
    have hgs := List.getElem?_eq_getElem (l := s.groups) (i := i) (by rw [← h.glen]; exact hi)
    rw [hg, hgs, Option.map_some, Option.map_some]
    have := same_eq (h.grp i _ _ hg hgs) (ofKind k) a b
    rw [toKind_ofKind] at this
    rw [this]
  · rw [List.getElem?_eq_none (by omega), List.getElem?_eq_none (by rw [← h.glen]; omega)]
    rfl

theorem group?_some {w : World V} {s : State V} (h : WRel w s) {k : Kind} {a b : Nat} {gs : SGroup}
    (hg : s.group? k a b = some gs) :
    ∃ pos g, Query.findGroup w k a b = some pos ∧ s.groups[pos]? = some gs ∧ w.groups[pos]? = some g ∧
      GRel w.comps g gs ∧ g.kind = k ∧ gs.a = a ∧ gs.b = b := by
  have hp := List.find?_some hg
  simp only [Bool.and_eq_true, beq_iff_eq] at hp
  rw [State.group?, List.find?_eq_bind_findIdx?_getElem?] at hg
  obtain ⟨pos, hpos, hgp⟩ := Option.bind_eq_some_iff.1 hg
  obtain ⟨g, hgw⟩ := group_at h hgp
  have hr := h.grp pos g gs hgw hgp
  refine ⟨pos, g, by rw [findGroup_eq h]; exact hpos, hgp, hgw, hr, ?_, hp.1.2, hp.2⟩
  rw [hr.kind, hp.1.1, toKind_ofKind]

theorem hasGroup_of_group? {w : World V} {s : State V} (h : WRel w s) (k : Kind) (a b : Nat) :
    w.hasGroup k a b = (s.group? k a b).isSome := by
  have := hasGroup_eq h (ofKind k) a b
  rw [toKind_ofKind] at this
  rw [this, State.group?, Bool.eq_iff_iff, List.find?_isSome, List.any_eq_true]

theorem findGroup_isSome {w : World V} {s : State V} (h : WRel w s) (k : Kind) (a b : Nat) :
    (Query.findGroup w k a b).isSome = (s.group? k a b).isSome := by
  rw [findGroup_eq h, State.group?, List.findIdx?_isSome, Bool.eq_iff_iff, List.find?_isSome,
    List.any_eq_true]

/-! ### The iterator built by a query -/

/-- The plan `prepare` builds when it succeeds. -/
def planOf (w : World V) : Query → Plan
  | .comp m t => .comp m t
  | .with2 a b => .with2 (planOf w a) (planOf w b)
  | .with3 a b c => .with3 (planOf w a) (planOf w b) (planOf w c)
  | .with4 a b c d => .with4 (planOf w a) (planOf w b) (planOf w c) (planOf w d)
  | .with5 a b c d e => .with5 (planOf w a) (planOf w b) (planOf w c) (planOf w d) (planOf w e)
  | .withoutL a b => .withoutL (planOf w a) (planOf w b)
  | .withoutR a b => .withoutR (planOf w a) (planOf w b)
  | .group k ma mb a b =>
    let pos := (Query.findGroup w k a b).getD 0
    let len := match w.groups[pos]? with | some g => g.len | none => 0
    match k with
    | .full => .full len ma mb a b
    | .part => .part len ma mb a b
    | .non => .non pos ma mb a b

theorem lock_ok {w : World V} {s : State V} (h : WRel w s) {held : Query.Held} {m : Mode} {t : Nat}
    (ht : (s.comp t).isSome = true) (hc : ∀ x ∈ held, ¬ Query.Clash x (t, m)) :
    Query.lock w held m t = .ok (held ++ [(t, m)]) := by
  obtain ⟨f, hf⟩ := Option.isSome_iff_exists.1 ht
  obtain ⟨st, hst, hty, -⟩ := h.comp_some hf
  have : (held.any fun h => h.1 == t && (h.2 == .mut || m == .mut)) = false := by
    rw [List.any_eq_false]
    intro x hx
    have := hc x hx
    simpa [Query.Clash] using this
  simp [Query.lock, hst, this, downcast, hty]

theorem lock_inv {w : World V} {s : State V} (h : WRel w s) {held held' : Query.Held} {m : Mode} {t : Nat}
    (hl : Query.lock w held m t = .ok held') :
    (s.comp t).isSome = true ∧ held' = held ++ [(t, m)] ∧ ∀ x ∈ held, ¬ Query.Clash x (t, m) := by
  have hst := h.st t
  unfold Query.lock at hl
  cases hc : w.comps t with
  | none => simp [hc] at hl
  | some st =>
    rw [hc] at hl hst
    simp only [unwrapR_some, ok_bind] at hl
    split at hl
    · simp at hl
    · rename_i hany
      have hs : (s.comp t).isSome = true := by
        cases hs : s.comp t with
        | none => rw [hs] at hst; exact hst.elim
        | some f => rfl
      have hty := (h.st_some hc).1
      simp only [downcast, hty, if_true, ok_bind, Except.ok.injEq] at hl
      refine ⟨hs, hl.symm, ?_⟩
      intro x hx hcl
      apply hany
      rw [List.any_eq_true]
      exact ⟨x, hx, by simpa [Query.Clash] using hcl⟩

theorem lock_err {w : World V} {s : State V} (h : WRel w s) {held : Query.Held} {m : Mode} {t : Nat}
    {e : Fault} (hl : Query.lock w held m t = .error e) : e ≠ .ub := by
  unfold Query.lock at hl
  cases hc : w.comps t with
  | none => simp [hc] at hl; simp [← hl]
  | some st =>
    rw [hc] at hl
    simp only [unwrapR_some, ok_bind] at hl
    split at hl
    · simp at hl; simp [← hl]
    · have hty := (h.st_some hc).1
      simp [downcast, hty] at hl

theorem pairwise_left {α : Type} {P : α → α → Prop} {l l' : List α} (h : (l ++ l').Pairwise P) :
    l.Pairwise P := (List.pairwise_append.1 h).1

/-- If everything exists and nothing clashes, the query succeeds. -/
theorem prepare_ok {w : World V} {s : State V} (h : WRel w s) (q : Query) : ∀ (held : Query.Held),
    s.Defined q → (held ++ q.accesses).Pairwise (fun x y => ¬ Query.Clash x y) →
    q.prepare w held = .ok (planOf w q, held ++ q.accesses) := by
  induction q with
  | comp m t =>
    intro held hd hp
    have hreg : w.hasRegistered t = true := by rw [hasRegistered_eq h]; exact hd
    have hl := lock_ok h (m := m) (t := t) (held := held) hd (fun x hx =>
      (List.pairwise_append.1 hp).2.2 x hx (t, m) (by simp [Query.accesses]))
    simp [Query.prepare, hreg, hl, planOf, Query.accesses]
  | with2 a b iha ihb =>
    intro held hd hp
    simp only [Query.accesses, ← List.append_assoc] at hp ⊢
    have p1 := pairwise_left hp
    simp only [Query.prepare, iha _ hd.1 p1, ihb _ hd.2 hp, ok_bind, planOf]
  | with3 a b c iha ihb ihc =>
    intro held hd hp
    simp only [Query.accesses, ← List.append_assoc] at hp ⊢
    have p2 := pairwise_left hp
    have p1 := pairwise_left p2
    simp only [Query.prepare, iha _ hd.1 p1, ihb _ hd.2.1 p2, ihc _ hd.2.2 hp, ok_bind, planOf]
  | with4 a b c d iha ihb ihc ihd =>
    intro held hd hp
    simp only [Query.accesses, ← List.append_assoc] at hp ⊢
    have p3 := pairwise_left hp
    have p2 := pairwise_left p3
    have p1 := pairwise_left p2
    simp only [Query.prepare, iha _ hd.1 p1, ihb _ hd.2.1 p2, ihc _ hd.2.2.1 p3, ihd _ hd.2.2.2 hp, ok_bind,
      planOf]
  | with5 a b c d e iha ihb ihc ihd ihe =>
    intro held hd hp
    simp only [Query.accesses, ← List.append_assoc] at hp ⊢
    have p4 := pairwise_left hp
    have p3 := pairwise_left p4
    have p2 := pairwise_left p3
    have p1 := pairwise_left p2
    simp only [Query.prepare, iha _ hd.1 p1, ihb _ hd.2.1 p2, ihc _ hd.2.2.1 p3, ihd _ hd.2.2.2.1 p4,
      ihe _ hd.2.2.2.2 hp, ok_bind, planOf]
  | withoutL a b iha ihb =>
    intro held hd hp
    simp only [Query.accesses, ← List.append_assoc] at hp ⊢
    have p1 := pairwise_left hp
    simp only [Query.prepare, iha _ hd.1 p1, ihb _ hd.2 hp, ok_bind, planOf]
  | withoutR a b iha ihb =>
    intro held hd hp
    simp only [Query.accesses, ← List.append_assoc] at hp ⊢
    have p1 := pairwise_left hp
    simp only [Query.prepare, iha _ hd.1 p1, ihb _ hd.2 hp, ok_bind, planOf]
  | group k ma mb a b =>
    intro held hd hp
    obtain ⟨da, db, dg⟩ := hd
    have hra : w.hasRegistered a = true := by rw [hasRegistered_eq h]; exact da
    have hrb : w.hasRegistered b = true := by rw [hasRegistered_eq h]; exact db
    have hp' : (held ++ [(a, ma)] ++ [(b, mb)]).Pairwise (fun x y => ¬ Query.Clash x y) := by
      simpa [Query.accesses] using hp
    have p1 := pairwise_left hp'
    have l1 := lock_ok h (m := ma) (t := a) (held := held) da (fun x hx =>
      (List.pairwise_append.1 p1).2.2 x hx (a, ma) (by simp))
    have l2 := lock_ok h (m := mb) (t := b) (held := held ++ [(a, ma)]) db (fun x hx =>
      (List.pairwise_append.1 hp').2.2 x hx (b, mb) (by simp))
    obtain ⟨gs, hgs⟩ := Option.isSome_iff_exists.1 dg
    obtain ⟨pos, g, e1, e2, e3, -⟩ := group?_some h hgs
    have hhg : w.hasGroup k a b = true := by rw [hasGroup_of_group? h]; exact dg
    simp only [Query.prepare, hra, hrb, Bool.and_self, assertR_true, ok_bind, l1, l2, hhg, e1, unwrapR_some,
      getR_some e3, planOf, Option.getD_some, e3, Query.accesses, List.append_assoc, List.cons_append,
      List.nil_append]
    cases k <;> rfl

/-- If the query succeeds, everything exists and nothing clashes. -/
theorem prepare_inv {w : World V} {s : State V} (h : WRel w s) (q : Query) : ∀ (held : Query.Held) (r : Plan × Query.Held),
    held.Pairwise (fun x y => ¬ Query.Clash x y) → q.prepare w held = .ok r →
    s.Defined q ∧ r = (planOf w q, held ++ q.accesses) ∧
      (held ++ q.accesses).Pairwise (fun x y => ¬ Query.Clash x y) := by
  have append_one : ∀ (held : Query.Held) (x : Nat × Mode), held.Pairwise (fun x y => ¬ Query.Clash x y) →
      (∀ y ∈ held, ¬ Query.Clash y x) → (held ++ [x]).Pairwise (fun x y => ¬ Query.Clash x y) := by
    intro held x hp hx
    rw [List.pairwise_append]
    exact ⟨hp, by simp, fun y hy z hz => by simp at hz; subst hz; exact hx y hy⟩
  induction q with
  | comp m t =>
    intro held r hp hr
    simp only [Query.prepare, bind_eq_ok] at hr
    obtain ⟨_, _, held', hl, hr⟩ := hr
    obtain ⟨h1, h2, h3⟩ := lock_inv h hl
    simp only [Except.ok.injEq] at hr
    subst hr h2
    exact ⟨h1, rfl, append_one _ _ hp h3⟩
  | with2 a b iha ihb =>
    intro held r hp hr
    simp only [Query.prepare, bind_eq_ok] at hr
    obtain ⟨r1, h1, r2, h2, hr⟩ := hr
    obtain ⟨d1, rfl, p1⟩ := iha _ _ hp h1
    obtain ⟨d2, rfl, p2⟩ := ihb _ _ p1 h2
    simp only [Except.ok.injEq] at hr
    subst hr
    exact ⟨⟨d1, d2⟩, by simp [planOf, Query.accesses], by simpa [Query.accesses] using p2⟩
  | with3 a b c iha ihb ihc =>
    intro held r hp hr
    simp only [Query.prepare, bind_eq_ok] at hr
    obtain ⟨r1, h1, r2, h2, r3, h3, hr⟩ := hr
    obtain ⟨d1, rfl, p1⟩ := iha _ _ hp h1
    obtain ⟨d2, rfl, p2⟩ := ihb _ _ p1 h2
    obtain ⟨d3, rfl, p3⟩ := ihc _ _ p2 h3
    simp only [Except.ok.injEq] at hr
    subst hr
    exact ⟨⟨d1, d2, d3⟩, by simp [planOf, Query.accesses], by simpa [Query.accesses] using p3⟩
  | with4 a b c d iha ihb ihc ihd =>
    intro held r hp hr
    simp only [Query.prepare, bind_eq_ok] at hr
    obtain ⟨r1, h1, r2, h2, r3, h3, r4, h4, hr⟩ := hr
    obtain ⟨d1, rfl, p1⟩ := iha _ _ hp h1
    obtain ⟨d2, rfl, p2⟩ := ihb _ _ p1 h2
    obtain ⟨d3, rfl, p3⟩ := ihc _ _ p2 h3
    obtain ⟨d4, rfl, p4⟩ := ihd _ _ p3 h4
    simp only [Except.ok.injEq] at hr
    subst hr
    exact ⟨⟨d1, d2, d3, d4⟩, by simp [planOf, Query.accesses], by simpa [Query.accesses] using p4⟩
  | with5 a b c d e iha ihb ihc ihd ihe =>
    intro held r hp hr
    simp only [Query.prepare, bind_eq_ok] at hr
    obtain ⟨r1, h1, r2, h2, r3, h3, r4, h4, r5, h5, hr⟩ := hr
    obtain ⟨d1, rfl, p1⟩ := iha _ _ hp h1
    obtain ⟨d2, rfl, p2⟩ := ihb _ _ p1 h2
    obtain ⟨d3, rfl, p3⟩ := ihc _ _ p2 h3
    obtain ⟨d4, rfl, p4⟩ := ihd _ _ p3 h4
    obtain ⟨d5, rfl, p5⟩ := ihe _ _ p4 h5
    simp only [Except.ok.injEq] at hr
    subst hr
    exact ⟨⟨d1, d2, d3, d4, d5⟩, by simp [planOf, Query.accesses], by simpa [Query.accesses] using p5⟩
  | withoutL a b iha ihb =>
    intro held r hp hr
    simp only [Query.prepare, bind_eq_ok] at hr
    obtain ⟨r1, h1, r2, h2, hr⟩ := hr
    obtain ⟨d1, rfl, p1⟩ := iha _ _ hp h1
    obtain ⟨d2, rfl, p2⟩ := ihb _ _ p1 h2
    simp only [Except.ok.injEq] at hr
    subst hr
    exact ⟨⟨d1, d2⟩, by simp [planOf, Query.accesses], by simpa [Query.accesses] using p2⟩
  | withoutR a b iha ihb =>
    intro held r hp hr
    simp only [Query.prepare, bind_eq_ok] at hr
    obtain ⟨r1, h1, r2, h2, hr⟩ := hr
    obtain ⟨d1, rfl, p1⟩ := iha _ _ hp h1
    obtain ⟨d2, rfl, p2⟩ := ihb _ _ p1 h2
    simp only [Except.ok.injEq] at hr
    subst hr
    exact ⟨⟨d1, d2⟩, by simp [planOf, Query.accesses], by simpa [Query.accesses] using p2⟩
  | group k ma mb a b =>
    intro held r hp hr
    have hr0 := hr
    simp only [Query.prepare, bind_eq_ok] at hr
    obtain ⟨_, _, h1, hl1, h2, hl2, _, hg, _⟩ := hr
    obtain ⟨d1, rfl, c1⟩ := lock_inv h hl1
    obtain ⟨d2, rfl, c2⟩ := lock_inv h hl2
    have hd : s.Defined (.group k ma mb a b) := by
      refine ⟨d1, d2, ?_⟩
      rw [← hasGroup_of_group? h]
      cases hx : w.hasGroup k a b with
      | true => rfl
      | false => rw [hx] at hg; simp at hg
    have hpw : (held ++ (Query.group k ma mb a b).accesses).Pairwise (fun x y => ¬ Query.Clash x y) := by
      have := append_one _ _ (append_one _ _ hp c1) c2
      simpa [Query.accesses] using this
    rw [prepare_ok h _ _ hd hpw] at hr0
    simp only [Except.ok.injEq] at hr0
    exact ⟨hd, hr0.symm, hpw⟩

/-- A query never runs into undefined behaviour while it is set up. -/
theorem prepare_err {w : World V} {s : State V} (h : WRel w s) (q : Query) : ∀ (held : Query.Held) (e : Fault),
    q.prepare w held = .error e → e ≠ .ub := by
  have hassert : ∀ {b : Bool} {e : Fault}, assertR b = .error e → e ≠ .ub := by
    intro b e hb; cases b <;> simp at hb; simp [← hb]
  induction q with
  | comp m t =>
    intro held e hr
    simp only [Query.prepare, bind_eq_error] at hr
    rcases hr with hr | ⟨_, _, hr | ⟨_, _, hr⟩⟩
    · exact hassert hr
    · exact lock_err h hr
    · simp at hr
  | with2 a b iha ihb =>
    intro held e hr
    simp only [Query.prepare, bind_eq_error] at hr
    rcases hr with hr | ⟨_, _, hr | ⟨_, _, hr⟩⟩
    · exact iha _ _ hr
    · exact ihb _ _ hr
    · simp at hr
  | with3 a b c iha ihb ihc =>
    intro held e hr
    simp only [Query.prepare, bind_eq_error] at hr
    rcases hr with hr | ⟨_, _, hr | ⟨_, _, hr | ⟨_, _, hr⟩⟩⟩
    · exact iha _ _ hr
    · exact ihb _ _ hr
    · exact ihc _ _ hr
    · simp at hr
  | with4 a b c d iha ihb ihc ihd =>
    intro held e hr
    simp only [Query.prepare, bind_eq_error] at hr
    rcases hr with hr | ⟨_, _, hr | ⟨_, _, hr | ⟨_, _, hr | ⟨_, _, hr⟩⟩⟩⟩
    · exact iha _ _ hr
    · exact ihb _ _ hr
    · exact ihc _ _ hr
    · exact ihd _ _ hr
    · simp at hr
  | with5 a b c d e iha ihb ihc ihd ihe =>
    intro held e hr
    simp only [Query.prepare, bind_eq_error] at hr
    rcases hr with hr | ⟨_, _, hr | ⟨_, _, hr | ⟨_, _, hr | ⟨_, _, hr | ⟨_, _, hr⟩⟩⟩⟩⟩
    · exact iha _ _ hr
    · exact ihb _ _ hr
    · exact ihc _ _ hr
    · exact ihd _ _ hr
    · exact ihe _ _ hr
    · simp at hr
  | withoutL a b iha ihb =>
    intro held e hr
    simp only [Query.prepare, bind_eq_error] at hr
    rcases hr with hr | ⟨_, _, hr | ⟨_, _, hr⟩⟩
    · exact iha _ _ hr
    · exact ihb _ _ hr
    · simp at hr
  | withoutR a b iha ihb =>
    intro held e hr
    simp only [Query.prepare, bind_eq_error] at hr
    rcases hr with hr | ⟨_, _, hr | ⟨_, _, hr⟩⟩
    · exact iha _ _ hr
    · exact ihb _ _ hr
    · simp at hr
  | group k ma mb a b =>
    intro held e hr
    simp only [Query.prepare, bind_eq_error] at hr
    rcases hr with hr | ⟨_, _, hr | ⟨_, _, hr | ⟨_, _, hr | ⟨_, hg, hr | ⟨_, _, hr | ⟨_, _, hr⟩⟩⟩⟩⟩⟩
    · exact hassert hr
    · exact lock_err h hr
    · exact lock_err h hr
    · exact hassert hr
    · cases hf : Query.findGroup w k a b <;> simp [hf] at hr
      simp [← hr]
    · unfold getR at hr
      split at hr <;> simp at hr
      simp [← hr]
    · cases k <;> simp at hr

end Xecs
