import Verif.Proofs.Fails
/-
Storages after any history.
-/
set_option autoImplicit false
namespace Xecs
open Spec World Hist
variable {V : Type}

/-! ### Inverting world operations -/

theorem M.bind_ok {α β : Type} {m : M V α} {f : α → M V β} {w w' : World V} {b : β} :
    (m >>= f) w = (w', .ok b) ↔ ∃ w1 a, m w = (w1, .ok a) ∧ f a w1 = (w', .ok b) := by
  rw [M.bind_apply]
  rcases hm : m w with ⟨w1, r⟩
  cases r with
  | ok a =>
    constructor
    · intro h; exact ⟨w1, a, rfl, h⟩
    · rintro ⟨w2, a2, h1, h2⟩
      simp only [Prod.mk.injEq, Except.ok.injEq] at h1
      obtain ⟨rfl, rfl⟩ := h1; exact h2
  | error e => simp

theorem M.read_ok {α : Type} {f : World V → R α} {w w' : World V} {a : α} :
    M.read f w = (w', .ok a) ↔ w' = w ∧ f w = .ok a := by
  simp only [M.read_apply, Prod.mk.injEq]
  exact ⟨fun h => ⟨h.1.symm, h.2⟩, fun h => ⟨h.1.symm, h.2⟩⟩

theorem M.crit_iff {α : Type} {f : World V → R (World V × α)} {x : M V α} {w w' : World V} {a : α} :
    M.crit f x w = (w', .ok a) ↔ f w = .ok (w', a) := by
  unfold M.crit
  cases h : f w with
  | ok p => simp [Prod.ext_iff]
  | error e => simp

theorem M.assert_iff {b : Bool} {w w' : World V} {u : Unit} :
    M.assert b w = (w', .ok u) ↔ w' = w ∧ b = true := by
  cases b <;> simp [M.assert_true, M.assert_false, eq_comm]

theorem M.pure_iff {α : Type} {a b : α} {w w' : World V} : (pure a : M V α) w = (w', .ok b) ↔ w' = w ∧ b = a := by
  simp [M.pure_apply, eq_comm]

/-! ### The invariant -/

/-- The storages hold exactly what the history says. -/
def Look (w : World V) (tr : List (Op V × Out V)) : Prop :=
  ∀ t, match w.comps t with
    | none => registered t tr = false ∧ ∀ e, lastValue t e tr = none
    | some st => registered t tr = true ∧ st.ty = t ∧ st.set.WF ∧ ∀ e, st.set.lookup e = lastValue t e tr

theorem Look.at_some {w : World V} {tr : List (Op V × Out V)} (h : Look w tr) {t : Nat} {st : Storage V}
    (hs : w.comps t = some st) :
    registered t tr = true ∧ st.ty = t ∧ st.set.WF ∧ ∀ e, st.set.lookup e = lastValue t e tr := by
  have := h t; rwa [hs] at this

theorem Look.at_none {w : World V} {tr : List (Op V × Out V)} (h : Look w tr) {t : Nat} (hs : w.comps t = none) :
    registered t tr = false ∧ ∀ e, lastValue t e tr = none := by
  have := h t; rwa [hs] at this

theorem Look.evo {w w' : World V} {tr : List (Op V × Out V)} (h : Look w tr) (he : Evo Same w w') : Look w' tr := by
  intro t
  cases hc : w.comps t with
  | none => rw [he.get_none hc]; exact h.at_none hc
  | some st =>
    obtain ⟨st', h1, h2, h3⟩ := he.get hc
    obtain ⟨e1, e2, e3, e4⟩ := h.at_some hc
    rw [h1]
    obtain ⟨x, y⟩ := h3 e3
    exact ⟨e1, h2.trans e2, x, fun e => (y e).trans (e4 e)⟩

theorem Look.of_comps {w w' : World V} {tr : List (Op V × Out V)} (h : Look w tr) (he : w'.comps = w.comps) :
    Look w' tr := by intro t; rw [he]; exact h t

/-- What `entity_component_read` returns. -/
theorem read_lookup {w : World V} {t : Nat} {st : Storage V} (hs : w.comps t = some st) (h1 : st.ty = t) (h2 : st.set.WF)
    (e : Nat) : (componentRead t e w).2 = .ok (st.set.lookup e) := by
  simp only [componentRead, M.read_apply, hs, downcast, h1, if_true, R.bind_ok]
  by_cases he : st.set.exist e = true
  · have hm := (SparseSet.exist_iff h2).1 he
    simp only [he, if_true]
    obtain ⟨v, hv⟩ := Option.isSome_iff_exists.1 ((SparseSet.lookup_isSome h2).2 hm)
    rw [SparseSet.getUnchecked_eq h2 hv]
    simp [hv]
  · rw [if_neg he]
    have hn : e ∉ st.set.entities := fun hm => he ((SparseSet.exist_iff h2).2 hm)
    rw [(SparseSet.lookup_none h2).2 hn]

/-- A call has failed without changing any component. -/
theorem Look.fails {w w' : World V} {tr : List (Op V × Out V)} (h : Look w tr) {op : Op V} (hk : Tidies op w w')
    (hr : ∀ t e, (componentRead t e w').2 = (componentRead t e w).2) : Look w' tr := by
  intro t
  cases hc : w.comps t with
  | none => rw [hk.1 t hc]; exact h.at_none hc
  | some st =>
    obtain ⟨st', h1, h2, h3⟩ := hk.2 t st hc
    obtain ⟨e1, e2, e3, e4⟩ := h.at_some hc
    rw [h1]
    refine ⟨e1, h2.trans e2, (h3 e3).1, fun e => ?_⟩
    have := hr t e
    rw [read_lookup h1 (h2.trans e2) (h3 e3).1, read_lookup hc e2 e3] at this
    rw [Except.ok.inj this]; exact e4 e

theorem Look.hist {w : World V} {tr tr' : List (Op V × Out V)} (h : Look w tr)
    (h1 : ∀ t, registered t tr' = registered t tr) (h2 : ∀ t e, lastValue t e tr' = lastValue t e tr) : Look w tr' := by
  intro t
  have := h t
  cases hc : w.comps t <;> rw [hc] at this <;> simp only [h1, h2] <;> exact this

/-- One storage replaced. -/
theorem Look.set {w : World V} {tr tr' : List (Op V × Out V)} (h : Look w tr) {t : Nat} {st : Storage V}
    {S : SparseSet V} (hs : w.comps t = some st) (hw : S.WF)
    (h1 : ∀ t, registered t tr' = registered t tr)
    (h2 : ∀ u e, lastValue u e tr' = if u = t then S.lookup e else lastValue u e tr) : Look (w.setSet t S) tr' := by
  intro u
  rw [setSet_comps]
  by_cases hu : u = t
  · subst hu
    obtain ⟨e1, e2, e3, e4⟩ := h.at_some hs
    simp only [if_true, hs, Option.map_some]
    exact ⟨by rw [h1]; exact e1, e2, hw, fun e => by rw [h2, if_pos rfl]⟩
  · simp only [hu, if_false]
    have := h u
    cases hc : w.comps u <;> rw [hc] at this <;> simp only [h1, h2, hu, if_false] <;> exact this

theorem entity_ok {w w' : World V} {id : Nat} {o : Option Nat} (h : World.entity id w = (w', .ok o)) :
    w' = w ∧ ((w.em.has id = .ok true ∧ o = some id) ∨ (w.em.has id = .ok false ∧ o = none)) := by
  simp only [World.entity, World.exist, M.bind_ok, M.read_ok] at h
  obtain ⟨w1, b, ⟨rfl, hb⟩, h⟩ := h
  cases b with
  | true => simp only [if_true, M.pure_iff] at h; exact ⟨h.1, .inl ⟨hb, h.2⟩⟩
  | false => simp only [Bool.false_eq_true, if_false, M.pure_iff] at h; exact ⟨h.1, .inr ⟨hb, h.2⟩⟩

theorem createEntity_inv {w w' : World V} {id : Nat} (h : World.createEntity w = (w', .ok id)) :
    ∃ em, w.em.allocate = .ok (em, id) ∧ w' = { w with em := em } ∧ em.has id = .ok true := by
  simp only [World.createEntity, World.allocate, M.bind_ok, M.crit_iff, M.read_ok, bind_eq_ok] at h
  obtain ⟨w1, x, ⟨⟨em, y⟩, ha, h1⟩, w2, o, he, rfl, hu⟩ := h
  simp only [Except.ok.injEq, Prod.mk.injEq] at h1
  obtain ⟨rfl, rfl⟩ := h1
  obtain ⟨rfl, ⟨hb, rfl⟩ | ⟨hb, rfl⟩⟩ := entity_ok he
  · simp at hu; subst hu; exact ⟨em, ha, rfl, hb⟩
  · simp at hu

theorem attach_inv {w w' : World V} {id t : Nat} {v : V} (h : World.attach id t v w = (w', .ok ())) :
    w.em.has id = .ok true ∧ ∃ st S w1, w.comps t = some st ∧ st.ty = t ∧ st.set.add id v = .ok S ∧
      w1 = w.setSet t S ∧ Evo Same w1 w' := by
  simp only [World.attach, World.entityAttach, M.bind_ok, M.read_ok, M.assert_iff, M.crit_iff] at h
  obtain ⟨w1, o, he, w2, x, ⟨rfl, hx⟩, w3, r, ⟨rfl, hr⟩, w4, _, ⟨rfl, hreg⟩, w5, _, hs, w6, ks, ⟨rfl, hks⟩, hl⟩ := h
  obtain ⟨rfl, ⟨hb, rfl⟩ | ⟨hb, rfl⟩⟩ := entity_ok he
  · simp at hx; subst hx
    refine ⟨hb, ?_⟩
    simp only [attachStore, bind_eq_ok, downcast] at hs
    obtain ⟨st, hst, s, hd, S, hS, hs⟩ := hs
    have hst := unwrapR_ok hst
    split at hd
    · rename_i hty
      simp at hd hs; subst hd hs
      exact ⟨st, S, _, hst, hty, hS, rfl, forEach_evo Same.refl (fun _ _ _ => Same.trans)
        (fun k w w' h => groupAdd_evo h) (fun k w => groupAddX_evo k _ w) _ hl⟩
    · simp at hd
  · simp at hx

theorem detach_inv {w w' : World V} {id t : Nat} {r : Option V} (h : World.detach id t w = (w', .ok r)) :
    w.em.has id = .ok true ∧ ∃ w1 st S, Evo Same w w1 ∧ w1.comps t = some st ∧ st.ty = t ∧
      st.set.remove id = .ok (S, r) ∧ w' = w1.setSet t S := by
  simp only [World.detach, World.entityDetach, M.bind_ok, M.read_ok, M.assert_iff, M.crit_iff] at h
  obtain ⟨w1, o, he, w2, x, ⟨rfl, hx⟩, w3, b, ⟨rfl, hr⟩, w4, _, ⟨rfl, hreg⟩, w5, ks, ⟨rfl, hks⟩, w6, _, hl, hs⟩ := h
  obtain ⟨rfl, ⟨hb, rfl⟩ | ⟨hb, rfl⟩⟩ := entity_ok he
  · simp at hx; subst hx
    refine ⟨hb, ?_⟩
    simp only [detachStore, bind_eq_ok, downcast] at hs
    obtain ⟨st, hst, s, hd, ⟨S, r'⟩, hS, hs⟩ := hs
    have hst := unwrapR_ok hst
    split at hd
    · rename_i hty
      simp at hd hs; obtain ⟨rfl, rfl⟩ := hs; subst hd
      exact ⟨w6, st, S, forEach_evo Same.refl (fun _ _ _ => Same.trans)
        (fun k w w' h => groupRemove_evo h) (fun k w => groupRemoveX_evo k _ w) _ hl, hst, hty, hS, rfl⟩
    · simp at hd
  · simp at hx

theorem attachBatch_inv {w w' : World V} {start stop t : Nat} {vs : List V}
    (h : World.attachBatch start stop t vs w = (w', .ok ())) :
    vs.length = stop - start ∧ ∃ st S, w.comps t = some st ∧ st.ty = t ∧
      st.set.addBatch (List.range' start (stop - start)) vs = .ok S ∧ w' = w.setSet t S := by
  simp only [World.attachBatch, batchStore, M.bind_ok, M.assert_iff, M.crit_iff, bind_eq_ok, downcast, beq_iff_eq] at h
  obtain ⟨w1, _, ⟨rfl, hlen⟩, st, hst, s, hd, S, hS, hs⟩ := h
  have hst := unwrapR_ok hst
  split at hd
  · rename_i hty
    simp at hd hs; subst hd hs
    exact ⟨hlen, st, S, hst, hty, hS, rfl⟩
  · simp at hd

theorem makeGroup_inv {w w' : World V} {k : Kind} {a b : Nat} (h : World.makeGroup k a b w = (w', .ok ())) :
    w.hasGroup k a b = false ∧ w.ownershipFree (Group.fresh k a b) = true ∧
      Evo Same { w with groups := w.groups ++ [Group.fresh k a b] } w' := by
  simp only [World.makeGroup, M.bind_ok, M.read_ok, M.assert_iff, M.crit_iff] at h
  obtain ⟨w1, x, ⟨rfl, hx⟩, w2, _, ⟨rfl, hxt⟩, w3, y, ⟨rfl, hy⟩, w4, _, ⟨rfl, hyt⟩, w5, pos, hp, hm⟩ := h
  simp only [Except.ok.injEq, Prod.mk.injEq] at hx hy hp
  obtain ⟨rfl, rfl⟩ := hp
  subst hx hy
  exact ⟨by simpa using hxt, hyt, groupMake_evo hm⟩

theorem storeErases {id : Nat} (l : List Nat) : ∀ {w w' : World V},
    M.forEach l (fun t => M.crit (storeErase t id) (storeEraseX t id)) w = (w', .ok ()) → (∀ t st, w.comps t = some st → st.set.WF) →
    ∀ t ∈ l, ∃ st', w'.comps t = some st' ∧ st'.set.lookup id = none := by
  induction l with
  | nil => intro w w' _ _ t ht; simp at ht
  | cons u l ih =>
    intro w w' h hwf t ht
    rw [M.forEach_cons] at h
    cases hx : storeErase u id w with
    | error e => rw [M.crit_error hx] at h; simp at h
    | ok p =>
      obtain ⟨w1, _⟩ := p
      rw [M.crit_ok hx] at h
      simp only at h
      obtain ⟨he, st', hst', hnone⟩ := storeErase_evo hx
      have hwf1 : ∀ t st, w1.comps t = some st → st.set.WF := by
        intro t st ht
        cases hc : w.comps t with
        | none => rw [he.get_none hc] at ht; simp at ht
        | some st0 =>
          obtain ⟨st1, e1, _, e3⟩ := he.get hc
          rw [ht] at e1; simp at e1; subst e1
          exact (e3 (hwf t st0 hc)).1
      by_cases htl : t ∈ l
      · exact ih h hwf1 t htl
      · have : t = u := by simpa [htl] using ht
        subst this
        have hevo := forEach_evo (Less.refl id) (fun _ _ _ => Less.trans)
          (fun t w w' h => (storeErase_evo h).1) (fun t w => storeEraseX_evo t _ w) l h
        obtain ⟨st2, e1, _, e3⟩ := hevo.get hst'
        refine ⟨st2, e1, ?_⟩
        obtain ⟨_, _, h3⟩ := e3 (hwf1 t st' hst')
        cases hc : w.comps t with
        | none => rw [he.get_none hc] at hst'; simp at hst'
        | some st0 =>
          have := hnone st0 hc (hwf t st0 hc)
          rw [this] at h3
          rcases h3 with h3 | h3 <;> exact h3

theorem removeEntity_inv {w w' : World V} {order : List Nat} {id : Nat}
    (h : World.removeEntity order id w = (w', .ok ())) (hwf : ∀ t st, w.comps t = some st → st.set.WF) :
    w.em.has id = .ok true ∧ ∃ em w1, w.em.remove id = .ok em ∧ w' = { w1 with em := em } ∧ Evo (Less id) w w1 ∧
      ∀ t ∈ order, ∀ st, w1.comps t = some st → st.set.lookup id = none := by
  simp only [World.removeEntity, World.release, World.exist, M.bind_ok, M.read_ok, M.assert_iff, M.crit_iff, bind_eq_ok] at h
  obtain ⟨w1, b, ⟨rfl, hb⟩, w2, _, ⟨rfl, rfl⟩, w3, ks, ⟨rfl, hks⟩, w4, _, hl, w5, ts, ⟨rfl, hts⟩, w6, _, hs, em, hem, hw⟩ := h
  simp only [Except.ok.injEq, Prod.mk.injEq] at hw
  obtain ⟨rfl, _⟩ := hw
  have h1 := forEach_evo (Less.refl id) (fun _ _ _ => Less.trans) (fun t w w' h => groupErase_evo h) (fun k w => groupEraseX_evo k _ w) _ hl
  have h2 := forEach_evo (Less.refl id) (fun _ _ _ => Less.trans) (fun t w w' h => (storeErase_evo h).1) (fun t w => storeEraseX_evo t _ w) _ hs
  have h12 : Evo (Less id) w3 w6 := Evo.trans (R := Less id) (fun _ _ _ a b => Less.trans a b) h1 h2
  have hwf1 : ∀ t st, w5.comps t = some st → st.set.WF := by
    intro t st ht
    cases hc : w3.comps t with
    | none => rw [h1.get_none hc] at ht; simp at ht
    | some st0 =>
      obtain ⟨st1, e1, _, e3⟩ := h1.get hc
      rw [ht] at e1; simp at e1; subst e1
      exact (e3 (hwf t st0 hc)).1
  refine ⟨hb, em, w6, ?_, rfl, h12, ?_⟩
  · rw [← h12.em]; exact hem
  · intro t ht st hst
    simp only [Except.ok.injEq] at hts
    subst hts
    cases hc : w5.comps t with
    | none => rw [h2.get_none hc] at hst; simp at hst
    | some st0 =>
      by_cases hex : st0.set.exist id = true
      · obtain ⟨st', e1, e2⟩ := storeErases _ hs hwf1 t (by simp [storagesWith, ht, hc, hex])
        rw [e1] at hst; simp at hst; subst hst; exact e2
      · obtain ⟨st1, e1, _, e3⟩ := h2.get hc
        rw [hst] at e1; simp at e1; subst e1
        obtain ⟨_, _, e4⟩ := e3 (hwf1 t st0 hc)
        have hn : st0.set.lookup id = none := by
          rw [SparseSet.lookup_none (hwf1 t st0 hc), ← SparseSet.exist_iff (hwf1 t st0 hc)]; exact hex
        rw [hn] at e4
        rcases e4 with e4 | e4 <;> exact e4

theorem componentWrite_inv {w w' : World V} {t id : Nat} {v : V} {b : Bool}
    (h : World.componentWrite t id v w = (w', .ok b)) :
    (b = false ∧ w' = w) ∨ (b = true ∧ ∃ st S, w.comps t = some st ∧ st.set.exist id = true ∧
      st.set.setUnchecked id v = .ok S ∧ w' = w.setSet t S) := by
  rw [World.componentWrite, M.crit_iff] at h
  cases hc : w.comps t with
  | none => simp only [hc, Except.ok.injEq, Prod.mk.injEq] at h; exact .inl ⟨h.2.symm, h.1.symm⟩
  | some st =>
    simp only [hc, bind_eq_ok, downcast] at h
    obtain ⟨s, hd, h⟩ := h
    split at hd
    · simp at hd; subst hd
      split at h
      · rename_i he
        simp only [bind_eq_ok] at h
        obtain ⟨S, hS, h⟩ := h
        simp only [Except.ok.injEq, Prod.mk.injEq] at h
        exact .inr ⟨h.2.symm, st, S, rfl, he, hS, h.1.symm⟩
      · simp only [Except.ok.injEq, Prod.mk.injEq] at h; exact .inl ⟨h.2.symm, h.1.symm⟩
    · simp at hd

theorem bind_pure_ok {α : Type} {m : M V α} {f : α → Out V} {w w' : World V} {o : Out V} :
    (m >>= fun a => pure (f a)) w = (w', .ok o) ↔ ∃ a, m w = (w', .ok a) ∧ o = f a := by
  simp only [M.bind_ok, M.pure_iff]
  constructor
  · rintro ⟨w1, a, h, rfl, rfl⟩; exact ⟨a, h, rfl⟩
  · rintro ⟨a, h, rfl⟩; exact ⟨w', a, h, rfl, rfl⟩

/-! ### One call, from any storages -/

/-- The registered types after a call that returned. -/
def nextReg (op : Op V) (reg : Nat → Bool) (t : Nat) : Bool := match op with
  | .register t' => t' == t || reg t
  | _ => reg t

/-- The storages hold exactly `val`. -/
def LookF (w : World V) (reg : Nat → Bool) (val : Nat → Nat → Option V) : Prop :=
  ∀ t, match w.comps t with
    | none => reg t = false ∧ ∀ e, val t e = none
    | some st => reg t = true ∧ st.ty = t ∧ st.set.WF ∧ ∀ e, st.set.lookup e = val t e

section
variable {reg reg' : Nat → Bool} {val val' : Nat → Nat → Option V} {w w' : World V}

theorem LookF.at_some (h : LookF w reg val) {t : Nat} {st : Storage V} (hs : w.comps t = some st) :
    reg t = true ∧ st.ty = t ∧ st.set.WF ∧ ∀ e, st.set.lookup e = val t e := by
  have := h t; rwa [hs] at this

theorem LookF.at_none (h : LookF w reg val) {t : Nat} (hs : w.comps t = none) :
    reg t = false ∧ ∀ e, val t e = none := by
  have := h t; rwa [hs] at this

theorem LookF.evo (h : LookF w reg val) (he : Evo Same w w') : LookF w' reg val := by
  intro t
  cases hc : w.comps t with
  | none => rw [he.get_none hc]; exact h.at_none hc
  | some st =>
    obtain ⟨st', h1, h2, h3⟩ := he.get hc
    obtain ⟨e1, e2, e3, e4⟩ := h.at_some hc
    rw [h1]
    obtain ⟨x, y⟩ := h3 e3
    exact ⟨e1, h2.trans e2, x, fun e => (y e).trans (e4 e)⟩

theorem LookF.of_comps (h : LookF w reg val) (he : w'.comps = w.comps) : LookF w' reg val := by
  intro t; rw [he]; exact h t

theorem LookF.hist (h : LookF w reg val) (h1 : ∀ t, reg' t = reg t) (h2 : ∀ t e, val' t e = val t e) :
    LookF w reg' val' := by
  intro t
  have := h t
  cases hc : w.comps t <;> rw [hc] at this <;> simp only [h1, h2] <;> exact this

/-- One storage replaced. -/
theorem LookF.set (h : LookF w reg val) {t : Nat} {st : Storage V} {S : SparseSet V} (hs : w.comps t = some st) (hw : S.WF)
    (h1 : ∀ t, reg' t = reg t) (h2 : ∀ u e, val' u e = if u = t then S.lookup e else val u e) :
    LookF (w.setSet t S) reg' val' := by
  intro u
  rw [setSet_comps]
  by_cases hu : u = t
  · subst hu
    obtain ⟨e1, e2, e3, e4⟩ := h.at_some hs
    simp only [if_true, hs, Option.map_some]
    exact ⟨by rw [h1]; exact e1, e2, hw, fun e => by rw [h2, if_pos rfl]⟩
  · simp only [hu, if_false]
    have := h u
    cases hc : w.comps u <;> rw [hc] at this <;> simp only [h1, h2, hu, if_false] <;> exact this
end

theorem LookF.step {reg : Nat → Bool} {val : Nat → Nat → Option V} {w w' : World V} {op : Op V} {o : Out V}
    (hl : LookF w reg val)
    (hf : ∀ start stop t vs, op = .attachBatch start stop t vs → ∀ e, start ≤ e → e < stop → val t e = none)
    (hord : ∀ order id, op = .removeEntity order id → order.Nodup ∧ ∀ t, t ∈ order ↔ reg t = true)
    (he : exec op w = (w', .ok o)) : LookF w' (nextReg op reg) (updated op o val) := by
  cases op with
  | register t =>
    simp only [exec, bind_pure_ok] at he
    obtain ⟨u, he, rfl⟩ := he
    simp only [World.register, M.bind_ok, M.read_ok, M.assert_iff, M.crit_iff] at he
    obtain ⟨w1, b, ⟨rfl, hb⟩, w2, _, ⟨rfl, hbt⟩, h2⟩ := he
    simp at hb h2; subst hb h2
    have hnone : w2.comps t = none := by
      simp only [hasRegistered, Bool.not_eq_true', Option.isSome_eq_false_iff] at hbt
      exact Option.isNone_iff_eq_none.1 hbt
    intro u
    simp only [insertStorage]
    by_cases hu : u = t
    · subst hu
      simp only [if_true, nextReg, beq_self_eq_true, Bool.true_or, true_and]
      refine ⟨SparseSet.wf_new, fun e => ?_⟩
      rw [SparseSet.lookup_new]; exact ((hl.at_none hnone).2 e).symm
    · simp only [hu, if_false]
      have e1 : (t == u) = false := by simp; exact fun h => hu h.symm
      have := hl u
      cases hc : w2.comps u <;> rw [hc] at this <;> simp only [nextReg, e1, Bool.false_or] <;> exact this
  | createEntity =>
    simp only [exec, bind_pure_ok] at he
    obtain ⟨id, he, rfl⟩ := he
    obtain ⟨em, _, rfl, _⟩ := createEntity_inv he
    exact (hl.of_comps rfl).hist (fun _ => rfl) (fun _ _ => rfl)
  | createEntities n =>
    simp only [exec, bind_pure_ok] at he
    obtain ⟨r, he, rfl⟩ := he
    simp only [World.createEntities, M.crit_iff, Except.ok.injEq, Prod.mk.injEq] at he
    obtain ⟨rfl, _⟩ := he
    exact (hl.of_comps rfl).hist (fun _ => rfl) (fun _ _ => rfl)
  | removeEntity order id =>
    simp only [exec, bind_pure_ok] at he
    obtain ⟨r, he, rfl⟩ := he
    have hwf : ∀ t st, w.comps t = some st → st.set.WF := fun t st h => (hl.at_some h).2.2.1
    obtain ⟨_, em, w1, _, rfl, hevo, hnone⟩ := removeEntity_inv he hwf
    intro t
    cases hc : w.comps t with
    | none =>
      simp only [hevo.get_none hc]
      obtain ⟨e1, e2⟩ := hl.at_none hc
      refine ⟨e1, fun e => ?_⟩
      simp only [updated, e2]; split <;> rfl
    | some st =>
      obtain ⟨st', h1, h2, h3⟩ := hevo.get hc
      obtain ⟨e1, e2, e3, e4⟩ := hl.at_some hc
      simp only [h1]
      obtain ⟨x, y, z⟩ := h3 e3
      refine ⟨e1, h2.trans e2, x, fun e => ?_⟩
      simp only [updated]
      by_cases hee : id = e
      · subst hee
        rw [if_pos rfl]
        exact hnone t (((hord _ _ rfl).2 t).2 e1) st' h1
      · rw [if_neg hee, y e (fun h => hee h.symm), e4]
  | exist id =>
    simp only [exec, bind_pure_ok, World.exist, M.read_ok] at he
    obtain ⟨r, ⟨rfl, _⟩, rfl⟩ := he
    exact hl.hist (fun _ => rfl) (fun _ _ => rfl)
  | attach id t v =>
    simp only [exec, bind_pure_ok] at he
    obtain ⟨r, he, rfl⟩ := he
    obtain ⟨_, st, S, w1, hst, hty, hS, rfl, hevo⟩ := attach_inv he
    obtain ⟨e1, e2, e3, e4⟩ := hl.at_some hst
    have hadd : S.WF ∧ ∀ x, S.lookup x = if x = id then some v else st.set.lookup x := by
      by_cases hm : id ∈ st.set.entities
      · obtain ⟨S2, h1, h2, _, _, h5, _⟩ := SparseSet.add_present e3 v hm
        rw [hS] at h1; simp at h1; subst h1; exact ⟨h2, h5⟩
      · obtain ⟨S2, h1, h2, _, _, _, h5, _⟩ := SparseSet.add_absent e3 v hm
        rw [hS] at h1; simp at h1; subst h1; exact ⟨h2, h5⟩
    refine LookF.evo (hl.set (reg' := nextReg (.attach id t v) reg) (val' := updated (.attach id t v) .unit val) hst hadd.1 (fun _ => rfl) ?_) hevo
    intro u e
    simp only [updated]
    by_cases hu : u = t
    · subst hu
      rw [if_pos rfl, hadd.2, e4]
      by_cases hee : e = id
      · subst hee; simp
      · have : ¬ id = e := fun h => hee h.symm
        simp [hee, this]
    · have : ¬ t = u := fun h => hu h.symm
      simp [hu, this]
  | detach id t =>
    simp only [exec, bind_pure_ok] at he
    obtain ⟨r, he, rfl⟩ := he
    obtain ⟨_, w1, st, S, hevo, hst, hty, hS, rfl⟩ := detach_inv he
    have hl1 := hl.evo hevo
    obtain ⟨e1, e2, e3, e4⟩ := hl1.at_some hst
    have hrem : S.WF ∧ ∀ x, S.lookup x = if x = id then none else st.set.lookup x := by
      by_cases hm : id ∈ st.set.entities
      · obtain ⟨i, hi⟩ := List.mem_iff_getElem?.1 hm
        obtain ⟨S2, h1, h2, _, _, _, h5, _⟩ := SparseSet.remove_present e3 hi
        rw [hS] at h1; simp at h1; obtain ⟨rfl, _⟩ := h1; exact ⟨h2, h5⟩
      · rw [SparseSet.remove_absent e3 hm] at hS
        split at hS
        · simp at hS
        · simp at hS; obtain ⟨rfl, _⟩ := hS
          refine ⟨e3, fun x => ?_⟩
          split
          · rename_i hx; subst hx; exact (SparseSet.lookup_none e3).2 hm
          · rfl
    refine hl1.set hst hrem.1 (fun _ => rfl) ?_
    intro u e
    simp only [updated]
    by_cases hu : u = t
    · subst hu
      rw [if_pos rfl, hrem.2, e4]
      by_cases hee : e = id
      · subst hee; simp
      · have : ¬ id = e := fun h => hee h.symm
        simp [hee, this]
    · have : ¬ t = u := fun h => hu h.symm
      simp [hu, this]
  | attachBatch start stop t vs =>
    simp only [exec, bind_pure_ok] at he
    obtain ⟨r, he, rfl⟩ := he
    obtain ⟨hlen, st, S, hst, hty, hS, rfl⟩ := attachBatch_inv he
    obtain ⟨e1, e2, e3, e4⟩ := hl.at_some hst
    obtain ⟨S2, h1, h2, _, _, _, h5, _⟩ := SparseSet.addBatch_spec (es := List.range' start (stop - start)) (vs := vs)
      e3 (by rw [List.length_range']; exact hlen.symm) (List.nodup_range') (by
        intro e he
        rw [List.mem_range'_1] at he
        rw [← SparseSet.lookup_none e3, e4]
        exact hf _ _ _ _ rfl e he.1 (by omega))
    rw [hS] at h1; simp at h1; subst h1
    refine hl.set hst h2 (fun _ => rfl) ?_
    intro u e
    simp only [updated]
    by_cases hu : u = t
    · subst hu
      rw [if_pos rfl, h5]
      by_cases hee : start ≤ e ∧ e < stop
      · have hm : e ∈ List.range' start (stop - start) := by rw [List.mem_range'_1]; omega
        rw [if_pos ⟨rfl, hee⟩, if_pos hm, idxOf_range' _ _ _ hee.1 (by omega)]
      · have hm : e ∉ List.range' start (stop - start) := by rw [List.mem_range'_1]; omega
        rw [if_neg (fun h => hee h.2), if_neg hm, e4]
    · rw [if_neg hu, if_neg (fun h => hu h.1.symm)]
  | makeGroup k a b =>
    simp only [exec, bind_pure_ok] at he
    obtain ⟨r, he, rfl⟩ := he
    obtain ⟨_, _, hevo⟩ := makeGroup_inv he
    exact ((hl.of_comps (w' := { w with groups := w.groups ++ [Group.fresh (toKind k) a b] }) rfl).evo hevo).hist
      (fun _ => rfl) (fun _ _ => rfl)
  | read t id =>
    simp only [exec, bind_pure_ok, World.componentRead, M.read_ok] at he
    obtain ⟨r, ⟨rfl, _⟩, rfl⟩ := he
    exact hl.hist (fun _ => rfl) (fun _ _ => rfl)
  | write t id v =>
    simp only [exec, bind_pure_ok] at he
    obtain ⟨b, he, rfl⟩ := he
    rcases componentWrite_inv he with ⟨rfl, rfl⟩ | ⟨rfl, st, S, hst, hex, hS, rfl⟩
    · exact hl.hist (fun _ => rfl) (fun _ _ => rfl)
    · obtain ⟨e1, e2, e3, e4⟩ := hl.at_some hst
      obtain ⟨S2, h1, h2, _, _, h5, _⟩ := SparseSet.setUnchecked_present e3 v ((SparseSet.exist_iff e3).1 hex)
      rw [hS] at h1; simp at h1; subst h1
      refine hl.set hst h2 (fun _ => rfl) ?_
      intro u e
      simp only [updated]
      by_cases hu : u = t
      · subst hu
        rw [if_pos rfl, h5, e4]
        by_cases hee : e = id
        · subst hee; simp
        · have : ¬ id = e := fun h => hee h.symm
          simp [hee, this]
      · have : ¬ t = u := fun h => hu h.symm
        simp [hu, this]
  | count t =>
    simp only [exec, bind_pure_ok, World.storageCount, M.read_ok] at he
    obtain ⟨r, ⟨rfl, _⟩, rfl⟩ := he
    exact hl.hist (fun _ => rfl) (fun _ _ => rfl)
  | registerResource t v =>
    simp only [exec, bind_pure_ok, World.registerResource, M.crit_iff] at he
    obtain ⟨r, he, rfl⟩ := he
    simp only [Except.ok.injEq, Prod.mk.injEq] at he
    obtain ⟨rfl, _⟩ := he
    exact (hl.of_comps rfl).hist (fun _ => rfl) (fun _ _ => rfl)
  | resourceRead t =>
    simp only [exec, bind_pure_ok, World.resourceRead, M.read_ok] at he
    obtain ⟨r, ⟨rfl, _⟩, rfl⟩ := he
    exact hl.hist (fun _ => rfl) (fun _ _ => rfl)
  | resourceWrite t v =>
    simp only [exec, bind_pure_ok, World.resourceWrite, M.crit_iff] at he
    obtain ⟨b, he, rfl⟩ := he
    have : w'.comps = w.comps := by
      split at he
      · simp only [bind_eq_ok] at he
        obtain ⟨_, _, he⟩ := he
        simp only [Except.ok.injEq, Prod.mk.injEq] at he
        rw [← he.1]
      · simp only [Except.ok.injEq, Prod.mk.injEq] at he
        rw [← he.1]
    refine (hl.of_comps this).hist (fun _ => rfl) (fun t e => ?_)
    cases b <;> rfl

theorem nextReg_cons (op : Op V) (o : Out V) (tr : List (Op V × Out V)) (t : Nat) :
    registered t ((op, o) :: tr) = nextReg op (fun t => registered t tr) t := by cases op <;> rfl

theorem updated_cons (op : Op V) (o : Out V) (tr : List (Op V × Out V)) (t e : Nat) :
    lastValue t e ((op, o) :: tr) = updated op o (fun t e => lastValue t e tr) t e := by
  cases op with
  | write t' id' v =>
    cases o with
    | bool b => cases b <;> rfl
    | _ => rfl
  | _ => rfl

theorem any_look {tr : List (Op V × Out V)} {w : World V} (h : AnyTrace tr w) : NoRebatch tr → Look w tr := by
  induction h with
  | init => intro _ t; exact ⟨rfl, fun _ => rfl⟩
  | fails _ he hc ih => intro hn; exact (ih hn).fails (exec_breaks _ _ _ _ he) hc
  | ok hr hord he ih =>
    rename_i tr w w' op o
    intro hn
    have hn0 : NoRebatch tr := by cases op <;> first | exact hn | exact hn.2
    have hl : LookF w (fun t => registered t tr) (fun t e => lastValue t e tr) := ih hn0
    exact (hl.step (by rintro start stop t vs rfl; exact hn.1) (by rintro order id rfl; exact hord) he).hist
      (nextReg_cons op o tr) (updated_cons op o tr)

end Xecs
