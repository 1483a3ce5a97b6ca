import Verif.Proofs.Robust
/-
Calls that fail leave storages that are well formed, if they were.
-/
set_option autoImplicit false
namespace Xecs
open Spec World Hist
variable {V : Type}

/-- Storage `u` of the world while `op` is carried out: well formed, and with the same components, except for those
`op` attaches or removes. -/
def Hurts (op : Op V) (u : Nat) (S S' : SparseSet V) : Prop :=
  S.WF → S'.WF ∧ ∀ x, S'.lookup x = S.lookup x ∨ op.half u x (S'.lookup x)

variable {op : Op V}

theorem Hurts.refl {u : Nat} {S : SparseSet V} : Hurts op u S S := fun h => ⟨h, fun _ => .inl rfl⟩

theorem Hurts.trans {u : Nat} {S S' S'' : SparseSet V} (h : Hurts op u S S') (h' : Hurts op u S' S'') : Hurts op u S S'' := by
  intro hw
  obtain ⟨h1, h2⟩ := h hw
  obtain ⟨h3, h4⟩ := h' h1
  refine ⟨h3, fun x => ?_⟩
  rcases h4 x with h4 | h4
  · rw [h4]; exact h2 x
  · exact .inr h4

/-- The same types are registered, and the storages are as described by `Hurts`. -/
def Tidies (op : Op V) (w w' : World V) : Prop :=
  (∀ t, w.comps t = none → w'.comps t = none) ∧
  ∀ t st, w.comps t = some st → ∃ st', w'.comps t = some st' ∧ st'.ty = st.ty ∧ Hurts op t st.set st'.set

theorem Tidies.refl (w : World V) : Tidies op w w := ⟨fun _ h => h, fun _ st h => ⟨st, h, rfl, .refl⟩⟩

theorem Tidies.of_comps {w w' : World V} (h : w'.comps = w.comps) : Tidies op w w' :=
  ⟨fun _ h1 => by rw [h]; exact h1, fun _ st h1 => ⟨st, by rw [h]; exact h1, rfl, .refl⟩⟩

theorem Tidies.trans {w w' w'' : World V} (h : Tidies op w w') (h' : Tidies op w' w'') : Tidies op w w'' := by
  refine ⟨fun t ht => h'.1 t (h.1 t ht), fun t st ht => ?_⟩
  obtain ⟨st1, a1, a2, a3⟩ := h.2 t st ht
  obtain ⟨st2, b1, b2, b3⟩ := h'.2 t st1 a1
  exact ⟨st2, b1, b2.trans a2, a3.trans b3⟩

theorem Tidies.evo {R : SparseSet V → SparseSet V → Prop} (hR : ∀ {u S S'}, R S S' → Hurts op u S S') {w w' : World V}
    (h : Evo R w w') : Tidies op w w' := by
  refine ⟨fun t ht => h.get_none ht, fun t st ht => ?_⟩
  obtain ⟨st1, a1, a2, a3⟩ := h.get ht
  exact ⟨st1, a1, a2, hR a3⟩

theorem Tidies.same {w w' : World V} (h : Evo Same w w') : Tidies op w w' :=
  .evo (fun h hw => ⟨(h hw).1, fun x => .inl ((h hw).2 x)⟩) h

theorem Tidies.less {w w' : World V} {order : List Nat} {id : Nat} (h : Evo (Less id) w w') :
    Tidies (.removeEntity order id) w w' := by
  refine .evo (fun h hw => ?_) h
  obtain ⟨h1, h2, h3⟩ := h hw
  refine ⟨h1, fun x => ?_⟩
  by_cases hx : x = id
  · subst hx
    rcases h3 with h3 | h3
    · exact .inl h3
    · exact .inr ⟨rfl, h3⟩
  · exact .inl (h2 x hx)

theorem Tidies.set {w : World V} {t : Nat} {st : Storage V} {S : SparseSet V} (hs : w.comps t = some st)
    (h : Hurts op t st.set S) : Tidies op w (w.setSet t S) := by
  refine ⟨fun u hu => ?_, fun u su hu => ?_⟩
  · rw [setSet_comps]
    by_cases hut : u = t
    · subst hut; rw [hs] at hu; cases hu
    · rw [if_neg hut]; exact hu
  · rw [setSet_comps]
    by_cases hut : u = t
    · subst hut
      rw [hs] at hu; cases hu
      exact ⟨⟨st.ty, S⟩, by simp [hs], rfl, h⟩
    · rw [if_neg hut]; exact ⟨su, hu, rfl, .refl⟩

/-! ### Programs -/

/-- Whatever happens. -/
def Holds (op : Op V) {α : Type} (m : M V α) : Prop := ∀ w w' r, m w = (w', r) → Tidies op w w'

/-- If it fails. -/
def Breaks (op : Op V) {α : Type} (m : M V α) : Prop := ∀ w w' e, m w = (w', .error e) → Tidies op w w'

theorem Holds.breaks {α : Type} {m : M V α} (h : Holds op m) : Breaks op m := fun w w' e => h w w' _

theorem Holds.read {α : Type} (f : World V → R α) : Holds op (M.read f) := by
  intro w w' r h
  simp only [M.read_apply, Prod.mk.injEq] at h
  rw [← h.1]; exact .refl w

theorem Holds.pure {α : Type} (a : α) : Holds op (pure a : M V α) := by
  intro w w' r h
  simp only [M.pure_apply, Prod.mk.injEq] at h
  rw [← h.1]; exact .refl w

theorem Holds.assert (b : Bool) : Holds op (M.assert b : M V Unit) := by
  intro w w' r h
  simp only [M.assert, Prod.mk.injEq] at h
  rw [← h.1]; exact .refl w

theorem Holds.bind {α β : Type} {m : M V α} {f : α → M V β} (h : Holds op m) (hf : ∀ a, Holds op (f a)) : Holds op (m >>= f) := by
  intro w w' r hr
  rw [M.bind_apply] at hr
  rcases hm : m w with ⟨w1, r1⟩
  rw [hm] at hr
  cases r1 with
  | error e => simp only [Prod.mk.injEq] at hr; rw [← hr.1]; exact h _ _ _ hm
  | ok a => exact (h _ _ _ hm).trans (hf a _ _ _ hr)

theorem Breaks.bind {α β : Type} {m : M V α} {f : α → M V β} (h : Holds op m) (hf : ∀ a, Breaks op (f a)) : Breaks op (m >>= f) := by
  intro w w' e hr
  rw [M.bind_apply] at hr
  rcases hm : m w with ⟨w1, r1⟩
  rw [hm] at hr
  cases r1 with
  | error e => simp only [Prod.mk.injEq] at hr; rw [← hr.1]; exact h _ _ _ hm
  | ok a => exact (h _ _ _ hm).trans (hf a _ _ _ hr)

theorem Breaks.last {α β : Type} {m : M V α} {g : α → β} (h : Breaks op m) : Breaks op (do Pure.pure (g (← m))) := by
  intro w w' e hr
  rw [M.bind_apply] at hr
  rcases hm : m w with ⟨w1, r1⟩
  rw [hm] at hr
  cases r1 with
  | error e => simp only [Prod.mk.injEq] at hr; rw [← hr.1]; exact h _ _ _ hm
  | ok a => cases (Prod.mk.inj hr).2

theorem Holds.crit {α : Type} {f : World V → R (World V × α)} {x : M V α} (h : ∀ w w' a, f w = .ok (w', a) → Tidies op w w')
    (hx : ∀ w, Tidies op w (x w).1) : Holds op (M.crit f x) := by
  intro w w' r hr
  unfold M.crit at hr
  cases hf : f w with
  | ok p => rw [hf] at hr; simp only [Prod.mk.injEq] at hr; rw [← hr.1]; exact h w p.1 p.2 hf
  | error e => rw [hf] at hr; simp only [Prod.mk.injEq] at hr; rw [← hr.1]; exact hx w

theorem Breaks.crit {α : Type} {f : World V → R (World V × α)} {x : M V α} (hx : ∀ w e, f w = .error e → Tidies op w (x w).1) :
    Breaks op (M.crit f x) := by
  intro w w' e hr
  unfold M.crit at hr
  cases hf : f w with
  | ok p => rw [hf] at hr; cases (Prod.mk.inj hr).2
  | error e' => rw [hf] at hr; simp only [Prod.mk.injEq] at hr; rw [← hr.1]; exact hx w e' hf

theorem Breaks.still {α : Type} {f : World V → R (World V × α)} : Breaks op (M.crit f M.still) :=
  .crit fun w _ _ => .refl w

theorem Holds.forEach {γ : Type} {f : γ → M V Unit} (h : ∀ c, Holds op (f c)) (l : List γ) : Holds op (M.forEach l f) := by
  induction l with
  | nil => exact .pure ()
  | cons c l ih => exact .bind (h c) fun _ => ih

/-! ### Sections -/

theorem addBatch_total (S : SparseSet V) (es : List Nat) (vs : List V) (h : es.length = vs.length) :
    ∃ S', S.addBatch es vs = .ok S' := by
  have loop : ∀ (es : List Nat) (ix : List (Option Nat)) (k : Nat), ∃ ix', SparseSet.addBatchLoop ix k es = .ok ix' := by
    intro es
    induction es with
    | nil => intro ix k; exact ⟨ix, rfl⟩
    | cons e es ih =>
      intro ix k
      have hl := (SparseSet.enlarge_spec ix e).1
      have hs : setR (SparseSet.enlarge ix e) e (some (k + 1)) = .ok ((SparseSet.enlarge ix e).set e (some (k + 1))) := by
        unfold setR; rw [if_pos (by omega)]
      obtain ⟨ix', hx⟩ := ih ((SparseSet.enlarge ix e).set e (some (k + 1))) (k + 1)
      exact ⟨ix', by simp only [SparseSet.addBatchLoop, hs, R.bind_ok]; exact hx⟩
  obtain ⟨ix', hx⟩ := loop es S.indices S.entities.length
  exact ⟨⟨ix', S.entities ++ es, S.data ++ vs⟩, by simp only [SparseSet.addBatch, h, assertR, beq_self_eq_true, if_true, R.bind_ok, hx]⟩

theorem downcast_eq {st : Storage V} {t : Nat} {S : SparseSet V} (h : downcast st t = .ok S) : S = st.set := by
  simp only [downcast] at h
  split at h
  · exact (Except.ok.inj h).symm
  · cases h

theorem onStore_keeps {α : Type} {t : Nat} {m : Stm (SparseSet V) α} (hm : ∀ S : SparseSet V, Hurts op t S (m S).1) (w : World V) :
    Tidies op w (onStore t m w).1 := by
  unfold onStore
  cases hs : unwrapR (w.comps t) with
  | error e => exact .refl w
  | ok st =>
    simp only [R.bind_ok]
    cases hd : downcast st t with
    | error e => exact .refl w
    | ok s =>
      have := downcast_eq hd
      subst this
      exact .set (unwrapR_ok hs) (hm _)

theorem add_wf {S : SparseSet V} (hw : S.WF) (id : Nat) (v : V) : ∃ S', S.add id v = .ok S' ∧ S'.WF ∧
    ∀ x, S'.lookup x = if x = id then some v else S.lookup x := by
  by_cases hm : id ∈ S.entities
  · obtain ⟨S', e1, e2, _, _, e3, _⟩ := SparseSet.add_present hw v hm
    exact ⟨S', e1, e2, e3⟩
  · obtain ⟨S', e1, e2, _, _, _, e3, _⟩ := SparseSet.add_absent hw v hm
    exact ⟨S', e1, e2, e3⟩

theorem attachStore_holds (t id : Nat) (v : V) :
    Holds (.attach id t v) (M.crit (attachStore t id v) (attachStoreX t id v)) := by
  rw [attachStore_exact]
  intro w w' r h
  have := onStore_keeps (op := .attach id t v) (t := t) (m := SparseSet.addX id v) (fun S hw => by
    obtain ⟨S', e1, e2, e3⟩ := add_wf hw id v
    rw [(SparseSet.addX_does id v).ok (s := S) (s' := S') (a := ()) (by rw [e1]; rfl)]
    refine ⟨e2, fun x => ?_⟩
    rw [e3]
    by_cases hx : x = id
    · subst hx; simp [Op.half]
    · simp [hx]) w
  rw [show onStore t (SparseSet.addX id v) w = (w', r) from h] at this
  exact this

theorem detachStore_breaks (t id : Nat) : Breaks op (M.crit (detachStore (V := V) t id) (detachStoreX t id)) := by
  refine .crit fun w e he => ?_
  cases hc : w.comps t with
  | none => simp only [detachStoreX, onStore, hc]; exact .refl w
  | some st =>
    by_cases hw : st.set.WF
    · simp only [detachStore, hc, unwrapR, R.bind_ok] at he
      cases hd : downcast st t with
      | error e => simp only [detachStoreX, onStore, hc, unwrapR, R.bind_ok, hd]; exact .refl w
      | ok S =>
        have := downcast_eq hd
        subst this
        rw [hd] at he
        simp only [R.bind_ok] at he
        cases hr : st.set.remove id with
        | ok p => rw [hr] at he; cases he
        | error e => rw [detachStoreX_state hc hw hr]; exact .refl w
    · simp only [detachStoreX, onStore, hc, unwrapR, R.bind_ok]
      cases hd : downcast st t with
      | error e => exact .refl w
      | ok S => exact .set hc fun h => absurd h hw

theorem onTable_holds {α : Type} {f : World V → R (World V × α)} {m : Stm EntityManager α}
    (hf : ∀ w w' a, f w = .ok (w', a) → w'.comps = w.comps) : Holds op (M.crit f (onTable m)) :=
  .crit (fun w w' a h => .of_comps (hf w w' a h)) fun _ => .of_comps rfl

theorem allocate_holds : Holds op (M.crit (allocate (V := V)) (onTable EntityManager.allocateX)) :=
  onTable_holds fun w w' a h => by
    unfold allocate at h
    cases hr : w.em.allocate with
    | error e => rw [hr] at h; cases h
    | ok r => rw [hr] at h; rw [← (Prod.mk.inj (Except.ok.inj h)).1]

theorem release_holds (id : Nat) : Holds op (M.crit (release (V := V) id) (onTable (EntityManager.removeX id))) :=
  onTable_holds fun w w' a h => by
    unfold release at h
    cases hr : w.em.remove id with
    | error e => rw [hr] at h; cases h
    | ok r => rw [hr] at h; rw [← (Prod.mk.inj (Except.ok.inj h)).1]

/-! ### Calls -/

theorem entity_holds (id : Nat) : Holds op (entity id : M V (Option Nat)) :=
  .bind (.read _) fun b => by cases b <;> exact .pure _

theorem exec_breaks (op : Op V) : Breaks op (exec op) := by
  cases op with
  | register t => exact .last (g := fun _ => Out.unit) (.bind (.read _) fun _ => .bind (.assert _) fun _ => .still)
  | createEntity =>
    exact .last (g := Out.id) (.bind allocate_holds fun _ => .bind (entity_holds _) fun _ => (Holds.read _).breaks)
  | createEntities n => exact .last (g := fun r : Nat × Nat => Out.range r.1 r.2) .still
  | removeEntity order id =>
    exact .last (g := fun _ => Out.unit) (.bind (.read _) fun _ => .bind (.assert _) fun _ => .bind (.read _) fun ks =>
      .bind (.forEach (fun k => .crit (fun w w' _ h => .less (groupErase_evo h)) fun w => .less (groupEraseX_evo k id w)) ks)
      fun _ => .bind (.read _) fun ts =>
      .bind (.forEach (fun t => .crit (fun w w' _ h => .less (storeErase_evo h).1) fun w => .less (storeEraseX_evo t id w)) ts)
      fun _ => (release_holds id).breaks)
  | exist id => exact .last (g := Out.bool) (Holds.read _).breaks
  | attach id t v =>
    refine .last (g := fun _ => Out.unit) ?_
    have hb : Breaks (.attach id t v) (entityAttach id t v) :=
      .bind (.read _) fun _ => .bind (.assert _) fun _ => .bind (attachStore_holds t id v) fun _ => .bind (.read _) fun ks =>
        (Holds.forEach (fun k => .crit (fun w w' _ h => .same (groupAdd_evo h)) fun w => .same (groupAddX_evo k id w)) ks).breaks
    intro w w' e h
    unfold attach entity World.exist at h
    simp only [M.bind_apply, M.read_apply] at h
    cases hh : w.em.has id with
    | error e =>
      rw [hh] at h
      simp only [Prod.mk.injEq] at h
      rw [← h.1]; exact .refl w
    | ok b =>
      rw [hh] at h
      cases b with
      | true => simp only [if_true, M.pure_apply, unwrapR] at h; exact hb w w' e h
      | false =>
        simp only [Bool.false_eq_true, if_false, M.pure_apply, unwrapR, Prod.mk.injEq] at h
        rw [← h.1]; exact .refl w
  | detach id t =>
    exact .last (g := Out.val) (.bind (entity_holds id) fun _ => .bind (.read _) fun id' => .bind (.read _) fun _ =>
      .bind (.assert _) fun _ => .bind (.read _) fun ks => .bind (.forEach (fun k =>
        .crit (fun w w' _ h => .same (groupRemove_evo h)) fun w => .same (groupRemoveX_evo k id' w)) ks)
      fun _ => detachStore_breaks t id')
  | attachBatch start stop t vs =>
    refine .last (g := fun _ => Out.unit) ?_
    intro w w' e h
    unfold attachBatch at h
    rw [M.bind_apply] at h
    cases hb : (vs.length == stop - start) with
    | false =>
      rw [hb, M.assert_false] at h
      simp only [Prod.mk.injEq] at h
      rw [← h.1]; exact .refl w
    | true =>
      rw [hb, M.assert_true] at h
      refine Breaks.crit (fun w e he => ?_) w w' e h
      unfold batchStore at he
      cases hs : unwrapR (w.comps t) with
      | error e => simp only [batchStoreX, onStore, hs]; exact .refl w
      | ok st =>
        cases hd : downcast st t with
        | error e => simp only [batchStoreX, onStore, hs, R.bind_ok, hd]; exact .refl w
        | ok S =>
          obtain ⟨S', hS⟩ := addBatch_total S (List.range' start (stop - start)) vs
            (by rw [List.length_range']; exact (beq_iff_eq.1 hb).symm)
          simp only [hs, hd, hS, R.bind_ok] at he
          cases he
  | makeGroup k a b =>
    exact .last (g := fun _ => Out.unit) (.bind (.read _) fun _ => .bind (.assert _) fun _ => .bind (.read _) fun _ =>
      .bind (.assert _) fun _ => .bind (.crit (fun w w' a h => by
        simp only [Except.ok.injEq, Prod.mk.injEq] at h; exact .of_comps (by rw [← h.1])) fun w => .refl w) fun pos =>
      (Holds.crit (fun w w' _ h => .same (groupMake_evo h)) fun w => .same (groupMakeX_evo pos w)).breaks)
  | read t id => exact .last (g := Out.val) (Holds.read _).breaks
  | write t id v => exact .last (g := Out.bool) .still
  | count t => exact .last (g := Out.count) (Holds.read _).breaks
  | registerResource t v => exact .last (g := fun _ => Out.unit) .still
  | resourceRead t => exact .last (g := Out.val) (Holds.read _).breaks
  | resourceWrite t v => exact .last (g := Out.bool) .still

end Xecs
