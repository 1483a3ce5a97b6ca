import Verif.Proofs.RobustTrace
/-
Entity table, resources, group kinds and storage tags after any history whatever.
-/
set_option autoImplicit false
namespace Xecs
open Spec World Hist
variable {V : Type}

/-! ### Operations that leave a part of the world alone -/

/-- Whatever happens, `f` of the world stays the same. -/
def Fixes {α β : Type} (f : World V → β) (m : M V α) : Prop := ∀ w, f (m w).1 = f w

namespace Fixes
variable {α β γ : Type} {f : World V → β}

theorem bind {m : M V α} {k : α → M V γ} (hm : Fixes f m) (hk : ∀ a, Fixes f (k a)) : Fixes f (m >>= k) := by
  intro w
  rw [M.bind_apply]
  have := hm w
  rcases h : m w with ⟨w1, r⟩
  rw [h] at this
  cases r with
  | ok a => exact (hk a w1).trans this
  | error e => exact this

theorem pure (a : α) : Fixes f (pure a : M V α) := fun _ => rfl
theorem read (g : World V → R α) : Fixes f (M.read g) := fun _ => rfl
theorem assert (b : Bool) : Fixes f (M.assert (V := V) b) := fun _ => rfl

theorem crit {g : World V → R (World V × α)} (hg : ∀ w w' a, g w = .ok (w', a) → f w' = f w) :
    Fixes f (M.crit g) := by
  intro w
  cases h : g w with
  | ok p => rw [M.crit_ok (w' := p.1) (a := p.2) h]; exact hg w p.1 p.2 h
  | error e => rw [M.crit_still h]

theorem forEach {l : List γ} {k : γ → M V Unit} (hk : ∀ x, Fixes f (k x)) : Fixes f (M.forEach l k) := by
  induction l with
  | nil => exact Fixes.pure ()
  | cons x l ih => exact Fixes.bind (hk x) (fun _ => ih)

end Fixes

/-- `f` depends neither on storages nor on group contents. -/
structure Blind {β : Type} (f : World V → β) : Prop where
  put : ∀ (w : World V) k (r : Group × SparseSet V × SparseSet V),
    (∀ g, w.groups[k]? = some g → gtag r.1 = gtag g) → f (w.putPair k r) = f w
  set : ∀ (w : World V) t S, f (w.setSet t S) = f w

theorem blind_em : Blind (fun w : World V => w.em) := ⟨fun _ _ _ _ => rfl, fun _ _ _ => rfl⟩
theorem blind_res : Blind (fun w : World V => w.res) := ⟨fun _ _ _ _ => rfl, fun _ _ _ => rfl⟩

theorem map_set_same {α β : Type} (f : α → β) : ∀ (l : List α) (k : Nat) (x : α),
    (∀ g, l[k]? = some g → f x = f g) → (l.set k x).map f = l.map f := by
  intro l
  induction l with
  | nil => intro k x _; rfl
  | cons a l ih =>
    intro k x h
    cases k with
    | zero => simp only [List.set_cons_zero, List.map_cons]; rw [h a (by simp)]
    | succ k => simp only [List.set_cons_succ, List.map_cons]; rw [ih k x (fun g hg => h g (by simpa using hg))]

theorem blind_tags : Blind (fun w : World V => w.groups.map gtag) := by
  refine ⟨fun w k r h => ?_, fun _ _ _ => rfl⟩
  simp only [World.putPair]
  exact map_set_same gtag _ _ _ h

/-- The type tags of the storages. -/
def stTags (w : World V) : Nat → Option Nat := fun t => (w.comps t).map Storage.ty

theorem stTags_setSet (w : World V) (t : Nat) (S : SparseSet V) : stTags (w.setSet t S) = stTags w := by
  funext u
  simp only [stTags, setSet_comps]
  by_cases hu : u = t
  · subst hu; simp only [if_true, Option.map_map]; rfl
  · simp [hu]

theorem blind_stTags : Blind (stTags (V := V)) := by
  refine ⟨fun w k r _ => ?_, stTags_setSet⟩
  exact (stTags_setSet (w.setSet r.1.tyA r.2.1) r.1.tyB r.2.2).trans (stTags_setSet _ _ _)

section
variable {β : Type} {f : World V → β}

theorem getR_put {w : World V} {k : Nat} {g : Group} {r : Group × SparseSet V × SparseSet V} (hb : Blind f)
    (hg : getR w.groups k = .ok g) (ht : gtag r.1 = gtag g) : f (w.putPair k r) = f w := by
  apply hb.put
  intro g' hg'
  have := getR_ok hg
  rw [this] at hg'; simp at hg'; subst hg'; exact ht

theorem onPair_fix (hb : Blind f) {α : Type} {m : Stm (Group.Trio V) α} (hm : ∀ x, Goes (fun _ _ => True) x (m x).1) (k : Nat) :
    Fixes f (onPair k m) := by
  intro w
  unfold onPair
  cases hg : getR w.groups k with
  | error e => rfl
  | ok g =>
    simp only [R.bind_ok]
    cases hp : w.lockPair g with
    | error e => rfl
    | ok p => exact getR_put hb hg (hm (g, p)).tag

theorem onStore_fix (hb : Blind f) {α : Type} (t : Nat) (m : Stm (SparseSet V) α) : Fixes f (onStore t m) := by
  intro w
  unfold onStore
  split
  · exact hb.set _ _ _
  · rfl

theorem onRaw_fix (hb : Blind f) {α : Type} (t : Nat) (m : Stm (SparseSet V) α) : Fixes f (onRaw t m) := by
  intro w
  unfold onRaw
  split
  · exact hb.set _ _ _
  · rfl

theorem onTable_fix (he : ∀ (w : World V) em, f { w with em := em } = f w) {α : Type} (m : Stm EntityManager α) :
    Fixes f (onTable m) := fun w => he w _

theorem groupAdd_fix (hb : Blind f) (k id : Nat) : Fixes f (M.crit (groupAdd (V := V) k id) (groupAddX k id)) := by
  rw [groupAdd_exact]; exact onPair_fix hb (addX_goes lax_true id) k

theorem groupRemove_fix (hb : Blind f) (k id : Nat) : Fixes f (M.crit (groupRemove (V := V) k id) (groupRemoveX k id)) := by
  rw [groupRemove_exact]; exact onPair_fix hb (removeX_goes lax_true id) k

theorem groupMake_fix (hb : Blind f) (k : Nat) : Fixes f (M.crit (groupMake (V := V) k) (groupMakeX k)) := by
  rw [groupMake_exact]; exact onPair_fix hb (makeX_goes lax_true) k

theorem groupErase_fix (hb : Blind f) (k id : Nat) : Fixes f (M.crit (groupErase (V := V) k id) (groupEraseX k id)) := by
  rw [groupErase_exact]; exact onPair_fix hb (eraseX_goes (id := id) lax_true (fun _ => trivial)) k

theorem storeErase_fix (hb : Blind f) (t id : Nat) : Fixes f (M.crit (storeErase (V := V) t id) (storeEraseX t id)) := by
  rw [storeErase_exact]; exact onRaw_fix hb t _

theorem entity_fix (id : Nat) : Fixes f (World.entity (V := V) id) := by
  refine Fixes.bind (Fixes.read _) (fun b => ?_)
  cases b <;> exact Fixes.pure _

theorem attach_fix (hb : Blind f) (id t : Nat) (v : V) : Fixes f (World.attach id t v) := by
  refine Fixes.bind (entity_fix id) (fun h => Fixes.bind (Fixes.read _) (fun id => ?_))
  refine Fixes.bind (Fixes.read _) (fun b => Fixes.bind (Fixes.assert _) (fun _ => Fixes.bind ?_ (fun _ =>
    Fixes.bind (Fixes.read _) (fun ks => Fixes.forEach (fun k => groupAdd_fix hb k id)))))
  rw [attachStore_exact]
  exact onStore_fix hb _ _

theorem detach_fix (hb : Blind f) (id t : Nat) : Fixes f (World.detach (V := V) id t) := by
  refine Fixes.bind (entity_fix id) (fun h => Fixes.bind (Fixes.read _) (fun id => ?_))
  refine Fixes.bind (Fixes.read _) (fun b => Fixes.bind (Fixes.assert _) (fun _ =>
    Fixes.bind (Fixes.read _) (fun ks => Fixes.bind (Fixes.forEach (fun k => groupRemove_fix hb k id)) (fun _ => ?_))))
  rw [detachStore_exact]
  exact onStore_fix hb _ _

theorem attachBatch_fix (hb : Blind f) (a b t : Nat) (vs : List V) : Fixes f (World.attachBatch a b t vs) := by
  refine Fixes.bind (Fixes.assert _) (fun _ => ?_)
  rw [batchStore_exact]
  exact onStore_fix hb _ _

theorem componentWrite_fix (hb : Blind f) (t id : Nat) (v : V) : Fixes f (World.componentWrite t id v) := by
  apply Fixes.crit
  intro w w' a h
  split at h
  · simp only [bind_eq_ok] at h
    obtain ⟨s, _, h⟩ := h
    split at h
    · simp only [bind_eq_ok] at h
      obtain ⟨S, _, h⟩ := h
      simp only [Except.ok.injEq, Prod.mk.injEq] at h
      rw [← h.1]; exact hb.set _ _ _
    · simp only [Except.ok.injEq, Prod.mk.injEq] at h; rw [h.1]
  · simp only [Except.ok.injEq, Prod.mk.injEq] at h; rw [h.1]

theorem removeEntity_fix (hb : Blind f) (he : ∀ (w : World V) em, f { w with em := em } = f w) (order : List Nat)
    (id : Nat) : Fixes f (World.removeEntity (V := V) order id) := by
  refine Fixes.bind (Fixes.read _) (fun b => Fixes.bind (Fixes.assert _) (fun _ => Fixes.bind (Fixes.read _) (fun ks =>
    Fixes.bind (Fixes.forEach fun k => groupErase_fix hb k id) (fun _ => Fixes.bind (Fixes.read _) (fun ts =>
    Fixes.bind (Fixes.forEach fun t => storeErase_fix hb t id) (fun _ => ?_))))))
  rw [release_exact]
  exact onTable_fix he _

theorem createEntity_fix (he : ∀ (w : World V) em, f { w with em := em } = f w) :
    Fixes f (World.createEntity (V := V)) := by
  refine Fixes.bind ?_ (fun id => Fixes.bind (entity_fix id) (fun _ => Fixes.read _))
  rw [allocate_exact]
  exact onTable_fix he _

theorem createEntities_fix (he : ∀ (w : World V) em, f { w with em := em } = f w) (n : Nat) :
    Fixes f (World.createEntities (V := V) n) := by
  apply Fixes.crit
  intro w w' a h
  simp only [Except.ok.injEq, Prod.mk.injEq] at h
  rw [← h.1]; exact he _ _

theorem makeGroup_fix (hb : Blind f) (hg : ∀ (w : World V) gs, f { w with groups := gs } = f w) (k : Kind) (a b : Nat) :
    Fixes f (World.makeGroup (V := V) k a b) := by
  refine Fixes.bind (Fixes.read _) (fun _ => Fixes.bind (Fixes.assert _) (fun _ => Fixes.bind (Fixes.read _) (fun _ =>
    Fixes.bind (Fixes.assert _) (fun _ => Fixes.bind ?_ (fun pos => groupMake_fix hb pos)))))
  apply Fixes.crit
  intro w w' a h
  simp only [Except.ok.injEq, Prod.mk.injEq] at h
  rw [← h.1]; exact hg _ _

theorem register_fix (hc : ∀ (w : World V) cs, f { w with comps := cs } = f w) (t : Nat) :
    Fixes f (World.register (V := V) t) := by
  refine Fixes.bind (Fixes.read _) (fun _ => Fixes.bind (Fixes.assert _) (fun _ => ?_))
  apply Fixes.crit
  intro w w' a h
  simp only [Except.ok.injEq, Prod.mk.injEq] at h
  rw [← h.1]; exact hc _ _

theorem registerResource_fix (hr : ∀ (w : World V) rs, f { w with res := rs } = f w) (t : Nat) (v : V) :
    Fixes f (World.registerResource t v) := by
  apply Fixes.crit
  intro w w' a h
  simp only [Except.ok.injEq, Prod.mk.injEq] at h
  rw [← h.1]; exact hr _ _

theorem resourceWrite_fix (hr : ∀ (w : World V) rs, f { w with res := rs } = f w) (t : Nat) (v : V) :
    Fixes f (World.resourceWrite t v) := by
  apply Fixes.crit
  intro w w' a h
  split at h
  · simp only [bind_eq_ok] at h
    obtain ⟨_, _, h⟩ := h
    simp only [Except.ok.injEq, Prod.mk.injEq] at h
    rw [← h.1]; exact hr _ _
  · simp only [Except.ok.injEq, Prod.mk.injEq] at h; rw [h.1]

theorem out_fix {α : Type} {m : M V α} {g : α → Out V} (h : Fixes f m) : Fixes f (m >>= fun a => Pure.pure (g a)) :=
  Fixes.bind h (fun _ => Fixes.pure _)

end

/-! ### The entity table -/

theorem exec_em (op : Op V) : (match op with
    | .createEntity | .createEntities _ | .removeEntity _ _ => True
    | _ => Fixes (fun w : World V => w.em) (exec op)) := by
  have hb := blind_em (V := V)
  cases op with
  | register t => exact out_fix (register_fix (fun _ _ => rfl) t)
  | createEntity => trivial
  | createEntities n => trivial
  | removeEntity order id => trivial
  | exist id => exact out_fix (Fixes.read _)
  | attach id t v => exact out_fix (attach_fix hb id t v)
  | detach id t => exact out_fix (detach_fix hb id t)
  | attachBatch a b t vs => exact out_fix (attachBatch_fix hb a b t vs)
  | makeGroup k a b => exact out_fix (makeGroup_fix hb (fun _ _ => rfl) _ a b)
  | read t id => exact out_fix (Fixes.read _)
  | write t id v => exact out_fix (componentWrite_fix hb t id v)
  | count t => exact out_fix (Fixes.read _)
  | registerResource t v => exact out_fix (registerResource_fix (fun _ _ => rfl) t v)
  | resourceRead t => exact out_fix (Fixes.read _)
  | resourceWrite t v => exact out_fix (resourceWrite_fix (fun _ _ => rfl) t v)

theorem chain_end {flags : List EntityFlag} : ∀ {p : Nat} {fs : List Nat}, EntityManager.Chain flags p fs → ∀ {q i : Nat},
    q = p ∨ q ∈ fs → flags[q]? = some (.unavailable i) → i = 0
  | p, [], hc, q, i, hq, hi => by
    simp only [List.not_mem_nil, or_false] at hq
    subst hq
    simp only [EntityManager.Chain] at hc
    rw [hc] at hi
    simpa using hi.symm
  | p, f :: fs, hc, q, i, hq, hi => by
    simp only [EntityManager.Chain] at hc
    rcases hq with rfl | hq
    · rw [hc.1] at hi; simp at hi
    · exact chain_end hc.2 (by simpa using hq) hi

/-- A faulting removal has not touched the entity table. -/
theorem removeX_still {m : EntityManager} {free : List Nat} (h : m.Inv free) {id : Nat} {e : Fault}
    (he : m.remove id = .error e) : (EntityManager.removeX id m).1 = m := by
  cases hf : m.flags[id]? with
  | none => simp [EntityManager.removeX, Stm.bind_apply, Stm.read_apply, getR_none hf]
  | some x =>
    cases x with
    | available f => simp [EntityManager.remove, getR_some hf] at he
    | unavailable i =>
      cases hl : m.entities.getLast? with
      | none => simp [EntityManager.removeX, Stm.bind_apply, Stm.read_apply, getR_some hf, hl]
      | some last =>
        exfalso
        have hm := List.mem_of_getLast? hl
        have hpos : 0 < m.entities.length := List.length_pos_of_mem hm
        have hlast := h.ent last hm
        have hil : i < m.entities.length := by
          by_cases hq : id = 0 ∨ id ∈ free
          · have := chain_end h.chain hq hf; omega
          · have hei := (h.live id i (by omega) (fun hh => hq (.inr hh))).1 hf
            exact (List.getElem?_eq_some_iff.1 hei).1
        obtain ⟨E, hE, -⟩ := swapRemoveR_ok hil
        have hidl : id < m.flags.length := (List.getElem?_eq_some_iff.1 hf).1
        have h0 : ∃ y, (m.flags.set last (.unavailable i))[0]? = some y :=
          ⟨_, List.getElem?_eq_getElem (by rw [List.length_set]; exact h.pos)⟩
        obtain ⟨y, hy⟩ := h0
        simp only [EntityManager.remove, getR_some hf, ok_bind, hl, unwrapR_some, setR_lt _ hlast.2.1, hE, getR_some hy] at he
        rw [setR_lt _ (by simpa using hidl), ok_bind, setR_lt _ (by simpa using h.pos), ok_bind] at he
        cases he

/-- A failing removal leaves the entity table alone. -/
theorem removeEntity_em_fail {w w' : World V} {order : List Nat} {id : Nat} {e : Fault} {free : List Nat} (hinv : w.em.Inv free)
    (h : World.removeEntity order id w = (w', .error e)) : w'.em = w.em := by
  have hb := blind_em (V := V)
  have key : ∀ {α : Type} (m : M V α) (k : α → M V Unit) (w w' : World V) (e : Fault), w.em.Inv free → Fixes (fun w => w.em) m →
      (∀ a w w' e, w.em.Inv free → k a w = (w', .error e) → w'.em = w.em) → (m >>= k) w = (w', .error e) → w'.em = w.em := by
    intro α m k w w' e hw hm hk h
    rw [M.bind_apply] at h
    have := hm w
    rcases hmw : m w with ⟨w1, r⟩
    rw [hmw] at this h
    cases r with
    | ok a => exact (hk a w1 w' e ((show w1.em = w.em from this) ▸ hw) h).trans this
    | error e' => simp only [Prod.mk.injEq] at h; rw [← h.1]; exact this
  refine key _ _ _ _ _ hinv (Fixes.read _) (fun b w w' e hw h => ?_) h
  refine key _ _ _ _ _ hw (Fixes.assert _) (fun _ w w' e hw h => ?_) h
  refine key _ _ _ _ _ hw (Fixes.read _) (fun ks w w' e hw h => ?_) h
  refine key _ _ _ _ _ hw (Fixes.forEach fun k => groupErase_fix hb k id) (fun _ w w' e hw h => ?_) h
  refine key _ _ _ _ _ hw (Fixes.read _) (fun ts w w' e hw h => ?_) h
  refine key _ _ _ _ _ hw (Fixes.forEach fun t => storeErase_fix hb t id) (fun _ w w' e hw h => ?_) h
  cases hr : w.em.remove id with
  | ok em => rw [M.crit_ok (w' := { w with em := em }) (a := ()) (by simp [release, hr])] at h; simp at h
  | error e2 =>
    rw [M.crit_error (e := e2) (by simp [release, hr])] at h
    simp only [Prod.mk.injEq] at h
    rw [← h.1]
    exact removeX_still hw hr

theorem removeEntity_em_ok {w w' : World V} {order : List Nat} {id : Nat}
    (h : World.removeEntity order id w = (w', .ok ())) : w.em.has id = .ok true ∧ w.em.remove id = .ok w'.em := by
  have hb := blind_em (V := V)
  simp only [World.removeEntity, World.release, World.exist, M.bind_ok, M.read_ok, M.assert_iff, M.crit_iff, bind_eq_ok] at h
  obtain ⟨w1, b, ⟨rfl, hb'⟩, w2, _, ⟨rfl, rfl⟩, w3, ks, ⟨rfl, hks⟩, w4, _, hl, w5, ts, ⟨rfl, hts⟩, w6, _, hs, em, hem, hw⟩ := h
  simp only [Except.ok.injEq, Prod.mk.injEq] at hw
  obtain ⟨rfl, _⟩ := hw
  have e1 := Fixes.forEach (l := ks) (fun k => groupErase_fix hb k id) w3
  rw [hl] at e1
  have e2 := Fixes.forEach (l := ts) (fun t => storeErase_fix hb t id) w5
  rw [hs] at e2
  exact ⟨hb', by rw [← e1, ← e2]; exact hem⟩

/-- The entity table agrees with the history. -/
structure EmOk (w : World V) (tr : List (Op V × Out V)) : Prop where
  inv : w.em.Inv (recyclable tr)
  out : ∀ id, handedOut id tr = true ↔ 0 < id ∧ id < w.em.flags.length
  alive : ∀ id, alive id tr = true ↔ id ∈ w.em.entities
  count : w.em.entities.length + removals tr = created tr

theorem emOk_alive {w : World V} {tr : List (Op V × Out V)} (h : EmOk w tr) (id : Nat) :
    Hist.alive id tr = true ↔ 0 < id ∧ id < w.em.flags.length ∧ id ∉ recyclable tr := by
  rw [h.alive, h.inv.mem_entities]

theorem createEntity_em {w : World V} {tr : List (Op V × Out V)} (h : EmOk w tr) :
    ∃ em id, World.createEntity w = ({ w with em := em }, .ok id) ∧ em.Inv ((recyclable tr).erase id) ∧
      em.entities = w.em.entities ++ [id] ∧
      ((recyclable tr = [] ∧ id = w.em.flags.length ∧ em.flags.length = w.em.flags.length + 1) ∨
       ((recyclable tr).head? = some id ∧ em.flags.length = w.em.flags.length)) := by
  cases hf : recyclable tr with
  | nil =>
    have hi := h.inv; rw [hf] at hi
    obtain ⟨m', h1, h2, h3, h4⟩ := EntityManager.allocate_nil hi
    have hpos := hi.pos
    refine ⟨m', w.em.flags.length, ?_, by simpa using h2, h4, .inl ⟨rfl, rfl, h3⟩⟩
    have hh := EntityManager.has_live h2 (id := w.em.flags.length) hpos (by omega) (by simp)
    simp [World.createEntity, World.allocate, M.bind_apply, M.crit, h1, World.entity, World.exist, M.read_apply, hh, M.pure_apply]
  | cons f fs =>
    have hi := h.inv; rw [hf] at hi
    obtain ⟨m', h1, h2, h3, h4⟩ := EntityManager.allocate_cons hi
    have hr := hi.range f (by simp)
    have hn := List.nodup_cons.1 hi.nodup
    refine ⟨m', f, ?_, by simpa using h2, h4, .inr ⟨by simp, h3⟩⟩
    have hh := EntityManager.has_live h2 (id := f) hr.1 (by omega) hn.1
    simp [World.createEntity, World.allocate, M.bind_apply, M.crit, h1, World.entity, World.exist, M.read_apply, hh, M.pure_apply]

theorem EmOk.same {w w' : World V} {tr tr' : List (Op V × Out V)} (h : EmOk w tr) (he : w'.em = w.em)
    (h1 : recyclable tr' = recyclable tr) (h2 : ∀ id, handedOut id tr' = handedOut id tr)
    (h3 : ∀ id, Hist.alive id tr' = Hist.alive id tr) (h4 : removals tr' = removals tr) (h5 : created tr' = created tr) :
    EmOk w' tr' := by
  refine ⟨by rw [he, h1]; exact h.inv, fun id => by rw [h2, he]; exact h.out id, fun id => by rw [h3, he]; exact h.alive id,
    by rw [he, h4, h5]; exact h.count⟩

/-- A call that fails leaves the entity table as it is. -/
theorem fails_em {tr : List (Op V × Out V)} {w w' : World V} (hi : EmOk w tr) {op : Op V} {e : Fault}
    (he : exec op w = (w', .error e)) : w'.em = w.em := by
  have hfix := exec_em op
  cases op with
  | createEntity =>
    obtain ⟨em, id, h1, _⟩ := createEntity_em hi
    simp [exec, M.bind_apply, h1, M.pure_apply] at he
  | createEntities n => simp [exec, M.bind_apply, World.createEntities, M.crit, M.pure_apply] at he
  | removeEntity order id =>
    have he : (do World.removeEntity order id; pure Out.unit : M V (Out V)) w = (w', .error e) := he
    rw [M.bind_apply] at he
    rcases hr : World.removeEntity order id w with ⟨w1, r⟩
    rw [hr] at he
    cases r with
    | ok a => simp [M.pure_apply] at he
    | error e' => simp only [Prod.mk.injEq] at he; rw [← he.1]; exact removeEntity_em_fail hi.inv hr
  | _ => have := hfix w; rw [he] at this; exact this

theorem wild_em {tr : List (Op V × Out V)} {w : World V} (h : Wild tr w) : RemovesLive tr → EmOk w tr := by
  induction h with
  | init =>
    intro _
    refine ⟨EntityManager.inv_new, ?_, ?_, rfl⟩
    · intro id; simp [handedOut, World.new, EntityManager.new]; omega
    · intro id; simp [Hist.alive, World.new, EntityManager.new]
  | fails hprev he ih =>
    rename_i tr w w' op e
    intro hn
    have hi := ih hn
    have hem := fails_em hi he
    exact hi.same hem rfl (fun _ => rfl) (fun _ => rfl) rfl rfl
  | ok hprev he ih =>
    rename_i tr w w' op o
    intro hn
    have hfix := exec_em op
    cases op with
    | createEntity =>
      have hi := ih hn
      obtain ⟨em, id, h1, h2, h3, h4⟩ := createEntity_em hi
      simp [exec, M.bind_apply, h1, M.pure_apply] at he
      obtain ⟨rfl, rfl⟩ := he
      refine ⟨h2, ?_, ?_, ?_⟩
      · intro x
        simp only [handedOut, Bool.or_eq_true, beq_iff_eq, hi.out]
        have hpos := hi.inv.pos
        rcases h4 with ⟨_, rfl, hl⟩ | ⟨hh, hl⟩
        · rw [hl]; omega
        · have := hi.inv.range id (List.mem_of_mem_head? hh)
          rw [hl]
          constructor
          · rintro (rfl | h)
            · exact this
            · exact h
          · exact Or.inr
      · intro x
        simp only [Hist.alive, Bool.or_eq_true, beq_iff_eq, hi.alive, h3, List.mem_append, List.mem_singleton]
        constructor
        · rintro (rfl | h)
          · exact .inr rfl
          · exact .inl h
        · rintro (h | h)
          · exact .inr h
          · exact .inl h.symm
      · have := hi.count
        simp only [h3, List.length_append, List.length_singleton, removals, created]; omega
    | createEntities n =>
      have hi := ih hn
      simp [exec, M.bind_apply, World.createEntities, M.crit, M.pure_apply] at he
      obtain ⟨rfl, rfl⟩ := he
      obtain ⟨h1, h2, h3, h4⟩ := EntityManager.allocateN_spec hi.inv n
      have hpos := hi.inv.pos
      refine ⟨h2, ?_, ?_, ?_⟩
      · intro x
        simp only [handedOut, Bool.or_eq_true, Bool.and_eq_true, decide_eq_true_eq, hi.out, h1, h3]; omega
      · intro x
        simp only [Hist.alive, Bool.or_eq_true, Bool.and_eq_true, decide_eq_true_eq, hi.alive, h1, h4,
          List.mem_append, List.mem_range'_1]
        constructor
        · rintro (h | h)
          · exact .inr h
          · exact .inl h
        · rintro (h | h)
          · exact .inr h
          · exact .inl h
      · have := hi.count
        simp only [h4, List.length_append, List.length_range', removals, created]; omega
    | removeEntity order id =>
      have hi := ih hn.2
      simp only [exec, bind_pure_ok] at he
      obtain ⟨r, he, rfl⟩ := he
      obtain ⟨_, hrem⟩ := removeEntity_em_ok he
      obtain ⟨a0, a1, a2⟩ := (emOk_alive hi id).1 hn.1
      obtain ⟨m', h1, h2, h3, h4, h5⟩ := EntityManager.remove_live hi.inv a0 a1 a2
      rw [h1] at hrem; simp at hrem; subst hrem
      refine ⟨h2, ?_, ?_, ?_⟩
      · intro x; rw [h3]; exact hi.out x
      · intro x
        simp only [Hist.alive, h4, ← hi.alive, Bool.and_eq_true, Bool.not_eq_true', beq_eq_false_iff_ne, ne_eq]
        constructor
        · rintro ⟨h, h'⟩; exact ⟨h', fun hh => h hh.symm⟩
        · rintro ⟨h, h'⟩; exact ⟨fun hh => h' hh.symm, h⟩
      · have := hi.count
        simp only [removals, created]; omega
    | _ =>
      have hem : w'.em = w.em := by have := hfix w; rw [he] at this; exact this
      exact (ih hn).same hem rfl (fun _ => rfl) (fun _ => rfl) rfl rfl

/-! ### Resources -/

theorem exec_res (op : Op V) : (match op with
    | .registerResource _ _ | .resourceWrite _ _ => True
    | _ => Fixes (fun w : World V => w.res) (exec op)) := by
  have hb := blind_res (V := V)
  cases op with
  | register t => exact out_fix (register_fix (fun _ _ => rfl) t)
  | createEntity => exact out_fix (createEntity_fix (fun _ _ => rfl))
  | createEntities n => exact out_fix (createEntities_fix (fun _ _ => rfl) n)
  | removeEntity order id => exact out_fix (removeEntity_fix hb (fun _ _ => rfl) order id)
  | exist id => exact out_fix (Fixes.read _)
  | attach id t v => exact out_fix (attach_fix hb id t v)
  | detach id t => exact out_fix (detach_fix hb id t)
  | attachBatch a b t vs => exact out_fix (attachBatch_fix hb a b t vs)
  | makeGroup k a b => exact out_fix (makeGroup_fix hb (fun _ _ => rfl) _ a b)
  | read t id => exact out_fix (Fixes.read _)
  | write t id v => exact out_fix (componentWrite_fix hb t id v)
  | count t => exact out_fix (Fixes.read _)
  | registerResource t v => trivial
  | resourceRead t => exact out_fix (Fixes.read _)
  | resourceWrite t v => trivial

theorem wild_res {tr : List (Op V × Out V)} {w : World V} (h : Wild tr w) :
    ∀ t, w.res t = (lastResource t tr).map (ResBox.mk t) := by
  induction h with
  | init => intro t; rfl
  | fails hprev he ih =>
    rename_i tr w w' op e
    have hfix := exec_res op
    have : w'.res = w.res := by
      cases op with
      | registerResource t v =>
        simp [exec, M.bind_apply, World.registerResource, M.crit, M.pure_apply] at he
      | resourceWrite t v =>
        have hr := ih t
        cases hl : lastResource t tr with
        | none => rw [hl] at hr; simp [exec, M.bind_apply, World.resourceWrite, M.crit, M.pure_apply, hr] at he
        | some x => rw [hl] at hr; simp [exec, M.bind_apply, World.resourceWrite, M.crit, M.pure_apply, hr, downcastRes] at he
      | _ => have := hfix w; rw [he] at this; exact this
    rw [this]; exact ih
  | ok hprev he ih =>
    rename_i tr w w' op o
    have hfix := exec_res op
    cases op with
    | registerResource t v =>
      simp [exec, M.bind_apply, World.registerResource, M.crit, M.pure_apply] at he
      obtain ⟨rfl, rfl⟩ := he
      intro u
      simp only [lastResource]
      by_cases hu : u = t
      · subst hu; simp
      · rw [if_neg hu, if_neg (fun h => hu h.symm)]; exact ih u
    | resourceWrite t v =>
      have hr := ih t
      cases hl : lastResource t tr with
      | none =>
        rw [hl] at hr
        simp [exec, M.bind_apply, World.resourceWrite, M.crit, M.pure_apply, hr] at he
        obtain ⟨rfl, rfl⟩ := he
        exact ih
      | some x =>
        rw [hl] at hr
        simp [exec, M.bind_apply, World.resourceWrite, M.crit, M.pure_apply, hr, downcastRes] at he
        obtain ⟨rfl, rfl⟩ := he
        intro u
        simp only [lastResource]
        by_cases hu : u = t
        · subst hu; simp
        · rw [if_neg hu, if_neg (fun h => hu h.symm)]; exact ih u
    | _ =>
      have hres : w'.res = w.res := by have := hfix w; rw [he] at this; exact this
      rw [hres]; exact ih

/-! ### Storage tags -/

theorem stTags_fix (op : Op V) : (match op with
    | .register _ => True
    | _ => Fixes (stTags (V := V)) (exec op)) := by
  have hb := blind_stTags (V := V)
  cases op with
  | register t => trivial
  | createEntity => exact out_fix (createEntity_fix (fun _ _ => rfl))
  | createEntities n => exact out_fix (createEntities_fix (fun _ _ => rfl) n)
  | removeEntity order id => exact out_fix (removeEntity_fix hb (fun _ _ => rfl) order id)
  | exist id => exact out_fix (Fixes.read _)
  | attach id t v => exact out_fix (attach_fix hb id t v)
  | detach id t => exact out_fix (detach_fix hb id t)
  | attachBatch a b t vs => exact out_fix (attachBatch_fix hb a b t vs)
  | makeGroup k a b => exact out_fix (makeGroup_fix hb (fun _ _ => rfl) _ a b)
  | read t id => exact out_fix (Fixes.read _)
  | write t id v => exact out_fix (componentWrite_fix hb t id v)
  | count t => exact out_fix (Fixes.read _)
  | registerResource t v => exact out_fix (registerResource_fix (fun _ _ => rfl) t v)
  | resourceRead t => exact out_fix (Fixes.read _)
  | resourceWrite t v => exact out_fix (resourceWrite_fix (fun _ _ => rfl) t v)

theorem register_eq (t : Nat) (w : World V) : World.register t w =
    if w.hasRegistered t then (w, .error .panic) else (w.insertStorage t, .ok ()) := by
  unfold World.register
  cases hr : w.hasRegistered t <;> simp [M.bind_apply, M.read_apply, hr, M.assert_true, M.assert_false, M.crit]

theorem wild_stTags {tr : List (Op V × Out V)} {w : World V} (h : Wild tr w) :
    ∀ t, stTags w t = if registered t tr then some t else none := by
  induction h with
  | init => intro t; rfl
  | fails hprev he ih =>
    rename_i tr w w' op e
    have hf := stTags_fix op
    have : stTags w' = stTags w := by
      cases op with
      | register t =>
        simp only [exec, M.bind_apply, register_eq] at he
        split at he
        · simp [M.pure_apply] at he
        · rename_i h
          split at h
          · simp only [Prod.mk.injEq] at he h; rw [← he.1, ← h.1]
          · simp at h
      | _ => have := hf w; rw [he] at this; exact this
    rw [this]; exact ih
  | ok hprev he ih =>
    rename_i tr w w' op o
    have hf := stTags_fix op
    cases op with
    | register t =>
      simp only [exec, bind_pure_ok, register_eq] at he
      obtain ⟨_, he, rfl⟩ := he
      split at he
      · simp at he
      · simp only [Prod.mk.injEq] at he
        rw [← he.1]
        intro u
        simp only [stTags, insertStorage, registered]
        by_cases hu : u = t
        · subst hu; simp
        · have : (t == u) = false := by simp; exact fun h => hu h.symm
          simp only [hu, if_false, this, Bool.false_or]; exact ih u
    | _ =>
      have hst : stTags w' = stTags w := by have := hf w; rw [he] at this; exact this
      rw [hst]; exact ih

/-! ### Group tags -/

/-- Does a group of the code with this kind and these types own `t`? -/
def tagOwns (x : Kind × Nat × Nat) (t : Nat) : Bool :=
  match x with
  | (.full, a, b) => t == a || t == b
  | (.part, a, _) => t == a
  | (.non, _, _) => false

/-- No two groups are equal or own a common type. -/
def Exclusive (l : List (Kind × Nat × Nat)) : Prop :=
  l.Pairwise fun g h => g ≠ h ∧ ∀ t, ¬ (tagOwns g t = true ∧ tagOwns h t = true)

theorem fresh_gtag (k : Kind) (a b : Nat) : gtag (Group.fresh k a b) = (k, a, b) := by cases k <;> rfl

theorem owned_tag (g : Group) (t : Nat) : g.owned t = tagOwns (gtag g) t := by
  cases g <;> simp [Group.owned, Group.owning, tagOwns, gtag, Group.kind, Group.tyA, Group.tyB]

theorem owning_tag (g : Group) (t : Nat) : t ∈ g.owning ↔ tagOwns (gtag g) t = true := by
  cases g <;> simp [Group.owning, tagOwns, gtag, Group.kind, Group.tyA, Group.tyB]

theorem same_tag (g : Group) (k : Kind) (a b : Nat) : g.same (Group.fresh k a b) = decide (gtag g = (k, a, b)) := by
  rw [Bool.eq_iff_iff]
  cases g <;> cases k <;> simp [Group.same, Group.fresh, gtag, Group.kind, Group.tyA, Group.tyB]

/-- What `make_group` checks. -/
def Addable (l : List (Kind × Nat × Nat)) (x : Kind × Nat × Nat) : Prop :=
  ∀ g ∈ l, g ≠ x ∧ ∀ t, ¬ (tagOwns g t = true ∧ tagOwns x t = true)

theorem addable_iff (w : World V) (k : Kind) (a b : Nat) :
    (w.hasGroup k a b = false ∧ w.ownershipFree (Group.fresh k a b) = true) ↔ Addable (w.groups.map gtag) (k, a, b) := by
  simp only [World.hasGroup, World.ownershipFree, List.any_eq_false, List.all_eq_true, Addable, List.mem_map,
    forall_exists_index, and_imp, forall_apply_eq_imp_iff₂, same_tag, decide_eq_true_eq, owning_tag, owned_tag,
    fresh_gtag, Bool.not_eq_true', not_and, Bool.not_eq_true]
  exact ⟨fun h g hg => ⟨h.1 g hg, h.2 g hg⟩, fun h => ⟨fun g hg => (h g hg).1, fun g hg => (h g hg).2⟩⟩

theorem makeGroup_tags (w : World V) (k : Kind) (a b : Nat) :
    ((World.makeGroup k a b w).1.groups.map gtag = w.groups.map gtag ++ [(k, a, b)] ∧
      Addable (w.groups.map gtag) (k, a, b)) ∨
    World.makeGroup k a b w = (w, .error .panic) ∧ ¬ Addable (w.groups.map gtag) (k, a, b) := by
  rw [← addable_iff]
  by_cases h1 : w.hasGroup k a b = false
  · by_cases h2 : w.ownershipFree (Group.fresh k a b) = true
    · left
      refine ⟨?_, h1, h2⟩
      have := groupMake_fix (blind_tags (V := V)) w.groups.length { w with groups := w.groups ++ [Group.fresh k a b] }
      simp only [World.makeGroup, M.bind_apply, M.read_apply, h1, h2, M.assert_true, Bool.not_false, M.crit_ok]
      simp only [List.map_append, List.map_cons, List.map_nil, fresh_gtag] at this
      exact this
    · right
      simp [World.makeGroup, M.bind_apply, M.read_apply, h1, h2, M.assert_true, M.assert_false]
  · right
    simp [World.makeGroup, M.bind_apply, M.read_apply, h1, M.assert_false]

theorem exec_tags (op : Op V) : (match op with
    | .makeGroup _ _ _ => True
    | _ => Fixes (fun w : World V => w.groups.map gtag) (exec op)) := by
  have hb := blind_tags (V := V)
  cases op with
  | register t => exact out_fix (register_fix (fun _ _ => rfl) t)
  | createEntity => exact out_fix (createEntity_fix (fun _ _ => rfl))
  | createEntities n => exact out_fix (createEntities_fix (fun _ _ => rfl) n)
  | removeEntity order id => exact out_fix (removeEntity_fix hb (fun _ _ => rfl) order id)
  | exist id => exact out_fix (Fixes.read _)
  | attach id t v => exact out_fix (attach_fix hb id t v)
  | detach id t => exact out_fix (detach_fix hb id t)
  | attachBatch a b t vs => exact out_fix (attachBatch_fix hb a b t vs)
  | makeGroup k a b => trivial
  | read t id => exact out_fix (Fixes.read _)
  | write t id v => exact out_fix (componentWrite_fix hb t id v)
  | count t => exact out_fix (Fixes.read _)
  | registerResource t v => exact out_fix (registerResource_fix (fun _ _ => rfl) t v)
  | resourceRead t => exact out_fix (Fixes.read _)
  | resourceWrite t v => exact out_fix (resourceWrite_fix (fun _ _ => rfl) t v)

theorem fst_bind_pure {α : Type} (m : M V α) (f : α → Out V) (w : World V) :
    ((m >>= fun a => pure (f a)) w).1 = (m w).1 := by
  rw [M.bind_apply]
  rcases m w with ⟨w1, r⟩
  cases r <;> rfl

theorem exclusive_step {w : World V} (op : Op V) (h : Exclusive (w.groups.map gtag)) :
    Exclusive ((exec op w).1.groups.map gtag) := by
  have hf := exec_tags op
  cases op with
  | makeGroup k a b =>
    have e : (exec (.makeGroup k a b) w).1 = (World.makeGroup (toKind k) a b w).1 := fst_bind_pure _ _ w
    rw [e]
    rcases makeGroup_tags w (toKind k) a b with ⟨h1, h2⟩ | ⟨h1, _⟩
    · rw [h1]
      unfold Exclusive
      rw [List.pairwise_append]
      exact ⟨h, by simp, fun x hx y hy => by simp at hy; subst hy; exact h2 x hx⟩
    · rw [h1]; exact h
  | _ => rw [show (exec _ w).1.groups.map gtag = w.groups.map gtag from hf w]; exact h

theorem wild_exclusive {tr : List (Op V × Out V)} {w : World V} (h : Wild tr w) : Exclusive (w.groups.map gtag) := by
  induction h with
  | init => exact List.Pairwise.nil
  | ok hprev he ih => have := exclusive_step (w := _) ‹Op V› ih; rw [he] at this; exact this
  | fails hprev he ih => have := exclusive_step (w := _) ‹Op V› ih; rw [he] at this; exact this

theorem Wild.of_any {tr : List (Op V × Out V)} {w : World V} (h : AnyTrace tr w) : Wild tr w := by
  induction h with
  | init => exact .init
  | ok _ _ he ih => exact .ok ih he
  | fails _ he _ ih => exact .fails ih he

end Xecs
