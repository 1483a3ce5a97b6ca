import Verif.Spec.Linear
import Verif.Proofs.Attaching
import Verif.Proofs.Setup
import Verif.Proofs.Prepare
/-
What each piece of work does to the observable contents of a world.
-/
set_option autoImplicit false
namespace Xecs
open Spec World Hist
variable {V : Type}

/-- Storages and resources are under their own types, storages are maps. -/
structure Fit (w : World V) : Prop where
  st : ∀ t st, w.comps t = some st → st.ty = t ∧ st.set.WF
  res : ∀ t r, w.res t = some r → r.ty = t

theorem Shared.eq {a b : Shared V} (h1 : ∀ t, a.registered t = b.registered t) (h2 : ∀ e, a.alive e = b.alive e)
    (h3 : ∀ t e, a.value t e = b.value t e) (h4 : ∀ t, a.res t = b.res t) : a = b := by
  cases a; cases b
  simp only [Shared.mk.injEq]
  exact ⟨funext h1, funext h2, funext fun t => funext (h3 t), funext h4⟩

theorem Fit.value {w : World V} (h : Fit w) {t : Nat} {st : Storage V} (hs : w.comps t = some st) (e : Nat) :
    w.value t e = st.set.lookup e := by
  obtain ⟨h1, h2⟩ := h.st t st hs
  simp only [World.value, componentRead, M.read, hs, downcast, h1, if_true, ok_bind]
  by_cases he : st.set.exist e = true
  · have hm := (SparseSet.exist_iff h2).1 he
    simp only [he, if_true]
    obtain ⟨v, hv⟩ := Option.isSome_iff_exists.1 ((SparseSet.lookup_isSome h2).2 hm)
    rw [SparseSet.getUnchecked_eq h2 hv]
    simp [hv]
  · rw [if_neg he]
    have hn : e ∉ st.set.entities := fun hm => he ((SparseSet.exist_iff h2).2 hm)
    exact ((SparseSet.lookup_none h2).2 hn).symm

theorem value_none {w : World V} {t : Nat} (hs : w.comps t = none) (e : Nat) : w.value t e = none := by
  simp [World.value, componentRead, M.read, hs]

theorem Fit.resv {w : World V} (h : Fit w) (t : Nat) : w.shared.res t = (w.res t).map fun r => r.val := by
  simp only [World.shared, resourceRead, M.read]
  cases hr : w.res t with
  | none => rfl
  | some r => simp [downcastRes, h.res t r hr]

theorem Fit.of_em {w : World V} (h : Fit w) (em : EntityManager) : Fit { w with em := em } := ⟨h.st, h.res⟩

theorem shared_em (w : World V) (em : EntityManager) :
    ({ w with em := em } : World V).shared = { w.shared with alive := fun e => em.entities.contains e } := rfl

/-- The storages hold the same. -/
theorem Fit.same {w w' : World V} (h : Fit w) (he : Evo Same w w') : Fit w' ∧ w'.shared = w.shared := by
  have hf : Fit w' := by
    refine ⟨fun t st ht => ?_, fun t r hr => h.res t r (by rw [← he.res]; exact hr)⟩
    cases hc : w.comps t with
    | none => rw [he.get_none hc] at ht; cases ht
    | some st0 =>
      obtain ⟨st1, e1, e2, e3⟩ := he.get hc
      rw [ht] at e1; cases e1
      obtain ⟨h1, h2⟩ := h.st t st0 hc
      exact ⟨e2.trans h1, (e3 h2).1⟩
  refine ⟨hf, Shared.eq (fun t => ?_) (fun e => ?_) (fun t e => ?_) (fun t => ?_)⟩
  · simp only [World.shared, hasRegistered]
    cases hc : w.comps t with
    | none => rw [he.get_none hc]
    | some st0 => obtain ⟨st1, e1, _⟩ := he.get hc; rw [e1]; rfl
  · simp only [World.shared, he.em]
  · show w'.value t e = w.value t e
    cases hc : w.comps t with
    | none => rw [value_none hc, value_none (he.get_none hc)]
    | some st0 =>
      obtain ⟨st1, e1, e2, e3⟩ := he.get hc
      rw [h.value hc, hf.value e1]
      exact (e3 (h.st t st0 hc).2).2 e
  · rw [hf.resv, h.resv, he.res]

/-- The storages hold the same, but `id` may have lost components. -/
theorem Fit.less {w w' : World V} {id : Nat} (h : Fit w) (he : Evo (Less id) w w') :
    Fit w' ∧ ∃ d, w'.shared = w.shared.drop id d := by
  have hf : Fit w' := by
    refine ⟨fun t st ht => ?_, fun t r hr => h.res t r (by rw [← he.res]; exact hr)⟩
    cases hc : w.comps t with
    | none => rw [he.get_none hc] at ht; cases ht
    | some st0 =>
      obtain ⟨st1, e1, e2, e3⟩ := he.get hc
      rw [ht] at e1; cases e1
      obtain ⟨h1, h2⟩ := h.st t st0 hc
      exact ⟨e2.trans h1, (e3 h2).1⟩
  refine ⟨hf, fun t => (w'.value t id).isNone, Shared.eq (fun t => ?_) (fun e => ?_) (fun t e => ?_) (fun t => ?_)⟩
  · simp only [World.shared, Shared.drop, hasRegistered]
    cases hc : w.comps t with
    | none => rw [he.get_none hc]
    | some st0 => obtain ⟨st1, e1, _⟩ := he.get hc; rw [e1]; rfl
  · simp only [World.shared, Shared.drop, he.em]
  · show w'.value t e = if e = id ∧ (w'.value t id).isNone = true then none else w.value t e
    cases hc : w.comps t with
    | none => simp [value_none hc, value_none (he.get_none hc)]
    | some st0 =>
      obtain ⟨st1, e1, e2, e3⟩ := he.get hc
      obtain ⟨_, x, y⟩ := e3 (h.st t st0 hc).2
      rw [h.value hc, hf.value e1, hf.value e1]
      by_cases hee : e = id
      · subst hee
        rcases y with y | y
        · rw [y]; cases st0.set.lookup e <;> simp
        · rw [y]; simp
      · rw [x e hee, if_neg (fun h => hee h.1)]
  · rw [show (w.shared.drop id fun t => (w'.value t id).isNone).res t = w.shared.res t from rfl, hf.resv, h.resv, he.res]

/-- One storage replaced. -/
theorem Fit.set {w : World V} (h : Fit w) {t : Nat} {st : Storage V} {S : SparseSet V} (hs : w.comps t = some st)
    (hw : S.WF) : Fit (w.setSet t S) ∧
    (w.setSet t S).shared = { w.shared with value := fun u e => if u = t then S.lookup e else w.value u e } := by
  have hf : Fit (w.setSet t S) := by
    refine ⟨fun u st' hu => ?_, h.res⟩
    rw [setSet_comps] at hu
    by_cases hut : u = t
    · subst hut
      simp only [if_true, hs, Option.map_some, Option.some.injEq] at hu
      subst hu
      exact ⟨(h.st u st hs).1, hw⟩
    · rw [if_neg hut] at hu; exact h.st u st' hu
  refine ⟨hf, Shared.eq (fun u => ?_) (fun e => rfl) (fun u e => ?_) (fun u => ?_)⟩
  · simp only [World.shared, hasRegistered, setSet_comps]
    by_cases hut : u = t
    · subst hut; simp
    · simp [hut]
  · show (w.setSet t S).value u e = if u = t then S.lookup e else w.value u e
    by_cases hut : u = t
    · subst hut
      rw [hf.value (st := ⟨st.ty, S⟩) (by rw [setSet_comps]; simp [hs])]; simp
    · rw [if_neg hut]
      cases hc : w.comps u with
      | none => rw [value_none hc, value_none (by rw [setSet_comps, if_neg hut]; exact hc)]
      | some st' => rw [h.value hc, hf.value (st := st') (by rw [setSet_comps, if_neg hut]; exact hc)]
  · rfl

theorem Fit.put {w : World V} (h : Fit w) {t id : Nat} {o : Option V} {st : Storage V} {S : SparseSet V}
    (hs : w.comps t = some st) (hw : S.WF) (hl : ∀ x, S.lookup x = if x = id then o else st.set.lookup x) :
    Fit (w.setSet t S) ∧ (w.setSet t S).shared = w.shared.put t id o := by
  obtain ⟨h1, h2⟩ := h.set hs hw
  refine ⟨h1, h2.trans ?_⟩
  refine Shared.eq (fun _ => rfl) (fun _ => rfl) (fun u e => ?_) (fun _ => rfl)
  show (if u = t then S.lookup e else w.value u e) = if u = t ∧ e = id then o else w.value u e
  by_cases hut : u = t
  · subst hut
    simp only [if_true, true_and, hl, h.value hs]
  · simp [hut]

/-! ### Queries without groups -/

/-- The abstract state made of the storages alone. -/
def fitState (w : World V) : State V :=
  { next := 1, free := [], comp := fun t => (w.comps t).map fun st => st.set.lookup
    hw := fun t => match w.comps t with | some st => st.set.indices.length | none => 0
    groups := [], res := fun _ => none }

theorem Fit.rel {w : World V} (h : Fit w) : WRel { w with groups := [] } (fitState w) := by
  refine ⟨fun t => ?_, rfl, fun k g gs hk => by simp at hk, fun i j gi gj hi => by simp [fitState] at hi⟩
  simp only [fitState]
  cases hc : w.comps t with
  | none => simp [StRel]
  | some st =>
    obtain ⟨h2, h3⟩ := h.st t st hc
    exact ⟨h2, h3, fun _ => rfl, rfl⟩

theorem Fit.get {w : World V} (h : Fit w) (t e : Nat) : (fitState w).get t e = w.value t e := by
  simp only [State.get, fitState]
  cases hc : w.comps t with
  | none => rw [value_none hc]; rfl
  | some st => rw [h.value hc]; rfl

theorem freshIn_plain (s : State V) (q : Query) : q.Groupless → s.FreshIn q := by
  induction q with
  | comp m t => exact fun _ => trivial
  | with2 a b iha ihb => exact fun h => ⟨iha h.1, ihb h.2⟩
  | with3 a b c iha ihb ihc => exact fun h => ⟨iha h.1, ihb h.2.1, ihc h.2.2⟩
  | with4 a b c d iha ihb ihc ihd => exact fun h => ⟨iha h.1, ihb h.2.1, ihc h.2.2.1, ihd h.2.2.2⟩
  | with5 a b c d e iha ihb ihc ihd ihe =>
    exact fun h => ⟨iha h.1, ihb h.2.1, ihc h.2.2.1, ihd h.2.2.2.1, ihe h.2.2.2.2⟩
  | withoutL a b iha ihb => exact fun h => ⟨iha h.1, ihb h.2⟩
  | withoutR a b iha ihb => exact fun h => ⟨iha h.1, ihb h.2⟩
  | group k ma mb a b => exact fun h => False.elim h

theorem results_prepare {w : World V} {q : Query} {l : List (Nat × Option (Item V))} (h : w.results q = .ok l) :
    ∃ r, q.prepare w [] = .ok r := by
  simp only [World.results, World.queryAll, World.query] at h
  obtain ⟨x, h, _⟩ := bindR_ok h
  obtain ⟨r, h, _⟩ := bindR_ok h
  exact ⟨r, h⟩

theorem prepared {w : World V} {s : State V} (h : WRel w s) {q : Query} {r : Plan × Query.Held}
    (hp : q.prepare w [] = .ok r) : s.Defined q ∧ q.Conflictless := by
  obtain ⟨h1, _, h3⟩ := prepare_inv h q [] r .nil hp
  exact ⟨h1, by simpa [Query.Conflictless] using h3⟩

theorem results_congr {w : World V} {q : Query} (hq : q.Groupless) {r : Plan × Query.Held} {s : State V}
    (h : WRel { w with groups := [] } s) (hp : q.prepare w [] = .ok r) :
    w.results q = ({ w with groups := [] } : World V).results q := by
  have hc : w.comps = ({ w with groups := [] } : World V).comps := rfl
  have e1 := prepare_congr (w := { w with groups := [] }) (w' := w) hc q hq []
  have hp' := hp; rw [e1] at hp'
  have e2 := (prepare_inv h q [] r .nil hp').2.1
  subst e2
  have hpl := planOf_plain { w with groups := [] } q hq
  simp only [World.results, World.queryAll, World.query, e1, hp', ok_bind]
  rw [remaining_congr (w := { w with groups := [] }) (w' := w) hc _ 0 hpl,
    collectFrom_congr (w := { w with groups := [] }) (w' := w) hc _ hpl]
  simp only [derefItem_congr (w := { w with groups := [] }) (w' := w) hc]

theorem Fit.collect {w : World V} (h : Fit w) {q : Query} (hq : q.Groupless) {l : List (Nat × Option (Item V))}
    (hr : w.results q = .ok l) :
    ∃ l' : List (Nat × Item V), l = l'.map (fun x => (x.1, some x.2)) ∧ Lists l' (q.answer w.value) := by
  obtain ⟨r, hp⟩ := results_prepare hr
  have hp' := hp
  rw [prepare_congr (w := { w with groups := [] }) (w' := w) rfl q hq []] at hp'
  obtain ⟨hd, hc⟩ := prepared h.rel hp'
  obtain ⟨l', hy, hl⟩ := rel_lists h.rel hd (freshIn_plain _ q hq) hc
  rw [Yields, ← results_congr hq h.rel hp, hr] at hy
  refine ⟨l', Except.ok.inj hy, ?_⟩
  have he : (fitState w).yields q = q.answer w.value :=
    funext fun id => (plain_answer h.get q id hq).2
  rw [← he]; exact hl

/-! ### The effect of a piece of work -/

/-- What a piece of work does to the contents, and what it returns. -/
def Act.Effect (life : Prop) (s s' : Shared V) (r : Ret V) : Act V → Prop
  | .has id => s' = s ∧ ∃ b, r = .bool b ∧ (life → s.alive id = true → b = true)
  | .allocate => ∃ (id : Nat) (al : Nat → Bool), r = .id id ∧ s' = { s with alive := al } ∧
      (life → s.alive id = false ∧ ∀ e, al e = (s.alive e || e == id))
  | .allocateN n => ∃ (start : Nat) (al : Nat → Bool), r = .range start (start + n) ∧ s' = { s with alive := al } ∧
      (life → (∀ e, start ≤ e → e < start + n → s.alive e = false) ∧
        ∀ e, al e = (s.alive e || (decide (start ≤ e) && decide (e < start + n))))
  | .emRemove id => r = .unit ∧ ∃ al : Nat → Bool, s' = { s with alive := al } ∧
      (life → s.alive id = true ∧ (∀ t, s.value t id = none) ∧ ∀ e, al e = (s.alive e && e != id))
  | .attachStore t id v => r = .unit ∧ s' = s.put t id (some v)
  | .detachStore t id => r = .val (s.value t id) ∧ s' = s.put t id none
  | .batchStore start stop t vs => r = .unit ∧ vs.length = stop - start ∧
      (∀ e, start ≤ e → e < stop → s.value t e = none) ∧ (life → ∀ e, start ≤ e → e < stop → s.alive e = true) ∧
      s' = s.putAll t start vs
  | .storeHas _ _ => s' = s ∧ ∃ b, r = .bool b
  | .groupHas _ _ => s' = s ∧ ∃ b, r = .bool b
  | .storeErase _ id => r = .unit ∧ ∃ d, s' = s.drop id d
  | .groupErase _ id => r = .unit ∧ ∃ d, s' = s.drop id d
  | .groupAdd _ _ => s' = s ∧ r = .unit
  | .groupRemove _ _ => s' = s ∧ r = .unit
  | .storeRead t id => s' = s ∧ r = .val (s.value t id)
  | .storeWrite t id v => r = .bool (s.value t id).isSome ∧
      s' = if (s.value t id).isSome then s.put t id (some v) else s
  | .storeCount t => s' = s ∧ ∃ l : List Nat, l.Nodup ∧ (∀ e, e ∈ l ↔ (s.value t e).isSome = true) ∧
      r = .count (if s.registered t then some l.length else none)
  | .resRead t => s' = s ∧ r = .val (s.res t)
  | .resWrite t v => r = .bool (s.res t).isSome ∧ s' = if (s.res t).isSome then s.putRes t v else s
  | .collect q => s' = s ∧ Fits life s q r

theorem readM_ok {α : Type} {f : World V → R α} {g : α → Ret V} {w w' : World V} {r : Ret V}
    (h : (do pure (g (← M.read f)) : M V (Ret V)) w = (w', .ok r)) : w' = w ∧ ∃ a, f w = .ok a ∧ r = g a := by
  simp only [M.bind_ok, M.read_ok, M.pure_iff] at h
  obtain ⟨w1, a, ⟨rfl, h1⟩, rfl, rfl⟩ := h
  exact ⟨rfl, a, h1, rfl⟩

theorem critM_ok {α : Type} {f : World V → R (World V × α)} {x : M V α} {g : α → Ret V} {w w' : World V} {r : Ret V}
    (h : (do pure (g (← M.crit f x)) : M V (Ret V)) w = (w', .ok r)) : ∃ a, f w = .ok (w', a) ∧ r = g a := by
  simp only [M.bind_ok, M.crit_iff, M.pure_iff] at h
  obtain ⟨w1, a, h1, rfl, rfl⟩ := h
  exact ⟨a, h1, rfl⟩

theorem shared_alive {w : World V} {s : State V} (h : Rel w s) (e : Nat) : w.shared.alive e = s.live e := by
  rw [Bool.eq_iff_iff, live_mem h]
  simp [World.shared]

/-- A piece of work does what it is supposed to do. -/
theorem run_effect {life : Prop} {w w' : World V} (h : Fit w) {a : Act V} {r : Ret V}
    (hb : ∀ start stop t vs, a = .batchStore start stop t vs → ∀ e, start ≤ e → e < stop → w.value t e = none)
    (hl : life → ∃ s, Rel w s ∧ ∀ id, a = .emRemove id → s.live id = true ∧ ∀ t, s.has t id = false)
    (ha : life → ∀ start stop t vs, a = .batchStore start stop t vs → ∀ e, start ≤ e → e < stop → w.shared.alive e = true)
    (hr : a.run w = (w', .ok r)) : Fit w' ∧ a.Effect life w.shared w'.shared r := by
  cases a with
  | has id =>
    obtain ⟨rfl, b, h1, rfl⟩ := readM_ok hr
    refine ⟨h, rfl, b, rfl, fun l ha => ?_⟩
    obtain ⟨s, hs, _⟩ := hl l
    have := has_run' hs (id := id) (by rw [← shared_alive hs]; exact ha)
    rw [hr] at this
    simpa using this
  | allocate =>
    obtain ⟨id, h1, rfl⟩ := critM_ok hr
    obtain ⟨⟨em, id'⟩, h1, h2⟩ := bindR_ok h1
    simp only [Except.ok.injEq, Prod.mk.injEq] at h2
    obtain ⟨rfl, rfl⟩ := h2
    refine ⟨h.of_em em, id', _, rfl, shared_em w em, fun l => ?_⟩
    obtain ⟨s, hs, _⟩ := hl l
    obtain ⟨w2, s2, id2, e1, e2, e3, e4, e5, _⟩ := allocate_run' hs
    rw [hr] at e1
    simp only [Prod.mk.injEq, Except.ok.injEq, Ret.id.injEq] at e1
    obtain ⟨rfl, rfl⟩ := e1
    refine ⟨by rw [shared_alive hs]; exact e4, fun e => ?_⟩
    have := shared_alive e2 e
    rw [shared_em] at this
    rw [show (em.entities.contains e) = s2.live e from this, shared_alive hs]
    by_cases he : e = id'
    · subst he; simp [e5]
    · simp [(e3 e he).live, he]
  | allocateN n =>
    obtain ⟨⟨a, b⟩, h1, rfl⟩ := critM_ok hr
    simp only [Except.ok.injEq, Prod.mk.injEq] at h1
    obtain ⟨rfl, h1⟩ := h1
    have hab : b = a + n := by simp only [EntityManager.allocateN, Prod.mk.injEq] at h1; omega
    subst hab
    refine ⟨h.of_em _, a, _, rfl, shared_em w _, fun l => ?_⟩
    obtain ⟨s, hs, _⟩ := hl l
    obtain ⟨w2, e1, e2⟩ := createEntities_ref hs n
    have e1' : (Act.allocateN n : Act V).run w = (w2, .ok (.range s.next (s.next + n))) := by
      simp only [Act.run, M.bind_apply, e1, M.pure_apply]
    rw [hr] at e1'
    simp only [Prod.mk.injEq, Except.ok.injEq, Ret.range.injEq] at e1'
    obtain ⟨rfl, e4, _⟩ := e1'
    subst e4
    refine ⟨fun e h1 h2 => ?_, fun e => ?_⟩
    · rw [shared_alive hs, Bool.eq_false_iff, Ne, live_iff]; omega
    · have := shared_alive e2 e
      rw [shared_em] at this
      rw [show ((w.em.allocateN n).1.entities.contains e) = _ from this, shared_alive hs, Bool.eq_iff_iff]
      simp only [Bool.or_eq_true, live_iff, Bool.and_eq_true, decide_eq_true_eq]
      constructor
      · rintro ⟨x, y, z⟩
        by_cases hlt : e < s.next
        · exact .inl ⟨x, hlt, z⟩
        · exact .inr ⟨by omega, y⟩
      · rintro (⟨x, y, z⟩ | ⟨x, y⟩)
        · exact ⟨x, by omega, z⟩
        · have := hs.em.range
          refine ⟨?_, y, fun hf => ?_⟩
          · have := hs.em.pos
            have := hs.next
            omega
          · have := hs.em.range e hf
            have := hs.next
            omega
  | emRemove id =>
    obtain ⟨_, h1, rfl⟩ := critM_ok hr
    obtain ⟨em, h1, h2⟩ := bindR_ok h1
    have h2 := (Prod.mk.inj (Except.ok.inj h2)).1
    subst h2
    refine ⟨h.of_em em, rfl, _, shared_em w em, fun l => ?_⟩
    obtain ⟨s, hs, h3⟩ := hl l
    obtain ⟨h3, h4⟩ := h3 id rfl
    obtain ⟨w2, s2, e1, e2, e3, e4, _⟩ := emRemove_run hs h3 h4
    rw [hr] at e1
    have e1 := (Prod.mk.inj e1).1
    subst e1
    refine ⟨by rw [shared_alive hs]; exact h3, fun t => ?_, fun e => ?_⟩
    · have := h4 t
      show w.value t id = none
      rw [value_eq hs]
      simpa [State.has] using this
    · have := shared_alive e2 e
      rw [shared_em] at this
      rw [show (em.entities.contains e) = s2.live e from this, shared_alive hs]
      by_cases he : e = id
      · subst he; simp [e4]
      · simp [(e3 e he).live, he]
  | attachStore t id v =>
    obtain ⟨_, h1, rfl⟩ := critM_ok hr
    obtain ⟨st, h0, h1⟩ := bindR_ok h1
    obtain ⟨s, h1, h2⟩ := bindR_ok h1
    have h0 := unwrapR_ok h0
    obtain ⟨hty, hwf⟩ := h.st t st h0
    simp only [downcast, hty, if_true, Except.ok.injEq] at h1
    subst h1
    obtain ⟨S, h3, h4⟩ := bindR_ok h2
    simp only [Except.ok.injEq, Prod.mk.injEq, and_true] at h4
    subst h4
    have : S.WF ∧ ∀ x, S.lookup x = if x = id then some v else st.set.lookup x := by
      by_cases he : id ∈ st.set.entities
      · obtain ⟨S', e1, e2, _, _, e3, _⟩ := SparseSet.add_present hwf v he
        rw [h3] at e1; cases e1; exact ⟨e2, e3⟩
      · obtain ⟨S', e1, e2, _, _, _, e3, _⟩ := SparseSet.add_absent hwf v he
        rw [h3] at e1; cases e1; exact ⟨e2, e3⟩
    obtain ⟨x, y⟩ := h.put h0 this.1 this.2
    exact ⟨x, rfl, y⟩
  | detachStore t id =>
    obtain ⟨o, h1, rfl⟩ := critM_ok hr
    obtain ⟨st, h0, h1⟩ := bindR_ok h1
    obtain ⟨s, h1, h2⟩ := bindR_ok h1
    have h0 := unwrapR_ok h0
    obtain ⟨hty, hwf⟩ := h.st t st h0
    simp only [downcast, hty, if_true, Except.ok.injEq] at h1
    subst h1
    obtain ⟨⟨S, o'⟩, h3, h4⟩ := bindR_ok h2
    simp only [Except.ok.injEq, Prod.mk.injEq] at h4
    obtain ⟨rfl, rfl⟩ := h4
    have : S.WF ∧ o' = st.set.lookup id ∧ ∀ x, S.lookup x = if x = id then none else st.set.lookup x := by
      by_cases he : id ∈ st.set.entities
      · obtain ⟨i, hi⟩ := List.mem_iff_getElem?.1 he
        obtain ⟨S', e1, e2, _, _, _, e3, _⟩ := SparseSet.remove_present hwf hi
        rw [h3] at e1; cases e1; exact ⟨e2, rfl, e3⟩
      · have e1 := SparseSet.remove_absent hwf he
        rw [h3] at e1
        split at e1
        · cases e1
        · cases e1
          have hn := (SparseSet.lookup_none hwf).2 he
          refine ⟨hwf, hn.symm, fun x => ?_⟩
          by_cases hx : x = id
          · subst hx; rw [if_pos rfl]; exact hn
          · rw [if_neg hx]
    obtain ⟨x, y⟩ := h.put h0 this.1 this.2.2
    exact ⟨x, by rw [this.2.1, show w.shared.value t id = w.value t id from rfl, h.value h0], y⟩
  | batchStore start stop t vs =>
    have hr' := hr
    simp only [Act.run, M.bind_ok, M.pure_iff] at hr'
    obtain ⟨w1, _, h1, rfl, rfl⟩ := hr'
    obtain ⟨hlen, st, S, h0, hty, h3, rfl⟩ := attachBatch_inv h1
    obtain ⟨_, hwf⟩ := h.st t st h0
    have hdis : ∀ e ∈ List.range' start (stop - start), e ∉ st.set.entities := by
      intro e he
      rw [List.mem_range'_1] at he
      have := hb _ _ _ _ rfl e he.1 (by omega)
      rw [h.value h0] at this
      exact (SparseSet.lookup_none hwf).1 this
    obtain ⟨S', e1, e2, _, _, _, e3, _⟩ := SparseSet.addBatch_spec hwf (es := List.range' start (stop - start)) (vs := vs)
      (by simp [hlen]) List.nodup_range' hdis
    rw [h3] at e1; cases e1
    obtain ⟨x, y⟩ := h.set h0 e2
    refine ⟨x, rfl, hlen, fun e h1 h2 => hb _ _ _ _ rfl e h1 h2, fun l e h1 h2 => ha l _ _ _ _ rfl e h1 h2, y.trans (Shared.eq (fun _ => rfl) (fun _ => rfl) (fun u e => ?_) (fun _ => rfl))⟩
    show (if u = t then S.lookup e else w.value u e) = if u = t ∧ start ≤ e ∧ e < start + vs.length then vs[e - start]? else w.value u e
    by_cases hut : u = t
    · subst hut
      simp only [if_true, true_and, e3, List.mem_range'_1, hlen]
      by_cases hin : start ≤ e ∧ e < start + (stop - start)
      · rw [if_pos hin, if_pos hin, idxOf_range' _ _ _ hin.1 hin.2]
      · rw [if_neg hin, if_neg hin, h.value h0]
    · simp [hut]
  | storeHas t id => obtain ⟨rfl, b, _, rfl⟩ := readM_ok hr; exact ⟨h, rfl, b, rfl⟩
  | groupHas t id => obtain ⟨rfl, b, _, rfl⟩ := readM_ok hr; exact ⟨h, rfl, b, rfl⟩
  | storeErase t id =>
    obtain ⟨_, h1, rfl⟩ := critM_ok hr
    obtain ⟨x, y⟩ := h.less (storeErase_evo h1).1
    exact ⟨x, rfl, y⟩
  | groupErase k id =>
    obtain ⟨_, h1, rfl⟩ := critM_ok hr
    obtain ⟨x, y⟩ := h.less (groupErase_evo h1)
    exact ⟨x, rfl, y⟩
  | groupAdd k id =>
    obtain ⟨_, h1, rfl⟩ := critM_ok hr
    obtain ⟨x, y⟩ := h.same (groupAdd_evo h1)
    exact ⟨x, y, rfl⟩
  | groupRemove k id =>
    obtain ⟨_, h1, rfl⟩ := critM_ok hr
    obtain ⟨x, y⟩ := h.same (groupRemove_evo h1)
    exact ⟨x, y, rfl⟩
  | storeRead t id =>
    obtain ⟨rfl, b, h1, rfl⟩ := readM_ok hr
    refine ⟨h, rfl, ?_⟩
    have : w'.value t id = b := by simp only [World.value, World.componentRead, M.read, h1]
    rw [show w'.shared.value t id = w'.value t id from rfl, this]
  | storeWrite t id v =>
    have hr' := hr
    simp only [Act.run, M.bind_ok, M.pure_iff] at hr'
    obtain ⟨w1, b, h1, rfl, rfl⟩ := hr'
    show _ ∧ _ = Ret.bool (w.value t id).isSome ∧ _ = if (w.value t id).isSome then _ else _
    rcases componentWrite_inv h1 with ⟨rfl, rfl⟩ | ⟨rfl, st, S, h2, h3, h4, rfl⟩
    · have hn : w'.value t id = none := by
        cases hc : w'.comps t with
        | none => exact value_none hc id
        | some st =>
          obtain ⟨hty, hwf⟩ := h.st t st hc
          rw [h.value hc, SparseSet.lookup_none hwf]
          intro hm
          have := (SparseSet.exist_iff hwf).2 hm
          simp only [World.componentWrite, M.crit_iff, hc, downcast, hty, if_true, ok_bind, this] at h1
          obtain ⟨_, _, h1⟩ := bindR_ok h1
          simp at h1
      simp [hn, h]
    · obtain ⟨hty, hwf⟩ := h.st t st h2
      have hm := (SparseSet.exist_iff hwf).1 h3
      obtain ⟨S', e1, e2, _, _, e3, _⟩ := SparseSet.setUnchecked_present hwf v hm
      rw [h4] at e1; cases e1
      obtain ⟨x, y⟩ := h.put h2 e2 e3
      have hs : (w.value t id).isSome = true := by
        rw [h.value h2]; exact (SparseSet.lookup_isSome hwf).2 hm
      rw [hs]
      exact ⟨x, rfl, by simpa using y⟩
  | storeCount t =>
    obtain ⟨rfl, b, h1, rfl⟩ := readM_ok hr
    refine ⟨h, rfl, ?_⟩
    cases hc : w'.comps t with
    | none =>
      simp only [hc, Except.ok.injEq] at h1
      refine ⟨[], .nil, fun e => ?_, ?_⟩
      · show _ ↔ (w'.value t e).isSome = true
        simp [value_none hc]
      · simp [← h1, World.shared, World.hasRegistered, hc]
    | some st =>
      obtain ⟨hty, hwf⟩ := h.st t st hc
      simp only [hc, downcast, hty, if_true, ok_bind, Except.ok.injEq] at h1
      refine ⟨st.set.entities, SparseSet.nodup hwf, fun e => ?_, ?_⟩
      · show _ ↔ (w'.value t e).isSome = true
        rw [h.value hc]
        exact (SparseSet.lookup_isSome hwf).symm
      · simp [← h1, World.shared, World.hasRegistered, hc, SparseSet.len]
  | resRead t =>
    obtain ⟨rfl, b, h1, rfl⟩ := readM_ok hr
    refine ⟨h, rfl, ?_⟩
    simp only [World.shared, World.resourceRead, M.read, h1]
  | resWrite t v =>
    obtain ⟨b, h1, rfl⟩ := critM_ok hr
    show _ ∧ _ = Ret.bool (w.shared.res t).isSome ∧ _
    rw [h.resv]
    cases hc : w.res t with
    | none =>
      simp only [hc, Except.ok.injEq, Prod.mk.injEq] at h1
      obtain ⟨rfl, rfl⟩ := h1
      simp [h]
    | some x =>
      have hty := h.res t x hc
      simp only [hc, downcastRes, hty, if_true, ok_bind, Except.ok.injEq, Prod.mk.injEq] at h1
      obtain ⟨rfl, rfl⟩ := h1
      have hf : Fit ({ w with res := fun u => if u = t then some (ResBox.mk t v) else w.res u } : World V) := by
        refine ⟨h.st, fun u r hu => ?_⟩
        simp only at hu
        split at hu
        · next hut => cases hu; exact hut.symm
        · exact h.res u r hu
      refine ⟨hf, rfl, ?_⟩
      simp only [Option.map_some, Option.isSome_some, if_true]
      refine Shared.eq (fun _ => rfl) (fun _ => rfl) (fun _ _ => rfl) (fun u => ?_)
      rw [hf.resv]
      simp only [Shared.putRes, h.resv]
      by_cases hut : u = t
      · simp [hut]
      · simp [hut]
  | collect q =>
    obtain ⟨rfl, l, h1, rfl⟩ := readM_ok hr
    have h2 : w'.results q = .ok l := h1
    refine ⟨h, rfl, fun hq => ?_, fun hlf k ma mb t u hq hk => ?_⟩
    · obtain ⟨l', rfl, hl'⟩ := h.collect hq h2
      exact ⟨l', rfl, hl'⟩
    · obtain ⟨s, hs, _⟩ := hl hlf
      obtain ⟨x, hp⟩ := results_prepare h2
      obtain ⟨hd, hc⟩ := prepared hs.core hp
      obtain ⟨l', hy, hl'⟩ := rel_lists hs.core hd (by subst hq; exact fun hn => absurd hn hk) hc
      rw [Yields, h2] at hy
      cases hy
      refine ⟨l', rfl, hl'.1, fun y hy => ?_⟩
      have := (hl'.2 y.1 y.2).1 hy
      subst hq
      exact state_pair hs this

end Xecs
