import Verif.Proofs.Handles
import Verif.Proofs.Step
/-
What each piece of work does to the components and group memberships of one entity, when the world is
consistent.
-/
set_option autoImplicit false
namespace Xecs
open Spec World
variable {V : Type}

/-- Is `id` in group number `k`? -/
def memAt (s : State V) (k id : Nat) : Bool :=
  match s.groups[k]? with
  | some g => g.mem id
  | none => false

/-- Entity `e` has the same components and is in the same groups, and is alive or not as before. -/
structure Alike (s s' : State V) (e : Nat) : Prop where
  has : ∀ t, s'.has t e = s.has t e
  mem : ∀ k, memAt s' k e = memAt s k e
  live : s'.live e = s.live e

theorem Alike.refl (s : State V) (e : Nat) : Alike s s e := ⟨fun _ => rfl, fun _ => rfl, rfl⟩

/-- The world `w'` is consistent and corresponds to `s'`, which differs from `s` in entity `id` only, which has
now the components `has'` and is in the groups `mem'`. -/
structure Becomes (w' : World V) (s s' : State V) (id : Nat) (has' mem' : Nat → Bool) : Prop where
  rel : Rel w' s'
  others : ∀ e, e ≠ id → Alike s s' e
  has : ∀ t, s'.has t id = has' t
  mem : ∀ k, memAt s' k id = mem' k
  live : s'.live id = s.live id

/-- Non-owning groups stay up to date, unless a group owns one of their types. -/
def FreshKept (s s' : State V) : Prop :=
  ∀ (k : Nat) g', s'.groups[k]? = some g' → ∃ g, s.groups[k]? = some g ∧ g'.a = g.a ∧ g'.b = g.b ∧
    (g.fresh = true → (∀ (j : Nat) gj, s.groups[j]? = some gj → gj.owns g.a = false ∧ gj.owns g.b = false) →
      g'.fresh = true)

theorem FreshKept.of_eq {s s' : State V} (h : s'.groups = s.groups) : FreshKept s s' := by
  intro k g hg
  rw [h] at hg
  exact ⟨g, hg, rfl, rfl, fun h _ => h⟩

theorem Becomes.refl {w : World V} {s : State V} (h : Rel w s) (id : Nat) :
    Becomes w s s id (fun t => s.has t id) (fun k => memAt s k id) :=
  ⟨h, fun _ _ => .refl _ _, fun _ => rfl, fun _ => rfl, rfl⟩

/-- The specification's group and the configuration's. -/
theorem shape_at {cfg : Config} {w : World V} {s : State V} (h : WRel w s) (hc : cfg.groups = w.groups.map Group.shape)
    {k : Nat} {gs : SGroup} (hk : s.groups[k]? = some gs) :
    cfg.groups[k]? = some ⟨toKind gs.kind, gs.a, gs.b⟩ := by
  obtain ⟨g, hg⟩ := group_at h hk
  have := h.grp k g gs hg hk
  rw [hc, List.getElem?_map, hg]
  simp [Group.shape, this.kind, this.tyA, this.tyB]

theorem sgroup_at {cfg : Config} {w : World V} {s : State V} (h : WRel w s) (hc : cfg.groups = w.groups.map Group.shape)
    {k : Nat} {g : Shape} (hk : cfg.groups[k]? = some g) :
    ∃ gs, s.groups[k]? = some gs ∧ g = ⟨toKind gs.kind, gs.a, gs.b⟩ := by
  have hl := (List.getElem?_eq_some_iff.1 hk).1
  rw [hc, List.length_map, h.glen] at hl
  have hs := List.getElem?_eq_getElem hl
  refine ⟨_, hs, ?_⟩
  rw [shape_at h hc hs] at hk
  simp at hk; exact hk.symm

theorem touches_shape {gs : SGroup} {g : Shape} (h : g = ⟨toKind gs.kind, gs.a, gs.b⟩) (t : Nat) :
    g.touches t = gs.touches t := by
  subst h
  simp only [Shape.touches, SGroup.touches]
  rw [Bool.beq_comm (a := gs.a), Bool.beq_comm (a := gs.b)]

theorem owns_shape {gs : SGroup} {g : Shape} (h : g = ⟨toKind gs.kind, gs.a, gs.b⟩) (t : Nat) :
    g.owns t = gs.owns t := by
  subst h
  rcases gs with ⟨k, a, b, m, f⟩
  cases k <;> rfl

theorem registered_comp {cfg : Config} {w : World V} {s : State V} (h : WRel w s) (hm : Matches cfg w) {t : Nat}
    (ht : cfg.registered t = true) : ∃ f, s.comp t = some f := by
  have := (hm.order t).1 (by simpa [Config.registered] using ht)
  have h2 := hasRegistered_eq h t
  simp only [World.hasRegistered, this] at h2
  exact Option.isSome_iff_exists.1 h2.symm

theorem has_registered {cfg : Config} {w : World V} {s : State V} (h : WRel w s) (hm : Matches cfg w) {t e : Nat}
    (ht : s.has t e = true) : cfg.registered t = true := by
  have h2 := hasRegistered_eq h t
  have : (s.comp t).isSome = true := by
    simp only [State.has, State.get] at ht
    cases hc : s.comp t <;> simp [hc] at ht ⊢
  rw [this] at h2
  have := (hm.order t).2 h2
  simpa [Config.registered] using this

/-- A member has both components. -/
theorem memAt_both {w : World V} {s : State V} (h : WRel w s) {k id : Nat} (hm : memAt s k id = true) :
    ∃ gs, s.groups[k]? = some gs ∧ s.has gs.a id = true ∧ s.has gs.b id = true := by
  simp only [memAt] at hm
  split at hm
  · rename_i g hg
    have := Rel.mem_both h hg hm
    simp only [State.both, Bool.and_eq_true] at this
    exact ⟨g, hg, this⟩
  · simp at hm

theorem dead_facts {w : World V} {s : State V} (h : Rel w s) {id : Nat} (hd : s.live id = false) :
    (∀ t, s.has t id = false) ∧ (∀ k, memAt s k id = false) := by
  have h1 : ∀ t, s.has t id = false := by
    intro t
    cases hh : s.has t id with
    | false => rfl
    | true => have := h.live t id hh; rw [hd] at this; cases this
  refine ⟨h1, fun k => ?_⟩
  cases hm : memAt s k id with
  | false => rfl
  | true =>
    obtain ⟨gs, _, h2, _⟩ := memAt_both h.core hm
    rw [h1] at h2; cases h2

/-- Consistency of the whole from consistency of components and groups. -/
theorem Rel.ofCore {w w' : World V} {s s' : State V} (h : Rel w s) (hk : Keeps w w') (hc : WRel w' s')
    (hlive : ∀ t e, s'.has t e = true → s.live e = true)
    (hg : ∀ (k : Nat) g', s'.groups[k]? = some g' → ∃ g, s.groups[k]? = some g ∧ g'.kind = g.kind ∧ g'.a = g.a ∧ g'.b = g.b)
    (h1 : s'.free = s.free) (h2 : s'.next = s.next) (h3 : s'.res = s.res) : Rel w' s' := by
  refine ⟨hc, by rw [hk.em, h1]; exact h.em, by rw [hk.em, h2]; exact h.next, by rw [hk.res, h3]; exact h.res, ?_, ?_⟩
  · intro t e hh
    have := hlive t e hh
    rw [live_iff] at this ⊢
    rw [h1, h2]; exact this
  · intro i j gi gj hi hj hij
    obtain ⟨gi0, hi0, e1, e2, e3⟩ := hg i gi hi
    obtain ⟨gj0, hj0, f1, f2, f3⟩ := hg j gj hj
    rw [e1, e2, e3, f1, f2, f3]
    exact h.dist i j gi0 gj0 hi0 hj0 hij

theorem live_of {s s' : State V} (h1 : s'.free = s.free) (h2 : s'.next = s.next) (e : Nat) : s'.live e = s.live e := by
  simp only [State.live, h1, h2]

/-! ### The pieces of work -/

variable {cfg : Config} {w : World V} {s : State V}

theorem attachStore_run (h : Rel w s) (hm : Matches cfg w) {t id : Nat} (v : V) (ht : cfg.registered t = true)
    (hl : s.live id = true) : ∃ w' s', (Act.attachStore t id v).run w = (w', .ok .unit) ∧
      Becomes w' s s' id (fun u => s.has u id || u == t) (fun k => memAt s k id) ∧ FreshKept s s' := by
  obtain ⟨f, hf⟩ := registered_comp h.core hm ht
  obtain ⟨w', h1, h2, h3, h4⟩ := attachStore_ref h.core id t v hf
  refine ⟨w', s.put id t f v, ?_, ⟨?_, ?_, ?_, fun _ => rfl, rfl⟩, .of_eq rfl⟩
  · simp only [Act.run, M.bind_apply, M.crit_ok h1, M.pure_apply]
  · refine h.ofCore h3 h2 ?_ (fun k g hg => ⟨g, hg, rfl, rfl, rfl⟩) rfl rfl rfl
    intro u e hh
    rw [put_has hf] at hh
    simp only [Bool.or_eq_true, Bool.and_eq_true, beq_iff_eq] at hh
    rcases hh with hh | ⟨_, rfl⟩
    · exact h.live u e hh
    · exact hl
  · intro e he
    refine ⟨fun u => ?_, fun _ => rfl, rfl⟩
    rw [put_has hf]
    have : (e == id) = false := by simpa using he
    simp [this]
  · intro u
    rw [put_has hf]
    simp

theorem groupAdd_run (h : Rel w s) (hm : Matches cfg w) {k id : Nat} {g : Shape} (hk : cfg.groups[k]? = some g) :
    ∃ w' s', (Act.groupAdd k id : Act V).run w = (w', .ok .unit) ∧
      Becomes w' s s' id (fun u => s.has u id)
        (fun j => memAt s j id || (decide (j = k) && s.has g.a id && s.has g.b id)) ∧ FreshKept s s' := by
  obtain ⟨gs, hgs, rfl⟩ := sgroup_at h.core hm.groups hk
  obtain ⟨w', h1, h2, h3⟩ := groupAdd_ref h.core id hgs
  have hcomp := join_comp s id k
  have hhas : ∀ t e, (s.join id k).has t e = s.has t e := by intro t e; simp only [State.has, State.get, hcomp]
  have hmem : ∀ j e, memAt (s.join id k) j e = (memAt s j e || (decide (j = k) && e == id && s.has gs.a id && s.has gs.b id)) := by
    intro j e
    simp only [memAt, join_groups s id k hgs]
    cases hj : s.groups[j]? with
    | none =>
      simp
      intro h1; subst h1; rw [hgs] at hj; cases hj
    | some g =>
      simp only [Option.map_some]
      by_cases hjk : j = k
      · subst hjk; rw [hgs] at hj; cases hj
        simp [State.both, Bool.and_assoc]
      · simp [hjk]
  have hrest : (s.join id k).free = s.free ∧ (s.join id k).next = s.next ∧ (s.join id k).res = s.res := by
    simp only [State.join, hgs, and_self]
  refine ⟨w', s.join id k, ?_, ⟨?_, ?_, ?_, ?_, live_of hrest.1 hrest.2.1 _⟩, ?_⟩
  · simp only [Act.run, M.bind_apply, M.crit_ok h1, M.pure_apply]
  · refine h.ofCore h3 h2 (fun t e hh => h.live t e (by rwa [hhas] at hh)) ?_ hrest.1 hrest.2.1 hrest.2.2
    intro j g' hg'
    rw [join_groups s id k hgs, Option.map_eq_some_iff] at hg'
    obtain ⟨g0, hg0, rfl⟩ := hg'
    exact ⟨g0, hg0, rfl, rfl, rfl⟩
  · intro e he
    refine ⟨fun u => hhas u e, fun j => ?_, live_of hrest.1 hrest.2.1 _⟩
    have : (e == id) = false := by simpa using he
    rw [hmem, this]; simp
  · intro t; exact hhas t id
  · intro j; rw [hmem]; simp
  · intro j g' hg'
    rw [join_groups s id k hgs, Option.map_eq_some_iff] at hg'
    obtain ⟨g0, hg0, rfl⟩ := hg'
    refine ⟨g0, hg0, rfl, rfl, fun hfr ho => ?_⟩
    have := ho k gs hgs
    simp [hfr, this.1, this.2]

theorem groupRemove_run' (h : Rel w s) (hm : Matches cfg w) {k id : Nat} {g : Shape} (hk : cfg.groups[k]? = some g) :
    ∃ w' s', (Act.groupRemove k id : Act V).run w = (w', .ok .unit) ∧
      Becomes w' s s' id (fun u => s.has u id) (fun j => memAt s j id && !decide (j = k)) ∧ FreshKept s s' := by
  obtain ⟨gs, hgs, rfl⟩ := sgroup_at h.core hm.groups hk
  obtain ⟨w', h1, h2, h3, _⟩ := groupRemove_ref h.core id hgs
  have hcomp := leave_comp s id k
  have hhas : ∀ t e, (s.leave id k).has t e = s.has t e := by intro t e; simp only [State.has, State.get, hcomp]
  have hmem : ∀ j e, memAt (s.leave id k) j e = (memAt s j e && !(decide (j = k) && e == id)) := by
    intro j e
    simp only [memAt, leave_groups s id k hgs]
    cases hj : s.groups[j]? with
    | none => simp
    | some g => simp
  have hrest : (s.leave id k).free = s.free ∧ (s.leave id k).next = s.next ∧ (s.leave id k).res = s.res := by
    simp only [State.leave, hgs, and_self]
  refine ⟨w', s.leave id k, ?_, ⟨?_, ?_, ?_, ?_, live_of hrest.1 hrest.2.1 _⟩, ?_⟩
  · simp only [Act.run, M.bind_apply, M.crit_ok h1, M.pure_apply]
  · refine h.ofCore h3 h2 (fun t e hh => h.live t e (by rwa [hhas] at hh)) ?_ hrest.1 hrest.2.1 hrest.2.2
    intro j g' hg'
    rw [leave_groups s id k hgs, Option.map_eq_some_iff] at hg'
    obtain ⟨g0, hg0, rfl⟩ := hg'
    exact ⟨g0, hg0, rfl, rfl, rfl⟩
  · intro e he
    refine ⟨fun u => hhas u e, fun j => ?_, live_of hrest.1 hrest.2.1 _⟩
    have : (e == id) = false := by simpa using he
    rw [hmem, this]; simp
  · intro t; exact hhas t id
  · intro j; rw [hmem]; simp
  · intro j g' hg'
    rw [leave_groups s id k hgs, Option.map_eq_some_iff] at hg'
    obtain ⟨g0, hg0, rfl⟩ := hg'
    refine ⟨g0, hg0, rfl, rfl, fun hf ho => ?_⟩
    have := ho k gs hgs
    simp only [hf, this.1, this.2, Bool.or_self, Bool.and_false, Bool.not_false, Bool.and_self]

theorem groupRemove_run (h : Rel w s) (hm : Matches cfg w) {k id : Nat} {g : Shape} (hk : cfg.groups[k]? = some g) :
    ∃ w' s', (Act.groupRemove k id : Act V).run w = (w', .ok .unit) ∧
      Becomes w' s s' id (fun u => s.has u id) (fun j => memAt s j id && !decide (j = k)) := by
  obtain ⟨w', s', h1, h2, _⟩ := groupRemove_run' (id := id) h hm hk
  exact ⟨w', s', h1, h2⟩

theorem has_some {t id : Nat} (hh : s.has t id = true) : ∃ f v, s.comp t = some f ∧ f id = some v := by
  simp only [State.has, State.get] at hh
  cases hc : s.comp t with
  | none => simp [hc] at hh
  | some f =>
    simp only [hc] at hh
    obtain ⟨v, hv⟩ := Option.isSome_iff_exists.1 hh
    exact ⟨f, v, rfl, hv⟩

theorem erase_becomes (h : Rel w s) {t id : Nat} {f : Nat → Option V} (hf : s.comp t = some f) {S : SparseSet V}
    (hS : WRel (w.setSet t S) (s.erase id t f)) :
    Becomes (w.setSet t S) s (s.erase id t f) id (fun u => s.has u id && !(u == t)) (fun k => memAt s k id) := by
  have hhas : ∀ u e, (s.erase id t f).has u e = (s.has u e && !(u == t && e == id)) := by
    intro u e
    simp only [State.has, State.get, State.erase, State.setComp]
    by_cases hu : u = t
    · subst hu
      by_cases he : e = id
      · simp [he]
      · have : (e == id) = false := by simpa using he
        simp [he, hf]
    · simp [hu]
  have hmem : ∀ k e, memAt (s.erase id t f) k e = memAt s k e := by
    intro k e
    simp only [memAt, State.erase, State.setComp, List.getElem?_map]
    cases s.groups[k]? <;> rfl
  refine ⟨?_, ?_, ?_, fun k => hmem k id, rfl⟩
  · refine h.ofCore ⟨rfl, rfl, rfl⟩ hS ?_ ?_ rfl rfl rfl
    · intro u e hh
      rw [hhas] at hh
      simp only [Bool.and_eq_true] at hh
      exact h.live u e hh.1
    · intro k g' hg'
      simp only [State.erase, State.setComp, List.getElem?_map, Option.map_eq_some_iff] at hg'
      obtain ⟨g0, hg0, rfl⟩ := hg'
      exact ⟨g0, hg0, rfl, rfl, rfl⟩
  · intro e he
    refine ⟨fun u => ?_, fun k => hmem k e, rfl⟩
    have : (e == id) = false := by simpa using he
    rw [hhas, this]; simp
  · intro u; rw [hhas]; simp

theorem clear_of {t id : Nat} (h : Rel w s) (hm : Matches cfg w)
    (hn : ∀ (k : Nat) g, cfg.groups[k]? = some g → g.touches t = true → memAt s k id = false) :
    ∀ (k : Nat) gs, s.groups[k]? = some gs → gs.touches t = true → gs.mem id = false := by
  intro k gs hk ht
  have := hn k _ (shape_at h.core hm.groups hk) (by rw [touches_shape rfl]; exact ht)
  simpa [memAt, hk] using this

theorem detachStore_run (h : Rel w s) (hm : Matches cfg w) {t id : Nat} (hh : s.has t id = true)
    (hn : ∀ (k : Nat) g, cfg.groups[k]? = some g → g.touches t = true → memAt s k id = false) :
    ∃ w' s' v, (Act.detachStore t id : Act V).run w = (w', .ok (.val (some v))) ∧
      Becomes w' s s' id (fun u => s.has u id && !(u == t)) (fun k => memAt s k id) := by
  obtain ⟨f, v, hf, hv⟩ := has_some hh
  obtain ⟨st, S, h1, h2, h3, h4, h5⟩ := erase_ref h.core hf hv (clear_of h hm hn)
  refine ⟨_, _, v, ?_, erase_becomes h hf h5⟩
  have hds : World.detachStore t id w = .ok (w.setSet t S, some v) := by
    simp [World.detachStore, h1, downcast, h2, h3]
  simp only [Act.run, M.bind_apply, M.crit_ok hds, M.pure_apply]

theorem detachStore_absent (h : Rel w s) (hm : Matches cfg w) {t id : Nat} (ht : cfg.registered t = true)
    (hh : s.has t id = false) :
    (Act.detachStore t id : Act V).run w = (w, .ok (.val none)) ∨
    ∃ e, (Act.detachStore t id : Act V).run w = (w, .error e) := by
  obtain ⟨f, hf⟩ := registered_comp h.core hm ht
  have hv : f id = none := by
    simp only [State.has, State.get, hf] at hh
    simpa using hh
  obtain ⟨st, hst, hty, hwf, hlook, hlen⟩ := h.core.comp_some hf
  have hnm : id ∉ st.set.entities := by
    rw [← SparseSet.lookup_isSome hwf, hlook, hv]; simp
  have hrem := SparseSet.remove_absent hwf hnm
  have hset : w.setSet t st.set = w := by
    have : (w.setSet t st.set).comps = w.comps := by
      funext u; rw [setSet_comps]
      by_cases hu : u = t
      · simp [hu, hst]
      · simp [hu]
    show (⟨w.em, (w.setSet t st.set).comps, w.groups, w.res⟩ : World V) = w
    rw [this]
  split at hrem
  · right
    have hds : World.detachStore t id w = .error .panic := by
      simp [World.detachStore, hst, downcast, hty, hrem]
    exact ⟨.panic, by simp only [Act.run, M.bind_apply, M.crit_error hds, detachStoreX_state hst hwf hrem]⟩
  · left
    have hds : World.detachStore t id w = .ok (w, none) := by
      simp [World.detachStore, hst, downcast, hty, hrem, hset]
    simp only [Act.run, M.bind_apply, M.crit_ok hds, M.pure_apply]

theorem storeErase_run (h : Rel w s) (hm : Matches cfg w) {t id : Nat} (hh : s.has t id = true)
    (hn : ∀ (k : Nat) g, cfg.groups[k]? = some g → g.touches t = true → memAt s k id = false) :
    ∃ w' s', (Act.storeErase t id : Act V).run w = (w', .ok .unit) ∧
      Becomes w' s s' id (fun u => s.has u id && !(u == t)) (fun k => memAt s k id) := by
  obtain ⟨f, v, hf, hv⟩ := has_some hh
  obtain ⟨st, S, h1, h2, h3, h4, h5⟩ := erase_ref h.core hf hv (clear_of h hm hn)
  refine ⟨_, _, ?_, erase_becomes h hf h5⟩
  have hds : World.storeErase t id w = .ok (w.setSet t S, ()) := by simp [World.storeErase, h1, h4]
  simp only [Act.run, M.bind_apply, M.crit_ok hds, M.pure_apply]

theorem groupHas_run (h : Rel w s) (hm : Matches cfg w) {k id : Nat} {g : Shape} (hk : cfg.groups[k]? = some g) :
    (Act.groupHas k id : Act V).run w = (w, .ok (.bool (memAt s k id))) := by
  obtain ⟨gs, hgs, rfl⟩ := sgroup_at h.core hm.groups hk
  obtain ⟨g, hg⟩ := group_at h.core hgs
  obtain ⟨A, B, hA, hB, hlp, wA, wB, hs, hab, hmem, hf, mA, mB⟩ := lockPair_ok h.core hg hgs
  have hn : w.needRemove id g = .ok (gs.mem id) := by
    simp only [needRemove, hA, hB, unwrapR_some, ok_bind, Group.inGroup_eq wA wB hs]
    congr 1
    have := hmem id
    cases hx : gs.mem id with
    | true => simpa using this.1 hx
    | false => rw [hx] at this; simp at this; simpa using this
  simp only [Act.run, M.bind_apply, M.read_apply, getR_some hg, ok_bind, hn, M.pure_apply, memAt, hgs]

theorem storeHas_run (h : Rel w s) (hm : Matches cfg w) {t id : Nat} (ht : cfg.registered t = true) :
    (Act.storeHas t id : Act V).run w = (w, .ok (.bool (s.has t id))) := by
  obtain ⟨f, hf⟩ := registered_comp h.core hm ht
  obtain ⟨st, hst, hty, hwf, hlook, hlen⟩ := h.core.comp_some hf
  have : st.set.exist id = s.has t id := by
    rw [Bool.eq_iff_iff, SparseSet.exist_iff hwf, h.core.mem_iff hst]
  simp only [Act.run, M.bind_apply, M.read_apply, hst, unwrapR_some, ok_bind, this, M.pure_apply]

theorem groupErase_run' (h : Rel w s) (hm : Matches cfg w) {k id : Nat} {g : Shape} (hk : cfg.groups[k]? = some g)
    (hmem : memAt s k id = true)
    (ho : ∀ (j : Nat) gj, j ≠ k → cfg.groups[j]? = some gj → memAt s j id = true → g.owns gj.a = false ∧ g.owns gj.b = false) :
    ∃ w' s', (Act.groupErase k id : Act V).run w = (w', .ok .unit) ∧
      Becomes w' s s' id (fun u => s.has u id && !g.owns u) (fun j => memAt s j id && !decide (j = k)) ∧ FreshKept s s' := by
  obtain ⟨gs, hgs, rfl⟩ := sgroup_at h.core hm.groups hk
  have ow : ∀ t, Shape.owns ⟨toKind gs.kind, gs.a, gs.b⟩ t = gs.owns t := owns_shape rfl
  obtain ⟨w', s1, h1, h2, h3, h4⟩ := groupErase_ref h.core (RemMid.refl s id) hgs (by simpa [memAt, hgs] using hmem)
    (by
      intro j gj hj hgj hmj
      have := ho j _ hj (shape_at h.core hm.groups hgj) (by simpa [memAt, hgj] using hmj)
      simpa only [ow] using this)
  let s' : State V := { s1 with next := s.next, free := s.free, res := s.res }
  have hhas : ∀ u e, s'.has u e = (s.has u e && !(e == id && gs.owns u)) := by
    intro u e
    show (State.get s1 u e).isSome = _
    simp only [State.get, h4.comp]
    simp only [State.has, State.get]
    cases s.comp u with
    | none => rfl
    | some f =>
      simp only [Option.map_some, Bool.false_or]
      by_cases he : e = id
      · cases ho : gs.owns u <;> simp [he]
      · simp [he]
  have hm' : ∀ j e, memAt s' j e = (memAt s j e && !(decide (j = k) && e == id)) := by
    intro j e
    show (match s1.groups[j]? with | some g => g.mem e | none => false) = _
    cases hj : s.groups[j]? with
    | none =>
      have : s1.groups[j]? = none := by
        rw [List.getElem?_eq_none_iff, h4.len]; exact List.getElem?_eq_none_iff.1 hj
      simp [this, memAt, hj]
    | some g =>
      have hl := (List.getElem?_eq_some_iff.1 hj).1
      rw [← h4.len] at hl
      have hg1 := List.getElem?_eq_getElem hl
      rw [hg1, memAt, hj]
      have := (h4.grp j g _ hj hg1).2.2.2.1 e
      simp only [this, Bool.false_or]
      by_cases hjk : j = k <;> simp [hjk]
  refine ⟨w', s', ?_, ⟨?_, ?_, ?_, ?_, rfl⟩, ?_⟩
  · simp only [Act.run, M.bind_apply, M.crit_ok h1, M.pure_apply]
  · refine h.ofCore h3 ⟨h2.st, h2.glen, h2.grp, h2.excl⟩ ?_ ?_ rfl rfl rfl
    · intro u e hh
      rw [hhas] at hh
      simp only [Bool.and_eq_true] at hh
      exact h.live u e hh.1
    · intro j g' hg'
      obtain ⟨g0, hg0⟩ := h4.group hg'
      have := h4.grp j g0 g' hg0 hg'
      exact ⟨g0, hg0, this.1, this.2.1, this.2.2.1⟩
  · intro e he
    have : (e == id) = false := by simpa using he
    exact ⟨fun u => by rw [hhas, this]; simp, fun j => by rw [hm', this]; simp, rfl⟩
  · intro u; rw [hhas, ow]; simp
  · intro j; rw [hm']; simp
  · intro j g' hg'
    obtain ⟨g0, hg0⟩ := h4.group hg'
    have := h4.grp j g0 g' hg0 hg'
    refine ⟨g0, hg0, this.2.1, this.2.2.1, fun hf ho => ?_⟩
    have hk' := ho k gs hgs
    exact h4.clean j g0 g' hg0 hg' hf (by simp [hk'.1]) (by simp [hk'.2]) ho

theorem groupErase_run (h : Rel w s) (hm : Matches cfg w) {k id : Nat} {g : Shape} (hk : cfg.groups[k]? = some g)
    (hmem : memAt s k id = true)
    (ho : ∀ (j : Nat) gj, j ≠ k → cfg.groups[j]? = some gj → memAt s j id = true → g.owns gj.a = false ∧ g.owns gj.b = false) :
    ∃ w' s', (Act.groupErase k id : Act V).run w = (w', .ok .unit) ∧
      Becomes w' s s' id (fun u => s.has u id && !g.owns u) (fun j => memAt s j id && !decide (j = k)) := by
  obtain ⟨w', s', h1, h2, _⟩ := groupErase_run' h hm hk hmem ho
  exact ⟨w', s', h1, h2⟩

theorem has_run' (h : Rel w s) {id : Nat} (hl : s.live id = true) :
    (Act.has id : Act V).run w = (w, .ok (.bool true)) := by
  simp only [Act.run, M.bind_apply, exist_live h hl, M.pure_apply]

theorem emRemove_run (h : Rel w s) {id : Nat} (hl : s.live id = true) (hh : ∀ t, s.has t id = false) :
    ∃ w' s', (Act.emRemove id : Act V).run w = (w', .ok .unit) ∧ Rel w' s' ∧ (∀ e, e ≠ id → Alike s s' e) ∧
      s'.live id = false ∧ (∀ t, s'.has t id = false) ∧ (∀ k, memAt s' k id = memAt s k id) := by
  have hl' := live_iff.1 hl
  obtain ⟨em, h1, h2, h3, _, _⟩ := EntityManager.remove_live h.em hl'.1 (by rw [h.next]; exact hl'.2.1) hl'.2.2
  refine ⟨{ w with em := em }, { s with free := id :: s.free }, ?_, ?_, ?_, ?_, hh, fun _ => rfl⟩
  · have : (fun w : World V => (do let em ← w.em.remove id; .ok ({ w with em := em }, ()) : R (World V × Unit))) w
        = .ok ({ w with em := em }, ()) := by simp [h1]
    simp only [Act.run, M.bind_apply]
    rw [M.crit_ok this]
    rfl
  · refine ⟨⟨h.core.st, h.core.glen, h.core.grp, h.core.excl⟩, h2, by rw [h3]; exact h.next, h.res, ?_, h.dist⟩
    intro t e hx
    have hx' : s.has t e = true := hx
    have := live_iff.1 (h.live t e hx')
    rw [live_iff]
    refine ⟨this.1, this.2.1, ?_⟩
    simp only [List.mem_cons, not_or]
    refine ⟨fun he => ?_, this.2.2⟩
    subst he; rw [hh] at hx'; cases hx'
  · intro e he
    refine ⟨fun _ => rfl, fun _ => rfl, ?_⟩
    rw [Bool.eq_iff_iff, live_iff, live_iff]
    simp [he]
  · cases hx : State.live ({ s with free := id :: s.free } : State V) id with
    | false => rfl
    | true => rw [live_iff] at hx; simp at hx

theorem allocate_run' (h : Rel w s) :
    ∃ w' s' id, (Act.allocate : Act V).run w = (w', .ok (.id id)) ∧ Rel w' s' ∧ (∀ e, e ≠ id → Alike s s' e) ∧
      s.live id = false ∧ s'.live id = true ∧ (∀ t, s'.has t id = false) ∧ (∀ k, memAt s' k id = false) ∧
      FreshKept s s' := by
  cases hf : s.free with
  | nil =>
    have hinv := h.em; rw [hf] at hinv
    obtain ⟨em, h1, h2, h3, h4⟩ := EntityManager.allocate_nil hinv
    have hnx : w.em.flags.length = s.next := h.next
    have hpos := hinv.pos
    have hr : Rel { w with em := em } { s with next := s.next + 1, free := [] } :=
      h.setEm h2 (by omega) (fun id hl => by
        obtain ⟨a, b, c⟩ := live_iff.1 hl; exact ⟨a, by omega, by simp⟩)
    have hd : s.live s.next = false := by
      cases hx : s.live s.next with
      | false => rfl
      | true => have := live_iff.1 hx; omega
    have hdf := dead_facts h hd
    refine ⟨_, _, s.next, ?_, hr, ?_, hd, ?_, hdf.1, hdf.2, .of_eq rfl⟩
    · have : (fun w : World V => (do let (em, id) ← w.em.allocate; .ok ({ w with em := em }, id) : R (World V × Nat))) w
        = .ok ({ w with em := em }, s.next) := by simp [h1, hnx]
      simp only [Act.run, M.bind_apply]
      rw [M.crit_ok this]; rfl
    · intro e he
      refine ⟨fun _ => rfl, fun _ => rfl, ?_⟩
      rw [Bool.eq_iff_iff, live_iff, live_iff, hf]
      simp; omega
    · rw [live_iff]; simp; omega
  | cons f fs =>
    have hinv := h.em; rw [hf] at hinv
    obtain ⟨em, h1, h2, h3, h4⟩ := EntityManager.allocate_cons hinv
    have hnx : w.em.flags.length = s.next := h.next
    have hr : Rel { w with em := em } { s with next := s.next, free := fs } :=
      h.setEm h2 (by omega) (fun id hl => by
        obtain ⟨a, b, c⟩ := live_iff.1 hl
        rw [hf] at c
        exact ⟨a, by omega, fun h' => c (List.mem_cons_of_mem _ h')⟩)
    have hd : s.live f = false := by
      cases hx : s.live f with
      | false => rfl
      | true => have := live_iff.1 hx; rw [hf] at this; simp at this
    have hdf := dead_facts h hd
    refine ⟨_, _, f, ?_, hr, ?_, hd, ?_, hdf.1, hdf.2, .of_eq rfl⟩
    · have : (fun w : World V => (do let (em, id) ← w.em.allocate; .ok ({ w with em := em }, id) : R (World V × Nat))) w
        = .ok ({ w with em := em }, f) := by simp [h1]
      simp only [Act.run, M.bind_apply]
      rw [M.crit_ok this]; rfl
    · intro e he
      refine ⟨fun _ => rfl, fun _ => rfl, ?_⟩
      rw [Bool.eq_iff_iff, live_iff, live_iff, hf]
      simp [he]
    · rw [live_iff]
      have hnd := List.nodup_cons.1 hinv.nodup
      have := hinv.range f (by simp)
      exact ⟨this.1, by simp; omega, hnd.1⟩

theorem allocateN_run' (h : Rel w s) (n : Nat) :
    ∃ w' s' a, (Act.allocateN n : Act V).run w = (w', .ok (.range a (a + n))) ∧ Rel w' s' ∧
      (∀ e, (∀ t, s'.has t e = s.has t e) ∧ (∀ k, memAt s' k e = memAt s k e) ∧
        (s.live e = true → s'.live e = true)) ∧ FreshKept s s' := by
  obtain ⟨w', h1, h2⟩ := createEntities_ref h n
  refine ⟨w', _, s.next, ?_, h2, fun e => ⟨fun _ => rfl, fun _ => rfl, ?_⟩, .of_eq rfl⟩
  · simp only [Act.run, M.bind_apply, h1, M.pure_apply]
  · intro hl
    rw [live_iff] at hl ⊢
    exact ⟨hl.1, by simp; omega, hl.2.2⟩

/-- Work that changes at most values. -/
def Act.mild : Act V → Bool
  | .has _ => true
  | .storeHas _ _ => true
  | .storeRead _ _ => true
  | .storeWrite _ _ _ => true
  | .storeCount _ => true
  | .groupHas _ _ => true
  | .resRead _ => true
  | .resWrite _ _ => true
  | .collect _ => true
  | _ => false

theorem read_world {α β : Type} {f : World V → R α} {g : α → β} {w w' : World V} {r : R β}
    (h : ((M.read f : M V α) >>= fun a => pure (g a)) w = (w', r)) : w' = w := by
  simp only [M.bind_apply, M.read_apply] at h
  cases hf : f w with
  | ok a => rw [hf] at h; simp only [M.pure_apply, Prod.mk.injEq] at h; exact h.1.symm
  | error e => rw [hf] at h; simp only [Prod.mk.injEq] at h; exact h.1.symm

theorem mild_run (h : Rel w s) {a : Act V} (ha : a.mild = true) {w' : World V} {r : Xecs.R (Ret V)} (hr : a.run w = (w', r)) :
    ∃ s', Rel w' s' ∧ (∀ e, Alike s s' e) ∧ FreshKept s s' := by
  have keep : w' = w → ∃ s', Rel w' s' ∧ (∀ e, Alike s s' e) ∧ FreshKept s s' := by
    intro hw; subst hw; exact ⟨s, h, fun e => .refl s e, .of_eq rfl⟩
  cases a with
  | has id => exact keep (read_world hr)
  | storeHas t id => exact keep (read_world hr)
  | storeRead t id =>
    simp only [Act.run, M.bind_apply, componentRead_eq h, M.pure_apply, Prod.mk.injEq] at hr
    exact keep hr.1.symm
  | storeCount t =>
    simp only [Act.run, M.bind_apply, storageCount_eq h, M.pure_apply, Prod.mk.injEq] at hr
    exact keep hr.1.symm
  | groupHas k id => exact keep (read_world hr)
  | resRead t =>
    simp only [Act.run, M.bind_apply, resourceRead_eq h, M.pure_apply, Prod.mk.injEq] at hr
    exact keep hr.1.symm
  | collect q => exact keep (read_world hr)
  | resWrite t v =>
    cases hv : s.res t with
    | none =>
      simp only [Act.run, M.bind_apply, resourceWrite_absent h v hv, M.pure_apply, Prod.mk.injEq] at hr
      exact keep hr.1.symm
    | some v0 =>
      obtain ⟨w1, h1, h2⟩ := resourceWrite_ok h v hv
      simp only [Act.run, M.bind_apply, h1, M.pure_apply, Prod.mk.injEq] at hr
      rw [← hr.1]
      exact ⟨_, h2, fun e => ⟨fun _ => rfl, fun _ => rfl, rfl⟩, .of_eq rfl⟩
  | storeWrite t id v =>
    cases hh : s.has t id with
    | false =>
      simp only [Act.run, M.bind_apply, componentWrite_absent h v hh, M.pure_apply, Prod.mk.injEq] at hr
      exact keep hr.1.symm
    | true =>
      obtain ⟨f, v0, hf, hv⟩ := has_some hh
      obtain ⟨w1, h1, h2⟩ := componentWrite_ok h v hf (by rw [hv]; rfl)
      simp only [Act.run, M.bind_apply, h1, M.pure_apply, Prod.mk.injEq] at hr
      rw [← hr.1]
      refine ⟨_, h2, fun e => ⟨fun u => ?_, fun _ => rfl, rfl⟩, .of_eq rfl⟩
      simp only [State.has, State.get, State.setComp]
      by_cases hu : u = t
      · subst hu
        by_cases he : e = id
        · subst he; simp [hf, hv]
        · simp [he, hf]
      · simp [hu]
  | _ => simp [Act.mild] at ha

/-- Reading and writing components never faults. -/
theorem storeAccess_ok (h : Rel w s) {a : Act V} (ha : (∃ t id, a = .storeRead t id) ∨ ∃ t id v, a = .storeWrite t id v) :
    ∃ w' r, a.run w = (w', .ok r) := by
  rcases ha with ⟨t, id, rfl⟩ | ⟨t, id, v, rfl⟩
  · exact ⟨w, .val (s.get t id), by simp only [Act.run, M.bind_apply, componentRead_eq h, M.pure_apply]⟩
  · cases hh : s.has t id with
    | false => exact ⟨w, .bool false, by simp only [Act.run, M.bind_apply, componentWrite_absent h v hh, M.pure_apply]⟩
    | true =>
      obtain ⟨f, v0, hf, hv⟩ := has_some hh
      obtain ⟨w1, h1, h2⟩ := componentWrite_ok h v hf (by rw [hv]; rfl)
      exact ⟨w1, .bool true, by simp only [Act.run, M.bind_apply, h1, M.pure_apply]⟩

end Xecs
