import Verif.Proofs.Discipline
import Verif.Proofs.Trace
/-
What each piece of work does to everything a consistent world records; and that a world determines its abstract
state, apart from which non-owning groups may be used.
-/
set_option autoImplicit false
namespace Xecs
open Spec World
variable {V : Type}

/-- A group's flag `fresh` forgotten. -/
def Spec.SGroup.unfresh (g : SGroup) : SGroup := { g with fresh := false }

/-- The flags `fresh` forgotten. -/
def Spec.State.unfresh (s : State V) : State V := { s with groups := s.groups.map SGroup.unfresh }

/-- The group's shape. -/
def Spec.SGroup.shape (g : SGroup) : Shape := ⟨toKind g.kind, g.a, g.b⟩

theorem toKind_inj {k k' : SKind} (h : toKind k = toKind k') : k = k' := by
  cases k <;> cases k' <;> first | rfl | cases h

theorem unfresh_has (s : State V) (t e : Nat) : s.unfresh.has t e = s.has t e := rfl
theorem unfresh_get (s : State V) (t e : Nat) : s.unfresh.get t e = s.get t e := rfl
theorem unfresh_live (s : State V) (e : Nat) : s.unfresh.live e = s.live e := rfl
theorem unfresh_mem (s : State V) (k e : Nat) : memAt s.unfresh k e = memAt s k e := by
  simp only [memAt, State.unfresh, List.getElem?_map]
  cases s.groups[k]? <;> rfl

theorem unfresh_groups {s : State V} {k : Nat} {g : SGroup} (h : s.unfresh.groups[k]? = some g) :
    ∃ g0, s.groups[k]? = some g0 ∧ g = g0.unfresh := by
  simp only [State.unfresh, List.getElem?_map, Option.map_eq_some_iff] at h
  obtain ⟨g0, h1, h2⟩ := h
  exact ⟨g0, h1, h2.symm⟩

/-- A consistent world stays consistent when the flags are forgotten. -/
theorem Rel.unfresh {w : World V} {s : State V} (h : Rel w s) : Rel w s.unfresh := by
  refine ⟨⟨h.core.st, by rw [h.core.glen]; simp [State.unfresh], ?_, ?_⟩, h.em, h.next, h.res, h.live, ?_⟩
  · intro k g gs hg hgs
    obtain ⟨g0, h1, rfl⟩ := unfresh_groups hgs
    obtain ⟨a1, a2, a3, a4, A, B, b1, b2, b3, b4, b5⟩ := h.core.grp k g g0 hg h1
    exact ⟨a1, a2, a3, a4, A, B, b1, b2, b3, b4, fun hf => by cases hf⟩
  · intro i j gi gj hi hj hij t ho
    obtain ⟨g0, h1, rfl⟩ := unfresh_groups hi
    obtain ⟨g1, h2, rfl⟩ := unfresh_groups hj
    exact h.core.excl i j g0 g1 h1 h2 hij t ho
  · intro i j gi gj hi hj hij
    obtain ⟨g0, h1, rfl⟩ := unfresh_groups hi
    obtain ⟨g1, h2, rfl⟩ := unfresh_groups hj
    exact h.dist i j g0 g1 h1 h2 hij

theorem EntityManager.chain_unique {flags : List EntityFlag} :
    ∀ {p : Nat} {l l' : List Nat}, EntityManager.Chain flags p l → EntityManager.Chain flags p l' → l = l'
  | _, [], [], _, _ => rfl
  | _, [], _ :: _, h, h' => by
    simp only [EntityManager.Chain] at h h'
    rw [h] at h'; exact absurd h'.1 (by simp)
  | _, _ :: _, [], h, h' => by
    simp only [EntityManager.Chain] at h h'
    rw [h'] at h; exact absurd h.1 (by simp)
  | _, f :: fs, f' :: fs', h, h' => by
    simp only [EntityManager.Chain] at h h'
    have h1 := h.1
    rw [h'.1] at h1
    simp only [Option.some.injEq, EntityFlag.available.injEq] at h1
    subst h1
    rw [EntityManager.chain_unique h.2 h'.2]

/-- When are two abstract states equal up to the flags? -/
theorem unfresh_ext {s s' : State V} (h1 : s.next = s'.next) (h2 : s.free = s'.free)
    (h3 : ∀ t, (s.comp t).isSome = (s'.comp t).isSome) (h4 : ∀ t e, s.get t e = s'.get t e)
    (h5 : ∀ t, s.hw t = s'.hw t) (h6 : s.groups.map SGroup.shape = s'.groups.map SGroup.shape)
    (h7 : ∀ k e, memAt s k e = memAt s' k e) (h8 : ∀ t, s.res t = s'.res t) : s.unfresh = s'.unfresh := by
  have hc : s.comp = s'.comp := by
    funext t
    have a := h3 t
    cases hs : s.comp t with
    | none =>
      cases hs' : s'.comp t with
      | none => rfl
      | some f' => rw [hs, hs'] at a; cases a
    | some f =>
      cases hs' : s'.comp t with
      | none => rw [hs, hs'] at a; cases a
      | some f' =>
        congr 1; funext e
        have := h4 t e
        simpa only [State.get, hs, hs'] using this
  have hg : s.groups.map SGroup.unfresh = s'.groups.map SGroup.unfresh := by
    apply List.ext_getElem?
    intro k
    have h6k := congrArg (fun l => l[k]?) h6
    have h7k := h7 k
    simp only [List.getElem?_map] at h6k ⊢
    simp only [memAt] at h7k
    cases ha : s.groups[k]? with
    | none => cases hb : s'.groups[k]? with
      | none => rfl
      | some g' => rw [ha, hb] at h6k; cases h6k
    | some g => cases hb : s'.groups[k]? with
      | none => rw [ha, hb] at h6k; cases h6k
      | some g' =>
        rw [ha, hb] at h6k
        simp only [ha, hb] at h7k
        simp only [Option.map_some, SGroup.shape, Option.some.injEq, Shape.mk.injEq] at h6k
        simp only [Option.map_some, SGroup.unfresh, Option.some.injEq, SGroup.mk.injEq]
        exact ⟨toKind_inj h6k.1, h6k.2.1, h6k.2.2, funext h7k, trivial⟩
  obtain ⟨a, b, c, d, e, f⟩ := s
  obtain ⟨a', b', c', d', e', f'⟩ := s'
  have hh : d = d' := funext h5
  have hr : f = f' := funext h8
  simp only at h1 h2 hc
  simp only [State.unfresh] at hg ⊢
  subst h1 h2 hc hh hr
  rw [hg]

theorem shapes_eq {w : World V} {s : State V} (h : WRel w s) : w.groups.map Group.shape = s.groups.map SGroup.shape := by
  apply List.ext_getElem? 
  intro k
  simp only [List.getElem?_map]
  cases hs : s.groups[k]? with
  | none =>
    have : w.groups[k]? = none := by
      rw [List.getElem?_eq_none_iff] at hs ⊢
      rw [h.glen]; exact hs
    rw [this]; rfl
  | some gs =>
    obtain ⟨g, hg⟩ := group_at h hs
    have := h.grp k g gs hg hs
    simp [hg, Group.shape, SGroup.shape, this.kind, this.tyA, this.tyB]

/-- The components are determined by the world. -/
theorem comp_unique {w : World V} {s s' : State V} (h : WRel w s) (h' : WRel w s') : s.comp = s'.comp ∧ s.hw = s'.hw := by
  have key : ∀ t, s.comp t = s'.comp t ∧ s.hw t = s'.hw t := by
    intro t
    have a := h.st t
    have b := h'.st t
    cases hw : w.comps t with
    | none =>
      cases hs : s.comp t <;> cases hs' : s'.comp t <;> simp only [StRel, hw, hs, hs'] at a b
      exact ⟨rfl, by rw [a, b]⟩
    | some st =>
      cases hs : s.comp t <;> cases hs' : s'.comp t <;> simp only [StRel, hw, hs, hs'] at a b
      refine ⟨?_, by rw [← a.2.2.2, ← b.2.2.2]⟩
      congr 1; funext e
      rw [← a.2.2.1, ← b.2.2.1]
  exact ⟨funext fun t => (key t).1, funext fun t => (key t).2⟩

theorem res_unique {w w' : World V} {s s' : State V} (h : ∀ t, w.res t = (s.res t).map (ResBox.mk t))
    (h' : ∀ t, w'.res t = (s'.res t).map (ResBox.mk t)) (hw : w.res = w'.res) : s.res = s'.res := by
  funext t
  have a := h t
  rw [hw, h' t] at a
  cases hx : s.res t <;> cases hy : s'.res t <;> simp [hx, hy] at a ⊢
  exact a.symm

/-- A consistent world determines its abstract state, up to the flags. -/
theorem Rel.unique {w : World V} {s s' : State V} (h : Rel w s) (h' : Rel w s') : s.unfresh = s'.unfresh := by
  obtain ⟨hc, hh⟩ := comp_unique h.core h'.core
  refine unfresh_ext ?_ ?_ (fun t => by rw [hc]) (fun t e => by simp only [State.get, hc]) (fun t => by rw [hh]) ?_ ?_
    fun t => by rw [res_unique h.res h'.res rfl]
  · rw [← h.next, ← h'.next]
  · exact EntityManager.chain_unique h.em.chain h'.em.chain
  · rw [← shapes_eq h.core, ← shapes_eq h'.core]
  · intro k e
    have e1 := shapes_eq h.core
    rw [shapes_eq h'.core] at e1
    have hlen : s'.groups.length = s.groups.length := by simpa using congrArg List.length e1
    cases hs : s.groups[k]? with
    | none =>
      have : s'.groups[k]? = none := by
        rw [List.getElem?_eq_none_iff] at hs ⊢; omega
      simp [memAt, hs, this]
    | some gs =>
      have hl := (List.getElem?_eq_some_iff.1 hs).1
      have hs' := List.getElem?_eq_getElem (hlen ▸ hl : k < s'.groups.length)
      obtain ⟨g, hg⟩ := group_at h.core hs
      obtain ⟨A, B, a1, a2, _, a4, _⟩ := (h.core.grp k g gs hg hs).ex
      obtain ⟨A', B', b1, b2, _, b4, _⟩ := (h'.core.grp k g _ hg hs').ex
      have hsh : gs.shape = (s'.groups[k]'(hlen ▸ hl)).shape := by
        have := congrArg (fun l => l[k]?) e1
        simp only [List.getElem?_map, hs, hs', Option.map_some, Option.some.injEq] at this
        exact this.symm
      simp only [SGroup.shape, Shape.mk.injEq] at hsh
      rw [← hsh.2.1, a1] at b1; cases b1
      simp only [memAt, hs, hs']
      rw [Bool.eq_iff_iff, a4, b4]

/-- Fields shared by states equal up to the flags. -/
theorem unfresh_fields {s s' : State V} (h : s.unfresh = s'.unfresh) :
    s.next = s'.next ∧ s.free = s'.free ∧ s.comp = s'.comp ∧ s.hw = s'.hw ∧ s.res = s'.res ∧
    s.groups.map SGroup.unfresh = s'.groups.map SGroup.unfresh := by
  obtain ⟨a, b, c, d, e, f⟩ := s
  obtain ⟨a', b', c', d', e', f'⟩ := s'
  simp only [State.unfresh, State.mk.injEq] at h
  exact ⟨h.1, h.2.1, h.2.2.1, h.2.2.2.1, h.2.2.2.2.2, h.2.2.2.2.1⟩

/-- The same ids, the same types, the same resources. -/
structure Base (s s' : State V) : Prop where
  next : s'.next = s.next
  free : s'.free = s.free
  res : s'.res = s.res
  dom : ∀ t, (s'.comp t).isSome = (s.comp t).isSome
  hw : s'.hw = s.hw

theorem Base.refl (s : State V) : Base s s := ⟨rfl, rfl, rfl, fun _ => rfl, rfl⟩

theorem Base.symm {s s' : State V} (h : Base s s') : Base s' s :=
  ⟨h.next.symm, h.free.symm, h.res.symm, fun t => (h.dom t).symm, h.hw.symm⟩

theorem Base.trans {s s' s'' : State V} (h : Base s s') (h' : Base s' s'') : Base s s'' :=
  ⟨h'.next.trans h.next, h'.free.trans h.free, h'.res.trans h.res, fun t => (h'.dom t).trans (h.dom t), h'.hw.trans h.hw⟩

theorem Base.live {s s' : State V} (h : Base s s') (e : Nat) : s'.live e = s.live e := live_of h.free h.next e

/-- Non-owning groups whose types no group owns stay up to date, unless an entity has lost a component of theirs. -/
def Kept (s s' : State V) : Prop :=
  ∀ (k : Nat) g, s.groups[k]? = some g → g.fresh = true →
    (∀ (j : Nat) gj, s.groups[j]? = some gj → gj.owns g.a = false ∧ gj.owns g.b = false) →
    (∃ g', s'.groups[k]? = some g' ∧ g'.fresh = true) ∨
    ∃ t e, g.touches t = true ∧ s.has t e = true ∧ s'.has t e = false

theorem Kept.refl (s : State V) : Kept s s := fun _ g hg hf _ => .inl ⟨g, hg, hf⟩

theorem FreshKept.kept {s s' : State V} (h : FreshKept s s') (hl : s'.groups.length = s.groups.length) : Kept s s' := by
  intro k g hg hf ho
  have hlt := (List.getElem?_eq_some_iff.1 hg).1
  rw [← hl] at hlt
  have hg' := List.getElem?_eq_getElem hlt
  obtain ⟨g0, h1, _, _, h2⟩ := h k _ hg'
  rw [hg] at h1; cases h1
  exact .inl ⟨_, hg', h2 hf ho⟩

/-- Components may have been erased and group memberships changed, nothing else. -/
structure Hidden (s s' : State V) : Prop where
  base : Base s s'
  get : ∀ t e, s'.has t e = true → s'.get t e = s.get t e
  kept : Kept s s'

theorem hidden_of {w w' : World V} {s s' s1 : State V} (h : Rel w s) (h' : Rel w' s') (hk : Keeps w w')
    (hw : WRel w' s1) (hdom : ∀ t, (s1.comp t).isSome = (s.comp t).isSome) (hhw : s1.hw = s.hw)
    (hget : ∀ t e, s1.has t e = true → s1.get t e = s.get t e) (hkept : Kept s s') : Hidden s s' := by
  obtain ⟨hc, hh⟩ := comp_unique h'.core hw
  refine ⟨⟨?_, ?_, ?_, fun t => by rw [hc, hdom], by rw [hh, hhw]⟩, ?_, hkept⟩
  · rw [← h.next, ← h'.next, hk.em]
  · refine EntityManager.chain_unique h'.em.chain ?_
    rw [hk.em]; exact h.em.chain
  · exact res_unique h'.res h.res hk.res
  · intro t e
    have : s'.get t e = s1.get t e := by simp only [State.get, hc]
    simp only [State.has, this]
    exact hget t e

section
variable {cfg : Config} {w : World V} {s : State V}

theorem groupAdd_eff (h : Rel w s) (hm : Matches cfg w) {k id : Nat} {g : Shape} (hk : cfg.groups[k]? = some g) :
    ∃ w' s', (Act.groupAdd k id : Act V).run w = (w', .ok .unit) ∧
      Becomes w' s s' id (fun u => s.has u id)
        (fun j => memAt s j id || (decide (j = k) && s.has g.a id && s.has g.b id)) ∧ Hidden s s' := by
  obtain ⟨w', s', h1, h2, h0⟩ := groupAdd_run (id := id) h hm hk
  obtain ⟨gs, hgs, rfl⟩ := sgroup_at h.core hm.groups hk
  obtain ⟨w1, a1, a2, a3⟩ := groupAdd_ref h.core id hgs
  have hw : w1 = w' := by
    simp only [Act.run, M.bind_apply, M.crit_ok a1, M.pure_apply] at h1
    cases h1; rfl
  subst hw
  refine ⟨w1, s', h1, h2, hidden_of h h2.rel a3 a2 (fun t => by rw [join_comp]) (join_hw s id k) (fun t e _ => ?_)
    (h0.kept (by rw [← h2.rel.core.glen, a3.glen, h.core.glen]))⟩
  simp only [State.get, join_comp]

theorem groupRemove_eff (h : Rel w s) (hm : Matches cfg w) {k id : Nat} {g : Shape} (hk : cfg.groups[k]? = some g) :
    ∃ w' s', (Act.groupRemove k id : Act V).run w = (w', .ok .unit) ∧
      Becomes w' s s' id (fun u => s.has u id) (fun j => memAt s j id && !decide (j = k)) ∧ Hidden s s' := by
  obtain ⟨w', s', h1, h2, h0⟩ := groupRemove_run' (id := id) h hm hk
  obtain ⟨gs, hgs, rfl⟩ := sgroup_at h.core hm.groups hk
  obtain ⟨w1, a1, a2, a3, _⟩ := groupRemove_ref h.core id hgs
  have hw : w1 = w' := by
    simp only [Act.run, M.bind_apply, M.crit_ok a1, M.pure_apply] at h1
    cases h1; rfl
  subst hw
  refine ⟨w1, s', h1, h2, hidden_of h h2.rel a3 a2 (fun t => by rw [leave_comp]) (leave_hw s id k) (fun t e _ => ?_)
    (h0.kept (by rw [← h2.rel.core.glen, a3.glen, h.core.glen]))⟩
  simp only [State.get, leave_comp]

theorem erase_dom {t id : Nat} {f : Nat → Option V} (hf : s.comp t = some f) (u : Nat) :
    ((s.erase id t f).comp u).isSome = (s.comp u).isSome := by
  simp only [State.erase, State.setComp]
  split
  · rename_i hu; subst hu; rw [hf]; rfl
  · rfl

theorem erase_get {t id : Nat} {f : Nat → Option V} (hf : s.comp t = some f) (u e : Nat)
    (hh : (s.erase id t f).has u e = true) : (s.erase id t f).get u e = s.get u e := by
  simp only [State.has, State.get, State.erase, State.setComp] at hh ⊢
  by_cases hu : u = t
  · subst hu
    by_cases he : e = id
    · simp [he] at hh
    · simp [he, hf]
  · simp [hu]

theorem erase_kept {t id : Nat} {f : Nat → Option V} (hh : s.has t id = true) : Kept s (s.erase id t f) := by
  intro k g hg hf _
  by_cases ht : g.touches t = true
  · refine .inr ⟨t, id, ht, hh, ?_⟩
    simp [State.has, State.get, State.erase, State.setComp]
  · refine .inl ⟨{ g with fresh := g.fresh && !g.touches t }, ?_, by simp [hf, ht]⟩
    simp only [State.erase, State.setComp, List.getElem?_map, hg, Option.map_some]

theorem storeErase_eff (h : Rel w s) (hm : Matches cfg w) {t id : Nat} (hh : s.has t id = true)
    (hn : ∀ (k : Nat) g, cfg.groups[k]? = some g → g.touches t = true → memAt s k id = false) :
    ∃ w' s', (Act.storeErase t id : Act V).run w = (w', .ok .unit) ∧
      Becomes w' s s' id (fun u => s.has u id && !(u == t)) (fun k => memAt s k id) ∧ Hidden s s' := by
  obtain ⟨f, v, hf, hv⟩ := has_some hh
  obtain ⟨st, S, a1, a2, a3, a4, a5⟩ := erase_ref h.core hf hv (clear_of h hm hn)
  have hb := erase_becomes h hf a5
  refine ⟨_, _, ?_, hb, hidden_of h hb.rel ⟨rfl, rfl, rfl⟩ a5 (erase_dom hf) rfl (erase_get hf) (erase_kept hh)⟩
  have hds : World.storeErase t id w = .ok (w.setSet t S, ()) := by simp [World.storeErase, a1, a4]
  simp only [Act.run, M.bind_apply, M.crit_ok hds, M.pure_apply]

theorem detachStore_eff (h : Rel w s) (hm : Matches cfg w) {t id : Nat} (hh : s.has t id = true)
    (hn : ∀ (k : Nat) g, cfg.groups[k]? = some g → g.touches t = true → memAt s k id = false) :
    ∃ w' s' v, (Act.detachStore t id : Act V).run w = (w', .ok (.val (some v))) ∧ s.get t id = some v ∧
      Becomes w' s s' id (fun u => s.has u id && !(u == t)) (fun k => memAt s k id) ∧ Hidden s s' := by
  obtain ⟨f, v, hf, hv⟩ := has_some hh
  obtain ⟨st, S, a1, a2, a3, a4, a5⟩ := erase_ref h.core hf hv (clear_of h hm hn)
  have hb := erase_becomes h hf a5
  refine ⟨_, _, v, ?_, by simp [State.get, hf, hv], hb, hidden_of h hb.rel ⟨rfl, rfl, rfl⟩ a5 (erase_dom hf) rfl (erase_get hf)
    (erase_kept hh)⟩
  have hds : World.detachStore t id w = .ok (w.setSet t S, some v) := by
    simp [World.detachStore, a1, downcast, a2, a3]
  simp only [Act.run, M.bind_apply, M.crit_ok hds, M.pure_apply]

theorem groupErase_eff (h : Rel w s) (hm : Matches cfg w) {k id : Nat} {g : Shape} (hk : cfg.groups[k]? = some g)
    (hmem : memAt s k id = true)
    (ho : ∀ (j : Nat) gj, j ≠ k → cfg.groups[j]? = some gj → memAt s j id = true → g.owns gj.a = false ∧ g.owns gj.b = false) :
    ∃ w' s', (Act.groupErase k id : Act V).run w = (w', .ok .unit) ∧
      Becomes w' s s' id (fun u => s.has u id && !g.owns u) (fun j => memAt s j id && !decide (j = k)) ∧ Hidden s s' := by
  obtain ⟨w', s', h1, h2, h0⟩ := groupErase_run' h hm hk hmem ho
  obtain ⟨gs, hgs, rfl⟩ := sgroup_at h.core hm.groups hk
  have ow : ∀ t, Shape.owns ⟨toKind gs.kind, gs.a, gs.b⟩ t = gs.owns t := owns_shape rfl
  obtain ⟨w1, s1, a1, a2, a3, a4⟩ := groupErase_ref h.core (RemMid.refl s id) hgs (by simpa [memAt, hgs] using hmem)
    (by
      intro j gj hj hgj hmj
      have := ho j _ hj (shape_at h.core hm.groups hgj) (by simpa [memAt, hgj] using hmj)
      simpa only [ow] using this)
  have hw : w1 = w' := by
    simp only [Act.run, M.bind_apply, M.crit_ok a1, M.pure_apply] at h1
    cases h1; rfl
  subst hw
  refine ⟨w1, s', h1, h2, hidden_of h h2.rel a3 a2 (fun t => by rw [a4.comp]; cases s.comp t <;> rfl) a4.hw (fun t e hh => ?_)
    (h0.kept (by rw [← h2.rel.core.glen, a3.glen, h.core.glen]))⟩
  simp only [State.has, State.get, a4.comp] at hh ⊢
  cases hc : s.comp t with
  | none => rfl
  | some f =>
    rw [hc] at hh
    simp only [Option.map_some] at hh ⊢
    split at hh
    · cases hh
    · rename_i hne; rw [if_neg hne]

/-- Attaching: the state after the storage was updated. -/
theorem attachStore_eff (h : Rel w s) (hm : Matches cfg w) {t id : Nat} (v : V) (ht : cfg.registered t = true)
    (hl : s.live id = true) : ∃ w' f, s.comp t = some f ∧ (Act.attachStore t id v).run w = (w', .ok .unit) ∧
      Becomes w' s (s.put id t f v) id (fun u => s.has u id || u == t) (fun k => memAt s k id) := by
  obtain ⟨f, hf⟩ := registered_comp h.core hm ht
  obtain ⟨w', h1, h2, h3, h4⟩ := attachStore_ref h.core id t v hf
  refine ⟨w', f, hf, ?_, ?_, ?_, ?_, fun _ => rfl, rfl⟩
  · simp only [Act.run, M.bind_apply, M.crit_ok h1, M.pure_apply]
  · refine h.ofCore h3 h2 ?_ (fun k g hg => ⟨g, hg, rfl, rfl, rfl⟩) rfl rfl rfl
    intro u e hh
    rw [put_has hf] at hh
    simp only [Bool.or_eq_true, Bool.and_eq_true, beq_iff_eq] at hh
    rcases hh with hh | ⟨_, rfl⟩
    · exact h.live u e hh
    · exact hl
  · intro e he
    refine ⟨fun u => ?_, fun _ => rfl, rfl⟩
    rw [put_has hf]
    have : (e == id) = false := by simpa using he
    simp [this]
  · intro u
    rw [put_has hf]
    simp

/-- Allocating an id: as `create_entity` in the specification. -/
theorem allocate_eff (h : Rel w s) : ∃ w' s' id, (Act.allocate : Act V).run w = (w', .ok (.id id)) ∧ Rel w' s' ∧
    s.step .createEntity = .ok s' (.id id) := by
  cases hf : s.free with
  | nil =>
    have hinv := h.em; rw [hf] at hinv
    obtain ⟨em, h1, h2, h3, h4⟩ := EntityManager.allocate_nil hinv
    have hnx : w.em.flags.length = s.next := h.next
    have hr : Rel { w with em := em } { s with next := s.next + 1, free := [] } :=
      h.setEm h2 (by omega) (fun id hl => by
        obtain ⟨a, b, c⟩ := live_iff.1 hl; exact ⟨a, by omega, by simp⟩)
    refine ⟨_, _, s.next, ?_, hr, by simp [State.step, hf]⟩
    have : World.allocate w = .ok ({ w with em := em }, s.next) := by simp [World.allocate, h1, hnx]
    simp only [Act.run, M.bind_apply]
    rw [M.crit_ok this]; rfl
  | cons f fs =>
    have hinv := h.em; rw [hf] at hinv
    obtain ⟨em, h1, h2, h3, h4⟩ := EntityManager.allocate_cons hinv
    have hnx : w.em.flags.length = s.next := h.next
    have hr : Rel { w with em := em } { s with next := s.next, free := fs } :=
      h.setEm h2 (by omega) (fun id hl => by
        obtain ⟨a, b, c⟩ := live_iff.1 hl
        rw [hf] at c
        exact ⟨a, by omega, fun h' => c (List.mem_cons_of_mem _ h')⟩)
    refine ⟨_, _, f, ?_, hr, by simp [State.step, hf]⟩
    have : World.allocate w = .ok ({ w with em := em }, f) := by simp [World.allocate, h1]
    simp only [Act.run, M.bind_apply]
    rw [M.crit_ok this]; rfl

theorem allocateN_eff (h : Rel w s) (n : Nat) : ∃ w', (Act.allocateN n : Act V).run w = (w', .ok (.range s.next (s.next + n))) ∧
    Rel w' { s with next := s.next + n } := by
  obtain ⟨w', h1, h2⟩ := createEntities_ref h n
  exact ⟨w', by simp only [Act.run, M.bind_apply, h1, M.pure_apply], h2⟩

theorem emRemove_eff (h : Rel w s) {id : Nat} (hl : s.live id = true) (hh : ∀ t, s.has t id = false) :
    ∃ w', (Act.emRemove id : Act V).run w = (w', .ok .unit) ∧ Rel w' { s with free := id :: s.free } := by
  have hl' := live_iff.1 hl
  obtain ⟨em, h1, h2, h3, _, _⟩ := EntityManager.remove_live h.em hl'.1 (by rw [h.next]; exact hl'.2.1) hl'.2.2
  refine ⟨{ w with em := em }, ?_, ?_⟩
  · have : World.release id w = .ok ({ w with em := em }, ()) := by simp [World.release, h1]
    simp only [Act.run, M.bind_apply]
    rw [M.crit_ok this]
    rfl
  · refine ⟨⟨h.core.st, h.core.glen, h.core.grp, h.core.excl⟩, h2, by rw [h3]; exact h.next, h.res, ?_, h.dist⟩
    intro t e hx
    have hx' : s.has t e = true := hx
    have := live_iff.1 (h.live t e hx')
    rw [live_iff]
    refine ⟨this.1, this.2.1, ?_⟩
    simp only [List.mem_cons, not_or]
    refine ⟨fun he => ?_, this.2.2⟩
    subst he; rw [hh] at hx'; cases hx'

/-- Work that changes at most values: it leaves the world as it was, or writes a component, or writes a resource. -/
theorem mild_eff (h : Rel w s) {a : Act V} (ha : a.mild = true) {w' : World V} {r : Xecs.R (Ret V)} (hr : a.run w = (w', r)) :
    (w' = w ∧ (∀ t id v, a = .storeWrite t id v → r = .ok (.bool false)) ∧ (∀ t v, a = .resWrite t v → r = .ok (.bool false))) ∨
    (∃ t id v f, a = .storeWrite t id v ∧ r = .ok (.bool true) ∧ s.comp t = some f ∧ (f id).isSome = true ∧
      Rel w' (s.setComp t fun x => if x = id then some v else f x)) ∨
    (∃ t v, a = .resWrite t v ∧ r = .ok (.bool true) ∧ (s.res t).isSome = true ∧
      Rel w' { s with res := fun u => if u = t then some v else s.res u }) := by
  have keep : w' = w → (∀ t id v, a ≠ .storeWrite t id v) → (∀ t v, a ≠ .resWrite t v) →
      (w' = w ∧ (∀ t id v, a = .storeWrite t id v → r = .ok (.bool false)) ∧ (∀ t v, a = .resWrite t v → r = .ok (.bool false))) :=
    fun hw h1 h2 => ⟨hw, fun t id v e => absurd e (h1 t id v), fun t v e => absurd e (h2 t v)⟩
  cases a with
  | has id => exact Or.inl <| keep (read_world hr) (by simp) (by simp)
  | storeHas t id => exact Or.inl <| keep (read_world hr) (by simp) (by simp)
  | storeRead t id =>
    simp only [Act.run, M.bind_apply, componentRead_eq h, M.pure_apply, Prod.mk.injEq] at hr
    exact Or.inl <| keep hr.1.symm (by simp) (by simp)
  | storeCount t =>
    simp only [Act.run, M.bind_apply, storageCount_eq h, M.pure_apply, Prod.mk.injEq] at hr
    exact Or.inl <| keep hr.1.symm (by simp) (by simp)
  | groupHas k id => exact Or.inl <| keep (read_world hr) (by simp) (by simp)
  | resRead t =>
    simp only [Act.run, M.bind_apply, resourceRead_eq h, M.pure_apply, Prod.mk.injEq] at hr
    exact Or.inl <| keep hr.1.symm (by simp) (by simp)
  | collect q => exact Or.inl <| keep (read_world hr) (by simp) (by simp)
  | resWrite t v =>
    cases hv : s.res t with
    | none =>
      simp only [Act.run, M.bind_apply, resourceWrite_absent h v hv, M.pure_apply, Prod.mk.injEq] at hr
      exact .inl ⟨hr.1.symm, by simp, fun _ _ _ => hr.2.symm⟩
    | some v0 =>
      obtain ⟨w1, h1, h2⟩ := resourceWrite_ok h v hv
      simp only [Act.run, M.bind_apply, h1, M.pure_apply, Prod.mk.injEq] at hr
      refine .inr (.inr ⟨t, v, rfl, hr.2.symm, by rw [hv]; rfl, ?_⟩)
      rw [← hr.1]; exact h2
  | storeWrite t id v =>
    cases hh : s.has t id with
    | false =>
      simp only [Act.run, M.bind_apply, componentWrite_absent h v hh, M.pure_apply, Prod.mk.injEq] at hr
      exact .inl ⟨hr.1.symm, fun _ _ _ _ => hr.2.symm, by simp⟩
    | true =>
      obtain ⟨f, v0, hf, hv⟩ := has_some hh
      obtain ⟨w1, h1, h2⟩ := componentWrite_ok h v hf (by rw [hv]; rfl)
      simp only [Act.run, M.bind_apply, h1, M.pure_apply, Prod.mk.injEq] at hr
      refine .inr (.inl ⟨t, id, v, f, rfl, hr.2.symm, hf, by rw [hv]; rfl, ?_⟩)
      rw [← hr.1]; exact h2
  | _ => simp [Act.mild] at ha

end

end Xecs
