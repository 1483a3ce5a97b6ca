import Verif.Proofs.Guards
import Verif.Proofs.Loops
import Verif.Proofs.Robust
/-
A piece of work modifies nothing outside its footprint.
-/
set_option autoImplicit false
namespace Xecs
variable {V : Type}

theorem bindR_ok {α β : Type} {x : R α} {f : α → R β} {b : β} (h : (x >>= f) = .ok b) :
    ∃ a, x = .ok a ∧ f a = .ok b := by
  cases x with
  | error e => simp [bind, Except.bind] at h
  | ok a => exact ⟨a, rfl, h⟩

theorem ite_bindR_ok {α : Type} {c : Bool} {x y : R α} {b : α} (h : (if c then x else y) = .ok b) :
    (c = true ∧ x = .ok b) ∨ (c = false ∧ y = .ok b) := by
  cases c <;> simp_all

/-- `add` keeps kind and types, and leaves storages it has no write access to unchanged. -/
theorem Group.add_frame {g g' : Group} {id : Nat} {A B A' B' : SparseSet V}
    (h : g.add id A B = .ok (g', A', B')) :
    g'.shape = g.shape ∧ (g.shape.modeA = .ref → A' = A) ∧ (g.shape.modeB = .ref → B' = B) := by
  simp only [Group.add] at h
  split at h
  · simp at h; obtain ⟨rfl, rfl, rfl⟩ := h; exact ⟨rfl, fun _ => rfl, fun _ => rfl⟩
  · obtain ⟨b, _, h⟩ := bindR_ok h
    split at h
    · simp at h; obtain ⟨rfl, rfl, rfl⟩ := h; exact ⟨rfl, fun _ => rfl, fun _ => rfl⟩
    · cases g with
      | full l a b =>
        obtain ⟨_, _, h⟩ := bindR_ok h
        obtain ⟨_, _, h⟩ := bindR_ok h
        obtain ⟨_, _, h⟩ := bindR_ok h
        obtain ⟨_, _, h⟩ := bindR_ok h
        simp at h; obtain ⟨rfl, rfl, rfl⟩ := h
        exact ⟨rfl, by simp [Group.shape, Shape.modeA, Group.kind], by simp [Group.shape, Shape.modeB, Group.kind]⟩
      | part l a b =>
        obtain ⟨_, _, h⟩ := bindR_ok h
        obtain ⟨_, _, h⟩ := bindR_ok h
        simp at h; obtain ⟨rfl, rfl, rfl⟩ := h
        exact ⟨rfl, by simp [Group.shape, Shape.modeA, Group.kind], fun _ => rfl⟩
      | non s a b =>
        obtain ⟨_, _, h⟩ := bindR_ok h
        obtain ⟨_, _, h⟩ := bindR_ok h
        obtain ⟨_, _, h⟩ := bindR_ok h
        simp at h; obtain ⟨rfl, rfl, rfl⟩ := h
        exact ⟨rfl, fun _ => rfl, fun _ => rfl⟩

/-- `remove` likewise. -/
theorem Group.remove_frame {g g' : Group} {id : Nat} {A B A' B' : SparseSet V}
    (h : g.remove id A B = .ok (g', A', B')) :
    g'.shape = g.shape ∧ (g.shape.modeA = .ref → A' = A) ∧ (g.shape.modeB = .ref → B' = B) := by
  simp only [Group.remove] at h
  obtain ⟨b, _, h⟩ := bindR_ok h
  split at h
  · simp at h; obtain ⟨rfl, rfl, rfl⟩ := h; exact ⟨rfl, fun _ => rfl, fun _ => rfl⟩
  · cases g with
    | full l a b =>
      obtain ⟨_, _, h⟩ := bindR_ok h
      obtain ⟨_, _, h⟩ := bindR_ok h
      obtain ⟨_, _, h⟩ := bindR_ok h
      obtain ⟨_, _, h⟩ := bindR_ok h
      simp at h; obtain ⟨rfl, rfl, rfl⟩ := h
      exact ⟨rfl, by simp [Group.shape, Shape.modeA, Group.kind], by simp [Group.shape, Shape.modeB, Group.kind]⟩
    | part l a b =>
      obtain ⟨_, _, h⟩ := bindR_ok h
      obtain ⟨_, _, h⟩ := bindR_ok h
      simp at h; obtain ⟨rfl, rfl, rfl⟩ := h
      exact ⟨rfl, by simp [Group.shape, Shape.modeA, Group.kind], fun _ => rfl⟩
    | non s a b =>
      obtain ⟨⟨s', r⟩, _, h⟩ := bindR_ok h
      obtain ⟨_, _, h⟩ := bindR_ok h
      simp at h; obtain ⟨rfl, rfl, rfl⟩ := h
      exact ⟨rfl, fun _ => rfl, fun _ => rfl⟩

/-- What a piece of work leaves unchanged: everything outside `foot`, and kinds and types of groups. -/
structure Frame (w w' : World V) (foot : List Guard) : Prop where
  em : (.em, .mut) ∉ foot → w'.em = w.em
  store : ∀ t, (.store t, .mut) ∉ foot → w'.comps t = w.comps t
  group : ∀ k, (.group k, .mut) ∉ foot → w'.groups[k]? = w.groups[k]?
  res : ∀ t, (.res t, .mut) ∉ foot → w'.res t = w.res t
  shape : w'.groups.map Group.shape = w.groups.map Group.shape
  reg : ∀ t, (w'.comps t).isSome = (w.comps t).isSome
  resReg : ∀ t, (w'.res t).isSome = (w.res t).isSome

theorem Frame.refl (w : World V) (foot : List Guard) : Frame w w foot :=
  ⟨fun _ => rfl, fun _ _ => rfl, fun _ _ => rfl, fun _ _ => rfl, rfl, fun _ => rfl, fun _ => rfl⟩

theorem frame_setSet (w : World V) (t : Nat) (S : SparseSet V) {foot : List Guard} (h : (.store t, .mut) ∈ foot) :
    Frame w (w.setSet t S) foot := by
  refine ⟨fun _ => rfl, fun u hu => ?_, fun _ _ => rfl, fun _ _ => rfl, rfl, fun u => ?_, fun _ => rfl⟩
  · have : u ≠ t := by rintro rfl; exact hu h
    simp [World.setSet, this]
  · simp only [World.setSet]
    by_cases hu : u = t
    · subst hu; simp
    · simp [hu]

theorem frame_setEm (w : World V) (em : EntityManager) {foot : List Guard} (h : (.em, .mut) ∈ foot) :
    Frame w { w with em := em } foot :=
  ⟨fun hn => absurd h hn, fun _ _ => rfl, fun _ _ => rfl, fun _ _ => rfl, rfl, fun _ => rfl, fun _ => rfl⟩

theorem lockPair_parts {w : World V} {g : Group} {A B : SparseSet V} (h : w.lockPair g = .ok (A, B)) :
    ∃ sa sb, w.comps g.tyA = some sa ∧ w.comps g.tyB = some sb ∧ sa.set = A ∧ sb.set = B ∧
      ¬ (g.tyA = g.tyB ∧ g.kind ≠ .non) := by
  simp only [World.lockPair] at h
  obtain ⟨sa, ha, h⟩ := bindR_ok h
  split at h
  · simp at h
  · next hne =>
    obtain ⟨sb, hb, h⟩ := bindR_ok h
    simp at h
    cases hca : w.comps g.tyA with
    | none => simp [hca, unwrapR] at ha
    | some x =>
      cases hcb : w.comps g.tyB with
      | none => simp [hcb, unwrapR] at hb
      | some y =>
        simp [hca, unwrapR] at ha; simp [hcb, unwrapR] at hb
        subst ha hb
        exact ⟨_, _, rfl, rfl, h.1, h.2, hne⟩

theorem frame_putPair {w : World V} {k : Nat} {g g' : Group} {A B A' B' : SparseSet V}
    (hk : w.groups[k]? = some g) (hl : w.lockPair g = .ok (A, B)) (hs : g'.shape = g.shape)
    (ha : g.shape.modeA = .ref → A' = A) (hb : g.shape.modeB = .ref → B' = B)
    {foot : List Guard} (h1 : (.group k, .mut) ∈ foot)
    (h2 : g.shape.modeA = .mut → (.store g.tyA, .mut) ∈ foot)
    (h3 : g.shape.modeB = .mut → (.store g.tyB, .mut) ∈ foot) :
    Frame w (w.putPair k (g', A', B')) foot := by
  obtain ⟨sa, sb, hca, hcb, rfl, rfl, hne⟩ := lockPair_parts hl
  have hty : g'.tyA = g.tyA ∧ g'.tyB = g.tyB := by
    simp only [Group.shape, Shape.mk.injEq] at hs; exact hs.2
  have hmode : ∀ m : Mode, m = .ref ∨ m = .mut := by intro m; cases m <;> simp
  have hcomp : ∀ u, (w.putPair k (g', A', B')).comps u =
      if u = g.tyB then some ⟨sb.ty, B'⟩ else if u = g.tyA then some ⟨sa.ty, A'⟩ else w.comps u := by
    intro u
    simp only [World.putPair, World.setSet, hty.1, hty.2]
    by_cases hub : u = g.tyB
    · subst hub
      by_cases hab : g.tyB = g.tyA
      · rw [← hab] at hca; rw [hcb] at hca; simp at hca; subst hca
        simp [← hab, hcb]
      · simp [hab, hcb]
    · by_cases hua : u = g.tyA
      · subst hua; simp [hub, hca]
      · simp [hub, hua]
  refine ⟨fun _ => rfl, fun u hu => ?_, fun j hj => ?_, fun _ _ => rfl, ?_, fun u => ?_, fun _ => rfl⟩
  · rw [hcomp]
    by_cases hub : u = g.tyB
    · subst hub
      have hmb : g.shape.modeB = .ref := by
        rcases hmode g.shape.modeB with h | h
        · exact h
        · exact absurd (h3 h) hu
      rw [hb hmb]; simp [hcb]
    · by_cases hua : u = g.tyA
      · subst hua
        have hma : g.shape.modeA = .ref := by
          rcases hmode g.shape.modeA with h | h
          · exact h
          · exact absurd (h2 h) hu
        rw [ha hma]; simp [hub, hca]
      · simp [hub, hua]
  · have : k ≠ j := by rintro rfl; exact hj h1
    simp [World.putPair, World.setSet, List.getElem?_set, this]
  · simp only [World.putPair, World.setSet]
    apply List.ext_getElem?
    intro i
    simp only [List.getElem?_map, List.getElem?_set]
    by_cases hki : k = i
    · subst hki
      rw [if_pos rfl, if_pos (List.getElem?_eq_some_iff.1 hk).1, hk]
      simp [hs]
    · simp [hki]
  · rw [hcomp]
    by_cases hub : u = g.tyB
    · subst hub; simp [hcb]
    · by_cases hua : u = g.tyA
      · subst hua; simp [hub, hca]
      · simp [hub, hua]

theorem getR_inv {α : Type} {l : List α} {i : Nat} {a : α} (h : getR l i = .ok a) : l[i]? = some a := by
  simp only [getR] at h
  split at h <;> simp_all

theorem crit_cases {α : Type} {f : World V → R (World V × α)} {x : M V α} {w w' : World V} {r : R α}
    (h : M.crit f x w = (w', r)) : (∃ a, f w = .ok (w', a) ∧ r = .ok a) ∨ (w' = (x w).1 ∧ ∃ e, r = .error e) := by
  simp only [M.crit] at h
  split at h
  · next w1 a heq => simp at h; obtain ⟨rfl, rfl⟩ := h; exact .inl ⟨a, heq, rfl⟩
  · next e heq => simp at h; obtain ⟨rfl, rfl⟩ := h; exact .inr ⟨rfl, e, rfl⟩

theorem bindM_cases {α β : Type} {m : M V α} {f : α → M V β} {w w' : World V} {r : R β}
    (h : (m >>= f) w = (w', r)) :
    (∃ w1 a, m w = (w1, .ok a) ∧ f a w1 = (w', r)) ∨ (∃ e, m w = (w', .error e) ∧ r = .error e) := by
  rw [M.bind_apply] at h
  split at h
  · next w1 a heq => exact .inl ⟨w1, a, heq, h⟩
  · next w1 e heq => simp at h; obtain ⟨rfl, rfl⟩ := h; exact .inr ⟨e, heq, rfl⟩

/-- A critical section whose successful outcome respects a frame. -/
theorem frame_crit {α : Type} {f : World V → R (World V × α)} {w w' : World V} {r : R α} {foot : List Guard}
    (h : M.crit f M.still w = (w', r)) (hf : ∀ w' a, f w = .ok (w', a) → Frame w w' foot) : Frame w w' foot := by
  rcases crit_cases h with ⟨a, h1, _⟩ | ⟨rfl, _⟩
  · exact hf _ _ h1
  · exact .refl _ _

/-- Work on one storage. -/
theorem frame_onStore {α : Type} {t : Nat} {m : Stm (SparseSet V) α} {w w' : World V} {r : R α} {foot : List Guard}
    (h : World.onStore t m w = (w', r)) (hf : (.store t, .mut) ∈ foot) : Frame w w' foot := by
  have h' : w' = (World.onStore t m w).1 := by rw [h]
  rw [h']
  unfold World.onStore
  split
  · exact frame_setSet _ _ _ hf
  · exact .refl _ _

theorem frame_onRaw {α : Type} {t : Nat} {m : Stm (SparseSet V) α} {w w' : World V} {r : R α} {foot : List Guard}
    (h : World.onRaw t m w = (w', r)) (hf : (.store t, .mut) ∈ foot) : Frame w w' foot := by
  have h' : w' = (World.onRaw t m w).1 := by rw [h]
  rw [h']
  unfold World.onRaw
  split
  · exact frame_setSet _ _ _ hf
  · exact .refl _ _

/-- Work on the entity table. -/
theorem frame_onTable {α : Type} {m : Stm EntityManager α} {w w' : World V} {r : R α} {foot : List Guard}
    (h : World.onTable m w = (w', r)) (hf : (.em, .mut) ∈ foot) : Frame w w' foot := by
  have h' : w' = (World.onTable m w).1 := by rw [h]
  rw [h']
  exact frame_setEm _ _ hf

/-- Followed by returning something. -/
theorem frame_bind_pure {α β : Type} {m : M V α} {g : α → β} {w w' : World V} {r : R β} {foot : List Guard}
    (h : (m >>= fun a => pure (g a)) w = (w', r)) (hf : ∀ w' r, m w = (w', r) → Frame w w' foot) :
    Frame w w' foot := by
  rcases bindM_cases h with ⟨w1, a, h1, h2⟩ | ⟨e, h1, _⟩
  · simp only [M.pure_apply, Prod.mk.injEq] at h2; obtain ⟨rfl, _⟩ := h2; exact hf _ _ h1
  · exact hf _ _ h1

theorem frame_read {α : Type} {f : World V → R α} {w w' : World V} {r : R α} {foot : List Guard}
    (h : M.read f w = (w', r)) : Frame w w' foot := by
  simp only [M.read, Prod.mk.injEq] at h; obtain ⟨rfl, _⟩ := h; exact .refl _ _

theorem group_foot {cfg : Config} {w : World V} (hc : cfg.groups = w.groups.map Group.shape) {k : Nat} {g : Group}
    (hk : w.groups[k]? = some g) :
    (.group k, .mut) ∈ Act.footprint.pair cfg .mut k ∧
    (g.shape.modeA = .mut → (.store g.tyA, .mut) ∈ Act.footprint.pair cfg .mut k) ∧
    (g.shape.modeB = .mut → (.store g.tyB, .mut) ∈ Act.footprint.pair cfg .mut k) := by
  have : cfg.groups[k]? = some g.shape := by rw [hc, List.getElem?_map, hk]; rfl
  rw [Prog.footprint_pair this]
  refine ⟨by simp, fun h => ?_, fun h => ?_⟩
  · rw [h]; simp [Group.shape]
  · rw [h]; simp [Group.shape]

theorem shape_of_tag {g g' : Group} (h : gtag g' = gtag g) : g'.shape = g.shape := by
  simp only [gtag, Prod.mk.injEq] at h
  simp only [Group.shape, h.1, h.2.1, h.2.2]

/-- Work on a group and its storages. -/
theorem frame_onPair {α : Type} {k : Nat} {m : Stm (Group.Trio V) α} {w w' : World V} {r : R α} {cfg : Config}
    (h : World.onPair k m w = (w', r)) (hm : ∀ x, Goes (fun _ _ => True) x (m x).1)
    (hc : cfg.groups = w.groups.map Group.shape) : Frame w w' (Act.footprint.pair cfg .mut k) := by
  have h' : w' = (World.onPair k m w).1 := by rw [h]
  rw [h']
  unfold World.onPair
  cases hg : getR w.groups k with
  | error e => exact .refl _ _
  | ok g =>
    simp only [R.bind_ok]
    cases hp : w.lockPair g with
    | error e => exact .refl _ _
    | ok p =>
      obtain ⟨A, B⟩ := p
      have ho := hm (g, A, B)
      obtain ⟨e1, e2, e3⟩ := group_foot hc (getR_inv hg)
      refine frame_putPair (getR_inv hg) hp (shape_of_tag ho.tag) (fun ha => ?_) (fun hb => ?_) e1 e2 e3
      · have hk : g.kind = .non := by
          revert ha; cases g <;> simp [Group.shape, Shape.modeA, Group.kind]
        exact congrArg Prod.fst (ho.non hk)
      · cases g with
        | full n a b => simp [Group.shape, Shape.modeB, Group.kind] at hb
        | part n a b => exact ho.part rfl
        | non n a b => exact congrArg Prod.snd (ho.non rfl)

/-- **A piece of work modifies only what is in its footprint** -- also if it faults half-way. -/
theorem run_frame {cfg : Config} {w w' : World V} (hc : cfg.groups = w.groups.map Group.shape) {a : Act V}
    {r : R (Ret V)} (h : a.run w = (w', r)) : Frame w w' (a.footprint cfg) := by
  cases a with
  | has id => exact frame_bind_pure h fun _ _ h => frame_read h
  | allocate =>
    refine frame_bind_pure h fun _ _ h => ?_
    rw [allocate_exact] at h
    exact frame_onTable h (by simp [Act.footprint])
  | allocateN n =>
    refine frame_bind_pure h fun _ _ h => frame_crit h ?_
    intro w' a h
    simp at h; obtain ⟨rfl, rfl⟩ := h
    exact frame_setEm _ _ (by simp [Act.footprint])
  | emRemove id =>
    refine frame_bind_pure (g := fun _ => Ret.unit) h fun _ _ h => ?_
    rw [release_exact] at h
    exact frame_onTable h (by simp [Act.footprint])
  | attachStore t id v =>
    refine frame_bind_pure (g := fun _ => Ret.unit) h fun _ _ h => ?_
    rw [attachStore_exact] at h
    exact frame_onStore h (by simp [Act.footprint])
  | detachStore t id =>
    refine frame_bind_pure h fun _ _ h => ?_
    rw [detachStore_exact] at h
    exact frame_onStore h (by simp [Act.footprint])
  | batchStore start stop t vs =>
    refine frame_bind_pure (g := fun _ => Ret.unit) h fun _ _ h => ?_
    rcases bindM_cases h with ⟨w1, a, h1, h2⟩ | ⟨e, h1, _⟩
    · simp only [M.assert, Prod.mk.injEq] at h1; obtain ⟨rfl, _⟩ := h1
      rw [batchStore_exact] at h2
      exact frame_onStore h2 (by simp [Act.footprint])
    · simp only [M.assert, Prod.mk.injEq] at h1; obtain ⟨rfl, _⟩ := h1
      exact .refl _ _
  | storeHas t id => exact frame_bind_pure h fun _ _ h => frame_read h
  | storeErase t id =>
    refine frame_bind_pure (g := fun _ => Ret.unit) h fun _ _ h => ?_
    rw [storeErase_exact] at h
    exact frame_onRaw h (by simp [Act.footprint])
  | storeRead t id => exact frame_bind_pure h fun _ _ h => frame_read h
  | storeWrite t id v =>
    refine frame_bind_pure h fun _ _ h => frame_crit h ?_
    intro w' a h
    split at h
    · obtain ⟨_, _, h⟩ := bindR_ok h
      split at h
      · obtain ⟨_, _, h⟩ := bindR_ok h
        simp at h; obtain ⟨rfl, rfl⟩ := h
        exact frame_setSet _ _ _ (by simp [Act.footprint])
      · simp at h; obtain ⟨rfl, rfl⟩ := h; exact .refl _ _
    · simp at h; obtain ⟨rfl, rfl⟩ := h; exact .refl _ _
  | storeCount t => exact frame_bind_pure h fun _ _ h => frame_read h
  | groupAdd k id =>
    refine frame_bind_pure (g := fun _ => Ret.unit) h fun _ _ h => ?_
    rw [groupAdd_exact] at h
    exact frame_onPair h (addX_goes lax_true id) hc
  | groupRemove k id =>
    refine frame_bind_pure (g := fun _ => Ret.unit) h fun _ _ h => ?_
    rw [groupRemove_exact] at h
    exact frame_onPair h (removeX_goes lax_true id) hc
  | groupHas k id => exact frame_bind_pure h fun _ _ h => frame_read h
  | groupErase k id =>
    refine frame_bind_pure (g := fun _ => Ret.unit) h fun _ _ h => ?_
    rw [groupErase_exact] at h
    exact frame_onPair h (eraseX_goes (id := id) lax_true (fun _ => trivial)) hc
  | resRead t => exact frame_bind_pure h fun _ _ h => frame_read h
  | resWrite t v =>
    refine frame_bind_pure h fun _ _ h => frame_crit h ?_
    intro w' a h
    split at h
    · next r hr =>
      obtain ⟨_, _, h⟩ := bindR_ok h
      simp at h; obtain ⟨rfl, rfl⟩ := h
      refine ⟨fun _ => rfl, fun _ _ => rfl, fun _ _ => rfl, fun u hu => ?_, rfl, fun _ => rfl, fun u => ?_⟩
      · have : u ≠ t := by rintro rfl; simp [Act.footprint] at hu
        simp [this]
      · dsimp only
        split
        · next hut => subst hut; simp [hr]
        · rfl
    · simp at h; obtain ⟨rfl, rfl⟩ := h; exact .refl _ _
  | collect q => exact frame_bind_pure h fun _ _ h => frame_read h

/-- The configuration matches the world. -/
structure Matches (cfg : Config) (w : World V) : Prop where
  groups : cfg.groups = w.groups.map Group.shape
  order : ∀ t, t ∈ cfg.order ↔ (w.comps t).isSome = true
  nodup : cfg.order.Nodup
  res : ∀ t, cfg.res t = (w.res t).isSome

theorem Matches.frame {cfg : Config} {w w' : World V} (h : Matches cfg w) {foot : List Guard} (hf : Frame w w' foot) :
    Matches cfg w' :=
  ⟨by rw [h.groups, hf.shape], fun t => by rw [h.order, hf.reg], h.nodup, fun t => by rw [h.res, hf.resReg]⟩

theorem Matches.step {cfg : Config} {may : Sys V → Nat → ApiCall V → Prop} {σ σ' : Sys V}
    (h : Matches cfg σ.world) (hs : σ.Step cfg may σ') : Matches cfg σ'.world := by
  cases hs with
  | act h1 h2 h3 => exact h.frame (run_frame h.groups h3)
  | fault h1 h2 h3 h4 => exact h.frame (run_frame h.groups h3)
  | _ => exact h

end Xecs
