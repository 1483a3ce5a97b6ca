import Verif.Proofs.Frame
/-
A piece of work depends on nothing outside its footprint; pieces of work with compatible footprints commute.
-/
set_option autoImplicit false
namespace Xecs
open World
variable {V : Type}

/-- Two worlds with the same groups' kinds and types that agree on the footprint. -/
structure Twin (w1 w2 : World V) (foot : List Guard) : Prop where
  shape : w1.groups.map Group.shape = w2.groups.map Group.shape
  same : ∀ g ∈ foot, Sys.SameAt w1 w2 g.1

namespace Twin
variable {w1 w2 : World V} {foot : List Guard}

theorem len (h : Twin w1 w2 foot) : w1.groups.length = w2.groups.length := by
  have := congrArg List.length h.shape
  simpa using this

theorem setSet (h : Twin w1 w2 foot) (t : Nat) (S : SparseSet V) : Twin (w1.setSet t S) (w2.setSet t S) foot := by
  refine ⟨h.shape, fun g hg => ?_⟩
  have := h.same g hg
  revert this
  cases g.1 with
  | em => exact id
  | group k => exact id
  | res t => exact id
  | store u =>
    intro this
    simp only [Sys.SameAt, World.setSet] at this ⊢
    by_cases hu : u = t
    · subst hu; simp [this]
    · simp [hu, this]

theorem setGroup (h : Twin w1 w2 foot) (k : Nat) (g : Group) :
    Twin { w1 with groups := w1.groups.set k g } { w2 with groups := w2.groups.set k g } foot := by
  refine ⟨?_, fun x hx => ?_⟩
  · simp only [List.map_set, h.shape]
  · have := h.same x hx
    revert this
    cases x.1 with
    | em => exact id
    | store k => exact id
    | res t => exact id
    | group j =>
      intro this
      simp only [Sys.SameAt] at this ⊢
      simp only [List.getElem?_set, this, h.len]

theorem putPair (h : Twin w1 w2 foot) (k : Nat) (r : Group × SparseSet V × SparseSet V) :
    Twin (w1.putPair k r) (w2.putPair k r) foot :=
  ((h.setSet r.1.tyA r.2.1).setSet r.1.tyB r.2.2).setGroup k r.1

theorem setEm (h : Twin w1 w2 foot) (em : EntityManager) : Twin { w1 with em := em } { w2 with em := em } foot := by
  refine ⟨h.shape, fun x hx => ?_⟩
  have := h.same x hx
  revert this
  cases x.1 with
  | em => intro _; rfl
  | store k => exact id
  | res t => exact id
  | group j => exact id

theorem setRes (h : Twin w1 w2 foot) (t : Nat) (r : ResBox V) :
    Twin { w1 with res := fun u => if u = t then some r else w1.res u }
      { w2 with res := fun u => if u = t then some r else w2.res u } foot := by
  refine ⟨h.shape, fun x hx => ?_⟩
  have := h.same x hx
  revert this
  cases x.1 with
  | em => exact id
  | store k => exact id
  | group t => exact id
  | res u =>
    intro this
    simp only [Sys.SameAt] at this ⊢
    by_cases hu : u = t
    · subst hu; simp
    · simp [hu, this]

theorem groupAt (h : Twin w1 w2 foot) {k : Nat} {m : Mode} (hm : (.group k, m) ∈ foot) :
    w1.groups[k]? = w2.groups[k]? := h.same _ hm
theorem storeAt (h : Twin w1 w2 foot) {k : Nat} {m : Mode} (hm : (.store k, m) ∈ foot) :
    w1.comps k = w2.comps k := h.same _ hm
theorem resAt (h : Twin w1 w2 foot) {k : Nat} {m : Mode} (hm : (.res k, m) ∈ foot) :
    w1.res k = w2.res k := h.same _ hm
theorem emAt (h : Twin w1 w2 foot) {m : Mode} (hm : (.em, m) ∈ foot) : w1.em = w2.em := h.same _ hm

end Twin

/-- Depends on the footprint only. -/
def Local {α : Type} (m : M V α) (foot : List Guard) (w1 w2 : World V) : Prop :=
  (m w1).2 = (m w2).2 ∧ Twin (m w1).1 (m w2).1 foot

theorem Local.read {α : Type} {f : World V → R α} {foot : List Guard} {w1 w2 : World V}
    (ht : Twin w1 w2 foot) (h : f w1 = f w2) : Local (M.read f) foot w1 w2 := ⟨h, ht⟩

theorem Local.crit {α : Type} {f : World V → R (World V × α)} {foot : List Guard} {w1 w2 : World V}
    (ht : Twin w1 w2 foot)
    (h : (∃ e, f w1 = .error e ∧ f w2 = .error e) ∨
      ∃ w1' w2' a, f w1 = .ok (w1', a) ∧ f w2 = .ok (w2', a) ∧ Twin w1' w2' foot) :
    Local (M.crit f M.still) foot w1 w2 := by
  rcases h with ⟨e, h1, h2⟩ | ⟨w1', w2', a, h1, h2, h3⟩
  · simp only [Local, M.crit, M.still, h1, h2]; exact ⟨trivial, ht⟩
  · simp only [Local, M.crit, h1, h2]; exact ⟨trivial, h3⟩

theorem Local.bind {α β : Type} {m : M V α} {f : α → M V β} {foot : List Guard} {w1 w2 : World V}
    (h : Local m foot w1 w2) (hf : ∀ a v1 v2, Twin v1 v2 foot → Local (f a) foot v1 v2) :
    Local (m >>= f) foot w1 w2 := by
  obtain ⟨h1, h2⟩ := h
  simp only [Local, M.bind_apply]
  rcases hm1 : m w1 with ⟨v1, r1⟩
  rcases hm2 : m w2 with ⟨v2, r2⟩
  rw [hm1, hm2] at h1 h2
  simp only at h1 h2
  subst h1
  cases r1 with
  | ok a => exact hf a v1 v2 h2
  | error e => exact ⟨rfl, h2⟩

theorem Local.pure {α : Type} (a : α) {foot : List Guard} {w1 w2 : World V} (ht : Twin w1 w2 foot) :
    Local (Pure.pure a) foot w1 w2 := ⟨rfl, ht⟩

theorem Local.bind_pure {α β : Type} {m : M V α} {g : α → β} {foot : List Guard} {w1 w2 : World V}
    (h : Local m foot w1 w2) : Local (m >>= fun a => Pure.pure (g a)) foot w1 w2 :=
  h.bind fun _ _ _ ht => Local.pure _ ht

/-- Work on the entity table. -/
theorem Local.onTable {α : Type} {m : Stm EntityManager α} {foot : List Guard} {w1 w2 : World V} (ht : Twin w1 w2 foot)
    (he : w1.em = w2.em) : Local (World.onTable m) foot w1 w2 := by
  unfold Local World.onTable
  rw [he]
  exact ⟨rfl, ht.setEm _⟩

/-- Work on one storage. -/
theorem Local.onStore {α : Type} {t : Nat} {m : Stm (SparseSet V) α} {foot : List Guard} {w1 w2 : World V} (ht : Twin w1 w2 foot)
    (he : w1.comps t = w2.comps t) : Local (World.onStore t m) foot w1 w2 := by
  unfold Local World.onStore
  rw [he]
  split
  · exact ⟨rfl, ht.setSet _ _⟩
  · exact ⟨rfl, ht⟩

theorem Local.onRaw {α : Type} {t : Nat} {m : Stm (SparseSet V) α} {foot : List Guard} {w1 w2 : World V} (ht : Twin w1 w2 foot)
    (he : w1.comps t = w2.comps t) : Local (World.onRaw t m) foot w1 w2 := by
  unfold Local World.onRaw
  rw [he]
  split
  · exact ⟨rfl, ht.setSet _ _⟩
  · exact ⟨rfl, ht⟩

theorem lockPair_twin {w1 w2 : World V} {g : Group} (ha : w1.comps g.tyA = w2.comps g.tyA)
    (hb : w1.comps g.tyB = w2.comps g.tyB) : w1.lockPair g = w2.lockPair g := by
  simp only [World.lockPair, ha, hb]

/-- Group sections: the group is the same, and so are its storages. -/
theorem Twin.pairAt {cfg : Config} {w1 w2 : World V} {m : Mode} {k : Nat}
    (hc : cfg.groups = w1.groups.map Group.shape)
    (ht : Twin w1 w2 (Act.footprint.pair cfg m k)) : w1.groups[k]? = w2.groups[k]? ∧
      ∀ g, w2.groups[k]? = some g → w1.comps g.tyA = w2.comps g.tyA ∧ w1.comps g.tyB = w2.comps g.tyB := by
  cases hk : w1.groups[k]? with
  | none =>
    have : w2.groups[k]? = none := by
      rw [List.getElem?_eq_none_iff] at hk ⊢
      rw [← ht.len]; exact hk
    rw [this]
    exact ⟨rfl, fun g h => by simp at h⟩
  | some g =>
    have hs : cfg.groups[k]? = some g.shape := by rw [hc, List.getElem?_map, hk]; rfl
    rw [Prog.footprint_pair hs] at ht
    have h1 := ht.groupAt (k := k) (m := m) (by simp)
    refine ⟨by rw [← h1, hk], fun g' hg' => ?_⟩
    rw [hk, hg'] at h1
    simp at h1; subst h1
    exact ⟨ht.storeAt (k := g.tyA) (m := g.shape.modeA) (by simp [Group.shape]),
      ht.storeAt (k := g.tyB) (m := g.shape.modeB) (by simp [Group.shape])⟩

/-! ### Queries -/

theorem getR_congr {α : Type} {l l' : List α} {i : Nat} (h : l[i]? = l'[i]?) : getR l i = getR l' i := by
  simp only [getR, h]

/-- Work on a group and its storages. -/
theorem Local.onPair {α : Type} {cfg : Config} {k : Nat} {m : Stm (Group.Trio V) α} {w1 w2 : World V}
    (hc : cfg.groups = w1.groups.map Group.shape) (ht : Twin w1 w2 (Act.footprint.pair cfg .mut k)) :
    Local (World.onPair k m) (Act.footprint.pair cfg .mut k) w1 w2 := by
  obtain ⟨h1, h2⟩ := ht.pairAt hc
  unfold Local World.onPair
  rw [getR_congr h1]
  cases hg : getR w2.groups k with
  | error e => exact ⟨rfl, ht⟩
  | ok g =>
    obtain ⟨h3, h4⟩ := h2 g (getR_inv hg)
    simp only [R.bind_ok, lockPair_twin h3 h4]
    cases w2.lockPair g with
    | error e => exact ⟨rfl, ht⟩
    | ok p => exact ⟨rfl, ht.putPair _ _⟩

/-- The two worlds agree on everything an iterator points to. -/
def Plan.Twin (w1 w2 : World V) : Plan → Prop
  | .comp _ t => w1.comps t = w2.comps t
  | .with2 a b => Plan.Twin w1 w2 a ∧ Plan.Twin w1 w2 b
  | .with3 a b c => Plan.Twin w1 w2 a ∧ Plan.Twin w1 w2 b ∧ Plan.Twin w1 w2 c
  | .with4 a b c d => Plan.Twin w1 w2 a ∧ Plan.Twin w1 w2 b ∧ Plan.Twin w1 w2 c ∧ Plan.Twin w1 w2 d
  | .with5 a b c d e =>
    Plan.Twin w1 w2 a ∧ Plan.Twin w1 w2 b ∧ Plan.Twin w1 w2 c ∧ Plan.Twin w1 w2 d ∧ Plan.Twin w1 w2 e
  | .withoutL a b => Plan.Twin w1 w2 a ∧ Plan.Twin w1 w2 b
  | .withoutR a b => Plan.Twin w1 w2 a ∧ Plan.Twin w1 w2 b
  | .full _ _ _ a b => w1.comps a = w2.comps a ∧ w1.comps b = w2.comps b
  | .part _ _ _ a b => w1.comps a = w2.comps a ∧ w1.comps b = w2.comps b
  | .non pos _ _ a b => w1.comps a = w2.comps a ∧ w1.comps b = w2.comps b ∧ w1.groups[pos]? = w2.groups[pos]?

theorem fromId_twin {w1 w2 : World V} : ∀ {p : Plan}, p.Twin w1 w2 → ∀ id, p.fromId w1 id = p.fromId w2 id := by
  intro p
  induction p with
  | comp m t => intro h id; simp only [Plan.Twin] at h; simp only [Plan.fromId, Plan.setOf, h]
  | with2 a b iha ihb => intro h id; simp only [Plan.fromId, iha h.1, ihb h.2]
  | with3 a b c iha ihb ihc => intro h id; simp only [Plan.fromId, iha h.1, ihb h.2.1, ihc h.2.2]
  | with4 a b c d iha ihb ihc ihd =>
    intro h id; simp only [Plan.fromId, iha h.1, ihb h.2.1, ihc h.2.2.1, ihd h.2.2.2]
  | with5 a b c d e iha ihb ihc ihd ihe =>
    intro h id; simp only [Plan.fromId, iha h.1, ihb h.2.1, ihc h.2.2.1, ihd h.2.2.2.1, ihe h.2.2.2.2]
  | withoutL a b iha ihb => intro h id; simp only [Plan.fromId, iha h.1, ihb h.2]
  | withoutR a b iha ihb => intro h id; simp only [Plan.fromId, iha h.1, ihb h.2]
  | full l ma mb a b =>
    intro h id; simp only [Plan.Twin] at h; simp only [Plan.fromId, Plan.refBoth, Plan.setOf, h.1, h.2]
  | part l ma mb a b =>
    intro h id; simp only [Plan.Twin] at h; simp only [Plan.fromId, Plan.refBoth, Plan.setOf, h.1, h.2]
  | non pos ma mb a b =>
    intro h id; simp only [Plan.Twin] at h
    simp only [Plan.fromId, Plan.setOf, Plan.groupSetOf, h.1, h.2.1, getR_congr h.2.2]

theorem remaining_twin {w1 w2 : World V} : ∀ {p : Plan}, p.Twin w1 w2 → ∀ i, p.remaining w1 i = p.remaining w2 i := by
  intro p
  induction p with
  | comp m t => intro h id; simp only [Plan.Twin] at h; simp only [Plan.remaining, h]
  | with2 a b iha ihb => intro h id; simp only [Plan.remaining, iha h.1]
  | with3 a b c iha ihb ihc => intro h id; simp only [Plan.remaining, iha h.1]
  | with4 a b c d iha ihb ihc ihd => intro h id; simp only [Plan.remaining, iha h.1]
  | with5 a b c d e iha ihb ihc ihd ihe => intro h id; simp only [Plan.remaining, iha h.1]
  | withoutL a b iha ihb => intro h id; simp only [Plan.remaining, ihb h.2]
  | withoutR a b iha ihb => intro h id; simp only [Plan.remaining, iha h.1]
  | full l ma mb a b => intro h id; rfl
  | part l ma mb a b => intro h id; rfl
  | non pos ma mb a b => intro h id; simp only [Plan.Twin] at h; simp only [Plan.remaining, h.2.2]

theorem nextWithId_twin {w1 w2 : World V} :
    ∀ {p : Plan}, p.Twin w1 w2 → p.nextWithId w1 = p.nextWithId w2 := by
  intro p
  induction p with
  | comp m t => intro h; funext i; simp only [Plan.Twin] at h; simp only [Plan.nextWithId, Plan.setOf, h]
  | with2 a b iha ihb =>
    intro h; funext i
    simp only [Plan.nextWithId, iha h.1, remaining_twin h.1, fromId_twin h.2]
  | with3 a b c iha ihb ihc =>
    intro h; funext i
    simp only [Plan.nextWithId, iha h.1, remaining_twin h.1, fromId_twin h.2.1, fromId_twin h.2.2]
  | with4 a b c d iha ihb ihc ihd =>
    intro h; funext i
    simp only [Plan.nextWithId, iha h.1, remaining_twin h.1, fromId_twin h.2.1, fromId_twin h.2.2.1,
      fromId_twin h.2.2.2]
  | with5 a b c d e iha ihb ihc ihd ihe =>
    intro h; funext i
    simp only [Plan.nextWithId, iha h.1, remaining_twin h.1, fromId_twin h.2.1, fromId_twin h.2.2.1,
      fromId_twin h.2.2.2.1, fromId_twin h.2.2.2.2]
  | withoutL a b iha ihb =>
    intro h; funext i
    simp only [Plan.nextWithId, ihb h.2, remaining_twin h.2, fromId_twin h.1]
  | withoutR a b iha ihb =>
    intro h; funext i
    simp only [Plan.nextWithId, iha h.1, remaining_twin h.1, fromId_twin h.2]
  | full l ma mb a b =>
    intro h; funext i; simp only [Plan.Twin] at h; simp only [Plan.nextWithId, Plan.setOf, h.1, h.2]
  | part l ma mb a b =>
    intro h; funext i; simp only [Plan.Twin] at h; simp only [Plan.nextWithId, Plan.setOf, h.1, h.2]
  | non pos ma mb a b =>
    intro h; funext i; simp only [Plan.Twin] at h
    simp only [Plan.nextWithId, Plan.setOf, Plan.groupSetOf, h.1, h.2.1, getR_congr h.2.2]

theorem collectFrom_twin {w1 w2 : World V} {p : Plan} (h : p.Twin w1 w2) :
    ∀ fuel i, p.collectFrom w1 fuel i = p.collectFrom w2 fuel i := by
  intro fuel
  induction fuel with
  | zero => intro i; rfl
  | succ n ih => intro i; simp only [Plan.collectFrom, nextWithId_twin h, ih]

theorem same_shape (g : Group) (k : Kind) (a b : Nat) :
    g.same (Group.fresh k a b) = decide (g.shape = ⟨k, a, b⟩) := by
  cases k <;> simp [Group.same, Group.fresh, Group.shape, Group.kind, Group.tyA, Group.tyB, Bool.and_assoc,
    Bool.decide_and] <;> rfl

theorem findGroup_position {cfg : Config} {w : World V} (hc : cfg.groups = w.groups.map Group.shape) (k : Kind)
    (a b : Nat) : Query.findGroup w k a b = Prog.position cfg ⟨k, a, b⟩ := by
  simp only [Query.findGroup, Prog.position, hc, List.findIdx?_map]
  congr 1
  funext g
  rw [same_shape]
  show _ = (g.shape == _)
  rw [Bool.eq_iff_iff]; simp

theorem hasGroup_twin {w1 w2 : World V} (h : w1.groups.map Group.shape = w2.groups.map Group.shape) (k : Kind)
    (a b : Nat) : w1.hasGroup k a b = w2.hasGroup k a b := by
  have : ∀ w : World V, w.hasGroup k a b = (w.groups.map Group.shape).any fun g => decide (g = ⟨k, a, b⟩) := by
    intro w
    simp only [World.hasGroup, List.any_map]
    congr 1
    funext g
    rw [same_shape]; rfl
  rw [this, this, h]

/-- The iterator made by a query points to what the query's guards protect. -/
theorem prepare_twin {cfg : Config} {w1 w2 : World V} (hc : cfg.groups = w1.groups.map Group.shape)
    (hc2 : cfg.groups = w2.groups.map Group.shape) :
    ∀ {q : Query} {held : Query.Held}, (∀ g ∈ Prog.queryGuards cfg q, Sys.SameAt w1 w2 g.1) →
      q.prepare w1 held = q.prepare w2 held ∧
      ∀ p h, q.prepare w2 held = .ok (p, h) → p.Twin w1 w2 := by
  intro q
  induction q with
  | comp m t =>
    intro held h
    have ht : w1.comps t = w2.comps t := h (.store t, m) (by simp [Prog.queryGuards])
    refine ⟨by simp only [Query.prepare, World.hasRegistered, Query.lock, ht], fun p hd hp => ?_⟩
    simp only [Query.prepare] at hp
    obtain ⟨_, _, hp⟩ := bindR_ok hp
    obtain ⟨_, _, hp⟩ := bindR_ok hp
    simp at hp; rw [← hp.1]; exact ht
  | with2 a b iha ihb =>
    intro held h
    have ha := fun held => iha (held := held) fun g hg => h g (by simp [Prog.queryGuards, hg])
    have hb := fun held => ihb (held := held) fun g hg => h g (by simp [Prog.queryGuards, hg])
    refine ⟨by simp only [Query.prepare, (ha _).1, (hb _).1], fun p hd hp => ?_⟩
    simp only [Query.prepare] at hp
    obtain ⟨⟨pa, h1⟩, e1, hp⟩ := bindR_ok hp
    obtain ⟨⟨pb, h2⟩, e2, hp⟩ := bindR_ok hp
    simp at hp; rw [← hp.1]; exact ⟨(ha _).2 _ _ e1, (hb _).2 _ _ e2⟩
  | withoutL a b iha ihb =>
    intro held h
    have ha := fun held => iha (held := held) fun g hg => h g (by simp [Prog.queryGuards, hg])
    have hb := fun held => ihb (held := held) fun g hg => h g (by simp [Prog.queryGuards, hg])
    refine ⟨by simp only [Query.prepare, (ha _).1, (hb _).1], fun p hd hp => ?_⟩
    simp only [Query.prepare] at hp
    obtain ⟨⟨pa, h1⟩, e1, hp⟩ := bindR_ok hp
    obtain ⟨⟨pb, h2⟩, e2, hp⟩ := bindR_ok hp
    simp at hp; rw [← hp.1]; exact ⟨(ha _).2 _ _ e1, (hb _).2 _ _ e2⟩
  | withoutR a b iha ihb =>
    intro held h
    have ha := fun held => iha (held := held) fun g hg => h g (by simp [Prog.queryGuards, hg])
    have hb := fun held => ihb (held := held) fun g hg => h g (by simp [Prog.queryGuards, hg])
    refine ⟨by simp only [Query.prepare, (ha _).1, (hb _).1], fun p hd hp => ?_⟩
    simp only [Query.prepare] at hp
    obtain ⟨⟨pa, h1⟩, e1, hp⟩ := bindR_ok hp
    obtain ⟨⟨pb, h2⟩, e2, hp⟩ := bindR_ok hp
    simp at hp; rw [← hp.1]; exact ⟨(ha _).2 _ _ e1, (hb _).2 _ _ e2⟩
  | with3 a b c iha ihb ihc =>
    intro held h
    have ha := fun held => iha (held := held) fun g hg => h g (by simp [Prog.queryGuards, hg])
    have hb := fun held => ihb (held := held) fun g hg => h g (by simp [Prog.queryGuards, hg])
    have hc := fun held => ihc (held := held) fun g hg => h g (by simp [Prog.queryGuards, hg])
    refine ⟨by simp only [Query.prepare, (ha _).1, (hb _).1, (hc _).1], fun p hd hp => ?_⟩
    simp only [Query.prepare] at hp
    obtain ⟨⟨pa, h1⟩, e1, hp⟩ := bindR_ok hp
    obtain ⟨⟨pb, h2⟩, e2, hp⟩ := bindR_ok hp
    obtain ⟨⟨pc, h3⟩, e3, hp⟩ := bindR_ok hp
    simp at hp; rw [← hp.1]; exact ⟨(ha _).2 _ _ e1, (hb _).2 _ _ e2, (hc _).2 _ _ e3⟩
  | with4 a b c d iha ihb ihc ihd =>
    intro held h
    have ha := fun held => iha (held := held) fun g hg => h g (by simp [Prog.queryGuards, hg])
    have hb := fun held => ihb (held := held) fun g hg => h g (by simp [Prog.queryGuards, hg])
    have hc := fun held => ihc (held := held) fun g hg => h g (by simp [Prog.queryGuards, hg])
    have hd' := fun held => ihd (held := held) fun g hg => h g (by simp [Prog.queryGuards, hg])
    refine ⟨by simp only [Query.prepare, (ha _).1, (hb _).1, (hc _).1, (hd' _).1], fun p hd hp => ?_⟩
    simp only [Query.prepare] at hp
    obtain ⟨⟨pa, h1⟩, e1, hp⟩ := bindR_ok hp
    obtain ⟨⟨pb, h2⟩, e2, hp⟩ := bindR_ok hp
    obtain ⟨⟨pc, h3⟩, e3, hp⟩ := bindR_ok hp
    obtain ⟨⟨pd, h4⟩, e4, hp⟩ := bindR_ok hp
    simp at hp; rw [← hp.1]; exact ⟨(ha _).2 _ _ e1, (hb _).2 _ _ e2, (hc _).2 _ _ e3, (hd' _).2 _ _ e4⟩
  | with5 a b c d e iha ihb ihc ihd ihe =>
    intro held h
    have ha := fun held => iha (held := held) fun g hg => h g (by simp [Prog.queryGuards, hg])
    have hb := fun held => ihb (held := held) fun g hg => h g (by simp [Prog.queryGuards, hg])
    have hc := fun held => ihc (held := held) fun g hg => h g (by simp [Prog.queryGuards, hg])
    have hd' := fun held => ihd (held := held) fun g hg => h g (by simp [Prog.queryGuards, hg])
    have he := fun held => ihe (held := held) fun g hg => h g (by simp [Prog.queryGuards, hg])
    refine ⟨by simp only [Query.prepare, (ha _).1, (hb _).1, (hc _).1, (hd' _).1, (he _).1], fun p hd hp => ?_⟩
    simp only [Query.prepare] at hp
    obtain ⟨⟨pa, h1⟩, e1, hp⟩ := bindR_ok hp
    obtain ⟨⟨pb, h2⟩, e2, hp⟩ := bindR_ok hp
    obtain ⟨⟨pc, h3⟩, e3, hp⟩ := bindR_ok hp
    obtain ⟨⟨pd, h4⟩, e4, hp⟩ := bindR_ok hp
    obtain ⟨⟨pe, h5⟩, e5, hp⟩ := bindR_ok hp
    simp at hp; rw [← hp.1]
    exact ⟨(ha _).2 _ _ e1, (hb _).2 _ _ e2, (hc _).2 _ _ e3, (hd' _).2 _ _ e4, (he _).2 _ _ e5⟩
  | group k ma mb a b =>
    intro held h
    have hA : w1.comps a = w2.comps a := h (.store a, ma) (by simp [Prog.queryGuards])
    have hB : w1.comps b = w2.comps b := h (.store b, mb) (by simp [Prog.queryGuards])
    have hG : ∀ pos, Query.findGroup w2 k a b = some pos → w1.groups[pos]? = w2.groups[pos]? := by
      intro pos hp
      rw [findGroup_position hc2] at hp
      exact h (.group pos, .ref) (by simp [Prog.queryGuards, hp])
    have hF : Query.findGroup w1 k a b = Query.findGroup w2 k a b := by
      rw [findGroup_position hc, findGroup_position hc2]
    constructor
    · simp only [Query.prepare, World.hasRegistered, Query.lock, hA, hB,
        hasGroup_twin (hc.symm.trans hc2) k a b, hF]
      cases hf : Query.findGroup w2 k a b with
      | none => rfl
      | some pos => simp only [unwrapR, bind, Except.bind, getR_congr (hG pos hf)]
    · intro p hd hp
      simp only [Query.prepare] at hp
      obtain ⟨_, _, hp⟩ := bindR_ok hp
      obtain ⟨_, _, hp⟩ := bindR_ok hp
      obtain ⟨_, _, hp⟩ := bindR_ok hp
      obtain ⟨_, _, hp⟩ := bindR_ok hp
      obtain ⟨pos, hpos, hp⟩ := bindR_ok hp
      obtain ⟨_, _, hp⟩ := bindR_ok hp
      have hpos' : Query.findGroup w2 k a b = some pos := by
        cases hf : Query.findGroup w2 k a b with
        | none => simp [hf, unwrapR] at hpos
        | some x => simp [hf, unwrapR] at hpos; rw [hpos]
      cases k <;> (simp at hp; rw [← hp.1])
      · exact ⟨hA, hB⟩
      · exact ⟨hA, hB⟩
      · exact ⟨hA, hB, hG pos hpos'⟩

/-- All references of an item. -/
def Item.Each {α : Type} (P : α → Prop) : Item α → Prop
  | .leaf x => P x
  | .pair x y => Item.Each P x ∧ Item.Each P y

theorem derefItem_twin {w1 w2 : World V} : ∀ {x : Item Loc},
    x.Each (fun l => w1.comps l.ty = w2.comps l.ty) → w1.derefItem x = w2.derefItem x := by
  intro x
  induction x with
  | leaf l => intro h; simp only [Item.Each] at h; simp only [World.derefItem, World.deref, h]
  | pair x y ihx ihy => intro h; simp only [World.derefItem, ihx h.1, ihy h.2]

theorem refOf_locs {S : SparseSet V} {t id : Nat} {m : Mode} {x : Item Loc} {P : Nat → Prop} (hp : P t)
    (h : Plan.refOf S t m id = .ok (some x)) : x.Each (fun l => P l.ty) := by
  simp only [Plan.refOf] at h
  split at h
  · obtain ⟨_, _, h⟩ := bindR_ok h
    simp at h; subst h; exact hp
  · simp at h

theorem refAt_locs {S : SparseSet V} {t i : Nat} {m : Mode} {x : Item Loc} {P : Nat → Prop} (hp : P t)
    (h : Plan.refAt S t m i = .ok x) : x.Each (fun l => P l.ty) := by
  simp only [Plan.refAt] at h
  obtain ⟨_, _, h⟩ := bindR_ok h
  simp at h; subst h; exact hp

theorem refBoth_locs {w : World V} {a b id : Nat} {ma mb : Mode} {x : Item Loc} {P : Nat → Prop} (ha : P a)
    (hb : P b) (h : Plan.refBoth w ma mb a b id = .ok (some x)) : x.Each (fun l => P l.ty) := by
  simp only [Plan.refBoth] at h
  obtain ⟨_, _, h⟩ := bindR_ok h
  obtain ⟨_, _, h⟩ := bindR_ok h
  obtain ⟨o, h1, h⟩ := bindR_ok h
  split at h
  · obtain ⟨o2, h2, h⟩ := bindR_ok h
    split at h
    · simp at h; subst h; exact ⟨refOf_locs ha h1, refOf_locs hb h2⟩
    · simp at h
  · simp at h

/-- The types of the storages an iterator points to satisfy `P`. -/
def Plan.Types (P : Nat → Prop) : Plan → Prop
  | .comp _ t => P t
  | .with2 a b => Plan.Types P a ∧ Plan.Types P b
  | .with3 a b c => Plan.Types P a ∧ Plan.Types P b ∧ Plan.Types P c
  | .with4 a b c d => Plan.Types P a ∧ Plan.Types P b ∧ Plan.Types P c ∧ Plan.Types P d
  | .with5 a b c d e =>
    Plan.Types P a ∧ Plan.Types P b ∧ Plan.Types P c ∧ Plan.Types P d ∧ Plan.Types P e
  | .withoutL a b => Plan.Types P a ∧ Plan.Types P b
  | .withoutR a b => Plan.Types P a ∧ Plan.Types P b
  | .full _ _ _ a b => P a ∧ P b
  | .part _ _ _ a b => P a ∧ P b
  | .non _ _ _ a b => P a ∧ P b

theorem Plan.Twin.types {w1 w2 : World V} {p : Plan} (h : p.Twin w1 w2) :
    p.Types fun t => w1.comps t = w2.comps t := by
  induction p with
  | comp m t => exact h
  | with2 a b iha ihb => exact ⟨iha h.1, ihb h.2⟩
  | with3 a b c iha ihb ihc => exact ⟨iha h.1, ihb h.2.1, ihc h.2.2⟩
  | with4 a b c d iha ihb ihc ihd => exact ⟨iha h.1, ihb h.2.1, ihc h.2.2.1, ihd h.2.2.2⟩
  | with5 a b c d e iha ihb ihc ihd ihe =>
    exact ⟨iha h.1, ihb h.2.1, ihc h.2.2.1, ihd h.2.2.2.1, ihe h.2.2.2.2⟩
  | withoutL a b iha ihb => exact ⟨iha h.1, ihb h.2⟩
  | withoutR a b iha ihb => exact ⟨iha h.1, ihb h.2⟩
  | full l ma mb a b => exact h
  | part l ma mb a b => exact h
  | non pos ma mb a b => exact ⟨h.1, h.2.1⟩

theorem fromId_locs {w : World V} {P : Nat → Prop} : ∀ {p : Plan}, p.Types P → ∀ {id : Nat} {x : Item Loc},
    p.fromId w id = .ok (some x) → x.Each (fun l => P l.ty) := by
  intro p
  induction p with
  | comp m t =>
    intro h id x hx
    simp only [Plan.fromId] at hx
    obtain ⟨_, _, hx⟩ := bindR_ok hx
    exact refOf_locs h hx
  | with2 a b iha ihb =>
    intro h id x hx
    simp only [Plan.fromId] at hx
    obtain ⟨o, h1, hx⟩ := bindR_ok hx
    rcases o with _ | xa
    · simp at hx
    dsimp only at hx
    obtain ⟨o, h2, hx⟩ := bindR_ok hx
    rcases o with _ | xb
    · simp at hx
    dsimp only at hx
    simp at hx; subst hx
    exact ⟨iha h.1 h1, ihb h.2 h2⟩
  | with3 a b c iha ihb ihc =>
    intro h id x hx
    simp only [Plan.fromId] at hx
    obtain ⟨o, h1, hx⟩ := bindR_ok hx
    rcases o with _ | xa
    · simp at hx
    dsimp only at hx
    obtain ⟨o, h2, hx⟩ := bindR_ok hx
    rcases o with _ | xb
    · simp at hx
    dsimp only at hx
    obtain ⟨o, h3, hx⟩ := bindR_ok hx
    rcases o with _ | xc
    · simp at hx
    dsimp only at hx
    simp at hx; subst hx
    exact ⟨iha h.1 h1, ihb h.2.1 h2, ihc h.2.2 h3⟩
  | with4 a b c d iha ihb ihc ihd =>
    intro h id x hx
    simp only [Plan.fromId] at hx
    obtain ⟨o, h1, hx⟩ := bindR_ok hx
    rcases o with _ | xa
    · simp at hx
    dsimp only at hx
    obtain ⟨o, h2, hx⟩ := bindR_ok hx
    rcases o with _ | xb
    · simp at hx
    dsimp only at hx
    obtain ⟨o, h3, hx⟩ := bindR_ok hx
    rcases o with _ | xc
    · simp at hx
    dsimp only at hx
    obtain ⟨o, h4, hx⟩ := bindR_ok hx
    rcases o with _ | xd
    · simp at hx
    dsimp only at hx
    simp at hx; subst hx
    exact ⟨iha h.1 h1, ihb h.2.1 h2, ihc h.2.2.1 h3, ihd h.2.2.2 h4⟩
  | with5 a b c d e iha ihb ihc ihd ihe =>
    intro h id x hx
    simp only [Plan.fromId] at hx
    obtain ⟨o, h1, hx⟩ := bindR_ok hx
    rcases o with _ | xa
    · simp at hx
    dsimp only at hx
    obtain ⟨o, h2, hx⟩ := bindR_ok hx
    rcases o with _ | xb
    · simp at hx
    dsimp only at hx
    obtain ⟨o, h3, hx⟩ := bindR_ok hx
    rcases o with _ | xc
    · simp at hx
    dsimp only at hx
    obtain ⟨o, h4, hx⟩ := bindR_ok hx
    rcases o with _ | xd
    · simp at hx
    dsimp only at hx
    obtain ⟨o, h5, hx⟩ := bindR_ok hx
    rcases o with _ | xe
    · simp at hx
    dsimp only at hx
    simp at hx; subst hx
    exact ⟨iha h.1 h1, ihb h.2.1 h2, ihc h.2.2.1 h3, ihd h.2.2.2.1 h4, ihe h.2.2.2.2 h5⟩
  | withoutL a b iha ihb =>
    intro h id x hx
    simp only [Plan.fromId] at hx
    obtain ⟨o, h1, hx⟩ := bindR_ok hx
    rcases o with _ | z
    · exact ihb h.2 hx
    · simp at hx
  | withoutR a b iha ihb =>
    intro h id x hx
    simp only [Plan.fromId] at hx
    obtain ⟨o, h1, hx⟩ := bindR_ok hx
    rcases o with _ | z
    · exact iha h.1 hx
    · simp at hx
  | full l ma mb a b => intro h id x hx; exact refBoth_locs h.1 h.2 hx
  | part l ma mb a b => intro h id x hx; exact refBoth_locs h.1 h.2 hx
  | non pos ma mb a b =>
    intro h id x hx
    simp only [Plan.fromId] at hx
    obtain ⟨_, _, hx⟩ := bindR_ok hx
    obtain ⟨_, _, hx⟩ := bindR_ok hx
    obtain ⟨_, _, hx⟩ := bindR_ok hx
    obtain ⟨o, _, hx⟩ := bindR_ok hx
    split at hx
    · obtain ⟨_, h1, hx⟩ := bindR_ok hx
      obtain ⟨_, h2, hx⟩ := bindR_ok hx
      simp at hx; subst hx
      exact ⟨refAt_locs h.1 h1, refAt_locs h.2 h2⟩
    · simp at hx

theorem drive_locs {next : Nat → R (Option (Nat × Item Loc) × Nat)} {keep : Nat → Item Loc → R (Option (Item Loc))}
    {Q Q' : Item Loc → Prop} (hn : ∀ i id x j, next i = .ok (some (id, x), j) → Q x)
    (hk : ∀ id x y, Q x → keep id x = .ok (some y) → Q' y) :
    ∀ (fuel i : Nat) {id j : Nat} {x : Item Loc}, Plan.drive next keep fuel i = .ok (some (id, x), j) → Q' x := by
  intro fuel
  induction fuel with
  | zero => intro i id j x h; simp [Plan.drive] at h
  | succ n ih =>
    intro i id j x h
    simp only [Plan.drive] at h
    obtain ⟨⟨r, i'⟩, h1, h⟩ := bindR_ok h
    cases r with
    | none => simp at h
    | some y =>
      obtain ⟨id', y⟩ := y
      simp only at h
      obtain ⟨o, h2, h⟩ := bindR_ok h
      cases o with
      | none => exact ih _ h
      | some z =>
        simp at h
        obtain ⟨⟨rfl, rfl⟩, rfl⟩ := h
        exact hk _ _ _ (hn _ _ _ _ h1) h2

theorem nextWithId_locs {w : World V} {P : Nat → Prop} : ∀ {p : Plan}, p.Types P → ∀ {i id j : Nat} {x : Item Loc},
    p.nextWithId w i = .ok (some (id, x), j) → x.Each (fun l => P l.ty) := by
  intro p
  induction p with
  | comp m t =>
    intro h i id j x hx
    simp only [Plan.nextWithId] at hx
    obtain ⟨_, _, hx⟩ := bindR_ok hx
    split at hx
    · obtain ⟨_, _, hx⟩ := bindR_ok hx
      obtain ⟨_, h1, hx⟩ := bindR_ok hx
      simp at hx; rw [← hx.1.2]; exact refAt_locs h h1
    · simp at hx
  | with2 a b iha ihb =>
    intro h i id j x hx
    refine drive_locs (Q := Item.Each fun l => P l.ty) (fun _ _ _ _ h' => iha h.1 h') ?_ _ _ hx
    intro id xa y hxa hy
    obtain ⟨o, h2, hy⟩ := bindR_ok hy
    rcases o with _ | xb
    · simp at hy
    dsimp only at hy
    simp at hy; subst hy
    exact ⟨hxa, fromId_locs h.2 h2⟩
  | with3 a b c iha ihb ihc =>
    intro h i id j x hx
    refine drive_locs (Q := Item.Each fun l => P l.ty) (fun _ _ _ _ h' => iha h.1 h') ?_ _ _ hx
    intro id xa y hxa hy
    obtain ⟨o, h2, hy⟩ := bindR_ok hy
    rcases o with _ | xb
    · simp at hy
    dsimp only at hy
    obtain ⟨o, h3, hy⟩ := bindR_ok hy
    rcases o with _ | xc
    · simp at hy
    dsimp only at hy
    simp at hy; subst hy
    exact ⟨hxa, fromId_locs h.2.1 h2, fromId_locs h.2.2 h3⟩
  | with4 a b c d iha ihb ihc ihd =>
    intro h i id j x hx
    refine drive_locs (Q := Item.Each fun l => P l.ty) (fun _ _ _ _ h' => iha h.1 h') ?_ _ _ hx
    intro id xa y hxa hy
    obtain ⟨o, h2, hy⟩ := bindR_ok hy
    rcases o with _ | xb
    · simp at hy
    dsimp only at hy
    obtain ⟨o, h3, hy⟩ := bindR_ok hy
    rcases o with _ | xc
    · simp at hy
    dsimp only at hy
    obtain ⟨o, h4, hy⟩ := bindR_ok hy
    rcases o with _ | xd
    · simp at hy
    dsimp only at hy
    simp at hy; subst hy
    exact ⟨hxa, fromId_locs h.2.1 h2, fromId_locs h.2.2.1 h3, fromId_locs h.2.2.2 h4⟩
  | with5 a b c d e iha ihb ihc ihd ihe =>
    intro h i id j x hx
    refine drive_locs (Q := Item.Each fun l => P l.ty) (fun _ _ _ _ h' => iha h.1 h') ?_ _ _ hx
    intro id xa y hxa hy
    obtain ⟨o, h2, hy⟩ := bindR_ok hy
    rcases o with _ | xb
    · simp at hy
    dsimp only at hy
    obtain ⟨o, h3, hy⟩ := bindR_ok hy
    rcases o with _ | xc
    · simp at hy
    dsimp only at hy
    obtain ⟨o, h4, hy⟩ := bindR_ok hy
    rcases o with _ | xd
    · simp at hy
    dsimp only at hy
    obtain ⟨o, h5, hy⟩ := bindR_ok hy
    rcases o with _ | xe
    · simp at hy
    dsimp only at hy
    simp at hy; subst hy
    exact ⟨hxa, fromId_locs h.2.1 h2, fromId_locs h.2.2.1 h3, fromId_locs h.2.2.2.1 h4, fromId_locs h.2.2.2.2 h5⟩
  | withoutL a b iha ihb =>
    intro h i id j x hx
    refine drive_locs (Q := Item.Each fun l => P l.ty) (fun _ _ _ _ h' => ihb h.2 h') ?_ _ _ hx
    intro id xa y hxa hy
    obtain ⟨o, h1, hy⟩ := bindR_ok hy
    rcases o with _ | z
    · simp at hy; subst hy; exact hxa
    · simp at hy
  | withoutR a b iha ihb =>
    intro h i id j x hx
    refine drive_locs (Q := Item.Each fun l => P l.ty) (fun _ _ _ _ h' => iha h.1 h') ?_ _ _ hx
    intro id xa y hxa hy
    obtain ⟨o, h1, hy⟩ := bindR_ok hy
    rcases o with _ | z
    · simp at hy; subst hy; exact hxa
    · simp at hy
  | full l ma mb a b =>
    intro h i id j x hx
    simp only [Plan.nextWithId] at hx
    split at hx
    · obtain ⟨_, _, hx⟩ := bindR_ok hx
      obtain ⟨_, _, hx⟩ := bindR_ok hx
      obtain ⟨_, _, hx⟩ := bindR_ok hx
      obtain ⟨_, h1, hx⟩ := bindR_ok hx
      obtain ⟨_, h2, hx⟩ := bindR_ok hx
      simp at hx; rw [← hx.1.2]; exact ⟨refAt_locs h.1 h1, refAt_locs h.2 h2⟩
    · simp at hx
  | part l ma mb a b =>
    intro h i id j x hx
    simp only [Plan.nextWithId] at hx
    split at hx
    · obtain ⟨_, _, hx⟩ := bindR_ok hx
      obtain ⟨_, _, hx⟩ := bindR_ok hx
      obtain ⟨_, _, hx⟩ := bindR_ok hx
      obtain ⟨_, h1, hx⟩ := bindR_ok hx
      obtain ⟨o, h2, hx⟩ := bindR_ok hx
      obtain ⟨y, h3, hx⟩ := bindR_ok hx
      cases o with
      | none => simp [unwrapR] at h3
      | some y' =>
        simp [unwrapR] at h3; subst h3
        simp at hx; rw [← hx.1.2]; exact ⟨refAt_locs h.1 h1, refOf_locs h.2 h2⟩
    · simp at hx
  | non pos ma mb a b =>
    intro h i id j x hx
    simp only [Plan.nextWithId] at hx
    obtain ⟨_, _, hx⟩ := bindR_ok hx
    split at hx
    · obtain ⟨_, _, hx⟩ := bindR_ok hx
      obtain ⟨⟨ia, ib⟩, _, hx⟩ := bindR_ok hx
      obtain ⟨_, _, hx⟩ := bindR_ok hx
      obtain ⟨_, _, hx⟩ := bindR_ok hx
      obtain ⟨_, h1, hx⟩ := bindR_ok hx
      obtain ⟨_, h2, hx⟩ := bindR_ok hx
      simp at hx; rw [← hx.1.2]; exact ⟨refAt_locs h.1 h1, refAt_locs h.2 h2⟩
    · simp at hx

theorem collectFrom_locs {w : World V} {P : Nat → Prop} {p : Plan} (h : p.Types P) : ∀ (fuel i : Nat)
    {l : List (Nat × Item Loc)}, p.collectFrom w fuel i = .ok l → ∀ x ∈ l, x.2.Each (fun l => P l.ty) := by
  intro fuel
  induction fuel with
  | zero => intro i l hl; simp [Plan.collectFrom] at hl
  | succ n ih =>
    intro i l hl x hx
    simp only [Plan.collectFrom] at hl
    obtain ⟨⟨r, i'⟩, h1, hl⟩ := bindR_ok hl
    cases r with
    | none => simp at hl; subst hl; simp at hx
    | some y =>
      obtain ⟨rest, h2, hl⟩ := bindR_ok hl
      simp at hl; subst hl
      rcases List.mem_cons.1 hx with rfl | hx
      · exact nextWithId_locs h h1
      · exact ih _ h2 x hx

/-- Going through a query gives the same in worlds that agree on what its guards protect. -/
theorem collect_twin {cfg : Config} {w1 w2 : World V} (hc : cfg.groups = w1.groups.map Group.shape)
    {q : Query} (ht : Twin w1 w2 (Prog.queryGuards cfg q)) :
    (w1.queryAll q >>= fun l => .ok (l.map fun x => (x.1, w1.derefItem x.2)) : R _) =
    (w2.queryAll q >>= fun l => .ok (l.map fun x => (x.1, w2.derefItem x.2))) := by
  obtain ⟨h1, h2⟩ := prepare_twin hc (hc.trans ht.shape) (held := []) ht.same
  simp only [World.queryAll, World.query, h1]
  cases hp : q.prepare w2 [] with
  | error e => rfl
  | ok r =>
    obtain ⟨p, hd⟩ := r
    have hpt := h2 p hd hp
    show (p.collectFrom w1 _ 0 >>= _) = (p.collectFrom w2 _ 0 >>= _)
    rw [collectFrom_twin hpt, remaining_twin hpt]
    cases hcol : p.collectFrom w2 (p.remaining w2 0 + 1) 0 with
    | error e => rfl
    | ok l =>
      show Except.ok _ = Except.ok _
      congr 1
      apply List.map_congr_left
      intro x hx
      rw [derefItem_twin (collectFrom_locs hpt.types _ _ hcol x hx)]

/-- **A piece of work depends only on what is in its footprint.** -/
theorem run_local {cfg : Config} {w1 w2 : World V} (hc : cfg.groups = w1.groups.map Group.shape) {a : Act V}
    (ht : Twin w1 w2 (a.footprint cfg)) : Local a.run (a.footprint cfg) w1 w2 := by
  cases a with
  | has id =>
    refine Local.bind_pure (Local.read ht ?_)
    rw [ht.emAt (m := .ref) (by simp [Act.footprint])]
  | allocate =>
    refine Local.bind_pure ?_
    rw [allocate_exact]
    exact .onTable ht (ht.emAt (m := .mut) (by simp [Act.footprint]))
  | allocateN n =>
    exact Local.bind_pure (Local.crit ht (.inr ⟨_, _, _, rfl, by rw [ht.emAt (m := .mut) (by simp [Act.footprint])], ht.setEm _⟩))
  | emRemove id =>
    refine Local.bind_pure (g := fun _ => Ret.unit) ?_
    rw [release_exact]
    exact .onTable ht (ht.emAt (m := .mut) (by simp [Act.footprint]))
  | attachStore t id v =>
    refine Local.bind_pure (g := fun _ => Ret.unit) ?_
    rw [attachStore_exact]
    exact .onStore ht (ht.storeAt (k := t) (m := .mut) (by simp [Act.footprint]))
  | detachStore t id =>
    refine Local.bind_pure ?_
    rw [detachStore_exact]
    exact .onStore ht (ht.storeAt (k := t) (m := .mut) (by simp [Act.footprint]))
  | batchStore start stop t vs =>
    refine Local.bind_pure (g := fun _ => Ret.unit) (Local.bind ⟨rfl, ht⟩ fun _ v1 v2 ht => ?_)
    rw [batchStore_exact]
    exact .onStore ht (ht.storeAt (k := t) (m := .mut) (by simp [Act.footprint]))
  | storeHas t id =>
    refine Local.bind_pure (Local.read ht ?_)
    rw [ht.storeAt (k := t) (m := .ref) (by simp [Act.footprint])]
  | storeErase t id =>
    refine Local.bind_pure (g := fun _ => Ret.unit) ?_
    rw [storeErase_exact]
    exact .onRaw ht (ht.storeAt (k := t) (m := .mut) (by simp [Act.footprint]))
  | storeRead t id =>
    refine Local.bind_pure (Local.read ht ?_)
    rw [ht.storeAt (k := t) (m := .ref) (by simp [Act.footprint])]
  | storeWrite t id v =>
    refine Local.bind_pure (Local.crit ht ?_)
    have he := ht.storeAt (k := t) (m := .mut) (by simp [Act.footprint])
    simp only [he]
    cases hw : w2.comps t with
    | none => exact .inr ⟨w1, w2, false, rfl, rfl, ht⟩
    | some st =>
      dsimp only
      cases hd : downcast st t with
      | error e => exact .inl ⟨e, rfl, rfl⟩
      | ok S =>
        simp only [bind, Except.bind]
        cases hx : S.exist id with
        | false => exact .inr ⟨w1, w2, false, rfl, rfl, ht⟩
        | true =>
          simp only [if_true]
          cases S.setUnchecked id v with
          | error e => exact .inl ⟨e, rfl, rfl⟩
          | ok S' => exact .inr ⟨_, _, true, rfl, rfl, ht.setSet _ _⟩
  | storeCount t =>
    refine Local.bind_pure (Local.read ht ?_)
    rw [ht.storeAt (k := t) (m := .ref) (by simp [Act.footprint])]
  | groupAdd k id =>
    refine Local.bind_pure (g := fun _ => Ret.unit) ?_
    rw [groupAdd_exact]
    exact .onPair hc ht
  | groupRemove k id =>
    refine Local.bind_pure (g := fun _ => Ret.unit) ?_
    rw [groupRemove_exact]
    exact .onPair hc ht
  | groupHas k id =>
    refine Local.bind_pure (Local.read ht ?_)
    cases hk : w1.groups[k]? with
    | none =>
      have hk2 : w2.groups[k]? = none := by
        rw [List.getElem?_eq_none_iff] at hk ⊢; rw [← ht.len]; exact hk
      simp only [getR, hk, hk2]; rfl
    | some g =>
      have hs : cfg.groups[k]? = some g.shape := by rw [hc, List.getElem?_map, hk]; rfl
      simp only [Act.footprint, hs] at ht
      have h1 := ht.groupAt (k := k) (m := .ref) (by simp)
      have h2 := ht.storeAt (k := g.tyA) (m := .ref) (by simp [Group.shape])
      have h3 := ht.storeAt (k := g.tyB) (m := .ref) (by simp [Group.shape])
      simp only [getR, ← h1, hk, bind, Except.bind, World.needRemove, h2, h3]
  | groupErase k id =>
    refine Local.bind_pure (g := fun _ => Ret.unit) ?_
    rw [groupErase_exact]
    exact .onPair hc ht
  | resRead t =>
    refine Local.bind_pure (Local.read ht ?_)
    rw [ht.resAt (k := t) (m := .ref) (by simp [Act.footprint])]
  | resWrite t v =>
    refine Local.bind_pure (Local.crit ht ?_)
    have he := ht.resAt (k := t) (m := .mut) (by simp [Act.footprint])
    simp only [he]
    cases hw : w2.res t with
    | none => exact .inr ⟨w1, w2, false, rfl, rfl, ht⟩
    | some st =>
      dsimp only
      cases hd : downcastRes st t with
      | error e => exact .inl ⟨e, rfl, rfl⟩
      | ok S => exact .inr ⟨_, _, true, rfl, rfl, ht.setRes _ _⟩
  | collect q =>
    refine Local.bind_pure (Local.read ht ?_)
    exact collect_twin hc ht

end Xecs

namespace Xecs
variable {V : Type}

theorem Frame.sameAt {w w' : World V} {foot : List Guard} (h : Frame w w' foot) {l : Lock}
    (hl : (l, Mode.mut) ∉ foot) : Sys.SameAt w w' l := by
  cases l with
  | em => exact (h.em hl).symm
  | store t => exact (h.store t hl).symm
  | group k => exact (h.group k hl).symm
  | res t => exact (h.res t hl).symm

theorem sameAt_ext {w w' : World V} (h : ∀ l, Sys.SameAt w w' l) : w = w' := by
  obtain ⟨em, comps, groups, res⟩ := w
  obtain ⟨em', comps', groups', res'⟩ := w'
  have h1 : em = em' := h .em
  have h2 : comps = comps' := funext fun t => h (.store t)
  have h3 : groups = groups' := List.ext_getElem? fun k => h (.group k)
  have h4 : res = res' := funext fun t => h (.res t)
  subst h1 h2 h3 h4; rfl

theorem SameAt.symm' {w w' : World V} {l : Lock} (h : Sys.SameAt w w' l) : Sys.SameAt w' w l := by
  cases l <;> exact Eq.symm h
theorem SameAt.trans' {w w' w'' : World V} {l : Lock} (h : Sys.SameAt w w' l) (h' : Sys.SameAt w' w'' l) :
    Sys.SameAt w w'' l := by
  cases l <;> exact Eq.trans h h'

/-- Work with compatible footprints commutes. -/
theorem run_commute {cfg : Config} {w : World V} (hc : cfg.groups = w.groups.map Group.shape) {a b : Act V}
    (hab : ∀ g ∈ a.footprint cfg, ∀ h ∈ b.footprint cfg, ¬ Guard.clash g h) :
    (b.run (a.run w).1).2 = (b.run w).2 ∧ (a.run (b.run w).1).2 = (a.run w).2 ∧
    (b.run (a.run w).1).1 = (a.run (b.run w).1).1 := by
  have fa : Frame w (a.run w).1 (a.footprint cfg) := run_frame hc (r := (a.run w).2) rfl
  have fb : Frame w (b.run w).1 (b.footprint cfg) := run_frame hc (r := (b.run w).2) rfl
  have hca : cfg.groups = (a.run w).1.groups.map Group.shape := hc.trans fa.shape.symm
  have hcb : cfg.groups = (b.run w).1.groups.map Group.shape := hc.trans fb.shape.symm
  have fba : Frame (a.run w).1 (b.run (a.run w).1).1 (b.footprint cfg) :=
    run_frame hca (r := (b.run (a.run w).1).2) rfl
  have fab : Frame (b.run w).1 (a.run (b.run w).1).1 (a.footprint cfg) :=
    run_frame hcb (r := (a.run (b.run w).1).2) rfl
  have tb : Twin w (a.run w).1 (b.footprint cfg) :=
    ⟨fa.shape.symm, fun g hg => fa.sameAt fun hm => hab _ hm g hg ⟨rfl, .inl rfl⟩⟩
  have ta : Twin w (b.run w).1 (a.footprint cfg) :=
    ⟨fb.shape.symm, fun g hg => fb.sameAt fun hm => hab g hg _ hm ⟨rfl, .inr rfl⟩⟩
  obtain ⟨eb, tb'⟩ := run_local hc tb
  obtain ⟨ea, ta'⟩ := run_local hc ta
  refine ⟨eb.symm, ea.symm, sameAt_ext fun l => ?_⟩
  by_cases hla : (l, Mode.mut) ∈ a.footprint cfg
  · have hlb : (l, Mode.mut) ∉ b.footprint cfg := fun hm => hab _ hla _ hm ⟨rfl, .inl rfl⟩
    exact SameAt.trans' (SameAt.symm' (fba.sameAt hlb)) (ta'.same _ hla)
  · by_cases hlb : (l, Mode.mut) ∈ b.footprint cfg
    · exact SameAt.trans' (SameAt.symm' (tb'.same _ hlb)) (fab.sameAt hla)
    · exact SameAt.trans' (SameAt.symm' (fba.sameAt hlb)) (SameAt.trans' (SameAt.symm' (fa.sameAt hla))
        (SameAt.trans' (fb.sameAt hlb) (fab.sameAt hla)))

end Xecs
