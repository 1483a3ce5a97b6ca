import Verif.Proofs.Discipline
import Verif.Proofs.Creating
import Verif.Proofs.GroupQueries
/-
What queries return while disciplined clients share the world.
-/
set_option autoImplicit false
namespace Xecs
open Spec World Hist
variable {V : Type}

/-! ### Queries in consistent worlds -/

theorem state_answer {s : State V} (q : Query) (id : Nat) :
    Parts (fun _ => True) (fun k a b => s.member k a b id = (s.has a id && s.has b id)) q →
    s.point q id = q.answer s.get id ∧ s.yields q id = q.answer s.get id := by
  induction q with
  | comp m t => intro _; simp only [State.point, State.yields, Query.answer, and_self]
  | with2 a b iha ihb =>
    intro hd
    have ⟨a1, a2⟩ := iha hd.1; have ⟨b1, b2⟩ := ihb hd.2
    simp only [State.point, State.yields, Query.answer, a1, a2, b1, and_self]; rfl
  | with3 a b c iha ihb ihc =>
    intro hd
    have ⟨a1, a2⟩ := iha hd.1; have ⟨b1, b2⟩ := ihb hd.2.1; have ⟨c1, c2⟩ := ihc hd.2.2
    simp only [State.point, State.yields, Query.answer, a1, a2, b1, c1, and_self]; rfl
  | with4 a b c d iha ihb ihc ihd =>
    intro hd
    have ⟨a1, a2⟩ := iha hd.1; have ⟨b1, b2⟩ := ihb hd.2.1
    have ⟨c1, c2⟩ := ihc hd.2.2.1; have ⟨d1, d2⟩ := ihd hd.2.2.2
    simp only [State.point, State.yields, Query.answer, a1, a2, b1, c1, d1, and_self]; rfl
  | with5 a b c d e iha ihb ihc ihd ihe =>
    intro hd
    have ⟨a1, a2⟩ := iha hd.1; have ⟨b1, b2⟩ := ihb hd.2.1
    have ⟨c1, c2⟩ := ihc hd.2.2.1; have ⟨d1, d2⟩ := ihd hd.2.2.2.1
    have ⟨e1, e2⟩ := ihe hd.2.2.2.2
    simp only [State.point, State.yields, Query.answer, a1, a2, b1, c1, d1, e1, and_self]; rfl
  | withoutL a b iha ihb =>
    intro hd
    have ⟨a1, a2⟩ := iha hd.1; have ⟨b1, b2⟩ := ihb hd.2
    simp only [State.point, State.yields, Query.answer, a1, b1, b2, and_self]
  | withoutR a b iha ihb =>
    intro hd
    have ⟨a1, a2⟩ := iha hd.1; have ⟨b1, b2⟩ := ihb hd.2
    simp only [State.point, State.yields, Query.answer, a1, a2, b1, and_self]
  | group k ma mb a b =>
    intro hm
    have hm : s.member k a b id = (s.has a id && s.has b id) := hm
    have hp : s.pairOf a b id = (Query.group k ma mb a b).answer s.get id := by
      simp only [State.pairOf, Query.answer]; rfl
    have hi : (if s.member k a b id = true then s.pairOf a b id else none) = s.pairOf a b id := by
      rw [hm, ← pairOf_isSome]
      cases s.pairOf a b id <;> simp
    refine ⟨?_, by rw [State.yields, hi, hp]⟩
    cases k with
    | full => exact hp
    | part => exact hp
    | non => rw [State.point, hi, hp]

/-- The list a query yields in a consistent world. -/
theorem rel_lists {w : World V} {s : State V} (h : WRel w s) {q : Query} (hd : s.Defined q) (hf : s.FreshIn q)
    (hc : q.Conflictless) : ∃ l, Yields w q l ∧ Lists l (s.yields q) := by
  obtain ⟨n1, n2⟩ := rest_spec h q hd
  have hall := queryAll_eq h q hd hf hc
  let g : Nat → Option (Nat × Item V) := fun id => (s.yields q id).map fun x => (id, x)
  have key : ∀ l : List Nat, (∀ id ∈ l, (s.yields q id).isSome = true) → (l.filterMap g).map Prod.fst = l ∧
      l.map (fun id => (id, w.derefItem (place w id q))) = (l.filterMap g).map fun x => (x.1, some x.2) := by
    intro l
    induction l with
    | nil => intro _; exact ⟨rfl, rfl⟩
    | cons id l ih =>
      intro hl
      obtain ⟨v, hv⟩ := Option.isSome_iff_exists.1 (hl id (by simp))
      obtain ⟨i1, i2⟩ := ih (fun x hx => hl x (by simp [hx]))
      have : g id = some (id, v) := by simp [g, hv]
      simp only [List.filterMap_cons, this, List.map_cons, i1, i2, place_deref h q (yields_point q hv), and_self]
  obtain ⟨g1, g2⟩ := key (rest w s q 0) (fun id hid => (n2 id).1 hid)
  refine ⟨(rest w s q 0).filterMap g, ?_, by rw [g1]; exact n1, ?_⟩
  · simp only [Yields, World.results, hall, ok_bind, List.map_map]
    rw [← g2]; rfl
  · intro id x
    rw [List.mem_filterMap]
    constructor
    · rintro ⟨e, _, hx⟩
      simp only [g, Option.map_eq_some_iff, Prod.mk.injEq] at hx
      obtain ⟨v, hv, rfl, rfl⟩ := hx
      exact hv
    · intro hx
      exact ⟨id, (n2 id).2 (by rw [hx]; rfl), by simp [g, hx]⟩

/-! ### Groups keep their places -/

/-- Two abstract states have the same groups, apart from their contents. -/
def SameTags (s s' : State V) : Prop := ∀ k : Nat, (s'.groups[k]?).map tag = (s.groups[k]?).map tag

theorem sameTags {cfg : Config} {w w' : World V} {s s' : State V} (h : WRel w s) (hm : cfg.groups = w.groups.map Group.shape)
    (h' : WRel w' s') (hm' : cfg.groups = w'.groups.map Group.shape) : SameTags s s' := by
  intro k
  cases hk : s.groups[k]? with
  | none =>
    cases hk' : s'.groups[k]? with
    | none => rfl
    | some g' =>
      obtain ⟨g, hg, _⟩ := sgroup_at h hm (shape_at h' hm' hk')
      rw [hk] at hg; cases hg
  | some g =>
    obtain ⟨g', hg', e⟩ := sgroup_at h' hm' (shape_at h hm hk)
    rw [hg']
    simp only [Shape.mk.injEq] at e
    simp only [Option.map_some, tag, Option.some.injEq, Prod.mk.injEq]
    exact ⟨(toKind_inj e.1).symm, e.2.1.symm, e.2.2.symm⟩

theorem SameTags.group {s s' : State V} (h : SameTags s s') {k : Nat} {g : SGroup} (hk : s.groups[k]? = some g) :
    ∃ g', s'.groups[k]? = some g' ∧ tag g' = tag g := by
  have := h k
  rw [hk, Option.map_some, Option.map_eq_some_iff] at this
  exact this

theorem group?_at {w : World V} {s : State V} (h : Rel w s) {k : Nat} {g : SGroup} {K : Kind} {a b : Nat}
    (hk : s.groups[k]? = some g) (ht : tag g = (ofKind K, a, b)) : s.group? K a b = some g := by
  simp only [tag, Prod.mk.injEq] at ht
  have hmem := List.mem_of_getElem? hk
  have hsome : (s.group? K a b).isSome = true := by
    rw [State.group?, List.find?_isSome]
    exact ⟨g, hmem, by simp [ht]⟩
  obtain ⟨g', hg'⟩ := Option.isSome_iff_exists.1 hsome
  rw [hg']
  have hm' := List.mem_of_find?_eq_some hg'
  have hp := List.find?_some hg'
  simp only [Bool.and_eq_true, beq_iff_eq] at hp
  obtain ⟨k', hk'⟩ := List.getElem?_of_mem hm'
  by_cases e : k = k'
  · subst e; rw [hk] at hk'; exact hk'.symm
  · exact absurd ⟨by rw [ht.1, hp.1.1], by rw [ht.2.1, hp.1.2], by rw [ht.2.2, hp.2]⟩ (h.dist k k' g g' hk hk' e)

theorem group?_index {s : State V} {K : Kind} {a b : Nat} {g : SGroup} (h : s.group? K a b = some g) :
    ∃ k : Nat, s.groups[k]? = some g ∧ tag g = (ofKind K, a, b) := by
  obtain ⟨k, hk⟩ := List.getElem?_of_mem (List.mem_of_find?_eq_some h)
  have hp := List.find?_some h
  simp only [Bool.and_eq_true, beq_iff_eq] at hp
  exact ⟨k, hk, by simp [tag, hp]⟩

/-! ### Shared worlds -/

/-- The groups of the history not bypassed by a batch attach. -/
def Synced (tr : List (Op V × Out V)) (s0 : State V) (k : Nat) : Prop :=
  ∃ g, s0.groups[k]? = some g ∧ batchSince g.kind g.a g.b tr = false

theorem disc_start {tr : List (Op V × Out V)} {w : World V} {s0 : State V} (hr : Origin tr w s0) {order : List Nat}
    (k : Nat) (g : Shape) (id : Nat) (ht : Synced tr s0 k) (hk : (Config.of w order).groups[k]? = some g)
    (ha : s0.has g.a id = true) (hb : s0.has g.b id = true) : memAt s0 k id = true := by
  obtain ⟨g0, h1, h2⟩ := ht
  have := shape_at (cfg := Config.of w order) hr.rel.core rfl h1
  rw [hk] at this; cases this
  have := hr.groups.sync g0 (List.mem_of_getElem? h1) h2 id
  simp only at ha hb
  simp only [memAt, h1, this, State.both, ha, hb, Bool.and_self]

section
variable {tr : List (Op V × Out V)} {w : World V} {s0 s : State V} {order : List Nat} {σ : Sys V} {cl : Nat → Claim}

theorem rel_defined (hr : Origin tr w s0) (ho : Enumerates w order) (hb : Basics (Config.of w order) σ)
    (hrel : Rel σ.world s) {q : Query} (hq : Exists tr q) : s.Defined q := by
  have htags := sameTags (cfg := Config.of w order) hr.rel.core rfl hrel.core hb.mat.groups
  have hreg : ∀ t, (s0.comp t).isSome = true → (s.comp t).isSome = true := by
    intro t ht
    have h1 := hasRegistered_eq hr.rel.core t
    have h2 := hasRegistered_eq hrel.core t
    rw [← h2]
    exact (hb.mat.order t).1 (((matches_of ho).order t).2 (h1.trans ht))
  rw [← hr.defined, defined_iff] at hq
  rw [defined_iff]
  refine Parts.imp hreg ?_ q hq
  rintro k a b ⟨h1, h2, h3⟩
  refine ⟨hreg a h1, hreg b h2, ?_⟩
  obtain ⟨g, hg⟩ := Option.isSome_iff_exists.1 h3
  obtain ⟨i, h4, h5⟩ := group?_index hg
  obtain ⟨g', h6, h7⟩ := htags.group h4
  rw [group?_at hrel h6 (h7.trans h5)]; rfl

theorem shared_defined (hr : Origin tr w s0) (ho : Enumerates w order) (hb : Basics (Config.of w order) σ)
    (hd : Disc (Config.of w order) (Synced tr s0) cl s σ) {q : Query} (hq : Exists tr q) : s.Defined q :=
  rel_defined hr ho hb hd.rel hq

/-- The group named by a query. -/
theorem rel_group (hr : Origin tr w s0) (hb : Basics (Config.of w order) σ)
    (hrel : Rel σ.world s) {K : Kind} {a b : Nat} {g : SGroup} (hg : s.group? K a b = some g) :
    ∃ (k : Nat) (g0 : SGroup), s.groups[k]? = some g ∧ s0.groups[k]? = some g0 ∧ g0.kind = ofKind K ∧ g0.a = a ∧
      g0.b = b ∧ g.a = a ∧ g.b = b ∧ s0.group? K a b = some g0 := by
  have htags := sameTags (cfg := Config.of w order) hrel.core hb.mat.groups hr.rel.core rfl
  obtain ⟨i, h4, h5⟩ := group?_index hg
  obtain ⟨g', h6, h7⟩ := htags.group h4
  have h8 := h7.trans h5
  have h9 := group?_at hr.rel h6 h8
  simp only [tag, Prod.mk.injEq] at h5 h8
  exact ⟨i, g', h4, h6, h8.1, h8.2.1, h8.2.2, h5.2.1, h5.2.2, h9⟩

theorem shared_group (hr : Origin tr w s0) (hb : Basics (Config.of w order) σ) {T : Nat → Prop}
    (hd : Disc (Config.of w order) T cl s σ) {K : Kind} {a b : Nat} {g : SGroup} (hg : s.group? K a b = some g) :
    ∃ (k : Nat) (g0 : SGroup), s.groups[k]? = some g ∧ s0.groups[k]? = some g0 ∧ g0.kind = ofKind K ∧ g0.a = a ∧
      g0.b = b ∧ g.a = a ∧ g.b = b ∧ s0.group? K a b = some g0 := rel_group hr hb hd.rel hg

/-- Nobody claims anything when no call is running. -/
theorem Disc.quiet {cfg : Config} {T : Nat → Prop} (hd : Disc cfg T cl s σ) (hq : σ.Quiet) (i : Nat) : cl i = none := by
  cases hi : σ.threads[i]? with
  | none => exact hd.bound i hi
  | some th =>
    have h1 := hd.ok i th hi
    have h2 := hq th (List.mem_of_getElem? hi)
    rcases hc : cl i with _ | ⟨id, _ | _⟩
    · rfl
    · rw [hc] at h1; obtain ⟨_, _, c, h3, _⟩ := h1; rw [h2] at h3; cases h3
    · rw [hc] at h1; obtain ⟨_, _, ⟨c, h3, _⟩, _⟩ := h1; rw [h2] at h3; cases h3

/-- Every group not bypassed by batch attaches is complete; `B` are the types of which batches have been attached
meanwhile. -/
def FullyIn (tr : List (Op V × Out V)) (s0 s : State V) (cfg : Config) (B : Nat → Prop) : Prop :=
  ∀ (k : Nat) g id, Synced tr s0 k → cfg.groups[k]? = some g → ¬ B g.a → ¬ B g.b → s.has g.a id = true →
    s.has g.b id = true → memAt s k id = true

/-- When no call is running every group not bypassed by batch attaches is complete. -/
theorem Disc.fully (hd : Disc (Config.of w order) (Synced tr s0) cl s σ) (hq : σ.Quiet) :
    FullyIn tr s0 s (Config.of w order) fun _ => False := by
  intro k g id ht hk _ _ ha hb
  rcases hd.complete k g id ht hk ha hb with h | ⟨j, b', th, _, hc, _⟩
  · exact h
  · rw [hd.quiet hq] at hc; cases hc

theorem rel_member (hr : Origin tr w s0) (hb : Basics (Config.of w order) σ) (hrel : Rel σ.world s)
    {B : Nat → Prop} (hfull : FullyIn tr s0 s (Config.of w order) B) {K : Kind} {a b : Nat}
    (hm : (s.group? K a b).isSome = true) (hu : batchSince (ofKind K) a b tr = false) (hB : ¬ B a ∧ ¬ B b) (id : Nat) :
    s.member K a b id = (s.has a id && s.has b id) := by
  obtain ⟨g, hg⟩ := Option.isSome_iff_exists.1 hm
  obtain ⟨k, g0, h1, h2, h3, h4, h5, h6, h7, _⟩ := rel_group hr hb hrel hg
  have hmem : memAt s k id = s.member K a b id := by simp only [memAt, h1, State.member, hg]
  rw [← hmem]
  have hsh := shape_at (cfg := Config.of w order) hrel.core hb.mat.groups h1
  have hT : Synced tr s0 k := ⟨g0, h2, by rw [h3, h4, h5]; exact hu⟩
  rw [Bool.eq_iff_iff, Bool.and_eq_true]
  constructor
  · intro h
    obtain ⟨g', e1, e2⟩ := memAt_both hrel.core h
    rw [h1] at e1; cases e1; rw [h6, h7] at e2; exact e2
  · rintro ⟨ha, hb'⟩
    exact hfull k _ id hT hsh (by simp only [h6]; exact hB.1) (by simp only [h7]; exact hB.2) (by simp only [h6]; exact ha) (by simp only [h7]; exact hb')

theorem rel_answer (hr : Origin tr w s0) (ho : Enumerates w order) (hb : Basics (Config.of w order) σ)
    (hrel : Rel σ.world s) {B : Nat → Prop} (hfull : FullyIn tr s0 s (Config.of w order) B) {q : Query} (he : Exists tr q)
    (hu : Unbatched tr q) (hB : Parts (fun _ => True) (fun _ a b => ¬ B a ∧ ¬ B b) q) (id : Nat) : s.yields q id = q.answer σ.world.value id := by
  have hv : (fun t e => σ.world.value t e) = s.get := by
    funext t e; exact value_eq hrel t e
  rw [show (σ.world.value) = s.get from hv]
  refine (state_answer q id ?_).2
  have hdef := rel_defined hr ho hb hrel he
  rw [defined_iff] at hdef
  have : Parts (fun _ => True) (fun k a b => (s.group? k a b).isSome = true ∧ batchSince (ofKind k) a b tr = false ∧
      ¬ B a ∧ ¬ B b) q := by
    revert hdef hu hB
    generalize s.comp = cc
    clear he
    induction q with
    | comp m t => intro _ _ _; trivial
    | with2 a b iha ihb => exact fun h1 h2 h3 => ⟨iha h1.1 h2.1 h3.1, ihb h1.2 h2.2 h3.2⟩
    | with3 a b c iha ihb ihc =>
      exact fun h1 h2 h3 => ⟨iha h1.1 h2.1 h3.1, ihb h1.2.1 h2.2.1 h3.2.1, ihc h1.2.2 h2.2.2 h3.2.2⟩
    | with4 a b c d iha ihb ihc ihd =>
      exact fun h1 h2 h3 => ⟨iha h1.1 h2.1 h3.1, ihb h1.2.1 h2.2.1 h3.2.1, ihc h1.2.2.1 h2.2.2.1 h3.2.2.1,
        ihd h1.2.2.2 h2.2.2.2 h3.2.2.2⟩
    | with5 a b c d e iha ihb ihc ihd ihe =>
      exact fun h1 h2 h3 => ⟨iha h1.1 h2.1 h3.1, ihb h1.2.1 h2.2.1 h3.2.1, ihc h1.2.2.1 h2.2.2.1 h3.2.2.1,
        ihd h1.2.2.2.1 h2.2.2.2.1 h3.2.2.2.1, ihe h1.2.2.2.2 h2.2.2.2.2 h3.2.2.2.2⟩
    | withoutL a b iha ihb => exact fun h1 h2 h3 => ⟨iha h1.1 h2.1 h3.1, ihb h1.2 h2.2 h3.2⟩
    | withoutR a b iha ihb => exact fun h1 h2 h3 => ⟨iha h1.1 h2.1 h3.1, ihb h1.2 h2.2 h3.2⟩
    | group k ma mb a b => exact fun h2 h3 h1 => ⟨h1.2.2, h2, h3⟩
  exact Parts.imp (fun _ h => h) (fun k a b h => rel_member hr hb hrel hfull h.1 h.2.1 h.2.2 id) q this

theorem Parts.all {P : Kind → TypeId → TypeId → Prop} (h : ∀ k a b, P k a b) : ∀ q, Parts (fun _ => True) P q
  | .comp _ _ => trivial
  | .with2 a b => ⟨all h a, all h b⟩
  | .with3 a b c => ⟨all h a, all h b, all h c⟩
  | .with4 a b c d => ⟨all h a, all h b, all h c, all h d⟩
  | .with5 a b c d e => ⟨all h a, all h b, all h c, all h d, all h e⟩
  | .withoutL a b => ⟨all h a, all h b⟩
  | .withoutR a b => ⟨all h a, all h b⟩
  | .group k _ _ a b => h k a b

theorem shared_answer (hr : Origin tr w s0) (ho : Enumerates w order) (hb : Basics (Config.of w order) σ)
    (hd : Disc (Config.of w order) (Synced tr s0) cl s σ) (hq : σ.Quiet) {q : Query} (he : Exists tr q)
    (hu : Unbatched tr q) (id : Nat) : s.yields q id = q.answer σ.world.value id :=
  rel_answer hr ho hb hd.rel (hd.fully hq) he hu (Parts.all (fun _ _ _ => ⟨fun h => h, fun h => h⟩) q) id

/-! ### Freshness of non-owning groups while attaching -/

/-- Non-owning groups whose positions were right, and over whose types no owning group exists, still have the
right positions. -/
def FreshSince (s0 s : State V) : Prop :=
  ∀ (k : Nat) g0 g, s0.groups[k]? = some g0 → s.groups[k]? = some g → g0.fresh = true →
    (∀ (j : Nat) gj, s0.groups[j]? = some gj → gj.owns g0.a = false ∧ gj.owns g0.b = false) → g.fresh = true

theorem FreshSince.refl (s : State V) : FreshSince s s := by
  intro k g0 g h1 h2 h3 _
  rw [h1] at h2; cases h2; exact h3

theorem FreshSince.step {s0 s s' : State V} (h : FreshSince s0 s) (ht : SameTags s0 s) (hk : FreshKept s s') :
    FreshSince s0 s' := by
  intro k g0 g' h1 h2 h3 h4
  obtain ⟨g, h5, h6, h7, h8⟩ := hk k g' h2
  obtain ⟨g1, h9, h10⟩ := ht.group h1
  rw [h5] at h9; cases h9
  have hab : g.a = g0.a ∧ g.b = g0.b := by simp only [tag, Prod.mk.injEq] at h10; exact h10.2
  refine h8 (h k g0 g h1 h5 h3 h4) ?_
  intro j gj hj
  have hj' := ht j
  rw [hj] at hj'
  cases hj0 : s0.groups[j]? with
  | none => rw [hj0] at hj'; cases hj'
  | some gj0 =>
    rw [hj0] at hj'
    simp only [Option.map_some, Option.some.injEq] at hj'
    rw [owns_tag hj', owns_tag hj', hab.1, hab.2]
    exact h4 j gj0 hj0

theorem shared_fresh (hr : Origin tr w s0) (hb : Basics (Config.of w order) σ) {T : Nat → Prop}
    (hd : Disc (Config.of w order) T cl s σ) (hf : FreshSince s0 s) {q : Query}
    (hu : Unmoved tr q) : s.FreshIn q := by
  rw [freshIn_iff]
  refine Parts.imp (fun _ h => h) ?_ q hu
  intro K a b hm hk g hg
  obtain ⟨h1, h2, h3⟩ := hm hk
  obtain ⟨k, g0, i1, i2, i3, i4, i5, i6, i7, _⟩ := shared_group hr hb hd hg
  have hmem := List.mem_of_getElem? i2
  subst i4 i5
  have hfr := hr.groups.fresh g0 hmem (by rw [i3, hk]; rfl) h1 h2 h3
  refine hf k g0 g i2 i1 hfr ?_
  intro j gj hj
  have hn : ∀ t, ownedEver t tr = false → gj.owns t = false := by
    intro t ht
    cases ho : gj.owns t with
    | false => rfl
    | true =>
      rw [(hr.groups.owned t).2 ⟨gj, List.mem_of_getElem? hj, ho⟩] at ht
      cases ht
  exact ⟨hn _ h2, hn _ h3⟩

/-! ### Clients that only attach -/

/-- What such clients' threads look like. -/
def Attached (σ : Sys V) : Prop :=
  ∀ (i : Nat) th, σ.threads[i]? = some th → th.prog.NoEm ∧ (th.subject ≠ none → th.call.map ApiCall.soft = some true)

theorem Attached.set {σ σ' : Sys V} {i : Nat} {th' : Thread V} (h : Attached σ)
    (hj : ∀ j, σ'.threads[j]? = if j = i then some th' else σ.threads[j]?)
    (hn : th'.prog.NoEm ∧ (th'.subject ≠ none → th'.call.map ApiCall.soft = some true)) : Attached σ' := by
  intro j thj hthj
  rw [hj j] at hthj
  split at hthj
  · cases hthj; exact hn
  · exact h j thj hthj

theorem Attached.step {cfg : Config} {σ σ' : Sys V} (h : Attached σ) (hs : σ.Step cfg Sys.attaching σ') :
    Attached σ' ∧ σ.Step cfg (Sys.disciplined cfg) σ' := by
  cases hs with
  | start h1 h2 h3 =>
    rename_i i th c
    refine ⟨h.set (fun j => setThread_threads σ _ _ j h1) ⟨?_, ?_⟩, .start h1 h2 ?_⟩
    · refine Prog.noEm_call ?_ ?_ ?_ <;> intros <;> rintro rfl <;> exact h3
    · cases c with
      | on id sc => intro _; simp only [Option.map_some]; rw [h3.2]
      | remove id => exact False.elim h3
      | _ => intro hn; exact absurd rfl hn
    · cases c with
      | on id sc =>
        refine ⟨h3.1, .inr ⟨h3.2, ?_⟩⟩
        intro thj hj hsub
        obtain ⟨j, hj⟩ := List.getElem?_of_mem hj
        exact (h j thj hj).2 (by rw [hsub]; simp)
      | remove id => exact False.elim h3
      | createMany n bs => exact False.elim h3
      | _ => trivial
  | acq h1 h2 h3 =>
    rename_i i th l m p
    have := h i th h1; rw [h2] at this
    exact ⟨h.set (fun j => setThread_threads σ _ _ j h1) this, .acq h1 h2 h3⟩
  | rel h1 h2 =>
    rename_i i th l m p
    have := h i th h1; rw [h2] at this
    exact ⟨h.set (fun j => setThread_threads σ _ _ j h1) this, .rel h1 h2⟩
  | act h1 h2 h3 =>
    rename_i i th a f w r
    have := h i th h1; rw [h2] at this
    refine ⟨h.set (fun j => setThread_threads { σ with world := w } _ _ j h1) ⟨this.1.2 r, ?_⟩, .act h1 h2 h3⟩
    have he : a.subjectAfter r th.subject = th.subject := by
      have := this.1.1
      cases a <;> first | rfl | exact False.elim this
    simp only [he]; exact this.2
  | fault h1 h2 h3 h4 =>
    rename_i i th a f w e c
    exact ⟨h.set (fun j => setThread_threads { σ with world := w } _ _ j h1) ⟨trivial, fun h => absurd rfl h⟩, .fault h1 h2 h3 h4⟩
  | panic h1 h2 h3 =>
    exact ⟨h.set (fun j => setThread_threads σ _ _ j h1) ⟨trivial, fun h => absurd rfl h⟩, .panic h1 h2 h3⟩
  | ret h1 h2 h3 =>
    exact ⟨h.set (fun j => setThread_threads σ _ _ j h1) ⟨trivial, fun h => absurd rfl h⟩, .ret h1 h2 h3⟩

theorem Attached.init (w : World V) (n : Nat) : Attached (Sys.init w n) := by
  intro i th hi
  have := List.mem_of_getElem? hi
  rw [Sys.init, List.mem_replicate] at this
  rw [this.2]
  exact ⟨trivial, fun h => absurd rfl h⟩

theorem disc_attaching (hr : Origin tr w s0) (ho : Enumerates w order) {n : Nat}
    (h : (Sys.init w n).Sched (Config.of w order) Sys.attaching σ) :
    Basics (Config.of w order) σ ∧ ∃ cl s, Disc (Config.of w order) (Synced tr s0) cl s σ ∧ FreshSince s0 s := by
  refine (h.inv (P := fun σ => Attached σ ∧ Basics (Config.of w order) σ ∧
    ∃ cl s, Disc (Config.of w order) (Synced tr s0) cl s σ ∧ FreshSince s0 s) ⟨Attached.init w n, ?_⟩ ?_).2
  · refine ⟨Basics.init ho n, fun _ => none, s0, ⟨hr.rel, ?_, by simp, by simp, ?_, by simp [Sys.init]⟩, .refl s0⟩
    · intro i th hi
      have := List.mem_of_getElem? hi
      rw [Sys.init, List.mem_replicate] at this
      rw [this.2]
      exact ⟨trivial, by simp [Thread.idle]⟩
    · intro k g id ht hk ha hb
      exact .inl (disc_start hr k g id ht hk ha hb)
  · rintro σ σ' ⟨hat, hb, cl, s, hd, hf⟩ hs
    obtain ⟨hat', hs'⟩ := hat.step hs
    obtain ⟨s', hk, cl', hd'⟩ := hd.step hb hs'
    refine ⟨hat', hb.step hs', cl', s', hd', hf.step ?_ (hk ?_)⟩
    · exact sameTags (cfg := Config.of w order) hr.rel.core rfl hd.rel.core hb.mat.groups
    · intro i id hc
      cases hi : σ.threads[i]? with
      | none => rw [hd.bound i hi] at hc; cases hc
      | some th =>
        have := hd.ok i th hi
        rw [hc] at this
        obtain ⟨_, h1, ⟨c, h2, h3⟩, _⟩ := this
        have := (hat i th hi).2 (by rw [h1]; simp)
        rw [h2] at this
        simp [h3] at this

theorem disc_disciplined (hr : Origin tr w s0) (ho : Enumerates w order) {n : Nat}
    (h : (Sys.init w n).Sched (Config.of w order) (Sys.disciplined (Config.of w order)) σ) :
    Basics (Config.of w order) σ ∧ ∃ cl s, Disc (Config.of w order) (Synced tr s0) cl s σ :=
  disc_sched hr.rel ho (fun k g id ht hk ha hb => disc_start hr k g id ht hk ha hb) h

/-- The items of a group query in a consistent world. -/
theorem state_pair {w : World V} (h : Rel w s) {k : Kind} {ma mb : Mode} {a b : Nat} {id : Nat} {x : Item V}
    (hx : s.yields (.group k ma mb a b) id = some x) : bothOf (w.value a id) (w.value b id) = some x := by
  rw [value_eq h, value_eq h]
  simp only [State.yields] at hx
  split at hx
  · rw [← hx]; simp only [State.pairOf, bothOf]; cases s.get a id <;> cases s.get b id <;> rfl
  · cases hx

end
end Xecs
