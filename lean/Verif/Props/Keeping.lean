import Verif.Proofs.KeepingGuards
import Verif.Props.Linear
import Verif.Props.Sharing
/-
C51 and C52: clients that keep handles, storage guards, open queries and resource guards while they make other calls.
-/
set_option autoImplicit false
namespace Xecs
open Spec World Hist

variable {V : Type} {w : World V} {n : Nat} {order : List TypeId} {may : KSys V → Nat → KCall V → Prop} {τ τ' : KSys V}

/-! ### C51 -/

/-- **C51.** Whatever the clients keep, at no moment of any schedule do two guards on one lock coexist of which one is a
write guard. -/
theorem C51_exclusion (ho : Enumerates w order) (hs : (KSys.init w n).Sched (Config.of w order) may τ) : τ.Exclusive := by
  obtain ⟨_, _, _, _, hg⟩ := kreach ho hs
  exact hg.excl.exclusive

/-- **C51.** All work is done under guards, either taken for the call or kept. -/
theorem C51_guarded (ho : Enumerates w order) (hs : (KSys.init w n).Sched (Config.of w order) may τ) {i : Nat} {a : Act V}
    (ha : τ.AboutTo i a) :
    ∃ th, τ.threads[i]? = some th ∧ ∀ g ∈ a.footprint (Config.of w order), Covers th.held g := by
  obtain ⟨_, _, hk, hb, _⟩ := kreach ho hs
  obtain ⟨th, f, h1, h2⟩ := ha.thread
  exact ⟨th, h1, fun g hg => hk.covers hb h1 h2 hg⟩

/-- **C51.** There are no data races, neither between the work of two threads nor between the work of a thread and
accesses of another one through what it keeps (the latter may happen at any time). -/
theorem C51_no_race (ho : Enumerates w order) (hs : (KSys.init w n).Sched (Config.of w order) may τ) {i j : Nat}
    (hij : i ≠ j) {b : Act V} (hb : τ.AboutTo j b) :
    (∀ a, τ.AboutTo i a → ∀ g ∈ a.footprint (Config.of w order), ∀ g' ∈ b.footprint (Config.of w order), ¬ g.clash g') ∧
    (∀ g, τ.KeepsGuard (Config.of w order) i g → ∀ g' ∈ b.footprint (Config.of w order), ¬ g.clash g') := by
  obtain ⟨_, _, hk, hba, hg⟩ := kreach ho hs
  refine ⟨fun a ha g hg1 g' hg2 hc => ?_, fun g h1 g' h2 => hk.untouched hba hg.excl hij h1 hb h2⟩
  obtain ⟨thi, fi, hi, pi⟩ := ha.thread
  obtain ⟨thj, fj, hj, pj⟩ := hb.thread
  have key : ∀ (h1 h2 : Guard), h1 ∈ thi.held → h2 ∈ thj.held → h1.1 = h2.1 → (h1.2 = .mut ∨ h2.2 = .mut) → False :=
    fun h1 h2 m1 m2 e o => hg.excl.cross i j thi thj hi hj hij h1 m1 h2 m2 ⟨e, o⟩
  rcases hk.covers hba hi pi hg1 with c1 | c1 <;> rcases hk.covers hba hj pj hg2 with c2 | c2
  · exact key g g' c1 c2 hc.1 hc.2
  · exact key g _ c1 c2 hc.1 (.inr rfl)
  · exact key _ g' c1 c2 hc.1 (.inl rfl)
  · exact key _ _ c1 c2 hc.1 (.inl rfl)

/-- **C51.** The guards of what a thread keeps are held; between calls -- also after a panic -- a thread holds nothing
else. -/
theorem C51_held (ho : Enumerates w order) (hs : (KSys.init w n).Sched (Config.of w order) may τ) {i : Nat}
    {th : KThread V} (hi : τ.threads[i]? = some th) :
    (∀ k ∈ th.kept, ∀ g ∈ k.guards (Config.of w order), g ∈ th.held) ∧
    (th.call = none → th.held.Perm (th.kept.flatMap (Keep.guards (Config.of w order)))) := by
  obtain ⟨_, _, hk, _, _⟩ := kreach ho hs
  obtain ⟨b, _, hsim⟩ := hk.partner hi
  refine ⟨fun k hkk g hg => hsim.kept (List.mem_flatMap.2 ⟨k, hkk, hg⟩), fun hc => ?_⟩
  cases hsim with
  | idle _ _ _ _ h => exact h
  | off h => rw [hc] at h; cases h
  | on h => rw [hc] at h; cases h

/-- Read guards: nothing that one protects changes. -/
theorem kept_same (ho : Enumerates w order) (hs : (KSys.init w n).Sched (Config.of w order) may τ) {i : Nat} {l : Lock}
    {P : KSys V → Prop} (hP : ∀ τ, P τ → τ.KeepsGuard (Config.of w order) i (l, .ref))
    (hw : τ.SchedWhile (Config.of w order) may P τ') : Sys.SameAt τ.world τ'.world l := by
  have key : (KSys.init w n).Sched (Config.of w order) may τ' ∧ P τ' ∧ Sys.SameAt τ.world τ'.world l := by
    induction hw with
    | refl hp => exact ⟨hs, hp, by cases l <;> rfl⟩
    | step _ hst hp ih =>
      obtain ⟨h1, h2, h3⟩ := ih
      obtain ⟨_, _, hk, hb, hg⟩ := kreach ho h1
      obtain ⟨th, k1, _, k2⟩ := hk.keeps (hP _ h2)
      exact ⟨.step h1 hst, hp, SameAt.trans' h3 (hk.stable hb hg.excl hst k1 k2 (.inl rfl))⟩
  exact key.2.2

/-- **C51.** What a call that has just returned leaves in the hands of its client: the handle of the entity or entities it returned, the guard it was
asked for (if there is such a storage or resource), the query it opened. -/
theorem C51_gives {cfg : Config} (hs : τ.Step cfg may τ') {i : Nat} {c : KCall V} {rs : List (Ret V)} (hl : τ'.log = (i, c, some rs) :: τ.log) :
    (∀ id, c = .openHandle id → τ'.Keeps i (.handle id)) ∧
    (∀ id, c = .createHandle → rs = [.id id] → τ'.Keeps i (.handle id)) ∧
    (∀ m bs start stop, c = .createHandles m bs → rs = [.range start stop] → τ'.Keeps i (.handles start stop)) ∧
    (∀ t m, c = .openStore t m → cfg.registered t = true → τ'.Keeps i (.store t m)) ∧
    (∀ q, c = .openView q → τ'.Keeps i (.view q)) ∧
    (∀ t m, c = .openRes t m → cfg.res t = true → τ'.Keeps i (.res t m)) := by
  have key : ∀ k, k ∈ c.keeps cfg rs → τ'.Keeps i k := by
    intro k hk
    cases hs with
    | ret h1 h2 h3 =>
      simp only [KSys.finish, KSys.setThread, List.cons.injEq, Prod.mk.injEq, Option.some.injEq, and_true] at hl
      obtain ⟨rfl, rfl, rfl⟩ := hl
      exact ⟨_, (kfinish_threads τ _ _ _ _ _ h1).trans (if_pos rfl), List.mem_append_left _ hk⟩
    | fault h1 h2 h3 h4 => simp [KSys.finish, KSys.setThread] at hl
    | panic h1 h2 h3 => simp [KSys.finish, KSys.setThread] at hl
    | start h1 h2 h3 h4 => simp [KSys.setThread] at hl
    | acq h1 h2 h3 => simp [KSys.setThread] at hl
    | rel h1 h2 => simp [KSys.setThread] at hl
    | act h1 h2 h3 => simp [KSys.setThread] at hl
  refine ⟨?_, ?_, ?_, ?_, ?_, ?_⟩
  · rintro id rfl; exact key _ (by simp [KCall.keeps])
  · rintro id rfl rfl; exact key _ (by simp [KCall.keeps])
  · rintro m bs start stop rfl rfl; exact key _ (by simp [KCall.keeps])
  · rintro t m rfl h; exact key _ (by simp [KCall.keeps, h])
  · rintro q rfl; exact key _ (by simp [KCall.keeps])
  · rintro t m rfl h; exact key _ (by simp [KCall.keeps, h])

/-- **C51.** And it stays there, whatever anybody does, until the client begins to drop it. -/
theorem C51_lasts {cfg : Config} (hs : τ.Step cfg may τ') {i : Nat} {k : Keep} (hk : τ.Keeps i k) :
    τ'.Keeps i k ∨ (τ.running i = none ∧ τ'.running i = some (.drop k)) := by
  obtain ⟨th, h1, h2⟩ := hk
  have other : ∀ {j : Nat} {th' : KThread V}, (∀ (x : Nat), τ'.threads[x]? = if x = j then some th' else τ.threads[x]?) →
      (∀ {thj : KThread V}, τ.threads[j]? = some thj → k ∈ thj.kept → i = j → k ∈ th'.kept) → τ.threads[j]? ≠ none → τ'.Keeps i k := by
    intro j th' ht hi _
    by_cases e : i = j
    · subst e; exact ⟨th', by rw [ht, if_pos rfl], hi h1 h2 rfl⟩
    · exact ⟨th, by rw [ht, if_neg e, h1], h2⟩
  cases hs with
  | start g1 g2 g3 g4 =>
    rename_i j thj c
    by_cases e : i = j
    · subst e
      rw [g1] at h1; cases h1
      by_cases hd : c = .drop k
      · subst hd
        exact .inr ⟨by simp [KSys.running, g1, g2], by simp [KSys.running, kset_threads τ _ _ _ g1]⟩
      · left
        refine ⟨_, (kset_threads τ _ _ _ g1).trans (if_pos rfl), ?_⟩
        cases c with
        | drop k' =>
          have : k' ≠ k := fun e => hd (by rw [e])
          exact (List.mem_erase_of_ne (Ne.symm this)).2 h2
        | _ => exact h2
    · exact .inl (other (fun x => kset_threads τ _ _ x g1) (fun _ _ e' => absurd e' e) (by simp [g1]))
  | acq g1 g2 g3 => exact .inl (other (fun x => kset_threads τ _ _ x g1) (fun hj hk _ => by rw [g1] at hj; cases hj; exact hk) (by simp [g1]))
  | rel g1 g2 => exact .inl (other (fun x => kset_threads τ _ _ x g1) (fun hj hk _ => by rw [g1] at hj; cases hj; exact hk) (by simp [g1]))
  | act g1 g2 g3 => exact .inl (other (fun x => kset_threads { τ with world := _ } _ _ x g1) (fun hj hk _ => by rw [g1] at hj; cases hj; exact hk) (by simp [g1]))
  | fault g1 g2 g3 g4 => exact .inl (other (fun x => kfinish_threads { τ with world := _ } _ _ _ _ x g1) (fun hj hk _ => by rw [g1] at hj; cases hj; exact hk) (by simp [g1]))
  | panic g1 g2 g3 => exact .inl (other (fun x => kfinish_threads τ _ _ _ _ x g1) (fun hj hk _ => by rw [g1] at hj; cases hj; exact hk) (by simp [g1]))
  | ret g1 g2 g3 => exact .inl (other (fun x => kfinish_threads τ _ _ _ _ x g1) (fun hj hk _ => by rw [g1] at hj; cases hj; exact List.mem_append_right _ hk) (by simp [g1]))

/-- **C51.** An entity whose handle is kept is alive, as long as the handle is kept: `exist` says so, in the middle of any
calls of other threads (and of the same one). -/
theorem C51_handle (ho : Enumerates w order) (hs : (KSys.init w n).Sched (Config.of w order) may τ) {i : Nat}
    {id : EntityId} (hk : τ.Keeps i (.handle id)) : World.exist id τ.world = (τ.world, .ok true) := by
  obtain ⟨_, _, _, _, hg⟩ := kreach ho hs
  obtain ⟨th, h1, h2⟩ := hk
  simp [World.exist, M.read, hg.alive i th h1 id h2]

/-- **C51.** While a thread keeps a handle (of any entity or range of entities), no entity is created or removed. -/
theorem C51_handle_protects (ho : Enumerates w order) (hs : (KSys.init w n).Sched (Config.of w order) may τ) {i : Nat}
    {k : Keep} (hk : (∃ id, k = .handle id) ∨ ∃ start stop, k = .handles start stop)
    (hw : τ.SchedWhile (Config.of w order) may (KSys.Keeps i k) τ') :
    τ'.world.em = τ.world.em ∧ ∀ id, (World.exist id τ'.world).2 = (World.exist id τ.world).2 := by
  have : τ.world.em = τ'.world.em := kept_same (l := .em) ho hs (i := i) (fun τ ⟨th, h1, h2⟩ => ⟨th, h1, k, h2, by
    rcases hk with ⟨id, rfl⟩ | ⟨a, b, rfl⟩ <;> simp [Keep.guards]⟩) hw
  exact ⟨this.symm, fun id => by simp only [World.exist, M.read, this]⟩

/-- **C51.** While a thread keeps a read guard on a storage, by itself or in an open query, nobody changes a component of
the type, gives it to an entity or takes it from one. -/
theorem C51_read_storage (ho : Enumerates w order) (hs : (KSys.init w n).Sched (Config.of w order) may τ) {i : Nat}
    {t : TypeId} (hw : τ.SchedWhile (Config.of w order) may (KSys.KeepsGuard (Config.of w order) i (.store t, .ref)) τ') :
    (∀ id, (World.componentRead t id τ'.world).2 = (World.componentRead t id τ.world).2) ∧
    (World.storageCount t τ'.world).2 = (World.storageCount t τ.world).2 ∧
    (World.storageData t τ'.world).2 = (World.storageData t τ.world).2 := by
  have : τ.world.comps t = τ'.world.comps t := kept_same (l := .store t) ho hs (fun _ h => h) hw
  refine ⟨fun id => ?_, ?_, ?_⟩
  · simp only [World.componentRead, M.read, this]
  · simp only [World.storageCount, M.read, this]
  · simp only [World.storageData, M.read, this]

/-- **C51.** While a thread keeps a read guard on a resource, nobody changes it. -/
theorem C51_read_resource (ho : Enumerates w order) (hs : (KSys.init w n).Sched (Config.of w order) may τ) {i : Nat}
    {t : TypeId} (hw : τ.SchedWhile (Config.of w order) may (KSys.KeepsGuard (Config.of w order) i (.res t, .ref)) τ') :
    (World.resourceRead t τ'.world).2 = (World.resourceRead t τ.world).2 := by
  have : τ.world.res t = τ'.world.res t := kept_same (l := .res t) ho hs (fun _ h => h) hw
  simp only [World.resourceRead, M.read, this]

/-- The locks of a query without mutable accesses are read-locked. -/
theorem queryGuards_ref {cfg : Config} : ∀ {q : Query}, (∀ x ∈ q.accesses, x.2 = .ref) → ∀ g ∈ Prog.queryGuards cfg q,
    g.2 = .ref := by
  intro q
  induction q with
  | comp m t => intro h g hg; simp [Prog.queryGuards] at hg; subst hg; exact h (t, m) (by simp [Query.accesses])
  | group k ma mb a b =>
    intro h g hg
    simp only [Prog.queryGuards] at hg
    have h1 := h (a, ma) (by simp [Query.accesses])
    have h2 := h (b, mb) (by simp [Query.accesses])
    simp only at h1 h2
    split at hg
    · simp at hg; rcases hg with rfl | rfl | rfl <;> first | exact h1 | exact h2 | rfl
    · simp at hg; rcases hg with rfl | rfl <;> first | exact h1 | exact h2
  | with2 a b iha ihb =>
    intro h g hg
    simp only [Query.accesses, List.mem_append] at h
    simp only [Prog.queryGuards, List.mem_append] at hg
    rcases hg with hg | hg
    · exact iha (fun x hx => h x (.inl hx)) g hg
    · exact ihb (fun x hx => h x (.inr hx)) g hg
  | withoutL a b iha ihb =>
    intro h g hg
    simp only [Query.accesses, List.mem_append] at h
    simp only [Prog.queryGuards, List.mem_append] at hg
    rcases hg with hg | hg
    · exact iha (fun x hx => h x (.inl hx)) g hg
    · exact ihb (fun x hx => h x (.inr hx)) g hg
  | withoutR a b iha ihb =>
    intro h g hg
    simp only [Query.accesses, List.mem_append] at h
    simp only [Prog.queryGuards, List.mem_append] at hg
    rcases hg with hg | hg
    · exact iha (fun x hx => h x (.inl hx)) g hg
    · exact ihb (fun x hx => h x (.inr hx)) g hg
  | with3 a b c iha ihb ihc =>
    intro h g hg
    simp only [Query.accesses, List.mem_append] at h
    simp only [Prog.queryGuards, List.mem_append] at hg
    rcases hg with (hg | hg) | hg
    · exact iha (fun x hx => h x (.inl (.inl hx))) g hg
    · exact ihb (fun x hx => h x (.inl (.inr hx))) g hg
    · exact ihc (fun x hx => h x (.inr hx)) g hg
  | with4 a b c d iha ihb ihc ihd =>
    intro h g hg
    simp only [Query.accesses, List.mem_append] at h
    simp only [Prog.queryGuards, List.mem_append] at hg
    rcases hg with ((hg | hg) | hg) | hg
    · exact iha (fun x hx => h x (.inl (.inl (.inl hx)))) g hg
    · exact ihb (fun x hx => h x (.inl (.inl (.inr hx)))) g hg
    · exact ihc (fun x hx => h x (.inl (.inr hx))) g hg
    · exact ihd (fun x hx => h x (.inr hx)) g hg
  | with5 a b c d e iha ihb ihc ihd ihe =>
    intro h g hg
    simp only [Query.accesses, List.mem_append] at h
    simp only [Prog.queryGuards, List.mem_append] at hg
    rcases hg with (((hg | hg) | hg) | hg) | hg
    · exact iha (fun x hx => h x (.inl (.inl (.inl (.inl hx))))) g hg
    · exact ihb (fun x hx => h x (.inl (.inl (.inl (.inr hx))))) g hg
    · exact ihc (fun x hx => h x (.inl (.inl (.inr hx)))) g hg
    · exact ihd (fun x hx => h x (.inl (.inr hx))) g hg
    · exact ihe (fun x hx => h x (.inr hx)) g hg

/-- **C51.** While a thread keeps an open query that only reads, the query has the same answer at every moment: the same
entities in the same order with the same values. So an iteration interrupted by other calls is as good as one done at
once. -/
theorem C51_view (ho : Enumerates w order) (hs : (KSys.init w n).Sched (Config.of w order) may τ) {i : Nat} {q : Query}
    (hq : ∀ x ∈ q.accesses, x.2 = .ref)
    (hw : τ.SchedWhile (Config.of w order) may (KSys.Keeps i (.view q)) τ') :
    τ'.world.results q = τ.world.results q := by
  have hs' := KSys.SchedWhile.sched hs hw
  obtain ⟨_, _, hk, hb, _⟩ := kreach ho hs
  obtain ⟨_, _, hk', hb', _⟩ := kreach ho hs'
  have hsh : τ.world.groups.map Group.shape = τ'.world.groups.map Group.shape :=
    (hk.mat hb).groups.symm.trans (hk'.mat hb').groups
  have hl := run_local (a := .collect q) (hk.mat hb).groups (w2 := τ'.world) ⟨hsh, fun g hg =>
    kept_same ho hs (i := i) (l := g.1) (fun τ ⟨th, h1, h2⟩ => ⟨th, h1, _, h2, by
      rw [← queryGuards_ref hq g hg]; exact hg⟩) hw⟩
  have e := hl.1
  simp only [Act.run, M.bind_apply, M.read_apply] at e
  have h1 : τ.world.results q = (do let l ← τ.world.queryAll q; .ok (l.map fun x => (x.1, τ.world.derefItem x.2))) := rfl
  have h2 : τ'.world.results q = (do let l ← τ'.world.queryAll q; .ok (l.map fun x => (x.1, τ'.world.derefItem x.2))) := rfl
  rw [← h1, ← h2] at e
  revert e
  cases τ.world.results q <;> cases τ'.world.results q <;> simp [M.pure_apply] <;> intro e <;> exact e.symm

/-- **C51.** While a thread keeps a write guard on a storage, by itself or in an open query, only this thread changes the
storage, by writing a component through the guard; everything else leaves it alone. -/
theorem C51_write_storage (ho : Enumerates w order) (hs : (KSys.init w n).Sched (Config.of w order) may τ) {i : Nat}
    {t : TypeId} (hk : τ.KeepsGuard (Config.of w order) i (.store t, .mut))
    (hst : τ.Step (Config.of w order) may τ') :
    ((∀ id, (World.componentRead t id τ'.world).2 = (World.componentRead t id τ.world).2) ∧
      (World.storageData t τ'.world).2 = (World.storageData t τ.world).2) ∨
    ∃ id v, τ.running i = some (.storeSet t id v) ∧ τ'.world = (World.componentWrite t id v τ.world).1 := by
  obtain ⟨_, _, hsim, hb, hg⟩ := kreach ho hs
  rcases hsim.write hb hg.excl (konly hs) hst hk with h | ⟨t', id, v, h1, h2, h3⟩ | ⟨t', v, h1, _⟩
  · have : τ.world.comps t = τ'.world.comps t := h
    left
    exact ⟨fun id => by simp only [World.componentRead, M.read, this], by simp only [World.storageData, M.read, this]⟩
  · cases h1; exact .inr ⟨id, v, h2, h3⟩
  · cases h1

/-- **C51.** While a thread keeps a write guard on a resource, only this thread changes it, through the guard. -/
theorem C51_write_resource (ho : Enumerates w order) (hs : (KSys.init w n).Sched (Config.of w order) may τ) {i : Nat}
    {t : TypeId} (hk : τ.KeepsGuard (Config.of w order) i (.res t, .mut))
    (hst : τ.Step (Config.of w order) may τ') :
    (World.resourceRead t τ'.world).2 = (World.resourceRead t τ.world).2 ∨
    ∃ v, τ.running i = some (.resSet t v) ∧ τ'.world = (World.resourceWrite t v τ.world).1 := by
  obtain ⟨_, _, hsim, hb, hg⟩ := kreach ho hs
  rcases hsim.write hb hg.excl (konly hs) hst hk with h | ⟨t', id, v, h1, _⟩ | ⟨t', v, h1, h2, h3⟩
  · have : τ.world.res t = τ'.world.res t := h
    left; simp only [World.resourceRead, M.read, this]
  · cases h1
  · cases h1; exact .inr ⟨v, h2, h3⟩

theorem value_at {w : World V} {t e k : Nat} {S : SparseSet V} (h : w.comps t = some ⟨t, S⟩)
    (hk : S.indices[e]? = some (some k)) : w.value t e = S.data[k - 1]? := by
  have hx : S.exist e = true := by simp [SparseSet.exist, hk]
  have hu : getU S.indices e = .ok (some k) := by simp [getU, hk]
  simp only [World.value, World.componentRead, M.read, h, downcast, if_true, ok_bind, hx, SparseSet.getUnchecked, hu, unwrapR]
  unfold getU
  cases S.data[k - 1]? <;> rfl

/-- Writing a component does not change who has one. -/
theorem componentWrite_presence (w : World V) (t id : Nat) (v : V) :
    (∀ e, ((World.componentWrite t id v w).1.value t e).isSome = (w.value t e).isSome) ∧
    (World.storageCount t (World.componentWrite t id v w).1).2 = (World.storageCount t w).2 := by
  cases hw : World.componentWrite t id v w with
  | mk w' r =>
    cases r with
    | error f =>
      have : w' = w := by
        simp only [World.componentWrite] at hw
        rcases crit_cases hw with ⟨_, _, h⟩ | ⟨h, _⟩
        · cases h
        · exact h
      simp [this]
    | ok b =>
      rcases componentWrite_inv hw with ⟨_, rfl⟩ | ⟨_, st, S, h2, h3, h4, rfl⟩
      · simp
      · unfold SparseSet.setUnchecked at h4
        obtain ⟨ox, h5, h4⟩ := bindR_ok h4
        obtain ⟨ix, h6, h4⟩ := bindR_ok h4
        obtain ⟨x, h7, h4⟩ := bindR_ok h4
        cases h4
        have hc : (w.setSet t { st.set with data := st.set.data.set (ix - 1) v }).comps t =
            some ⟨st.ty, { st.set with data := st.set.data.set (ix - 1) v }⟩ := by
          simp [World.setSet, h2]
        constructor
        · intro e
          by_cases ht : st.ty = t
          · rcases ho : st.set.indices[e]? with _ | (_ | k)
            · simp [World.value, World.componentRead, M.read, hc, h2, downcast, ht, SparseSet.exist, ho]
            · simp [World.value, World.componentRead, M.read, hc, h2, downcast, ht, SparseSet.exist, ho]
            · rw [value_at (S := { st.set with data := st.set.data.set (ix - 1) v }) (k := k) (ht ▸ hc) ho,
                value_at (S := st.set) (k := k) (by rw [h2, ← ht]) ho, Bool.eq_iff_iff]
              simp
          · simp [World.value, World.componentRead, M.read, hc, h2, downcast, ht]
        · simp only [World.storageCount, M.read, hc, h2, downcast]
          split <;> simp [SparseSet.len]

/-- **C51.** While a thread keeps a write guard on a storage, nobody gets the component and nobody loses it. -/
theorem C51_write_presence (ho : Enumerates w order) (hs : (KSys.init w n).Sched (Config.of w order) may τ) {i : Nat}
    {t : TypeId} (hw : τ.SchedWhile (Config.of w order) may (KSys.KeepsGuard (Config.of w order) i (.store t, .mut)) τ') :
    (∀ id, (τ'.world.value t id).isSome = (τ.world.value t id).isSome) ∧
    (World.storageCount t τ'.world).2 = (World.storageCount t τ.world).2 := by
  have key : (KSys.init w n).Sched (Config.of w order) may τ' ∧ τ'.KeepsGuard (Config.of w order) i (.store t, .mut) ∧
      (∀ id, (τ'.world.value t id).isSome = (τ.world.value t id).isSome) ∧
      (World.storageCount t τ'.world).2 = (World.storageCount t τ.world).2 := by
    induction hw with
    | refl hp => exact ⟨hs, hp, fun _ => rfl, rfl⟩
    | step hprev hst hp ih =>
      rename_i τ1 τ2
      obtain ⟨h1, h2, h3, h4⟩ := ih
      refine ⟨.step h1 hst, hp, ?_⟩
      obtain ⟨_, _, hsim, hb, hg⟩ := kreach ho h1
      rcases hsim.write hb hg.excl (konly h1) hst h2 with h | ⟨t', id, v, e1, _, e3⟩ | ⟨t', v, e1, _⟩
      · have : τ1.world.comps t = τ2.world.comps t := h
        refine ⟨fun id => ?_, ?_⟩
        · rw [← h3 id]; simp only [World.value, World.componentRead, M.read, this]
        · rw [← h4]; simp only [World.storageCount, M.read, this]
      · cases e1
        rw [e3]
        exact ⟨fun e => ((componentWrite_presence _ _ _ _).1 e).trans (h3 e), (componentWrite_presence _ _ _ _).2.trans h4⟩
      · cases e1
  exact key.2.2

/-! ### C52 -/

/-- Log entries, in terms of plain calls. -/
theorem Sim.answers {cfg : Config} {τ : KSys V} {σ : Sys V} (h : Sim cfg τ σ) : σ.log = τ.answers := h.log

theorem Sim.runs {cfg : Config} {τ : KSys V} {σ : Sys V} (h : Sim cfg τ σ) (i : Nat) :
    σ.running i = (τ.running i).bind KCall.plain := by
  unfold Sys.running KSys.running
  cases hi : τ.threads[i]? with
  | none =>
    have hl := h.len
    have : σ.threads[i]? = none := by rw [List.getElem?_eq_none_iff] at hi ⊢; omega
    rw [this]; rfl
  | some k =>
    obtain ⟨b, h1, h2⟩ := h.partner hi
    have := h2.shadow
    simp only [Prod.mk.injEq] at this
    rw [h1]
    exact this.1.symm

theorem Sim.quiet {cfg : Config} {τ : KSys V} {σ : Sys V} (h : Sim cfg τ σ)
    (hq : ∀ i c, τ.running i = some c → c.plain = none) : σ.Quiet := by
  intro th hth
  obtain ⟨i, hi⟩ := List.getElem?_of_mem hth
  have := h.runs i
  rw [Sys.running, hi] at this
  cases hr : τ.running i with
  | none => rw [hr] at this; exact this
  | some c => rw [hr] at this; simp only [Option.bind_some, hq i c hr] at this; exact this

variable {tr : List (Op V × Out V)} {h : List (Event V)}

/-- **C52.** The calls of clients that keep handles, guards and open queries -- calls through kept guards included -- are
as atomic as those of clients that do not (C48). A call through something kept takes effect as if the handle or guard
were taken for this call only. -/
theorem C52_atomic (ht : Reached w) (ho : Enumerates w order)
    {may : Sys V → Nat → ApiCall V → Prop} (hbl : Sys.Blind may)
    (hh : (KSys.init w n).History (Config.of w order) (KSys.keeping may) KSys.BatchesFit h τ) :
    ∃ ph, Atomic False w.shared h ph τ.world.shared ∧ ∀ i, (ph i).call = (τ.running i).bind KCall.plain := by
  obtain ⟨σ, h1, h2, _⟩ := sim_history (P := Sys.BatchesFit) hbl
    (fun τ σ hn hb i start stop t vs ha => by rw [hn.1]; exact hb i start stop t vs (hn.2 i start stop t vs ha)) ho hh
  obtain ⟨ph, p1, p2⟩ := C48_atomic ht ho h1
  rw [h2.world] at p1
  exact ⟨ph, p1, fun i => (p2 i).trans (h2.runs i)⟩

/-- **C52.** The same for considerate clients (C49). -/
theorem C52_considerate (ht : Mixed tr w) (ho : Enumerates w order)
    (hh : (KSys.init w n).History (Config.of w order) (KSys.keeping (Sys.considerate (Config.of w order)))
      (fun _ => True) h τ) :
    ∃ ph, Atomic True w.shared h ph τ.world.shared ∧ ∀ i, (ph i).call = (τ.running i).bind KCall.plain := by
  obtain ⟨σ, h1, h2, _⟩ := sim_history (P := fun _ => True) blind_considerate (fun _ _ _ _ => trivial) ho hh
  obtain ⟨ph, p1, p2⟩ := C49_atomic ht ho h1
  rw [h2.world] at p1
  exact ⟨ph, p1, fun i => (p2 i).trans (h2.runs i)⟩

/-- **C52**: every schedule has a history, and its returns are those of the schedule. -/
theorem C52_history (ho : Enumerates w order) {P : KSys V → Prop}
    (hs : (KSys.init w n).SchedWhile (Config.of w order) may P τ) :
    ∃ h, (KSys.init w n).History (Config.of w order) may P h τ ∧ returns h = τ.answers := by
  obtain ⟨h, hh⟩ := khistory_of hs
  refine ⟨h, hh, ?_⟩
  have hany : (KSys.init w n).History (Config.of w order) (KSys.keeping Sys.anything) (fun _ => True) h τ := by
    clear hs
    induction hh with
    | refl _ => exact .refl trivial
    | step _ hs he _ ih => exact .step ih hs.any he trivial
  obtain ⟨σ, h1, h2, _⟩ := sim_history (P := fun _ => True) blind_anything (fun _ _ _ _ => trivial) ho hany
  rw [History.log h1, h2.answers]

/-- **C52.** Ids are handed out once, also if the handles are kept: as C37. -/
theorem C52_distinct (ht : Wild tr w) (hr : RemovesLive tr) (ho : Enumerates w order)
    (hs : (KSys.init w n).Sched (Config.of w order) (KSys.keeping Sys.noRemoval) τ) :
    τ.issued.Nodup ∧ ∀ id ∈ τ.issued, alive id tr = false ∧ World.exist id τ.world = (τ.world, .ok true) := by
  obtain ⟨σ, h1, h2, _⟩ := sim_sched blind_noRemoval ho hs
  have := C37_distinct ht hr ho h1
  have e : σ.issued = τ.issued := by rw [Sys.issued, KSys.issued, h2.answers]
  rw [e, h2.world] at this
  exact this

/-- **C52.** Groups stay consistent when clients attach through handles they keep, and keep storage guards and queries:
as C38. -/
theorem C52_sound (ht : Mixed tr w) (ho : Enumerates w order)
    (hs : (KSys.init w n).Sched (Config.of w order) (KSys.keeping Sys.attaching) τ) {k : Kind} {ma mb : Mode} {a b : TypeId}
    (hg : madeGroup (ofKind k) a b tr = true) (hu : Unmoved tr (.group k ma mb a b))
    (hm : a ≠ b ∨ (ma = .ref ∧ mb = .ref)) :
    ∃ l, Yields τ.world (.group k ma mb a b) l ∧ (l.map Prod.fst).Nodup ∧
      ∀ x ∈ l, bothOf (τ.world.value a x.1) (τ.world.value b x.1) = some x.2 := by
  obtain ⟨σ, h1, h2, _⟩ := sim_sched blind_attaching ho hs
  rw [← h2.world]
  exact C38_sound ht ho h1 hg hu hm

/-- **C52.** When all calls have returned -- whatever is still kept --, every query yields exactly the entities that match
it: as C38. -/
theorem C52_complete (ht : Mixed tr w) (ho : Enumerates w order)
    (hs : (KSys.init w n).Sched (Config.of w order) (KSys.keeping Sys.attaching) τ) (hq : τ.Quiet) {q : Query}
    (he : Exists tr q) (hu : Unmoved tr q) (hb : Unbatched tr q) (hc : q.Conflictless) :
    ∃ l, Yields τ.world q l ∧ Lists l (q.answer τ.world.value) := by
  obtain ⟨σ, h1, h2, _⟩ := sim_sched blind_attaching ho hs
  rw [← h2.world]
  refine C38_complete ht ho h1 (h2.quiet fun i c hr => ?_) he hu hb hc
  unfold KSys.running at hr
  rw [Option.bind_eq_some_iff] at hr
  obtain ⟨th, e1, e2⟩ := hr
  rw [hq th (List.mem_of_getElem? e1)] at e2; cases e2

/-- **C52.** The same for disciplined clients and owning groups: as C39. -/
theorem C52_disciplined_complete (ht : Mixed tr w) (ho : Enumerates w order)
    (hs : (KSys.init w n).Sched (Config.of w order) (KSys.keeping (Sys.disciplined (Config.of w order))) τ) (hq : τ.Quiet)
    {q : Query} (he : Exists tr q) (hk : Parts (fun _ => True) (fun k _ _ => k ≠ .non) q) (hb : Unbatched tr q)
    (hc : q.Conflictless) : ∃ l, Yields τ.world q l ∧ Lists l (q.answer τ.world.value) := by
  obtain ⟨σ, h1, h2, _⟩ := sim_sched blind_disciplined ho hs
  rw [← h2.world]
  refine C39_complete_partial ht ho h1 (h2.quiet fun i c hr => ?_) he hk hb hc
  unfold KSys.running at hr
  rw [Option.bind_eq_some_iff] at hr
  obtain ⟨th, e1, e2⟩ := hr
  rw [hq th (List.mem_of_getElem? e1)] at e2; cases e2

/-- **C52.** A call that attaches, reads or writes through a kept handle does not panic (as C38). -/
theorem C52_returns (ht : Mixed tr w) (ho : Enumerates w order)
    (hs : (KSys.init w n).Sched (Config.of w order) (KSys.keeping Sys.attaching) τ) {i : Nat} {c : KCall V} {c' : ApiCall V}
    (hp : c.plain = some c') (hc : c'.soft = true) (hpr : c'.proper (Config.of w order) = true)
    {r : Option (List (Ret V))} (hl : (i, c, r) ∈ τ.log) : r ≠ none := by
  obtain ⟨σ, h1, h2, _⟩ := sim_sched blind_attaching ho hs
  refine C38_returns ht ho h1 hc hpr (i := i) ?_
  rw [h2.answers]
  exact List.mem_filterMap.2 ⟨_, hl, by simp [hp]⟩

/-! ### C53 -/

/-- **C53.** Threads that wait for each other's -- or their own -- guards wait forever: if every thread of a set is waiting
for a lock that a thread of the set (possibly itself) holds a conflicting guard on, then in every continuation none of
them does another step. -/
theorem C53_forever {cfg : Config} {S : Nat → Prop}
    (hS : ∀ i, S i → ∃ th l m p, τ.threads[i]? = some th ∧ th.call ≠ none ∧ th.prog = .acq l m p ∧
      ∃ j thj, S j ∧ τ.threads[j]? = some thj ∧ ∃ g ∈ thj.held, Guard.clash (l, m) g)
    (hs : τ.Sched cfg may τ') : ∀ i, S i → τ'.threads[i]? = τ.threads[i]? := by
  induction hs with
  | refl => intro _ _; rfl
  | step hprev hst ih =>
    rename_i τ1 τ2
    intro i hi
    rw [← ih i hi]
    have block : ∀ {k : Nat} {th : KThread V}, τ1.threads[k]? = some th → k = i →
        ∃ l m p, th.prog = .acq l m p ∧ ¬ τ1.Free l m ∧ th.call ≠ none := by
      rintro k th hk rfl
      obtain ⟨th', l, m, p, h1, h2, h3, j, thj, h4, h5, g, h6, h7⟩ := hS k hi
      rw [← ih k hi, hk] at h1; cases h1
      rw [← ih j h4] at h5
      exact ⟨l, m, p, h3, fun hf => hf thj (List.mem_of_getElem? h5) g h6 h7, h2⟩
    have other : ∀ {k : Nat} {th th' : KThread V}, τ1.threads[k]? = some th →
        (∀ (j : Nat), τ2.threads[j]? = if j = k then some th' else τ1.threads[j]?) → k ≠ i →
        τ2.threads[i]? = τ1.threads[i]? := by
      intro k th th' _ hth hne
      rw [hth, if_neg (Ne.symm hne)]
    cases hst with
    | start h1 h2 h3 h4 =>
      refine other h1 (fun j => kset_threads τ1 _ _ j h1) fun e => ?_
      obtain ⟨_, _, _, _, _, h⟩ := block h1 e
      exact h h2
    | acq h1 h2 h3 =>
      refine other h1 (fun j => kset_threads τ1 _ _ j h1) fun e => ?_
      obtain ⟨_, _, _, hp, hf, _⟩ := block h1 e
      rw [h2] at hp; cases hp
      exact hf h3
    | rel h1 h2 =>
      refine other h1 (fun j => kset_threads τ1 _ _ j h1) fun e => ?_
      obtain ⟨_, _, _, hp, _⟩ := block h1 e
      rw [h2] at hp; cases hp
    | act h1 h2 h3 =>
      refine other h1 (fun j => kset_threads { τ1 with world := _ } _ _ j h1) fun e => ?_
      obtain ⟨_, _, _, hp, _⟩ := block h1 e
      rw [h2] at hp; cases hp
    | fault h1 h2 h3 h4 =>
      refine other h1 (fun j => kfinish_threads { τ1 with world := _ } _ _ _ _ j h1) fun e => ?_
      obtain ⟨_, _, _, hp, _⟩ := block h1 e
      rw [h2] at hp; cases hp
    | panic h1 h2 h3 =>
      refine other h1 (fun j => kfinish_threads τ1 _ _ _ _ j h1) fun e => ?_
      obtain ⟨_, _, _, hp, _⟩ := block h1 e
      rw [h2] at hp; cases hp
    | ret h1 h2 h3 =>
      refine other h1 (fun j => kfinish_threads τ1 _ _ _ _ j h1) fun e => ?_
      obtain ⟨_, _, _, hp, _⟩ := block h1 e
      rw [h2] at hp; cases hp

/-- **C53.** In particular, a thread that waits for a lock it keeps a conflicting guard on -- say, `create_entity` while a
handle is kept, or `entity_component_write` while a query reading the type is open -- never gets it, whatever the other
threads do. -/
theorem C53_self (ho : Enumerates w order) (hs : (KSys.init w n).Sched (Config.of w order) may τ) {i : Nat}
    {th : KThread V} {l : Lock} {m : Mode} {p : Prog V} (hi : τ.threads[i]? = some th) (hp : th.prog = .acq l m p) {g : Guard}
    (hk : τ.KeepsGuard (Config.of w order) i g) (hc : Guard.clash (l, m) g)
    (hs' : τ.Sched (Config.of w order) may τ') : τ'.threads[i]? = some th := by
  obtain ⟨_, _, hsim, _, _⟩ := kreach ho hs
  obtain ⟨th', h1, _, h2⟩ := hsim.keeps hk
  rw [hi] at h1; cases h1
  have hcall : th.call ≠ none := by
    intro hn
    obtain ⟨b, _, hs⟩ := hsim.partner hi
    cases hs with
    | idle _ _ h3 => rw [hp] at h3; cases h3
    | off h => rw [hn] at h; cases h
    | on h => rw [hn] at h; cases h
  rw [C53_forever (S := fun j => j = i) (fun j hj => ⟨th, l, m, p, hj ▸ hi, hcall, hp, i, th, rfl, hi, g, h2, hc⟩) hs' i rfl]
  exact hi

/-! ### Concrete cases

Three threads share `groupW`. Thread 0 keeps a handle of entity 1 and attaches a component through it; thread 1 keeps a
read guard on the storage of 4, reads through it, takes a write guard on the storage of 3 and writes through it; thread 2
keeps an open query on 1 and 2. -/
namespace Demo

/-- The query of thread 2. -/
def kquery : Query := .with2 (.comp .ref 1) (.comp .ref 2)

/-- Everything is opened; thread 0 has stored the component and not yet told the group; thread 1 is about to read. -/
def kbegin : List (KChoice Nat) :=
  [.start 0 (.openHandle 1)] ++ kgoes 0 3 ++ [.start 1 (.openStore 4 .ref)] ++ kgoes 1 2 ++
    [.start 2 (.openView kquery)] ++ kgoes 2 4 ++ [.start 0 (.viaHandle 1 [.attach 3 13])] ++ kgoes 0 3 ++
    [.start 1 (.storeGet 4 2)]

/-- The rest. -/
def krest : List (KChoice Nat) :=
  kgoes 0 10 ++ kgoes 1 2 ++ kgoes 0 2 ++ [.start 1 (.openStore 3 .mut)] ++ kgoes 1 2 ++ [.start 1 (.storeSet 3 1 77)] ++
    kgoes 1 2

theorem kmid_go : ((KSys.init groupW 3).performAll groupCfg (KSys.keepingb attachingb) kbegin).isSome = true := by
  decide +kernel
/-- In the middle. -/
def kmid : KSys Nat := ((KSys.init groupW 3).performAll groupCfg (KSys.keepingb attachingb) kbegin).get kmid_go
theorem kmid_sched : (KSys.init groupW 3).Sched groupCfg (KSys.keeping Sys.attaching) kmid :=
  kperformed (keepingb_ok attachingb_ok) kmid_go

theorem kend_go : (kmid.performAll groupCfg (KSys.keepingb attachingb) krest).isSome = true := by decide +kernel
/-- When all calls have returned. -/
def kend : KSys Nat := (kmid.performAll groupCfg (KSys.keepingb attachingb) krest).get kend_go
theorem kend_sched : (KSys.init groupW 3).Sched groupCfg (KSys.keeping Sys.attaching) kend :=
  kmid_sched.trans (kperformed (keepingb_ok attachingb_ok) kend_go)

/-- All the while something is kept. -/
theorem kmid_while {i : Nat} {k : Keep}
    (h : kmid.allAlong groupCfg (KSys.keepingb attachingb) (KSys.keepsb i k) krest = true) :
    kmid.SchedWhile groupCfg (KSys.keeping Sys.attaching) (KSys.Keeps i k) kend := by
  obtain ⟨σ', h1, h2⟩ := kperformAll_while (keepingb_ok attachingb_ok) h
  have : σ' = kend := Option.some.inj (h1.symm.trans (Option.some_get kend_go).symm)
  rw [← this]
  exact h2.mono fun _ => keepsb_ok

end Demo

example : Demo.kmid.AboutTo 1 (.storeRead 4 2) := by unfold KSys.AboutTo; decide +kernel
example := C51_exclusion Demo.groupEnumerates Demo.kmid_sched
example := C51_guarded Demo.groupEnumerates Demo.kmid_sched (i := 1) (a := .storeRead 4 2)
  (by unfold KSys.AboutTo; decide +kernel)
example := (C51_no_race Demo.groupEnumerates Demo.kmid_sched (i := 0) (j := 1) (by decide) (b := .storeRead 4 2)
  (by unfold KSys.AboutTo; decide +kernel)).2 (.em, .ref)
  (Keeps.guard (k := .handle 1) (by decide) (keepsb_ok (by decide +kernel)))
example := C51_handle Demo.groupEnumerates Demo.kmid_sched (i := 0) (id := 1) (keepsb_ok (by decide +kernel))
example := C51_handle_protects Demo.groupEnumerates Demo.kmid_sched (i := 0) (k := .handle 1) (.inl ⟨_, rfl⟩)
  (Demo.kmid_while (by decide +kernel))
example := C51_read_storage Demo.groupEnumerates Demo.kmid_sched (i := 1) (t := 4)
  ((Demo.kmid_while (i := 1) (k := .store 4 .ref) (by decide +kernel)).mono fun _ => Keeps.guard (by decide +kernel))
example := C51_view Demo.groupEnumerates Demo.kmid_sched (i := 2) (q := Demo.kquery) (by decide)
  (Demo.kmid_while (by decide +kernel))
example : Demo.kmid.world.results Demo.kquery = .ok [(1, some (.pair (.leaf 11) (.leaf 12))), (5, some (.pair (.leaf 51) (.leaf 52)))] := by
  decide +kernel

/-- Thread 1 keeps a write guard at the end; it did change the component meanwhile. -/
example : Demo.kend.KeepsGuard Demo.groupCfg 1 (.store 3, .mut) :=
  Keeps.guard (k := .store 3 .mut) (by decide) (keepsb_ok (by decide +kernel))
example : Demo.kmid.world.value 3 1 = some 13 ∧ Demo.kend.world.value 3 1 = some 77 := by decide +kernel

theorem Demo.kend_quiet : Demo.kend.Quiet := by
  have : (Demo.kend.threads.all fun th => th.call.isNone) = true := by decide +kernel
  intro th hth
  simpa using List.all_eq_true.1 this th hth

example : ∃ l, Yields Demo.kend.world (.group .non .ref .ref 3 4) l ∧ (2, .pair (.leaf 23) (.leaf 24)) ∈ l ∧
    ∀ x, (1, x) ∉ l := by
  obtain ⟨l, h1, h2⟩ := C52_complete (.of_trace Demo.groupTrace) Demo.groupEnumerates Demo.kend_sched Demo.kend_quiet
    (q := .group .non .ref .ref 3 4) (by decide +kernel) (by decide +kernel) (by decide +kernel) (by decide)
  refine ⟨l, h1, (h2.2 _ _).2 (by decide +kernel), fun x hx => ?_⟩
  have := (h2.2 1 x).1 hx
  rw [show Query.answer Demo.kend.world.value (.group .non .ref .ref 3 4) 1 = none by decide +kernel] at this
  cases this


namespace Demo

/-- Thread 1 has a write guard and is about to write through it, while thread 0 is waiting to attach a component of the
type. -/
def kwriteChoices : List (KChoice Nat) :=
  [.start 0 (.openHandle 1)] ++ kgoes 0 3 ++ [.start 1 (.openStore 3 .mut)] ++ kgoes 1 2 ++
    [.start 0 (.viaHandle 1 [.attach 3 13]), .start 1 (.storeSet 3 2 77)]
theorem kwrite_go : ((KSys.init groupW 3).performAll groupCfg (KSys.keepingb (disciplinedb groupCfg)) kwriteChoices).isSome = true := by
  decide +kernel
/-- Before the write. -/
def kwrite : KSys Nat := ((KSys.init groupW 3).performAll groupCfg (KSys.keepingb (disciplinedb groupCfg)) kwriteChoices).get kwrite_go
theorem kwrite_sched : (KSys.init groupW 3).Sched groupCfg (KSys.keeping (Sys.considerate groupCfg)) kwrite :=
  kperformed (keepingb_ok (disciplinedb_kind groupCfg)) kwrite_go
theorem kwritten_go : (kwrite.perform groupCfg (KSys.keepingb (disciplinedb groupCfg)) (.go 1)).isSome = true := by decide +kernel
/-- After the write. -/
def kwritten : KSys Nat := (kwrite.perform groupCfg (KSys.keepingb (disciplinedb groupCfg)) (.go 1)).get kwritten_go
theorem kwrite_step : kwrite.Step groupCfg (KSys.keeping (Sys.considerate groupCfg)) kwritten :=
  kperform_step (keepingb_ok (disciplinedb_kind groupCfg)) (Option.some_get kwritten_go).symm
theorem kwrite_keeps : kwrite.KeepsGuard groupCfg 1 (.store 3, .mut) :=
  Keeps.guard (k := .store 3 .mut) (by decide) (keepsb_ok (by decide +kernel))
theorem kwritten_keeps : kwritten.KeepsGuard groupCfg 1 (.store 3, .mut) :=
  Keeps.guard (k := .store 3 .mut) (by decide) (keepsb_ok (by decide +kernel))

/-- Thread 0 has created two entities and is about to get their handle. -/
def kgiveChoices : List (KChoice Nat) := [.start 0 (.createHandles 2 [(3, [63, 73])])] ++ kgoes 0 7
theorem kgive_go : ((KSys.init groupW 3).performAll groupCfg (KSys.keepingb anyb) kgiveChoices).isSome = true := by
  decide +kernel
/-- Before it has the handle. -/
def kgive : KSys Nat := ((KSys.init groupW 3).performAll groupCfg (KSys.keepingb anyb) kgiveChoices).get kgive_go
theorem kgiven_go : (kgive.perform groupCfg (KSys.keepingb anyb) (.go 0)).isSome = true := by decide +kernel
/-- Afterwards. -/
def kgiven : KSys Nat := (kgive.perform groupCfg (KSys.keepingb anyb) (.go 0)).get kgiven_go
theorem kgive_step : kgive.Step groupCfg (KSys.keeping Sys.anything) kgiven :=
  kperform_step (keepingb_ok fun _ _ _ _ => trivial) (Option.some_get kgiven_go).symm

/-- Thread 0 keeps a handle of entity 1 and is about to create another entity. -/
def kstuckChoices : List (KChoice Nat) := [.start 0 (.openHandle 1)] ++ kgoes 0 3 ++ [.start 0 .createHandle]
theorem kstuck_go : ((KSys.init groupW 3).performAll groupCfg (KSys.keepingb anyb) kstuckChoices).isSome = true := by
  decide +kernel
/-- Stuck. -/
def kstuck : KSys Nat := ((KSys.init groupW 3).performAll groupCfg (KSys.keepingb anyb) kstuckChoices).get kstuck_go
theorem kstuck_sched : (KSys.init groupW 3).Sched groupCfg (KSys.keeping Sys.anything) kstuck :=
  kperformed (keepingb_ok fun _ _ _ _ => trivial) kstuck_go

end Demo

example : Demo.kgiven.Keeps 0 (.handles 6 8) :=
  (C51_gives Demo.kgive_step (i := 0) (c := .createHandles 2 [(3, [63, 73])]) (rs := [.range 6 8]) (by decide +kernel)).2.2.1 _ _ _ _ rfl rfl
example := C51_lasts Demo.kwrite_step (i := 1) (k := .store 3 .mut) (keepsb_ok (by decide +kernel))
example : Demo.kwrite.world.value 3 2 = some 23 ∧ Demo.kwritten.world.value 3 2 = some 77 ∧
    (Demo.kwrite.threads[0]?.map fun th => th.held) = some [(.em, .ref)] := by decide +kernel
example := C51_write_storage Demo.groupEnumerates Demo.kwrite_sched Demo.kwrite_keeps Demo.kwrite_step
example := C51_write_presence Demo.groupEnumerates Demo.kwrite_sched (i := 1) (t := 3)
  (.step (.refl Demo.kwrite_keeps) Demo.kwrite_step Demo.kwritten_keeps)
example : ∃ h ph, returns h = Demo.kwritten.answers ∧ Atomic True Demo.groupW.shared h ph Demo.kwritten.world.shared ∧
    (ph 1).call = some (.write 3 2 77) ∧ (ph 0).call = some (.on 1 [.attach 3 13]) := by
  obtain ⟨h, hh, hr⟩ := C52_history Demo.groupEnumerates (KSys.Sched.step Demo.kwrite_sched Demo.kwrite_step).always
  obtain ⟨ph, h1, h2⟩ := C52_considerate (.of_trace Demo.groupTrace) Demo.groupEnumerates hh
  exact ⟨h, ph, hr, h1, (h2 1).trans (by decide +kernel), (h2 0).trans (by decide +kernel)⟩

theorem Demo.kstuck_thread : ∃ th p, Demo.kstuck.threads[0]? = some th ∧ th.prog = .acq .em .mut p ∧
    th.call = some .createHandle := by
  have h : (Demo.kstuck.threads[0]?.map fun th => ((match th.prog with | .acq .em .mut _ => true | _ => false) : Bool)) = some true := by
    decide +kernel
  have hc : (Demo.kstuck.threads[0]?.map fun th => ((match th.call with | some .createHandle => true | _ => false) : Bool)) = some true := by
    decide +kernel
  cases ht : Demo.kstuck.threads[0]? with
  | none => rw [ht] at h; cases h
  | some th =>
    rw [ht] at h hc
    simp only [Option.map_some, Option.some.injEq] at h hc
    split at h
    · next p hp =>
      split at hc
      · next he => exact ⟨th, p, rfl, hp, he⟩
      · cases hc
    · cases h

/-- Keeping a handle and creating an entity hangs, whatever the other threads do. -/
example {τ : KSys Nat} (hs : Demo.kstuck.Sched Demo.groupCfg (KSys.keeping Sys.anything) τ) :
    τ.running 0 = some .createHandle := by
  obtain ⟨th, p, h1, h2, h3⟩ := Demo.kstuck_thread
  rw [KSys.running, C53_self Demo.groupEnumerates Demo.kstuck_sched h1 h2 (g := (.em, .ref))
    (Keeps.guard (k := .handle 1) (by decide) (keepsb_ok (by decide +kernel))) ⟨rfl, .inl rfl⟩ hs]
  exact h3

/-! Resources, creation, and batches, in the world of `Demo`: thread 0 creates a range of entities with a batch of
components, and keeps their handle; thread 1 keeps a write guard on a resource; thread 2 reads. -/
namespace Demo

/-- `KSys.BatchesFit`, as a Boolean. -/
def kbatchesFitb (σ : KSys Nat) : Bool :=
  σ.threads.all fun th => match th.prog.work with
    | some (.batchStore start stop t _) => (List.range' start (stop - start)).all fun e => (σ.world.value t e).isNone
    | _ => true

theorem kbatchesFitb_ok (σ : KSys Nat) (h : kbatchesFitb σ = true) : σ.BatchesFit := by
  intro i start stop t vs ha e h1 h2
  obtain ⟨th, f, hi, hp⟩ := ha.thread
  have := List.all_eq_true.1 h th (List.mem_of_getElem? hi)
  simp only [hp, Prog.work] at this
  have := List.all_eq_true.1 this e (by rw [List.mem_range'_1]; omega)
  simpa using this

/-- The schedule. -/
def kresChoices : List (KChoice Nat) :=
  [.start 2 .createHandle] ++ kgoes 2 6 ++ [.start 2 (.drop (.handle 5))] ++ kgoes 2 2 ++
    [.start 0 (.createHandles 2 [(3, [8, 9])]), .start 1 (.openRes 9 .mut)] ++ kgoes 0 3 ++ kgoes 1 2 ++ kgoes 0 1 ++
    [.start 2 (.call (.read 3 6))] ++ kgoes 0 4 ++ kgoes 2 4 ++ [.start 1 (.resSet 9 95)]

theorem kres_go : (KSys.init Demo.w 3).allAlong cfg (KSys.keepingb noRemovalb) kbatchesFitb kresChoices = true := by
  decide +kernel
theorem kres_some : ((KSys.init Demo.w 3).performAll cfg (KSys.keepingb noRemovalb) kresChoices).isSome = true := by
  decide +kernel
/-- The state reached. -/
def kres : KSys Nat := ((KSys.init Demo.w 3).performAll cfg (KSys.keepingb noRemovalb) kresChoices).get kres_some
theorem noRemovalb_ok (σ : Sys Nat) (i : Nat) (c : ApiCall Nat) (h : noRemovalb σ i c = true) : Sys.noRemoval σ i c := by
  intro id hc; subst hc; simp [noRemovalb] at h
theorem kres_while : (KSys.init Demo.w 3).SchedWhile cfg (KSys.keeping Sys.noRemoval) KSys.BatchesFit kres := by
  obtain ⟨σ', h1, h2⟩ := kperformAll_while (keepingb_ok noRemovalb_ok) kres_go
  have : σ' = kres := Option.some.inj (h1.symm.trans (Option.some_get kres_some).symm)
  rw [← this]
  exact h2.mono kbatchesFitb_ok
theorem kres_sched : (KSys.init Demo.w 3).Sched cfg (KSys.keeping Sys.noRemoval) kres := KSys.SchedWhile.sched .refl kres_while

end Demo

example : Demo.kres.issued = [6, 7, 5] ∧ Demo.kres.running 1 = some (.resSet 9 95) ∧
    Demo.kres.answers = [(2, .read 3 6, some [.val (some 8)]), (0, .createMany 2 [(3, [8, 9])], some [.range 6 8]),
      (2, .create [], some [.id 5])] := by decide +kernel
example := C52_distinct (.of_any Demo.trace.any) (show RemovesLive Demo.tr by decide +kernel) Demo.enumerates Demo.kres_sched
example : ∃ h ph, returns h = Demo.kres.answers ∧ Atomic False Demo.w.shared h ph Demo.kres.world.shared ∧
    (ph 1).call = some (.resWrite 9 95) := by
  obtain ⟨h, h1, h2⟩ := C52_history Demo.enumerates Demo.kres_while
  obtain ⟨ph, h3, h4⟩ := C52_atomic (.of_any Demo.trace.any Demo.trace.live.1) Demo.enumerates blind_noRemoval h1
  exact ⟨h, ph, h2, h3, (h4 1).trans (by decide +kernel)⟩
example {τ : KSys Nat} (hs : Demo.kres.Step Demo.cfg (KSys.keeping Sys.noRemoval) τ) :=
  C51_write_resource Demo.enumerates Demo.kres_sched (i := 1) (t := 9)
    (Keeps.guard (k := .res 9 .mut) (by decide) (keepsb_ok (by decide +kernel))) hs
example := C52_sound (.of_trace Demo.groupTrace) Demo.groupEnumerates Demo.kmid_sched (k := .part) (ma := .mut) (mb := .ref) (a := 1) (b := 2)
  (by decide +kernel) (by decide +kernel) (.inl (by decide))
example : ∃ c c' r, (0, c, r) ∈ Demo.kend.log ∧ KCall.plain c = some c' ∧ c'.soft = true ∧
    c'.proper Demo.groupCfg = true ∧ r ≠ none := by
  have h : (0, KCall.viaHandle 1 [.attach 3 13], some [Ret.unit]) ∈ Demo.kend.log := by decide +kernel
  exact ⟨.viaHandle 1 [.attach 3 13], .on 1 [.attach 3 13], some [.unit], h, rfl, rfl, by decide +kernel,
    C52_returns (.of_trace Demo.groupTrace) Demo.groupEnumerates Demo.kend_sched rfl rfl (by decide +kernel) h⟩

end Xecs
