import Verif.Proofs.PhasesMixed
import Verif.Proofs.Recorded
import Verif.Props.Queries
import Verif.Props.Considerate
/-
Property theorems C54: sharing the world between threads for a while is as if their changes had been made one after the
other by a single owner.
-/
set_option autoImplicit false
namespace Xecs
open Spec World Hist
variable {V : Type} {tr : List (Op V × Out V)} {w : World V}

/-! ### C54 -/

/-- The world after unshared calls and finished shared phases answers every further call exactly as a world that was
never shared: one on which a single owner made the recorded changes, in the recorded order. -/
theorem C54_sequential (h : Mixed tr w) :
    ∃ u, Trace tr u ∧ ∀ op, Allowed tr op → (exec op w).2 = (exec op u).2 := by
  obtain ⟨u, g, ht, hr, hw⟩ := h.like
  refine ⟨u, ht, fun op ha => ?_⟩
  rcases Like.next hr hw ha with ⟨o, w', u', g', h1, h2, _⟩ | ⟨h1, h2⟩
  · rw [h1, h2]
  · rw [h1, h2]

/-- Every schedule of considerate clients (`Sys.considerate`, see C65) that has come to rest has a record: a list of changes, each made by a single
piece of work, in the order in which they were made. In it each thread's changes are what its calls have done according
to their results, in the order of the calls; and it continues the history. -/
theorem C54_account (h : Mixed tr w) {order : List TypeId} (ho : Enumerates w order) {n : Nat} {σ : Sys V}
    (hs : (Sys.init w n).Sched (Config.of w order) (Sys.considerate (Config.of w order)) σ) (hq : σ.Quiet) :
    ∃ l, (Sys.init w n).Record (Config.of w order) (Sys.considerate (Config.of w order)) l σ ∧
      (∀ i, Told order (ofThread i σ.log) (ofThread i l)) ∧ Mixed (l.map Prod.snd ++ tr) σ.world := by
  obtain ⟨l, hl⟩ := Sys.record_of hs
  exact ⟨l, hl, fun i => told hl hq i, h.phase ho hl hq⟩

/-- Whether an id exists depends on the ids handed out and removed only. -/
theorem exist_same {w u : World V} {s g : State V} (hw : Rel w s) (hr : Run tr u g) (ht : Trace tr u) (hb : Base s g)
    {id : EntityId} (hu : Usable id tr) :
    World.exist id w = (w, if handedOut id tr then .ok (alive id tr) else .error .panic) := by
  have hx : ∀ (v : World V), (exec (.exist id) v).2 = (World.exist id v).2.map Out.bool := by
    intro v
    show ((World.exist id >>= fun b => pure (Out.bool b)) v).2 = _
    rw [M.bind_apply]
    rcases hv : World.exist id v with ⟨v', r⟩
    cases r <;> rfl
  have h3 : (exec (.exist id) w).2 = (exec (.exist id) u).2 := by
    have hn := (allowed_spec hr (op := .exist id) hu).2
    have h1 := step_ref hr.rel (.exist id) trivial
    have h2 := step_ref hw (.exist id) trivial
    have hstep : ∀ o s', g.step (.exist id) = .ok s' o → s.step (.exist id) = .ok s o := by
      intro o s' hg
      simp only [State.step] at hg ⊢
      rw [← hb.live id, show s.zombie id = g.zombie id by simp only [State.zombie, hb.free], ← hb.next]
      split at hg
      · rename_i hl; cases hg; rw [if_pos hl]
      · rename_i hl
        rw [if_neg hl]
        split at hg
        · cases hg
        · rename_i hz
          rw [if_neg hz]
          split at hg
          · rename_i hlt; cases hg; rw [if_pos hlt]
          · cases hg
    have hpan : g.step (.exist id) = .panics → s.step (.exist id) = .panics := by
      intro hg
      simp only [State.step] at hg ⊢
      rw [← hb.live id, show s.zombie id = g.zombie id by simp only [State.zombie, hb.free], ← hb.next]
      split at hg
      · cases hg
      · rename_i hl
        rw [if_neg hl]
        split at hg
        · cases hg
        · rename_i hz
          rw [if_neg hz]
          split at hg
          · cases hg
          · rename_i hlt; rw [if_neg hlt]
    cases hg : g.step (.exist id) with
    | unspecified => exact absurd hg hn
    | ok g' o =>
      rw [hg] at h1; rw [hstep _ _ hg] at h2
      obtain ⟨_, e1, _⟩ := h1
      obtain ⟨_, e2, _⟩ := h2
      rw [e1, e2]
    | panics =>
      rw [hg] at h1; rw [hpan hg] at h2
      rw [show exec (.exist id) u = (u, .error .panic) from h1, show exec (.exist id) w = (w, .error .panic) from h2]
  have he : (World.exist id w).2 = (World.exist id u).2 := by
    have h1 := hx w
    rw [h3, hx u] at h1
    cases ha : (World.exist id u).2 <;> cases hb : (World.exist id w).2 <;> simp [ha, hb, Except.map] at h1 ⊢ <;> exact h1.symm
  refine Prod.ext rfl ?_
  rw [he, C10_exist_partial (Wild.of_any ht.any) ht.live.2.1 hu.1]
  have : decide ((recyclable tr).getLast? = some id) = false := by simpa using hu.2
  simp [this]

/-- Components, resources, and the existence of entities are as the recorded changes say. -/
theorem C54_state (h : Mixed tr w) :
    (∀ t id, World.componentRead t id w = (w, .ok (lastValue t id tr)) ∧
      World.storageExist t id w = (w, .ok (if registered t tr then some (lastValue t id tr).isSome else none))) ∧
    (∀ t, World.resourceRead t w = (w, .ok (lastResource t tr))) ∧
    (∀ id, Usable id tr → World.exist id w = (w, if handedOut id tr then .ok (alive id tr) else .error .panic)) := by
  obtain ⟨u, g, ht, hr, hw⟩ := h.like
  refine ⟨fun t id => ⟨h.look.read t id, h.look.exist t id⟩, fun t => ?_, fun id hu => ?_⟩
  · have := hw.res t
    rw [show g.unfresh.res t = g.res t from rfl, run_res hr] at this
    simp only [World.resourceRead, M.read_apply, this]
    cases lastResource t tr with
    | none => rfl
    | some v => simp [downcastRes]
  · exact exist_same hw hr ht ⟨rfl, rfl, rfl, fun _ => rfl, rfl⟩ hu

/-- Queries yield what the recorded changes say, and all theorems about queries apply, unless a known defect is in the
way: batch attach since one of their groups was made; or, for a non-owning group, since it was made one of its components
was detached or an entity having one removed, or its types are owned by another group. -/
theorem C54_queries (h : Mixed tr w) {q : Query} (he : Exists tr q) (hn : Unmoved tr q) (hb : Unbatched tr q)
    (hc : q.Conflictless) : ∃ l, Yields w q l ∧ Lists l (q.answer (values tr)) :=
  C23_meaning (.shared h he hn hb) hc

/-- While the world is being shared: the changes recorded so far, in their order, are ones a single owner could have made;
which entities exist is as they say; every component anybody can see has the value they say; and an entity nobody is working on has exactly the components
they say. -/
theorem C54_during (h : Mixed tr w) {order : List TypeId} (ho : Enumerates w order) {n : Nat} {l : List (Nat × Op V × Out V)}
    {σ : Sys V} (hl : (Sys.init w n).Record (Config.of w order) (Sys.considerate (Config.of w order)) l σ) :
    (∃ u, Trace (l.map Prod.snd ++ tr) u) ∧
    (∀ id, Usable id (l.map Prod.snd ++ tr) → World.exist id σ.world = (σ.world,
      if handedOut id (l.map Prod.snd ++ tr) then .ok (alive id (l.map Prod.snd ++ tr)) else .error .panic)) ∧
    (∀ t id v, σ.world.value t id = some v → lastValue t id (l.map Prod.snd ++ tr) = some v) ∧
    (∀ id, (∀ th ∈ σ.threads, th.subject ≠ some id) →
      ∀ t, σ.world.value t id = lastValue t id (l.map Prod.snd ++ tr)) := by
  obtain ⟨u, g, s0, ht, hr, hw, ha⟩ := h.kin
  obtain ⟨hb, s, hd, u', g', ht', hr', he, _⟩ := phase_run ht hr hw ha ho hl
  have hv : ∀ t id, s.has t id = true → s.get t id = lastValue t id (l.map Prod.snd ++ tr) := by
    intro t id hh
    rw [← run_get hr', he.vals t id hh]
  refine ⟨⟨u', ht'⟩, fun id hu => exist_same hd.rel hr' ht' he.base hu, fun t id v hx => ?_, fun id hno t => ?_⟩
  · rw [value_eq hd.rel] at hx
    rw [← hv t id (by simp [State.has, hx]), hx]
  · rw [value_eq hd.rel]
    cases hh : s.has t id with
    | true => exact hv t id hh
    | false =>
      have h1 := (he.free fun j th hj => hno th (List.mem_of_getElem? hj)).1 t
      rw [hh] at h1
      rw [← run_get hr']
      simp only [State.has] at hh h1
      rw [Option.isSome_eq_false_iff, Option.isNone_iff_eq_none] at hh h1
      rw [hh, h1]

theorem told_one {order : List TypeId} {c : ApiCall V} {rs : List (Ret V)} {l : List (Op V × Out V)}
    (h : Told order [(c, some rs)] l) : l = (c.did order rs).reverse := by
  generalize hx : [(c, some rs)] = x at h
  cases h with
  | nil => cases hx
  | cons part h1 h2 h3 =>
    cases hx
    rw [h3 rs rfl]
    cases h1
    simp

/-- Thread 2 of the phase in `Demo.busy` has created an entity and attached two components, in this order; thread 0 has
detached a component, thread 1 removed an entity. After the phase the new entity is in the group. -/
example : ∃ l, Mixed (l.map Prod.snd ++ Demo.groupTr) Demo.busyEnd.world ∧
    ofThread 2 l = [(.attach 3 1 61, .unit), (.attach 3 2 62, .unit), (.createEntity, .id 3)] ∧
    ofThread 0 l = [(.detach 5 1, .val (some 51))] ∧ ofThread 1 l = [(.removeEntity [4, 2, 3, 1] 1, .unit)] := by
  obtain ⟨l, hl, ht, hm⟩ := C54_account (.of_trace Demo.groupTrace) Demo.groupEnumerates Demo.busyEnd_kind Demo.busyEnd_quiet
  refine ⟨l, hm, ?_, ?_, ?_⟩
  · exact told_one (rs := [.id 3, .unit, .unit]) (by
      rw [← show ofThread 2 Demo.busyEnd.log = [(.create [.attach 2 62, .attach 1 61], some [.id 3, .unit, .unit])] by decide +kernel]
      exact ht 2)
  · exact told_one (rs := [.val (some 51)]) (by
      rw [← show ofThread 0 Demo.busyEnd.log = [(.on 5 [.detach 1], some [.val (some 51)])] by decide +kernel]
      exact ht 0)
  · exact told_one (rs := [.unit]) (by
      rw [← show ofThread 1 Demo.busyEnd.log = [(.remove 1, some [.unit])] by decide +kernel]
      exact ht 1)

/-- Thread 0 of the phase `Demo.pourAll` has created two entities with components: three changes, the batches in the order
given. -/
example : ∃ l, Mixed (l.map Prod.snd ++ Demo.groupTr) Demo.pourEnd.world ∧
    ofThread 0 l = [(.attachBatch 6 8 4 [64, 74], .unit), (.attachBatch 6 8 3 [63, 73], .unit), (.createEntities 2, .range 6 8)] ∧
    ofThread 1 l = [(.attach 1 3 13, .unit)] := by
  obtain ⟨l, hl, ht, hm⟩ := C54_account (.of_trace Demo.groupTrace) Demo.groupEnumerates Demo.pourEnd_sched Demo.pourEnd_quiet
  refine ⟨l, hm, ?_, ?_⟩
  · exact told_one (rs := [.range 6 8]) (by
      rw [← show ofThread 0 Demo.pourEnd.log = [(.createMany 2 [(3, [63, 73]), (4, [64, 74])], some [.range 6 8])] by decide +kernel]
      exact ht 0)
  · exact told_one (rs := [.unit]) (by
      rw [← show ofThread 1 Demo.pourEnd.log = [(.on 1 [.attach 3 13], some [.unit])] by decide +kernel]
      exact ht 1)

namespace Demo

deriving instance DecidableEq for Op

/-- The changes made in the shared phase `busy`, in its middle and at its end. -/
def busyMidLog : List (Nat × Op Nat × Out Nat) := (Sys.init groupW 3).changes groupCfg (disciplinedb groupCfg) (busy.take 60) []
def busyLog : List (Nat × Op Nat × Out Nat) := (Sys.init groupW 3).changes groupCfg (disciplinedb groupCfg) busy []

theorem busyMid_record : (Sys.init groupW 3).Record groupCfg (Sys.considerate groupCfg) busyMidLog busyMid :=
  recorded (disciplinedb_kind groupCfg) busyMid_go
theorem busyEnd_record : (Sys.init groupW 3).Record groupCfg (Sys.considerate groupCfg) busyLog busyEnd :=
  recorded (disciplinedb_kind groupCfg) busyEnd_go

/-- The changes of the three threads alternate. -/
theorem busyLog_eq : busyLog = [(1, .removeEntity [4, 2, 3, 1] 1, .unit), (2, .attach 3 1 61, .unit), (0, .detach 5 1, .val (some 51)),
    (2, .attach 3 2 62, .unit), (2, .createEntity, .id 3)] := by decide +kernel

/-- A shared phase, then an attach by a single owner. -/
theorem mixed : Mixed (busyLog.map Prod.snd ++ groupTr) busyEnd.world :=
  .phase (.of_trace groupTrace) groupEnumerates busyEnd_record busyEnd_quiet

/-- Components 1 and 2 of entity 3 are there, and the group over them knows. -/
example : ∃ l, Yields busyEnd.world (.with2 (.group .part .ref .ref 1 2) (.withoutR (.comp .ref 2) (.comp .ref 3))) l ∧
    (3, .pair (.pair (.leaf 61) (.leaf 62)) (.leaf 62)) ∈ l ∧ ∀ x ∈ l, x.1 ≠ 1 ∧ x.1 ≠ 5 := by
  obtain ⟨l, h1, h2⟩ := C54_queries mixed (q := .with2 (.group .part .ref .ref 1 2) (.withoutR (.comp .ref 2) (.comp .ref 3)))
    (by decide +kernel) ⟨(by intro h; cases h), trivial, trivial⟩ (by decide +kernel) (by decide +kernel)
  refine ⟨l, h1, (h2.2 3 _).2 (by decide +kernel), ?_⟩
  rintro ⟨id, x⟩ hx
  have h3 := (h2.2 id x).1 hx
  constructor
  · rintro rfl; exact absurd h3 (by rw [show Query.answer _ _ 1 = none by decide +kernel]; simp)
  · rintro rfl; exact absurd h3 (by rw [show Query.answer _ _ 5 = none by decide +kernel]; simp)

/-- In the middle of the phase nobody works on entity 5, which has lost a component; entity 1 is being removed: its first
component is gone already, though the removal is not yet recorded. -/
example : (busyMid.world.value 1 5 = none ∧ busyMid.world.value 2 5 = some 52) ∧
    (busyMid.world.value 1 1 = none ∧ lastValue 1 1 (busyMidLog.map Prod.snd ++ groupTr) = some 11) := by
  obtain ⟨_, _, _, h⟩ := C54_during (.of_trace groupTrace) groupEnumerates busyMid_record
  have h5 := h 5 (by decide +kernel)
  rw [h5, h5]
  decide +kernel

/-- The changes made in the shared phase `kindAll`: three threads detach from and attach to entity 5. -/
def kindLog : List (Nat × Op Nat × Out Nat) := (Sys.init groupW 4).changes groupCfg (considerateb groupCfg) kindAll []
theorem kindEnd_record : (Sys.init groupW 4).Record groupCfg (Sys.considerate groupCfg) kindLog kindEnd :=
  recorded (considerateb_ok groupCfg) kindEnd_go
theorem kindLog_eq : kindLog = [(0, .detach 5 1, .val (some 51)), (1, .attach 5 3 53, .unit), (1, .detach 5 2, .val (some 52)),
    (2, .attach 5 4 54, .unit)] := by decide +kernel
theorem kindMixed : Mixed (kindLog.map Prod.snd ++ groupTr) kindEnd.world :=
  .phase (.of_trace groupTrace) groupEnumerates kindEnd_record kindEnd_quiet

/-- Afterwards entity 5 has components 3 and 4. -/
example : ∃ l, Yields kindEnd.world (.with2 (.comp .ref 3) (.comp .mut 4)) l ∧ (5, .pair (.leaf 53) (.leaf 54)) ∈ l := by
  obtain ⟨l, h1, h2⟩ := C54_queries kindMixed (q := .with2 (.comp .ref 3) (.comp .mut 4)) (by decide +kernel)
    (NoNon.unmoved (by simp [NoNon, Parts])) (by decide +kernel) (by decide +kernel)
  exact ⟨l, h1, (h2.2 5 _).2 (by decide +kernel)⟩

/-- So the non-owning group over 3 and 4 yields it, though it joined while the world was shared. -/
example : ∃ l, Yields kindEnd.world (.group .non .mut .ref 3 4) l ∧ (5, .pair (.leaf 53) (.leaf 54)) ∈ l := by
  obtain ⟨l, h1, h2⟩ := C54_queries kindMixed (q := .group .non .mut .ref 3 4) (by simp only [Hist.Exists, Parts]; decide +kernel)
    (by simp only [Hist.Unmoved, Parts]; decide +kernel) (by simp only [Hist.Unbatched, Parts]; decide +kernel) (by decide +kernel)
  exact ⟨l, h1, (h2.2 5 _).2 (by decide +kernel)⟩

example := C54_state mixed
example := C54_sequential mixed

/-- A single owner goes on after the phase; then there is another phase. -/
example : ∃ w, Mixed ((.attach 3 3 73, .unit) :: (busyLog.map Prod.snd ++ groupTr)) w ∧
    ((Sys.init w 2).Record (Config.of w [1, 2, 3, 4]) (Sys.considerate (Config.of w [1, 2, 3, 4])) [] (Sys.init w 2)) := by
  have ha : Allowed (busyLog.map Prod.snd ++ groupTr) (.attach 3 3 73) := by
    rw [busyLog_eq]; exact allowed_iff (by decide +kernel)
  exact ⟨_, .ok mixed ha (Prod.ext rfl (show (exec (.attach 3 3 73) busyEnd.world).2 = _ by decide +kernel)), .refl⟩

end Demo

end Xecs
