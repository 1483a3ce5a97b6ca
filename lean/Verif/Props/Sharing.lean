import Verif.Proofs.Attaching
import Verif.Props.Threads
import Verif.Props.Groups
import Verif.Spec.Decide
/-
C38 and C39: threads that attach, detach and remove at the same time.
-/
set_option autoImplicit false
namespace Xecs
open Spec World Hist

namespace Demo

/-- Only attaching, as a Boolean. -/
def attachingb : Sys Nat → Nat → ApiCall Nat → Bool := fun σ _ c =>
  match c with
  | .on id _ => σ.world.em.entities.contains id && c.soft
  | .create _ => false
  | .createMany _ _ => false
  | .fill _ _ _ => false
  | .remove _ => false
  | _ => true

theorem attachingb_ok : ∀ (σ : Sys Nat) i c, attachingb σ i c = true → σ.attaching i c := by
  intro σ i c h
  cases c <;> simp_all [attachingb, Sys.attaching]

/-- Discipline, as a Boolean. -/
def disciplinedb (cfg : Config) : Sys Nat → Nat → ApiCall Nat → Bool := fun σ _ c =>
  match c with
  | .on id _ => (σ.threads.all fun th => th.prog.fills.isNone) && (σ.world.em.entities.contains id &&
      ((σ.threads.all fun th => th.subject != some id) ||
        (c.soft && σ.threads.all fun th => th.subject != some id || th.call.map ApiCall.soft == some true)))
  | .remove id => (σ.threads.all fun th => th.prog.fills.isNone) && (σ.world.em.entities.contains id && (σ.threads.all fun th => th.subject != some id) &&
      cfg.indexed.all fun x => cfg.indexed.all fun y => !(x.1 < y.1) ||
        !([x.2.a, x.2.b, y.2.a, y.2.b].all fun t => (σ.world.value t id).isSome) || (!x.2.owns y.2.a && !x.2.owns y.2.b))
  | .createMany _ batches => batches.isEmpty
  | .fill _ _ _ => false
  | _ => true

theorem disciplinedb_ok (cfg : Config) : ∀ (σ : Sys Nat) i c, disciplinedb cfg σ i c = true → σ.disciplined cfg i c := by
  intro σ i c h
  cases c with
  | on id sc =>
    simp only [disciplinedb, Bool.and_eq_true, Bool.or_eq_true, List.contains_iff_mem, List.all_eq_true] at h
    replace h := h.2
    refine ⟨h.1, h.2.imp (fun h th hth => by simpa using h th hth) fun h => ⟨h.1, fun th hth hs => ?_⟩⟩
    rcases h.2 th hth with h | h
    · simp [hs] at h
    · simpa using h
  | remove id =>
    simp only [disciplinedb, Bool.and_eq_true, List.contains_iff_mem, List.all_eq_true] at h
    replace h := h.2
    refine ⟨h.1.1, fun th hth => by simpa using h.1.2 th hth, ?_⟩
    intro i j gi gj hij hi hj hv
    have mem : ∀ {k : Nat} {g : Shape}, cfg.groups[k]? = some g → (k, g) ∈ cfg.indexed := by
      intro k g hk
      rw [Config.indexed, List.mem_iff_getElem?]
      exact ⟨k, by simp [hk]⟩
    have := h.2 _ (mem hi) _ (mem hj)
    simp only [Bool.or_eq_true, Bool.not_eq_true', decide_eq_false_iff_not, Bool.and_eq_true] at this
    rcases this with (h | h) | h
    · exact absurd hij h
    · simp [hv] at h
    · exact h
  | createMany n bs => simpa [disciplinedb, Sys.disciplined] using h
  | fill x y bs => cases h
  | _ => trivial

/-- The configuration of the world `groupW`: a partial-owning group over 1 and 2, a non-owning one over 3 and
4. -/
def groupCfg : Config := Config.of groupW [4, 2, 3, 1]

theorem groupEnumerates : Enumerates groupW [4, 2, 3, 1] :=
  enumerates_of (.of_any groupTrace.any) (by decide) fun t => by
    rw [registered_iff, show regTypes groupTr = [4, 3, 2, 1] by decide +kernel]; simp; omega

/-- Two threads attach 3 and 4 to entity 1, each storing its component before either looks at the group; a third
one runs the group query in the middle. -/
def attachChoices : List (Choice Nat) :=
  [.start 0 (.on 1 [.attach 3 13]), .start 1 (.on 1 [.attach 4 14]), .start 2 (.query (.group .non .ref .ref 3 4))] ++
    goes 0 5 ++ goes 1 7 ++ goes 2 16

/-- The same, to the end. -/
def attachAll : List (Choice Nat) := attachChoices ++ goes 1 11 ++ goes 0 13

theorem attachMid_go : ((Sys.init groupW 3).performAll groupCfg attachingb attachChoices).isSome = true := by decide +kernel
theorem attachEnd_go : ((Sys.init groupW 3).performAll groupCfg attachingb attachAll).isSome = true := by decide +kernel

/-- In the middle of the two attaches. -/
def attachMid : Sys Nat := ((Sys.init groupW 3).performAll groupCfg attachingb attachChoices).get attachMid_go
/-- When all calls have returned. -/
def attachEnd : Sys Nat := ((Sys.init groupW 3).performAll groupCfg attachingb attachAll).get attachEnd_go

theorem attachMid_sched : (Sys.init groupW 3).Sched groupCfg Sys.attaching attachMid := performed attachingb_ok attachMid_go
theorem attachEnd_sched : (Sys.init groupW 3).Sched groupCfg Sys.attaching attachEnd := performed attachingb_ok attachEnd_go

theorem attachEnd_quiet : attachEnd.Quiet := by
  have : (attachEnd.threads.all fun th => th.call.isNone) = true := by decide +kernel
  intro th hth
  simpa using List.all_eq_true.1 this th hth

end Demo

variable {V : Type} {tr : List (Op V × Out V)} {w : World V} {n : Nat} {order : List TypeId} {σ : Sys V}

/-! ### C38 -/

/-- **C38.** After any allowed history the world is shared by any number of threads which attach components to
entities alive (also several of them to the same entity), read, write and query. At every moment of every
schedule no group is inconsistent: a query on any group -- a non-owning group as long as the history did not
invalidate it -- succeeds, yields no entity twice, and every entity it yields has both components, with the
values shown. -/
theorem C38_sound (h : Mixed tr w) (ho : Enumerates w order)
    (hs : (Sys.init w n).Sched (Config.of w order) Sys.attaching σ) {k : Kind} {ma mb : Mode} {a b : TypeId}
    (hg : madeGroup (ofKind k) a b tr = true) (hu : Unmoved tr (.group k ma mb a b))
    (hm : a ≠ b ∨ (ma = .ref ∧ mb = .ref)) :
    ∃ l, Yields σ.world (.group k ma mb a b) l ∧ (l.map Prod.fst).Nodup ∧
      ∀ x ∈ l, bothOf (σ.world.value a x.1) (σ.world.value b x.1) = some x.2 := by
  obtain ⟨h1, h2, _⟩ := h.made_registered hg
  obtain ⟨s0, hr⟩ := h.origin
  obtain ⟨hb, cl, s, hd, hf⟩ := disc_attaching hr ho hs
  obtain ⟨l, l1, l2⟩ := rel_lists hd.rel.core (shared_defined hr ho hb hd (q := .group k ma mb a b) ⟨h1, h2, hg⟩)
    (shared_fresh hr hb hd hf hu) (group_conflictless hm)
  exact ⟨l, l1, l2.1, fun x hx => state_pair hd.rel ((l2.2 x.1 x.2).1 hx)⟩

/-- **C38.** When all calls have returned, every query -- on groups not bypassed by batch attaches before -- yields
exactly the entities that match it, each once, with their values: every group contains exactly the entities
having both its components. -/
theorem C38_complete (h : Mixed tr w) (ho : Enumerates w order)
    (hs : (Sys.init w n).Sched (Config.of w order) Sys.attaching σ) (hq : σ.Quiet) {q : Query} (he : Exists tr q)
    (hu : Unmoved tr q) (hb : Unbatched tr q) (hc : q.Conflictless) :
    ∃ l, Yields σ.world q l ∧ Lists l (q.answer σ.world.value) := by
  obtain ⟨s0, hr⟩ := h.origin
  obtain ⟨hba, cl, s, hd, hf⟩ := disc_attaching hr ho hs
  obtain ⟨l, l1, l2⟩ := rel_lists hd.rel.core (shared_defined hr ho hba hd he) (shared_fresh hr hba hd hf hu) hc
  exact ⟨l, l1, l2.1, fun id x => by rw [l2.2, shared_answer hr ho hba hd hq he hb]⟩

/-- **C38.** No attach panics: a call that works through a handle on an entity alive, with types that are
registered, returns normally (if it returns). -/
theorem C38_returns (h : Mixed tr w) (ho : Enumerates w order)
    (hs : (Sys.init w n).Sched (Config.of w order) Sys.attaching σ) {i : Nat} {c : ApiCall V} (hc : c.soft = true)
    (hp : c.proper (Config.of w order) = true) {r : Option (List (Ret V))} (hl : (i, c, r) ∈ σ.log) : r ≠ none := by
  obtain ⟨s0, hr⟩ := h.origin
  obtain ⟨_, cl, s, hd, _⟩ := disc_attaching hr ho hs
  rintro rfl
  exact hd.log i c hl ⟨hc, hp⟩

/-- In the middle entity 1 has both components already but is not in the group yet; the other two are. -/
example : ∃ l, Yields Demo.attachMid.world (.group .non .ref .ref 3 4) l ∧ (l.map Prod.fst).Nodup := by
  obtain ⟨l, h1, h2, _⟩ := C38_sound (.of_trace Demo.groupTrace) Demo.groupEnumerates Demo.attachMid_sched (k := .non)
    (ma := .ref) (mb := .ref) (a := 3) (b := 4) (by decide +kernel) (by decide +kernel) (.inl (by decide))
  exact ⟨l, h1, h2⟩
example : Demo.attachMid.world.value 3 1 = some 13 ∧ Demo.attachMid.world.value 4 1 = some 14 := by decide +kernel
example : ∃ l, Yields Demo.attachEnd.world (.group .non .ref .ref 3 4) l ∧ (1, .pair (.leaf 13) (.leaf 14)) ∈ l ∧
    (2, .pair (.leaf 23) (.leaf 24)) ∈ l := by
  obtain ⟨l, h1, h2⟩ := C38_complete (.of_trace Demo.groupTrace) Demo.groupEnumerates Demo.attachEnd_sched Demo.attachEnd_quiet
    (q := .group .non .ref .ref 3 4) (by decide +kernel) (by decide +kernel) (by decide +kernel) (by decide +kernel)
  exact ⟨l, h1, (h2.2 1 _).2 (by decide +kernel), (h2.2 2 _).2 (by decide +kernel)⟩
example : ∃ r, (0, ApiCall.on 1 [.attach 3 13], r) ∈ Demo.attachEnd.log ∧ r ≠ none := by
  have h : (0, ApiCall.on 1 [.attach 3 13], some [Ret.unit]) ∈ Demo.attachEnd.log := by decide +kernel
  exact ⟨_, h, C38_returns (.of_trace Demo.groupTrace) Demo.groupEnumerates Demo.attachEnd_sched rfl (by decide +kernel) h⟩

/-! ### C39 -/

/-- **C39**, for disciplined clients (`Sys.disciplined`: at any time each entity is worked on by one thread, or by
several that only attach). At every moment of every schedule of attaches, detaches, creations, removals, reads,
writes and queries, no owning group lists an entity lacking one of its components: the group query succeeds,
yields no entity twice, and every entity it yields has both components, with the values shown. Missing from the
English property: clients that detach from, or remove, an entity while another thread works on it, for which it
is false (`C39_detach_attach_counterexample`); and non-owning groups, which the code gets wrong also without
concurrency. -/
theorem C39_sound_partial (h : Mixed tr w) (ho : Enumerates w order)
    (hs : (Sys.init w n).Sched (Config.of w order) (Sys.disciplined (Config.of w order)) σ) {k : Kind} {ma mb : Mode}
    {a b : TypeId} (hk : k ≠ .non) (hg : madeGroup (ofKind k) a b tr = true) :
    ∃ l, Yields σ.world (.group k ma mb a b) l ∧ (l.map Prod.fst).Nodup ∧
      ∀ x ∈ l, bothOf (σ.world.value a x.1) (σ.world.value b x.1) = some x.2 := by
  obtain ⟨h1, h2, h3⟩ := h.made_registered hg
  obtain ⟨s0, hr⟩ := h.origin
  obtain ⟨hb, cl, s, hd⟩ := disc_disciplined hr ho hs
  obtain ⟨l, l1, l2⟩ := rel_lists hd.rel.core (shared_defined hr ho hb hd (q := .group k ma mb a b) ⟨h1, h2, hg⟩)
    (fun e => absurd e hk) (group_conflictless (.inl (h3 (by cases k <;> simp_all [ofKind]))))
  exact ⟨l, l1, l2.1, fun x hx => state_pair hd.rel ((l2.2 x.1 x.2).1 hx)⟩

/-- **C39**, for disciplined clients: when all calls have returned, every query on plain components and owning
groups (not bypassed by batch attaches before) yields exactly the entities that match it. -/
theorem C39_complete_partial (h : Mixed tr w) (ho : Enumerates w order)
    (hs : (Sys.init w n).Sched (Config.of w order) (Sys.disciplined (Config.of w order)) σ) (hq : σ.Quiet) {q : Query}
    (he : Exists tr q) (hk : Parts (fun _ => True) (fun k _ _ => k ≠ .non) q) (hb : Unbatched tr q)
    (hc : q.Conflictless) : ∃ l, Yields σ.world q l ∧ Lists l (q.answer σ.world.value) := by
  obtain ⟨s0, hr⟩ := h.origin
  obtain ⟨hba, cl, s, hd⟩ := disc_disciplined hr ho hs
  have hf : s.FreshIn q := (freshIn_iff q).2 (Parts.imp (fun _ h => h) (fun k a b h e => absurd e h) q hk)
  obtain ⟨l, l1, l2⟩ := rel_lists hd.rel.core (shared_defined hr ho hba hd he) hf hc
  exact ⟨l, l1, l2.1, fun id x => by rw [l2.2, shared_answer hr ho hba hd hq he hb]⟩

/-- A query that names no group meets any condition on groups. -/
theorem groupless_parts {P : Kind → TypeId → TypeId → Prop} {q : Query} (hk : q.Groupless) : Parts (fun _ => True) P q := by
  induction q with
  | comp m t => trivial
  | with2 a b iha ihb => exact ⟨iha hk.1, ihb hk.2⟩
  | with3 a b c iha ihb ihc => exact ⟨iha hk.1, ihb hk.2.1, ihc hk.2.2⟩
  | with4 a b c d iha ihb ihc ihd => exact ⟨iha hk.1, ihb hk.2.1, ihc hk.2.2.1, ihd hk.2.2.2⟩
  | with5 a b c d e iha ihb ihc ihd ihe =>
    exact ⟨iha hk.1, ihb hk.2.1, ihc hk.2.2.1, ihd hk.2.2.2.1, ihe hk.2.2.2.2⟩
  | withoutL a b iha ihb => exact ⟨iha hk.1, ihb hk.2⟩
  | withoutR a b iha ihb => exact ⟨iha hk.1, ihb hk.2⟩
  | group k ma mb a b => exact False.elim hk

/-- **C39**, for disciplined clients: queries that name no group are exact at every moment of every schedule, also
in the middle of other threads' calls. -/
theorem C39_plain_partial (h : Mixed tr w) (ho : Enumerates w order)
    (hs : (Sys.init w n).Sched (Config.of w order) (Sys.disciplined (Config.of w order)) σ) {q : Query}
    (he : Exists tr q) (hk : q.Groupless) (hc : q.Conflictless) :
    ∃ l, Yields σ.world q l ∧ Lists l (q.answer σ.world.value) := by
  obtain ⟨s0, hr⟩ := h.origin
  obtain ⟨hba, cl, s, hd⟩ := disc_disciplined hr ho hs
  have key : ∀ {P : Kind → TypeId → TypeId → Prop}, Parts (fun _ => True) P q := groupless_parts hk
  obtain ⟨l, l1, l2⟩ := rel_lists hd.rel.core (shared_defined hr ho hba hd he) ((freshIn_iff q).2 key) hc
  refine ⟨l, l1, l2.1, fun id x => ?_⟩
  rw [l2.2, (state_answer q id key).2, show (σ.world.value) = s.get from funext fun t => funext fun e => value_eq hd.rel t e]

namespace Demo

/-- Thread 0 detaches a component, thread 1 removes an entity, thread 2 creates one in the group. -/
def busy : List (Choice Nat) :=
  [.start 0 (.on 5 [.detach 1]), .start 1 (.remove 1), .start 2 (.create [.attach 2 62, .attach 1 61])] ++
    [2, 2, 2, 1, 2, 0, 1, 1, 2, 1, 0, 1, 2, 2, 2, 0, 0, 2, 1, 2, 1, 1, 1, 1, 0, 0, 0, 0, 0, 0, 0, 0, 0, 1, 1, 1, 0, 0,
     1, 1, 0, 0, 0, 1, 1, 1, 1, 1, 1, 1, 1, 1, 1, 2, 2, 2, 2, 2, 2, 1, 1, 1, 2, 1, 1, 1, 1, 1, 2, 2, 1, 2, 2, 2, 2, 2, 2,
     2, 1, 1, 2, 1, 1, 2, 1, 2, 2, 2, 2, 2, 2, 2, 1, 1, 1, 1].map .go

theorem busyMid_go : ((Sys.init groupW 3).performAll groupCfg (disciplinedb groupCfg) (busy.take 60)).isSome = true := by
  decide +kernel
theorem busyEnd_go : ((Sys.init groupW 3).performAll groupCfg (disciplinedb groupCfg) busy).isSome = true := by
  decide +kernel

/-- In the middle. -/
def busyMid : Sys Nat := ((Sys.init groupW 3).performAll groupCfg (disciplinedb groupCfg) (busy.take 60)).get busyMid_go
/-- At the end. -/
def busyEnd : Sys Nat := ((Sys.init groupW 3).performAll groupCfg (disciplinedb groupCfg) busy).get busyEnd_go

theorem busyMid_sched : (Sys.init groupW 3).Sched groupCfg (Sys.disciplined groupCfg) busyMid :=
  performed (disciplinedb_ok groupCfg) busyMid_go
theorem busyEnd_sched : (Sys.init groupW 3).Sched groupCfg (Sys.disciplined groupCfg) busyEnd :=
  performed (disciplinedb_ok groupCfg) busyEnd_go

theorem busyEnd_quiet : busyEnd.Quiet := by
  have : (busyEnd.threads.all fun th => th.call.isNone) = true := by decide +kernel
  intro th hth
  simpa using List.all_eq_true.1 this th hth

end Demo

example : ∃ l, Yields Demo.busyMid.world (.group .part .ref .ref 1 2) l ∧ (l.map Prod.fst).Nodup ∧
      ∀ x ∈ l, bothOf (Demo.busyMid.world.value 1 x.1) (Demo.busyMid.world.value 2 x.1) = some x.2 :=
  C39_sound_partial (.of_trace Demo.groupTrace) Demo.groupEnumerates Demo.busyMid_sched (k := .part) (by simp) (by decide +kernel)
example : ∃ l, Yields Demo.busyEnd.world (.group .part .ref .mut 1 2) l ∧ (3, .pair (.leaf 61) (.leaf 62)) ∈ l := by
  obtain ⟨l, h1, h2⟩ := C39_complete_partial (.of_trace Demo.groupTrace) Demo.groupEnumerates Demo.busyEnd_sched Demo.busyEnd_quiet
    (q := .group .part .ref .mut 1 2) (by decide +kernel) (by simp [Parts]) (by decide +kernel) (by decide +kernel)
  exact ⟨l, h1, (h2.2 3 _).2 (by decide +kernel)⟩
example := C39_plain_partial (.of_trace Demo.groupTrace) Demo.groupEnumerates Demo.busyMid_sched
  (q := .withoutR (.comp .mut 2) (.comp .ref 1)) (by decide +kernel) (by decide +kernel) (by decide +kernel)

namespace Demo

/-- Two entities having component 1 and a full-owning group. -/
def raceCalls : List (Op Nat) :=
  [.register 1, .register 2, .createEntities 2, .makeGroup .full 1 2, .attach 1 1 11, .attach 2 1 21]
theorem raceCalls_play : (play Hist.allowed raceCalls ([], World.new)).isSome = true := by decide +kernel
/-- The history, newest call first. -/
def raceTr : List (Op Nat × Out Nat) := (played raceCalls raceCalls_play).1
/-- The world it leads to. -/
def raceW : World Nat := (played raceCalls raceCalls_play).2
theorem raceTrace : Trace raceTr raceW := played_trace raceCalls raceCalls_play

/-- Thread 0 detaches component 1 from entity 1; after it has looked at the group thread 1 attaches component 2 to
entity 1; then thread 0 goes on. -/
def race : List (Choice Nat) :=
  [.start 0 (.on 1 [.detach 1]), .start 1 (.on 1 [.attach 2 12])] ++ goes 0 11 ++ goes 1 16 ++ goes 0 5
theorem race_go : ((Sys.init raceW 2).performAll (Config.of raceW [1, 2]) anyb race).isSome = true := by decide +kernel
/-- When both calls have returned. -/
def raced : Sys Nat := ((Sys.init raceW 2).performAll (Config.of raceW [1, 2]) anyb race).get race_go
end Demo

/-- **C39** is false for clients that work on one entity from two threads: `detach::<A>(e)` interleaved with
`attach::<B>(e)`. Both calls return normally; then the full-owning group of `A` and `B` contains an entity although
no entity has both components, and its query pairs up components of different entities. -/
theorem C39_detach_attach_counterexample :
    Trace Demo.raceTr Demo.raceW ∧
    (Sys.init Demo.raceW 2).Sched (Config.of Demo.raceW [1, 2]) Sys.anything Demo.raced ∧
    Demo.raced.log = [(0, .on 1 [.detach 1], some [.val (some 11)]), (1, .on 1 [.attach 2 12], some [.unit])] ∧
    (Demo.raced.world.value 1 1 = none ∧ Demo.raced.world.value 2 1 = some 12) ∧
    (Demo.raced.world.value 1 2 = some 21 ∧ Demo.raced.world.value 2 2 = none) ∧
    ∃ id, Yields Demo.raced.world (.group .full .ref .ref 1 2) [(id, .pair (.leaf 21) (.leaf 12))] :=
  ⟨Demo.raceTrace, performed (fun _ _ _ _ => trivial) Demo.race_go, by decide +kernel, by decide +kernel, by decide +kernel,
    2, by unfold Yields; decide +kernel⟩

end Xecs
