import Verif.Props.Considerate
import Verif.Props.Keeping
/-
C65 for clients that keep handles, guards and iterators.
-/
set_option autoImplicit false
namespace Xecs
open Spec World Hist

variable {V : Type} {tr : List (Op V × Out V)} {w : World V} {n : Nat} {order : List TypeId} {τ : KSys V}

/-- **C65.** The same for clients that keep handles, guards and iterators across calls: at every moment a query on an
owning group succeeds, yields no entity twice, and every entity it yields has both components, with the values shown. -/
theorem C65_keeping_sound (h : Mixed tr w) (ho : Enumerates w order)
    (hs : (KSys.init w n).Sched (Config.of w order) (KSys.keeping (Sys.considerate (Config.of w order))) τ) {k : Kind}
    {ma mb : Mode} {a b : TypeId} (hk : k ≠ .non) (hg : madeGroup (ofKind k) a b tr = true) :
    ∃ l, Yields τ.world (.group k ma mb a b) l ∧ (l.map Prod.fst).Nodup ∧
      ∀ x ∈ l, bothOf (τ.world.value a x.1) (τ.world.value b x.1) = some x.2 := by
  obtain ⟨σ, h1, h2, _⟩ := sim_sched blind_considerate ho hs
  rw [← h2.world]
  exact C65_sound h ho h1 hk hg

/-- **C65.** When no call is running -- whatever is still kept --, every query on plain components and owning groups
yields exactly the entities that match it. -/
theorem C65_keeping_complete (h : Mixed tr w) (ho : Enumerates w order)
    (hs : (KSys.init w n).Sched (Config.of w order) (KSys.keeping (Sys.considerate (Config.of w order))) τ) (hq : τ.Quiet)
    {q : Query} (he : Exists tr q) (hk : Parts (fun _ => True) (fun k _ _ => k ≠ .non) q) (hb : Unbatched tr q)
    (hb' : τ.Unbatched q) (hc : q.Conflictless) : ∃ l, Yields τ.world q l ∧ Lists l (q.answer τ.world.value) := by
  obtain ⟨σ, h1, h2, _⟩ := sim_sched blind_considerate ho hs
  rw [← h2.world]
  refine C65_complete h ho h1 (h2.quiet fun i c hr => ?_) he hk hb ?_ hc
  rotate_left
  · have key : ∀ t, σ.Batched t → τ.Batched t := by
      rintro t ⟨i, m, r, vs, h3, h4⟩
      rw [h2.answers] at h3
      obtain ⟨⟨j, c, r'⟩, h5, h6⟩ := List.mem_filterMap.1 h3
      simp only [Option.map_eq_some_iff, Prod.mk.injEq] at h6
      obtain ⟨c', h7, rfl, rfl, rfl⟩ := h6
      exact ⟨j, c, _, r', vs, h5, h7, h4⟩
    exact Parts.imp (fun _ h => h) (fun _ a b h => ⟨fun h' => h.1 (key a h'), fun h' => h.2 (key b h')⟩) q hb'
  unfold KSys.running at hr
  rw [Option.bind_eq_some_iff] at hr
  obtain ⟨th, e1, e2⟩ := hr
  rw [hq th (List.mem_of_getElem? e1)] at e2; cases e2

/-- **C65.** Queries that name no group are exact at every moment. -/
theorem C65_keeping_plain (h : Mixed tr w) (ho : Enumerates w order)
    (hs : (KSys.init w n).Sched (Config.of w order) (KSys.keeping (Sys.considerate (Config.of w order))) τ) {q : Query}
    (he : Exists tr q) (hk : q.Groupless) (hc : q.Conflictless) :
    ∃ l, Yields τ.world q l ∧ Lists l (q.answer τ.world.value) := by
  obtain ⟨σ, h1, h2, _⟩ := sim_sched blind_considerate ho hs
  rw [← h2.world]
  exact C65_plain h ho h1 he hk hc

/-- **C65.** A call that attaches, reads or writes through a kept handle does not panic. -/
theorem C65_keeping_returns (h : Mixed tr w) (ho : Enumerates w order)
    (hs : (KSys.init w n).Sched (Config.of w order) (KSys.keeping (Sys.considerate (Config.of w order))) τ) {i : Nat}
    {c : KCall V} {c' : ApiCall V} (hp : c.plain = some c') (hc : c'.soft = true)
    (hpr : c'.proper (Config.of w order) = true) {r : Option (List (Ret V))} (hl : (i, c, r) ∈ τ.log) : r ≠ none := by
  obtain ⟨σ, h1, h2, _⟩ := sim_sched blind_considerate ho hs
  refine C65_returns h ho h1 hc hpr (i := i) ?_
  rw [h2.answers]
  exact List.mem_filterMap.2 ⟨_, hl, by simp [hp]⟩

theorem kunbatched_of {B : List TypeId} (hB : B = τ.log.flatMap fun x => match x.2.1.plain with
      | some c => c.batches.map Prod.fst
      | none => []) {q : Query} (h : Parts (fun _ => True) (fun _ a b => a ∉ B ∧ b ∉ B) q) : τ.Unbatched q := by
  have key : ∀ t, τ.Batched t → t ∈ B := by
    rintro t ⟨i, c, m, r, vs, h1, h2, h3⟩
    rw [hB, List.mem_flatMap]
    refine ⟨_, h1, ?_⟩
    rw [h2]
    exact List.mem_map.2 ⟨_, h3, rfl⟩
  exact Parts.imp (fun _ h => h) (fun _ a b h => ⟨fun h' => h.1 (key a h'), fun h' => h.2 (key b h')⟩) q h

/-! ### Three threads keep handles of one entity -/

namespace Demo

/-- Threads 0, 1 and 2 keep handles of entity 5. Through them, thread 0 has taken the entity out of the group of 1 and 2,
to detach 1; thread 1 has detached 2 and attached 3; thread 2 has stored component 4 but not looked at the groups. -/
def kkindChoices : List (KChoice Nat) :=
  [.start 0 (.openHandle 5)] ++ kgoes 0 3 ++ [.start 1 (.openHandle 5)] ++ kgoes 1 3 ++ [.start 2 (.openHandle 5)] ++
    kgoes 2 3 ++ [.start 0 (.viaHandle 5 [.detach 1]), .start 1 (.viaHandle 5 [.detach 2, .attach 3 53]),
    .start 2 (.viaHandle 5 [.attach 4 54])] ++ kgoes 0 11 ++ kgoes 2 3 ++ kgoes 1 29
/-- The rest. -/
def kkindRest : List (KChoice Nat) := kgoes 2 12 ++ kgoes 0 4

theorem kkindMid_go : ((KSys.init groupW 3).performAll groupCfg (KSys.keepingb (considerateb groupCfg))
    kkindChoices).isSome = true := by decide +kernel
/-- In the middle. -/
def kkindMid : KSys Nat :=
  ((KSys.init groupW 3).performAll groupCfg (KSys.keepingb (considerateb groupCfg)) kkindChoices).get kkindMid_go
theorem kkindMid_sched : (KSys.init groupW 3).Sched groupCfg (KSys.keeping (Sys.considerate groupCfg)) kkindMid :=
  kperformed (keepingb_ok (considerateb_ok groupCfg)) kkindMid_go

theorem kkindEnd_go : (kkindMid.performAll groupCfg (KSys.keepingb (considerateb groupCfg)) kkindRest).isSome = true := by
  decide +kernel
/-- When all calls have returned; the handles are still kept. -/
def kkindEnd : KSys Nat := (kkindMid.performAll groupCfg (KSys.keepingb (considerateb groupCfg)) kkindRest).get kkindEnd_go
theorem kkindEnd_sched : (KSys.init groupW 3).Sched groupCfg (KSys.keeping (Sys.considerate groupCfg)) kkindEnd :=
  kkindMid_sched.trans (kperformed (keepingb_ok (considerateb_ok groupCfg)) kkindEnd_go)

theorem kkindEnd_quiet : kkindEnd.Quiet := by
  have : (kkindEnd.threads.all fun th => th.call.isNone) = true := by decide +kernel
  intro th hth
  simpa using List.all_eq_true.1 this th hth

end Demo

/-- Two threads are at work on entity 5 and all three keep handles of it. -/
example : Demo.kkindMid.threads.map KThread.subject = [some 5, none, some 5] ∧
    Demo.kkindMid.threads.map KThread.kept = [[.handle 5], [.handle 5], [.handle 5]] ∧
    Demo.kkindMid.world.value 1 5 = some 51 ∧ Demo.kkindMid.world.value 2 5 = none := by decide +kernel
example := C65_keeping_sound (.of_trace Demo.groupTrace) Demo.groupEnumerates Demo.kkindMid_sched (k := .part) (ma := .mut)
  (mb := .ref) (a := 1) (b := 2) (by simp) (by decide +kernel)
example : ∃ l, Yields Demo.kkindMid.world (.with2 (.comp .ref 3) (.comp .mut 4)) l ∧ (5, .pair (.leaf 53) (.leaf 54)) ∈ l := by
  obtain ⟨l, h1, h2⟩ := C65_keeping_plain (.of_trace Demo.groupTrace) Demo.groupEnumerates Demo.kkindMid_sched
    (q := .with2 (.comp .ref 3) (.comp .mut 4)) (by decide +kernel) (by decide +kernel) (by decide +kernel)
  exact ⟨l, h1, (h2.2 5 _).2 (by decide +kernel)⟩
example : ∃ l, Yields Demo.kkindEnd.world (.group .part .ref .mut 1 2) l ∧ (1, .pair (.leaf 11) (.leaf 12)) ∈ l ∧
    ∀ x, (5, x) ∉ l := by
  obtain ⟨l, h1, h2⟩ := C65_keeping_complete (.of_trace Demo.groupTrace) Demo.groupEnumerates Demo.kkindEnd_sched Demo.kkindEnd_quiet
    (q := .group .part .ref .mut 1 2) (by decide +kernel) (by simp [Parts]) (by decide +kernel)
    (kunbatched_of (B := []) (by decide +kernel) (by simp [Parts])) (by decide +kernel)
  refine ⟨l, h1, (h2.2 1 _).2 (by decide +kernel), fun x hx => ?_⟩
  have := (h2.2 5 x).1 hx
  rw [show (Query.group .part .ref .mut 1 2).answer Demo.kkindEnd.world.value 5 = none by decide +kernel] at this
  cases this
example : ∃ r, (2, KCall.viaHandle 5 [.attach 4 54], r) ∈ Demo.kkindEnd.log ∧ r ≠ none := by
  have h : (2, KCall.viaHandle 5 [.attach 4 54], some [Ret.unit]) ∈ Demo.kkindEnd.log := by decide +kernel
  exact ⟨_, h, C65_keeping_returns (.of_trace Demo.groupTrace) Demo.groupEnumerates Demo.kkindEnd_sched rfl rfl (by decide +kernel) h⟩

/-! ### A kept handle of a range of entities is used to attach one more batch -/

namespace Demo

/-- Thread 0 creates entities 6 and 7 with component 3 and keeps their handle; thread 1 keeps a handle of entity 1. Then
thread 1 attaches component 3 through its handle while thread 0 has attached a batch of component 4 through its own. -/
def kfillChoices : List (KChoice Nat) :=
  [.start 0 (.createHandles 2 [(3, [63, 73])])] ++ kgoes 0 8 ++ [.start 1 (.openHandle 1)] ++ kgoes 1 3 ++
    [.start 1 (.viaHandle 1 [.attach 3 13]), .start 0 (.viaHandles 6 8 [(4, [64, 74])])] ++ kgoes 0 2 ++ kgoes 1 3 ++ kgoes 0 1
/-- The rest. -/
def kfillRest : List (KChoice Nat) := kgoes 0 1 ++ kgoes 1 12

theorem kfillMid_go : ((KSys.init groupW 3).performAll groupCfg (KSys.keepingb (considerateb groupCfg))
    kfillChoices).isSome = true := by decide +kernel
/-- In the middle. -/
def kfillMid : KSys Nat :=
  ((KSys.init groupW 3).performAll groupCfg (KSys.keepingb (considerateb groupCfg)) kfillChoices).get kfillMid_go
theorem kfillMid_sched : (KSys.init groupW 3).Sched groupCfg (KSys.keeping (Sys.considerate groupCfg)) kfillMid :=
  kperformed (keepingb_ok (considerateb_ok groupCfg)) kfillMid_go
theorem kfillEnd_go : (kfillMid.performAll groupCfg (KSys.keepingb (considerateb groupCfg)) kfillRest).isSome = true := by
  decide +kernel
/-- At the end. -/
def kfillEnd : KSys Nat := (kfillMid.performAll groupCfg (KSys.keepingb (considerateb groupCfg)) kfillRest).get kfillEnd_go
theorem kfillEnd_sched : (KSys.init groupW 3).Sched groupCfg (KSys.keeping (Sys.considerate groupCfg)) kfillEnd :=
  kfillMid_sched.trans (kperformed (keepingb_ok (considerateb_ok groupCfg)) kfillEnd_go)

end Demo

/-- The second batch is there and its storage is still locked; another thread is at work on entity 1. -/
example : Demo.kfillMid.threads.map KThread.kept = [[.handles 6 8], [.handle 1], []] ∧
    Demo.kfillMid.threads.map KThread.subject = [none, some 1, none] ∧
    Demo.kfillMid.world.value 3 6 = some 63 ∧ Demo.kfillMid.world.value 4 6 = some 64 ∧
    Demo.kfillMid.world.value 3 1 = some 13 ∧ (Demo.kfillMid.threads.map KThread.call)[0]? =
      some (some (.viaHandles 6 8 [(4, [64, 74])])) := by decide +kernel
example : ∃ l, Yields Demo.kfillMid.world (.with2 (.comp .ref 3) (.comp .mut 4)) l ∧ (7, .pair (.leaf 73) (.leaf 74)) ∈ l := by
  obtain ⟨l, h1, h2⟩ := C65_keeping_plain (.of_trace Demo.groupTrace) Demo.groupEnumerates Demo.kfillMid_sched
    (q := .with2 (.comp .ref 3) (.comp .mut 4)) (by decide +kernel) (by decide +kernel) (by decide +kernel)
  exact ⟨l, h1, (h2.2 7 _).2 (by decide +kernel)⟩
example : (0, KCall.viaHandles 6 8 [(4, [64, 74])], some [Ret.range 6 8]) ∈ Demo.kfillEnd.log ∧
    (1, KCall.viaHandle 1 [.attach 3 13], some [Ret.unit]) ∈ Demo.kfillEnd.log := by decide +kernel
/-- By C52, the batch attached through the kept handle was attached at one moment, to entities that were
alive and had no such component. -/
example : ∃ h ph, returns h = Demo.kfillEnd.answers ∧ Atomic True Demo.groupW.shared h ph Demo.kfillEnd.world.shared := by
  obtain ⟨h, h1, h2⟩ := C52_history Demo.groupEnumerates Demo.kfillEnd_sched.always
  obtain ⟨ph, h3, _⟩ := C52_considerate (.of_trace Demo.groupTrace) Demo.groupEnumerates h1
  exact ⟨h, ph, h2, h3⟩

/-! ### A handle of a range does not keep its entities alive -/

namespace Demo

/-- Thread 0 asks for two entities; between the moment it gives back the write guard of the entities and the moment it
takes a read guard for the handle, thread 1 removes the first of the two. -/
def krangeChoices : List (KChoice Nat) :=
  [.start 0 (.createHandles 2 [])] ++ kgoes 0 3 ++ [.start 1 (.call (.remove 6))] ++ kgoes 1 33 ++ kgoes 0 2

theorem krange_go : ((KSys.init groupW 2).performAll groupCfg (KSys.keepingb (considerateb groupCfg))
    krangeChoices).isSome = true := by decide +kernel
/-- When both calls have returned. -/
def krange : KSys Nat :=
  ((KSys.init groupW 2).performAll groupCfg (KSys.keepingb (considerateb groupCfg)) krangeChoices).get krange_go
theorem krange_sched : (KSys.init groupW 2).Sched groupCfg (KSys.keeping (Sys.considerate groupCfg)) krange :=
  kperformed (keepingb_ok (considerateb_ok groupCfg)) krange_go

end Demo

/-- In contrast with the handle of a single entity, which is handed out for a live entity only, the handle of a range of
entities may be handed out after one of the entities has been removed by another thread: `create_entities` drops its
write guard, takes a read guard, and does not look at the entities again (src/world.rs:87-94). -/
theorem C51_range_counterexample : ∃ (s : KSys Nat),
    (KSys.init Demo.groupW 2).Sched Demo.groupCfg (KSys.keeping (Sys.considerate Demo.groupCfg)) s ∧
    s.Keeps 0 (.handles 6 8) ∧ s.threads.map KThread.call = [none, none] ∧
    (World.exist 6 s.world).2 = .ok false ∧ (World.exist 7 s.world).2 = .ok true :=
  ⟨Demo.krange, Demo.krange_sched, keepsb_ok (by decide +kernel), by decide +kernel, by decide +kernel, by decide +kernel⟩

end Xecs
