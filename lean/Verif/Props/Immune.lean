import Verif.Proofs.Immune
import Verif.Props.Sound
import Verif.Props.Races
/-
C68: calls that no other thread can make panic.
-/
set_option autoImplicit false
namespace Xecs
open Spec World Hist
variable {V : Type} {tr : List (Op V × Out V)} {w : World V} {order : List TypeId} {n : Nat}

/-- **C68.** Whatever calls the other threads make, and however their steps are interleaved: reading, writing and counting
components, using resources, queries without groups, and creating ranges of entities with batches of components return
normally (if they return). -/
theorem C68_never (h : Reached w) (ho : Enumerates w order)
    {may : Sys V → Nat → ApiCall V → Prop} {σ : Sys V}
    (hs : (Sys.init w n).SchedWhile (Config.of w order) may Sys.BatchesFit σ) {i : Nat} {c : ApiCall V}
    (hc : c.immune (Config.of w order)) {r : Option (List (Ret V))} (hl : (i, c, r) ∈ σ.log) : r ≠ none := by
  have hb : ∀ {σ}, (Sys.init w n).SchedWhile (Config.of w order) may Sys.BatchesFit σ → Fit σ.world ∧ Matches (Config.of w order) σ.world := by
    intro σ hs
    obtain ⟨hh, h1, _⟩ := C48_history hs
    obtain ⟨ph, hl⟩ := history_atomic h.fit ho h1
    exact ⟨hl.fit, ((Basics.init ho n).sched (History.sched h1).1).mat⟩
  suffices σ.Sturdy (fun w' => Fit w' ∧ Matches (Config.of w order) w') (fun c => c.immune (Config.of w order)) ∧
      ∀ i c, (i, c, none) ∈ σ.log → ¬ c.immune (Config.of w order) by
    rintro rfl; exact this.2 i c hl hc
  clear hl
  induction hs with
  | refl _ => exact ⟨.init w n, fun i c hm => by simp [Sys.init] at hm⟩
  | step hp hs hx ih =>
    obtain ⟨h1, new, h2, h3⟩ := ih.1.step (fun c hc => Prog.unfailing_call (fun _ h => h) hc) hs
    refine ⟨h1, fun i c hm => ?_⟩
    rw [h2] at hm
    rcases List.mem_append.1 hm with hm | hm
    · exact h3 (hb hp) i c hm
    · exact ih.2 i c hm

/-- **C68**, for clients that keep handles, guards and iterators: in addition, attaching components through a kept handle (of
types in no full-owning group), reading and writing through it, and the use of kept guards return normally. -/
theorem C68_keeping (h : Reached w) (ho : Enumerates w order)
    {may : Sys V → Nat → ApiCall V → Prop} (hbl : Sys.Blind may) {τ : KSys V}
    (hs : (KSys.init w n).SchedWhile (Config.of w order) (KSys.keeping may) KSys.BatchesFit τ) {i : Nat} {c : KCall V}
    (hc : c.immune (Config.of w order)) {r : Option (List (Ret V))} (hl : (i, c, r) ∈ τ.log) : r ≠ none := by
  have hb : ∀ {τ}, (KSys.init w n).SchedWhile (Config.of w order) (KSys.keeping may) KSys.BatchesFit τ →
      Fit τ.world ∧ Matches (Config.of w order) τ.world := by
    intro τ hs
    obtain ⟨hh, h1⟩ := khistory_of hs
    obtain ⟨σ, h1, h2, _⟩ := sim_history (P := Sys.BatchesFit) hbl
      (fun τ σ hn hb i start stop t vs ha => by rw [hn.1]; exact hb i start stop t vs (hn.2 i start stop t vs ha)) ho h1
    obtain ⟨ph, hl⟩ := history_atomic h.fit ho h1
    rw [← h2.world]
    exact ⟨hl.fit, ((Basics.init ho n).sched (History.sched h1).1).mat⟩
  suffices τ.Sturdy (fun w' => Fit w' ∧ Matches (Config.of w order) w') (fun c => c.immune (Config.of w order)) ∧
      ∀ i c, (i, c, none) ∈ τ.log → ¬ c.immune (Config.of w order) by
    rintro rfl; exact this.2 i c hl hc
  clear hl
  induction hs with
  | refl _ => exact ⟨.init w n, fun i c hm => by simp [KSys.init] at hm⟩
  | step hp hs hx ih =>
    obtain ⟨h1, new, h2, h3⟩ := ih.1.step (fun c hc => Prog.unfailing_kcall (fun _ h => h) hc) hs
    refine ⟨h1, fun i c hm => ?_⟩
    rw [h2] at hm
    rcases List.mem_append.1 hm with hm | hm
    · exact h3 (hb hp) i c hm
    · exact ih.2 i c hm

/-- **C68.** `exist(id)` does not panic if `id` has been handed out, during the sharing or before: whatever the other threads
do -- also if they remove the entity, once or several times --, every such call that returns later returns normally. -/
theorem C68_exist (ho : Enumerates w order) {may may' : Sys V → Nat → ApiCall V → Prop} {σ σ' : Sys V}
    (h1 : (Sys.init w n).Sched (Config.of w order) may σ) {id : EntityId}
    (hid : id ∈ σ.issued ∨ ∃ b, (World.exist id w).2 = .ok b) (h2 : σ.Sched (Config.of w order) may' σ') :
    ∃ new, σ'.log = new ++ σ.log ∧ ∀ i r, (i, .exist id, r) ∈ new → r ≠ none := by
  have hm := (Basics.init ho n).mat
  obtain ⟨l1, l2, l3⟩ := (Sys.Listed.init w n).sched hm h1
  have hlt : id < σ.world.em.flags.length := by
    rcases hid with hid | ⟨b, hb⟩
    · exact l1.log id hid
    · refine Nat.lt_of_lt_of_le ?_ l3
      show id < w.em.flags.length
      refine Nat.lt_of_not_le fun hle => ?_
      simp [World.exist, M.read, EntityManager.has_oob hle] at hb
  have hQ : ∀ c : ApiCall V, c = .exist id → (c.prog (Config.of w order)).Unfailing fun w' => id < w'.em.flags.length := by
    rintro _ rfl; exact Prog.unfailing_exist fun _ h => h
  have hst : σ.Sturdy (fun w' => id < w'.em.flags.length) (fun c => c = .exist id) := by
    clear hid hlt l1 l2 l3 h2
    induction h1 with
    | refl => exact .init w n
    | step _ hs ih => exact (ih.step hQ hs).1
  suffices σ'.Sturdy (fun w' => id < w'.em.flags.length) (fun c => c = .exist id) ∧
      ∃ new, σ'.log = new ++ σ.log ∧ ∀ i c, (i, c, none) ∈ new → ¬ c = .exist id by
    obtain ⟨_, new, e, hn⟩ := this
    exact ⟨new, e, fun i r hr => by rintro rfl; exact hn i _ hr rfl⟩
  induction h2 with
  | refl => exact ⟨hst, [], rfl, by simp⟩
  | step hp hs ih =>
    obtain ⟨i1, new, e, hn⟩ := ih
    obtain ⟨s1, new', e', hn'⟩ := i1.step hQ hs
    refine ⟨s1, new' ++ new, by rw [e', e, List.append_assoc], fun i c hm => ?_⟩
    rcases List.mem_append.1 hm with hm | hm
    · exact hn' (Nat.lt_of_lt_of_le hlt (l1.sched l2 hp).2.2) i c hm
    · exact hn i c hm

/-- **C68**, for clients that keep things: `exist(id)` does not panic if `id` has been handed out before. -/
theorem C68_keeping_exist (ho : Enumerates w order) {may may' : KSys V → Nat → KCall V → Prop} {τ τ' : KSys V}
    (h1 : (KSys.init w n).Sched (Config.of w order) may τ) {id : EntityId}
    (hid : id ∈ τ.issued ∨ ∃ b, (World.exist id w).2 = .ok b) (h2 : τ.Sched (Config.of w order) may' τ') :
    ∃ new, τ'.log = new ++ τ.log ∧ ∀ i r, (i, .call (.exist id), r) ∈ new → r ≠ none := by
  have mat : ∀ {τ1 : KSys V}, (KSys.init w n).Sched (Config.of w order) (KSys.keeping Sys.anything) τ1 →
      Matches (Config.of w order) τ1.world := fun h => by
    obtain ⟨σ, _, hsim, hb, _⟩ := sim_sched blind_anything ho h
    exact hsim.mat hb
  have mono : ∀ {τ1 τ2 : KSys V}, Matches (Config.of w order) τ1.world → τ1.Step (Config.of w order) (KSys.keeping Sys.anything) τ2 →
      τ1.world.em.flags.length ≤ τ2.world.em.flags.length := fun hm h => by
    cases h with
    | act hi hp hr => exact flags_mono hm hr
    | fault hi hp hr hc => exact flags_mono hm hr
    | _ => exact Nat.le_refl _
  have hlt : id < τ.world.em.flags.length := by
    obtain ⟨σ, g1, g2, _⟩ := sim_sched blind_anything ho h1.any
    obtain ⟨l1, l2, l3⟩ := (Sys.Listed.init w n).sched (Basics.init ho n).mat g1
    rw [g2.world] at l3
    have hiss : σ.issued = τ.issued := by rw [Sys.issued, KSys.issued, g2.answers]
    rcases hid with hid | ⟨b, hb⟩
    · rw [← g2.world]; exact l1.log id (hiss ▸ hid)
    · refine Nat.lt_of_lt_of_le ?_ l3
      show id < w.em.flags.length
      refine Nat.lt_of_not_le fun hle => ?_
      simp [World.exist, M.read, EntityManager.has_oob hle] at hb
  have hQ : ∀ c : KCall V, c = .call (.exist id) → (c.prog (Config.of w order)).Unfailing fun w' => id < w'.em.flags.length := by
    rintro _ rfl; exact Prog.unfailing_exist (cfg := Config.of w order) fun _ h => h
  have hst : τ.Sturdy (fun w' => id < w'.em.flags.length) (fun c => c = .call (.exist id)) := by
    clear hid hlt h2
    induction h1 with
    | refl => exact .init w n
    | step _ hs ih => exact (ih.step hQ hs).1
  suffices τ'.Sturdy (fun w' => id < w'.em.flags.length) (fun c => c = .call (.exist id)) ∧ id < τ'.world.em.flags.length ∧
      (KSys.init w n).Sched (Config.of w order) (KSys.keeping Sys.anything) τ' ∧
      ∃ new, τ'.log = new ++ τ.log ∧ ∀ i c, (i, c, none) ∈ new → ¬ c = .call (.exist id) by
    obtain ⟨_, _, _, new, e, hn⟩ := this
    exact ⟨new, e, fun i r hr => by rintro rfl; exact hn i _ hr rfl⟩
  induction h2 with
  | refl => exact ⟨hst, hlt, h1.any, [], rfl, by simp⟩
  | step hp hs ih =>
    obtain ⟨i1, i2, i3, new, e, hn⟩ := ih
    obtain ⟨s1, new', e', hn'⟩ := i1.step hQ hs
    refine ⟨s1, Nat.lt_of_lt_of_le i2 (mono (mat i3) hs.any), .step i3 hs.any, new' ++ new, by rw [e', e, List.append_assoc],
      fun i c hm => ?_⟩
    rcases List.mem_append.1 hm with hm | hm
    · exact hn' i2 i c hm
    · exact hn i c hm

/-! ### The remaining calls -/

namespace Demo
/-- The race of `C39_detach_attach_counterexample`; then a component is attached to an entity that no other thread works
on. -/
def raceAttach : List (Choice Nat) := race ++ [.start 0 (.on 2 [.attach 2 22])] ++ goes 0 11
theorem raceAttach_go : ((Sys.init raceW 2).performAll (Config.of raceW [1, 2]) anyb raceAttach).isSome = true := by decide +kernel
/-- When the call has panicked. -/
def racedAttach : Sys Nat := ((Sys.init raceW 2).performAll (Config.of raceW [1, 2]) anyb raceAttach).get raceAttach_go

/-- Thread 0 removes entities 1 and 2; thread 1 creates an entity and gets the id 2; before it has looked the new entity up,
thread 0 removes entity 2 once more. -/
def raceCreate : List (Choice Nat) := [.start 0 (.remove 1)] ++ goes 0 23 ++ [.start 0 (.remove 2)] ++ goes 0 23 ++
  [.start 1 (.create [])] ++ goes 1 3 ++ [.start 0 (.remove 2)] ++ goes 0 20 ++ goes 1 3
theorem raceCreate_go : ((Sys.init raceW 2).performAll (Config.of raceW [1, 2]) anyb raceCreate).isSome = true := by decide +kernel
/-- When the call has panicked. -/
def racedCreate : Sys Nat := ((Sys.init raceW 2).performAll (Config.of raceW [1, 2]) anyb raceCreate).get raceCreate_go
end Demo

/-- **C68** does not extend to attaching components of types in full-owning groups: after a race on one entity (every call of
which returned normally) attaching a component to another entity panics. -/
theorem C68_sharp_attach : Trace Demo.raceTr Demo.raceW ∧
    (Sys.init Demo.raceW 2).Sched (Config.of Demo.raceW [1, 2]) Sys.anything Demo.racedAttach ∧
    Demo.racedAttach.log = [(0, .on 2 [.attach 2 22], none), (0, .on 1 [.detach 1], some [.val (some 11)]),
      (1, .on 1 [.attach 2 12], some [.unit])] :=
  ⟨Demo.raceTrace, performed (fun _ _ _ _ => trivial) Demo.raceAttach_go, by decide +kernel⟩

/-- **C68** does not extend to `create_entity`: it panics if another thread, using an old copy of the id, removes the entity
between its creation and its lookup. -/
theorem C68_sharp_create : Trace Demo.raceTr Demo.raceW ∧
    (Sys.init Demo.raceW 2).Sched (Config.of Demo.raceW [1, 2]) Sys.anything Demo.racedCreate ∧
    Demo.racedCreate.log = [(1, .create [], none), (0, .remove 2, some [.unit]), (0, .remove 2, some [.unit]),
      (0, .remove 1, some [.unit])] :=
  ⟨Demo.raceTrace, performed (fun _ _ _ _ => trivial) Demo.raceCreate_go, by decide +kernel⟩

/-! ### Examples -/

namespace Demo
/-- Thread 0 keeps a handle and attaches through it what thread 1 detaches meanwhile. -/
def kimmuneChoices : List (KChoice Nat) := [.start 0 (.openHandle 1)] ++ kgoes 0 3 ++
  [.start 1 (.call (.on 1 [.detach 1, .detach 3])), .start 0 (.viaHandle 1 [.attach 1 5, .read 2, .attach 3 7])] ++
  kgoes 1 13 ++ kgoes 0 32
theorem kimmune_go : (KSys.init groupW 2).allAlong groupCfg (KSys.keepingb anyb) kbatchesFitb kimmuneChoices = true := by
  decide +kernel
theorem kimmune_some : ((KSys.init groupW 2).performAll groupCfg (KSys.keepingb anyb) kimmuneChoices).isSome = true := by
  decide +kernel
/-- When thread 0 is done. -/
def kimmune : KSys Nat := ((KSys.init groupW 2).performAll groupCfg (KSys.keepingb anyb) kimmuneChoices).get kimmune_some
theorem kimmune_while : (KSys.init groupW 2).SchedWhile groupCfg (KSys.keeping Sys.anything) KSys.BatchesFit kimmune := by
  obtain ⟨σ', h1, h2⟩ := kperformAll_while (keepingb_ok (may := Sys.anything) fun _ _ _ _ => trivial) kimmune_go
  have : σ' = kimmune := Option.some.inj (h1.symm.trans (Option.some_get kimmune_some).symm)
  rw [← this]
  exact h2.mono kbatchesFitb_ok
end Demo

example : ∃ σ : Sys Nat, (∃ r, (0, .createMany 2 [(1, [71, 72]), (2, [81, 82])], r) ∈ σ.log) ∧
    ∀ i r, (i, .createMany 2 [(1, [71, 72]), (2, [81, 82])], r) ∈ σ.log → r ≠ none := by
  obtain ⟨σ, h0, h1⟩ := performAll_while (may := Sys.anything) (fun _ _ _ _ => trivial) Demo.lively_go
  refine ⟨σ, ?_, fun i r => C68_never (.of_any Demo.groupTrace.any Demo.groupTrace.live.1) Demo.groupEnumerates
    (h1.mono Demo.batchesFitb_ok) (by simp [ApiCall.immune, wellFormed]; decide +kernel)⟩
  have : ((Sys.init Demo.groupW 3).performAll Demo.groupCfg Demo.anyb Demo.lively).map (fun σ => σ.log[0]?.map fun e => (e.1, e.2.1)) =
      some (some (0, .createMany 2 [(1, [71, 72]), (2, [81, 82])])) := by decide +kernel
  rw [h0] at this
  simp only [Option.map_some, Option.some.injEq, Option.map_eq_some_iff] at this
  obtain ⟨⟨i, c, r⟩, he, he'⟩ := this
  simp only [Prod.mk.injEq] at he'
  obtain ⟨rfl, rfl⟩ := he'
  exact ⟨r, List.mem_of_getElem? he⟩
example : (0, .viaHandle 1 [.attach 1 5, .read 2, .attach 3 7], some [.unit, .val (some 12), .unit]) ∈ Demo.kimmune.log := by
  decide +kernel
example := C68_keeping (.of_any Demo.groupTrace.any Demo.groupTrace.live.1) Demo.groupEnumerates blind_anything Demo.kimmune_while
  (i := 0) (r := some [.unit, .val (some 12), .unit]) (c := .viaHandle 1 [.attach 1 5, .read 2, .attach 3 7]) (by simp [KCall.immune, HOp.immune]; decide +kernel)

namespace Demo
/-- Thread 1 creates an entity, whose id is 3. -/
theorem immuneMade_go : ((Sys.init raceW 2).performAll (Config.of raceW [1, 2]) anyb ([.start 1 (.create [])] ++ goes 1 7)).isSome =
    true := by decide +kernel
/-- When it has been created. -/
def immuneMade : Sys Nat :=
  ((Sys.init raceW 2).performAll (Config.of raceW [1, 2]) anyb ([.start 1 (.create [])] ++ goes 1 7)).get immuneMade_go
/-- Thread 0 removes it; then thread 1 asks whether it exists. -/
theorem immuneAsked_go : (immuneMade.performAll (Config.of raceW [1, 2]) anyb
    ([.start 0 (.remove 3)] ++ goes 0 20 ++ [.start 1 (.exist 3)] ++ goes 1 4)).isSome = true := by decide +kernel
/-- When both have returned. -/
def immuneAsked : Sys Nat := (immuneMade.performAll (Config.of raceW [1, 2]) anyb
    ([.start 0 (.remove 3)] ++ goes 0 20 ++ [.start 1 (.exist 3)] ++ goes 1 4)).get immuneAsked_go
end Demo

example : 3 ∈ Demo.immuneMade.issued ∧ (1, .exist 3) ∈ Demo.immuneAsked.log.map (fun e => (e.1, e.2.1)) := by decide +kernel
example := C68_exist Demo.raceEnumerates (performed (may := Sys.anything) (fun _ _ _ _ => trivial) Demo.immuneMade_go) (id := 3)
  (.inl (by decide +kernel)) (performed (may := Sys.anything) (fun _ _ _ _ => trivial) Demo.immuneAsked_go)

namespace Demo
/-- Thread 1 creates entity 3 and keeps the handle. -/
theorem kimmuneMade_go : ((KSys.init raceW 2).performAll (Config.of raceW [1, 2]) (KSys.keepingb anyb)
    ([.start 1 .createHandle] ++ kgoes 1 6)).isSome = true := by decide +kernel
def kimmuneMade : KSys Nat := ((KSys.init raceW 2).performAll (Config.of raceW [1, 2]) (KSys.keepingb anyb)
    ([.start 1 .createHandle] ++ kgoes 1 6)).get kimmuneMade_go
/-- It drops the handle, thread 0 removes the entity, thread 1 asks whether it exists. -/
def kimmuneRest : List (KChoice Nat) := [.start 1 (.drop (.handle 3))] ++ kgoes 1 2 ++
  [.start 0 (.call (.remove 3))] ++ kgoes 0 20 ++ [.start 1 (.call (.exist 3))] ++ kgoes 1 4
theorem kimmuneAsked_go : (kimmuneMade.performAll (Config.of raceW [1, 2]) (KSys.keepingb anyb) kimmuneRest).isSome = true := by
  decide +kernel
def kimmuneAsked : KSys Nat :=
  (kimmuneMade.performAll (Config.of raceW [1, 2]) (KSys.keepingb anyb) kimmuneRest).get kimmuneAsked_go
end Demo

example : 3 ∈ Demo.kimmuneMade.issued ∧
    (1, .call (.exist 3), some [.bool true]) ∈ Demo.kimmuneAsked.log := by decide +kernel
example := C68_keeping_exist Demo.raceEnumerates
  (kperformed (keepingb_ok (may := Sys.anything) fun _ _ _ _ => trivial) Demo.kimmuneMade_go) (id := 3)
  (.inl (by decide +kernel)) (kperformed (keepingb_ok (may := Sys.anything) fun _ _ _ _ => trivial) Demo.kimmuneAsked_go)

end Xecs
