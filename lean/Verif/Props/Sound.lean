import Verif.Proofs.Sound
import Verif.Props.Linear
import Verif.Props.Keeping
import Verif.Props.Blocking
import Verif.Findings.Sequential
/-
C56: safe calls and undefined behaviour.
-/
set_option autoImplicit false
namespace Xecs
open Spec World Hist
variable {V : Type} {tr : List (Op V × Out V)} {w : World V} {order : List TypeId} {n : Nat}

theorem wild_typed (h : Wild tr w) : Typed w := by
  refine ⟨fun t st e => wild_tag h e, fun t r e => ?_⟩
  rw [wild_res h, Option.map_eq_some_iff] at e
  obtain ⟨v, _, rfl⟩ := e
  rfl

/-- **C56**, the calls that do not read or write components: they have no undefined behaviour, whatever calls -- allowed
or not, panicking or not -- have been made before. Missing from the English property: reading and writing after an id
has been attached twice by batch, for which it is false (`C56_rebatch_counterexample`), and iterating queries that name
groups (`C56_overlap_counterexample`, `C56_race_counterexample`). -/
theorem C56_wild_partial (h : Wild tr w) (op : Op V) (h1 : ∀ t id, op ≠ .read t id) (h2 : ∀ t id v, op ≠ .write t id v) :
    (exec op w).2 ≠ .error .ub := noub_exec (wild_typed h) op h1 h2

/-- **C56**, all calls: no undefined behaviour after any calls, allowed or not, also after calls that panicked half way
and after phases in which the world was shared, unless an id has been attached twice by batch. -/
theorem C56_calls_partial (h : Reached w) (op : Op V) : (exec op w).2 ≠ .error .ub :=
  h.fit.noub_exec op

/-- **C56**, queries that name no group. -/
theorem C56_queries_partial (h : Reached w) {q : Query} (hq : q.Groupless) :
    w.results q ≠ .error .ub := h.fit.noub_results hq

/-- **C56**, shared worlds: whatever calls the threads make, and however their steps are interleaved, no piece of work
(`Act`) any of them may be about to do has undefined behaviour; except going through a query that names a group. (Batch attaches are to go to
entities that do not have the component, as in C48.) -/
theorem C56_shared_partial (h : Reached w) (ho : Enumerates w order)
    {may : Sys V → Nat → ApiCall V → Prop} {σ : Sys V}
    (hs : (Sys.init w n).SchedWhile (Config.of w order) may Sys.BatchesFit σ) {a : Act V}
    (hq : ∀ q, a = .collect q → q.Groupless) : (a.run σ.world).2 ≠ .error .ub := by
  obtain ⟨hh, h1, _⟩ := C48_history hs
  obtain ⟨ph, hl⟩ := history_atomic h.fit ho h1
  exact hl.fit.noub_run a fun q e => hl.fit.noub_results (hq q e)

theorem pact_noub (h : Mixed tr w) (ho : Enumerates w order) {σ : Sys V}
    (hs : (Sys.init w n).Sched (Config.of w order) (Sys.considerate (Config.of w order)) σ) {a : Act V}
    (hq : ∀ q, a = .collect q → NoNon q) : (a.run σ.world).2 ≠ .error .ub := by
  obtain ⟨s0, hr⟩ := h.origin
  obtain ⟨hb, s, hd⟩ := pact_considerate hr ho hs
  have hf : Fit σ.world := Fit.of_rel hd.rel
  refine hf.noub_run a fun q e => ?_
  cases hp : q.prepare σ.world [] with
  | error e =>
    have := noub_prepare hf.typed q []
    rw [hp] at this
    simp only [World.results, World.queryAll, World.query, hp]
    exact fun hh => this (by simpa using hh)
  | ok r =>
    obtain ⟨h1, h2⟩ := prepared hd.rel.core hp
    obtain ⟨l, l1, _⟩ := rel_lists hd.rel.core h1
      ((freshIn_iff q).2 (Parts.imp (fun _ h => h) (fun k a b h e => absurd e h) q (hq q e))) h2
    exact noub_yields l1

/-- **C56**, shared worlds, considerate clients (`Sys.considerate`, see C65): neither has going through a query that names owning groups, at any
moment. -/
theorem C56_considerate_partial (h : Mixed tr w) (ho : Enumerates w order) {σ : Sys V}
    (hs : (Sys.init w n).Sched (Config.of w order) (Sys.considerate (Config.of w order)) σ) {a : Act V}
    (hq : ∀ q, a = .collect q → NoNon q) : (a.run σ.world).2 ≠ .error .ub := pact_noub h ho hs hq

/-- **C56**, clients that keep handles, guards and open queries: no call has undefined behaviour. -/
theorem C56_keeping_partial (h : Reached w) (ho : Enumerates w order)
    {may : Sys V → Nat → ApiCall V → Prop} (hbl : Sys.Blind may) {τ : KSys V}
    (hs : (KSys.init w n).SchedWhile (Config.of w order) (KSys.keeping may) KSys.BatchesFit τ) {a : Act V}
    (hq : ∀ q, a = .collect q → q.Groupless) : (a.run τ.world).2 ≠ .error .ub := by
  obtain ⟨hh, h1⟩ := khistory_of hs
  obtain ⟨σ, h1, h2, _⟩ := sim_history (P := Sys.BatchesFit) hbl
    (fun τ σ hn hb i start stop t vs ha => by rw [hn.1]; exact hb i start stop t vs (hn.2 i start stop t vs ha)) ho h1
  obtain ⟨ph, hl⟩ := history_atomic h.fit ho h1
  rw [← h2.world]
  exact hl.fit.noub_run a fun q e => hl.fit.noub_results (hq q e)

/-! ### Where the English property is false -/

/-- **C56** is false after an id has been attached twice by batch: five safe calls, all returning normally, after which
reading a component of a living entity reads outside its storage. -/
theorem C56_rebatch_counterexample : ∃ (tr : List (Op Nat × Out Nat)) (w : World Nat), AnyTrace tr w ∧
    alive 1 tr = true ∧ lastValue 1 1 tr = some 101 ∧ (World.componentRead 1 1 w).2 = .error .ub :=
  ⟨_, _, odd [.register 1, .register 2, .createEntities 3, .attach 1 2 21, .attach 2 1 12, .attachBatch 1 3 1 [101, 102],
    .makeGroup .full 1 2, .detach 2 1], by decide +kernel, by decide +kernel, by decide +kernel⟩

/-- **C56** is false for queries that name a group: a removal with two groups that share a type. -/
theorem C56_overlap_counterexample : ∃ (tr : List (Op Nat × Out Nat)) (w : World Nat), AnyTrace tr w ∧ NoRebatch tr ∧
    w.results (.group .part .ref .ref 3 1) = .error .ub :=
  ⟨_, _, odd [.register 1, .register 2, .register 3, .createEntities 1, .makeGroup .full 1 2, .makeGroup .part 3 1,
      .attach 1 1 11, .attach 1 2 21, .attach 1 3 31, .removeEntity [1, 2, 3] 1], noRebatch_iff (by decide +kernel),
    by decide +kernel⟩

namespace Demo
/-- The race of `C39_detach_attach_counterexample`; then a detach, and a query. -/
def raceUb : List (Choice Nat) := race ++ [.start 0 (.on 2 [.detach 1])] ++ goes 0 16 ++
  [.start 1 (.query (.group .full .ref .ref 1 2))] ++ goes 1 7
theorem raceUb_go : ((Sys.init raceW 2).performAll (Config.of raceW [1, 2]) anyb raceUb).isSome = true := by decide +kernel
/-- When thread 1 is about to go through the items. -/
def racedUb : Sys Nat := ((Sys.init raceW 2).performAll (Config.of raceW [1, 2]) anyb raceUb).get raceUb_go
end Demo

/-- **C56** is false in shared worlds for clients that work on one entity from two threads: one thread detaches a component
while another attaches the other component of a full-owning group to the same entity; after another detach, all calls
having returned normally, going through the group reads outside a storage. -/
theorem C56_race_counterexample : Trace Demo.raceTr Demo.raceW ∧
    (Sys.init Demo.raceW 2).Sched (Config.of Demo.raceW [1, 2]) Sys.anything Demo.racedUb ∧
    Demo.racedUb.log = [(0, .on 2 [.detach 1], some [.val (some 21)]), (0, .on 1 [.detach 1], some [.val (some 11)]),
      (1, .on 1 [.attach 2 12], some [.unit])] ∧
    Demo.racedUb.AboutTo 1 (.collect (.group .full .ref .ref 1 2)) ∧
    ((Act.collect (.group .full .ref .ref 1 2)).run Demo.racedUb.world).2 = .error .ub :=
  ⟨Demo.raceTrace, performed (fun _ _ _ _ => trivial) Demo.raceUb_go, by decide +kernel, by unfold Sys.AboutTo; decide +kernel,
    by decide +kernel⟩

/-! ### Examples -/

example := C56_wild_partial (.of_any Demo.wildTrace) (.detach 1 1) (by simp) (by simp)
example := C56_calls_partial (.of_any Demo.wildTrace Demo.wild_noRebatch) (.write 1 1 5)
example := C56_queries_partial (.of_any Demo.wildTrace Demo.wild_noRebatch) (q := .withoutR (.comp .mut 1) (.comp .ref 2)) (by decide +kernel)
example : ∃ σ : Sys Nat, σ.log.length = 4 ∧
    ∀ t id, ((Act.storeWrite t id 7).run σ.world).2 ≠ .error .ub := by
  obtain ⟨σ, h0, h1⟩ := performAll_while (may := Sys.anything) (fun _ _ _ _ => trivial) Demo.lively_go
  refine ⟨σ, ?_, fun t id => C56_shared_partial (.of_any Demo.groupTrace.any Demo.groupTrace.live.1) Demo.groupEnumerates
    (h1.mono Demo.batchesFitb_ok) (by simp)⟩
  have : ((Sys.init Demo.groupW 3).performAll Demo.groupCfg Demo.anyb Demo.lively).map (fun σ => σ.log.length) = some 4 := by
    decide +kernel
  rw [h0] at this
  exact Option.some.inj this
example := C56_considerate_partial (.of_trace Demo.groupTrace) Demo.groupEnumerates Demo.kindMid_sched
  (a := .collect (.group .part .ref .ref 1 2)) (by rintro q ⟨⟩; simp [NoNon, Parts])
example := C56_keeping_partial (.of_any Demo.trace.any Demo.trace.live.1) Demo.enumerates blind_noRemoval Demo.kres_while
  (a := .collect (.comp .mut 3)) (by rintro q ⟨⟩; decide +kernel)

end Xecs
