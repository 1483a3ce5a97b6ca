import Verif.Proofs.Deadlock
import Verif.Props.Sharing
/-
C40: deadlock.
-/
set_option autoImplicit false
namespace Xecs
open Spec World Hist
variable {V : Type} {w : World V} {n : Nat} {order : List TypeId} {σ : Sys V}

/-- **C40**, for clients that update entities (attach, detach, create, remove), read, write, and run queries on
plain components: there is no deadlock in any schedule, whatever the world, provided the component types can be
ordered such that each group lists its two types in order, queries list their types in order, and -- if entities
are removed -- the storages are visited in order. Missing from the English property: group queries next to updates,
queries listing types in different orders, and a storage order (that of a hash map) that disagrees with a group's:
with these there are deadlocks (the counterexamples below). -/
theorem C40_updating_partial {ρ : TypeId → Nat} (hg : ∀ g ∈ w.groups, ρ g.tyA < ρ g.tyB)
    (h : (Sys.init w n).Sched (Config.of w order) (Sys.updating (Config.of w order) ρ) σ) : ¬ σ.Deadlock := by
  refine (ord_sched (Prog.updateOrder_strict ρ) (fun σ i c hc => Prog.ord_updating ?_ σ i c hc) h).no_deadlock
    (Prog.updateOrder_strict ρ)
  intro g hgm
  obtain ⟨g', h1, rfl⟩ := List.mem_map.1 hgm
  exact hg g' h1

/-- **C40**, for clients that create entities, read, write, and run queries on plain components and on groups: there
is no deadlock in any schedule, whatever the world, if all queries list their types in the same order. -/
theorem C40_scanning_partial {ρ : TypeId → Nat}
    (h : (Sys.init w n).Sched (Config.of w order) (Sys.scanning ρ) σ) : ¬ σ.Deadlock :=
  (ord_sched (Prog.scanOrder_strict ρ) (fun σ i c hc => Prog.ord_scanning σ i c hc) h).no_deadlock (Prog.scanOrder_strict ρ)

/-- **C40.** Without deadlock some running call can always go on: one that is not waiting. -/
theorem C40_progress {cfg : Config} (hd : ¬ σ.Deadlock) (hq : ¬ σ.Quiet) :
    ∃ i, σ.Running i ∧ ¬ σ.Blocked i ∧ ∃ σ', σ.Step cfg Sys.nothing σ' ∧ ∀ j, j ≠ i → σ'.threads[j]? = σ.threads[j]? := by
  have hrun : ∃ i, σ.Running i := Classical.byContradiction fun hn => hq fun th hth => by
    obtain ⟨i, hi⟩ := List.getElem?_of_mem hth
    exact Classical.byContradiction fun hc => hn ⟨i, th, hi, hc⟩
  obtain ⟨i, h1, h2⟩ : ∃ i, σ.Running i ∧ ¬ σ.Blocked i := Classical.byContradiction fun hn => hd
    ⟨hrun, fun i hi => Classical.byContradiction fun hb => hn ⟨i, hi, hb⟩⟩
  exact ⟨i, h1, h2, running_step h1 h2⟩

/-- **C40.** No call runs forever: from any state there is no infinite schedule in which no new calls are
started. -/
theorem C40_finite (cfg : Config) (σ : Nat → Sys V) : ¬ ∀ i, (σ i).Step cfg Sys.nothing (σ (i + 1)) := by
  intro h
  have key : ∀ x : Sys V, Acc (fun σ' σ : Sys V => σ.Step cfg Sys.nothing σ') x → ∀ i, σ i ≠ x := by
    intro x ha
    induction ha with
    | intro x _ ih => rintro i rfl; exact ih _ (h i) (i + 1) rfl
  exact key _ (step_acc (σ 0)) 0 rfl

/-- **C40**, for the same two kinds of clients: from every reachable state all running calls can be brought to an
end without starting others. -/
theorem C40_drains_partial {ρ : TypeId → Nat}
    (h : ((∀ g ∈ w.groups, ρ g.tyA < ρ g.tyB) ∧
        (Sys.init w n).Sched (Config.of w order) (Sys.updating (Config.of w order) ρ) σ) ∨
      (Sys.init w n).Sched (Config.of w order) (Sys.scanning ρ) σ) :
    ∃ σ', σ.Sched (Config.of w order) Sys.nothing σ' ∧ σ'.Quiet := by
  rcases h with ⟨hg, h⟩ | h
  · exact drains fun σ' h' => C40_updating_partial hg (h.trans (h'.policy fun _ _ _ h => False.elim h))
  · exact drains fun σ' h' => C40_scanning_partial (h.trans (h'.policy fun _ _ _ h => False.elim h))

namespace Demo

/-- The clients of `C40_updating_partial`, as a Boolean, for the types in numerical order. -/
def updatingb (cfg : Config) : Sys Nat → Nat → ApiCall Nat → Bool := fun _ _ c =>
  match c with
  | .remove _ => decide (cfg.order.Pairwise fun t u => t < u)
  | .query q => decide q.Groupless && decide (q.accesses.Pairwise fun x y => x.1 < y.1)
  | _ => true

/-- Types in numerical order. -/
def byNumber : Nat → Nat := fun t => t

theorem updatingb_ok (cfg : Config) (σ : Sys Nat) (i : Nat) (c : ApiCall Nat) (h : updatingb cfg σ i c = true) :
    Sys.updating cfg byNumber σ i c := by
  cases c with
  | remove id => simp only [updatingb, decide_eq_true_eq] at h; exact h
  | query q =>
    simp only [updatingb, Bool.and_eq_true, decide_eq_true_eq] at h
    exact h
  | _ => trivial

/-- A removal, an attach and a query wait for one another here and there. -/
def orderly : List (Choice Nat) :=
  [.start 0 (.remove 1), .start 1 (.on 5 [.attach 1 59]), .start 2 (.query (.with2 (.comp .mut 1) (.comp .ref 2)))] ++
    goes 2 1 ++ goes 0 3 ++ goes 1 2 ++ goes 0 1

theorem orderly_go : ((Sys.init groupW 3).performAll (Config.of groupW [1, 2, 3, 4]) (updatingb (Config.of groupW [1, 2, 3, 4]))
    orderly).isSome = true := by decide +kernel

/-- The state reached: threads 0 and 1 wait for thread 2. -/
def orderlyS : Sys Nat := ((Sys.init groupW 3).performAll (Config.of groupW [1, 2, 3, 4])
  (updatingb (Config.of groupW [1, 2, 3, 4])) orderly).get orderly_go

theorem orderly_sched : (Sys.init groupW 3).Sched (Config.of groupW [1, 2, 3, 4])
    (Sys.updating (Config.of groupW [1, 2, 3, 4]) byNumber) orderlyS :=
  performed (updatingb_ok _) orderly_go

theorem orderly_groups : ∀ g ∈ groupW.groups, byNumber g.tyA < byNumber g.tyB := by
  have : (groupW.groups.all fun g => decide (g.tyA < g.tyB)) = true := by decide +kernel
  intro g hg
  exact of_decide_eq_true (List.all_eq_true.1 this g hg)

end Demo

example : ¬ Demo.orderlyS.Deadlock := C40_updating_partial Demo.orderly_groups Demo.orderly_sched
example : ∃ σ', Demo.orderlyS.Sched (Config.of Demo.groupW [1, 2, 3, 4]) Sys.nothing σ' ∧ σ'.Quiet :=
  C40_drains_partial (.inl ⟨Demo.orderly_groups, Demo.orderly_sched⟩)
/-- Two threads do wait in that state. -/
example : (Demo.orderlyS.threads.map fun th => match th.prog with | .acq l m _ => !Demo.orderlyS.freeb l m | _ => false) =
    [true, true, false] := by decide +kernel

namespace Demo

/-- The clients of `C40_scanning_partial`, as a Boolean. -/
def scanningb : Sys Nat → Nat → ApiCall Nat → Bool := fun _ _ c =>
  match c with
  | .remove _ => false
  | .on _ script => Sys.plain script
  | .create script => Sys.plain script
  | .query (.group _ _ _ a b) => decide (a < b)
  | .query q => decide q.Groupless && decide (q.accesses.Pairwise fun x y => x.1 < y.1)
  | _ => true

theorem scanningb_ok (σ : Sys Nat) (i : Nat) (c : ApiCall Nat) (h : scanningb σ i c = true) :
    Sys.scanning byNumber σ i c := by
  cases c with
  | remove id => simp [scanningb] at h
  | query q =>
    cases q with
    | group k ma mb a b => simpa [scanningb, Sys.scanning, byNumber] using h
    | _ =>
      simp only [scanningb, Bool.and_eq_true, decide_eq_true_eq] at h
      exact h
  | on id s => exact h
  | create s => exact h
  | _ => trivial

/-- A group query, another one for writing, and a component write, interleaved. -/
def scans : List (Choice Nat) :=
  [.start 0 (.query (.group .part .ref .ref 1 2)), .start 1 (.query (.group .part .mut .ref 1 2)), .start 2 (.write 2 1 5)] ++
    goes 0 4

theorem scans_go : ((Sys.init groupW 3).performAll groupCfg scanningb scans).isSome = true := by decide +kernel
/-- The state reached. -/
def scansS : Sys Nat := ((Sys.init groupW 3).performAll groupCfg scanningb scans).get scans_go
theorem scans_sched : (Sys.init groupW 3).Sched groupCfg (Sys.scanning byNumber) scansS := performed scanningb_ok scans_go

end Demo

example : ¬ Demo.scansS.Deadlock := C40_scanning_partial Demo.scans_sched
example : ∃ i, Demo.scansS.Running i ∧ ¬ Demo.scansS.Blocked i := by
  obtain ⟨i, h1, h2, _⟩ := C40_progress (cfg := Demo.groupCfg) (C40_scanning_partial Demo.scans_sched) (by
    intro hq
    have : (Demo.scansS.threads.any fun th => th.call.isSome) = true := by decide +kernel
    obtain ⟨th, hth, hc⟩ := List.any_eq_true.1 this
    rw [hq th hth] at hc; cases hc)
  exact ⟨i, h1, h2⟩

/-! ### Deadlocks -/

namespace Demo

/-- A group query takes storages before groups, `attach` groups before storages. -/
def lock1 : List (Choice Nat) :=
  [.start 0 (.query (.group .full .ref .ref 1 2)), .start 1 (.on 2 [.attach 2 22])] ++ goes 1 8 ++ goes 0 2
/-- Two queries naming their types in different order. -/
def lock2 : List (Choice Nat) :=
  [.start 0 (.query (.with2 (.comp .mut 1) (.comp .mut 2))), .start 1 (.query (.with2 (.comp .mut 2) (.comp .mut 1)))] ++
    goes 0 1 ++ goes 1 1
/-- `remove_entity` visits the storages in the order of a hash map -- here 1, 2 --, `attach` in that of the group --
here 2, 1. -/
def lock3 : List (Choice Nat) :=
  [.start 0 (.remove 1), .start 1 (.on 2 [.attach 2 22])] ++ goes 0 14 ++ goes 1 9
/-- A query reading a component twice, and a writer in between. -/
def lock4 : List (Choice Nat) :=
  [.start 0 (.query (.with2 (.comp .ref 1) (.comp .ref 1))), .start 1 (.write 1 1 5)] ++ goes 0 1

/-- A query naming a component twice, once for writing. -/
def lock5 : List (Choice Nat) := [.start 0 (.query (.with2 (.comp .mut 1) (.comp .ref 1)))] ++ goes 0 1

/-- Like `raceW`, but with the group's types the other way round. -/
def lockCalls : List (Op Nat) :=
  [.register 1, .register 2, .createEntities 2, .makeGroup .full 2 1, .attach 1 1 11, .attach 2 1 21]
theorem lockCalls_play : (play Hist.allowed lockCalls ([], World.new)).isSome = true := by decide +kernel
/-- The world. -/
def lockW : World Nat := (played lockCalls lockCalls_play).2

end Demo

/-- A schedule of calls that panic nowhere leads from a world with an allowed history to a deadlock. -/
def Deadlocks (w : World Nat) (order : List TypeId) (cs : List (Choice Nat)) : Prop :=
  (∃ tr, Trace tr w) ∧ Enumerates w order ∧ ∃ σ, (Sys.init w 2).performAll (Config.of w order) Demo.anyb cs = some σ ∧
    (Sys.init w 2).Sched (Config.of w order) Sys.anything σ ∧ σ.log = [] ∧ σ.Deadlock

theorem deadlocks_of {w : World Nat} {order : List TypeId} {cs : List (Choice Nat)} (ht : ∃ tr, Trace tr w)
    (ho : Enumerates w order)
    (h : (((Sys.init w 2).performAll (Config.of w order) Demo.anyb cs).map fun σ => σ.deadlockb && decide (σ.log = [])) =
      some true) : Deadlocks w order cs := by
  rw [Option.map_eq_some_iff] at h
  obtain ⟨σ, h1, h2⟩ := h
  simp only [Bool.and_eq_true, decide_eq_true_eq] at h2
  exact ⟨ht, ho, σ, h1, performAll_sched (fun _ _ _ _ => trivial) h1, h2.2, deadlock_of h2.1⟩

theorem Demo.raceEnumerates : Enumerates raceW [1, 2] :=
  enumerates_of (.of_any raceTrace.any) (by decide) fun t => by
    rw [registered_iff, show regTypes raceTr = [2, 1] by decide +kernel]; simp; omega

theorem Demo.lockEnumerates : Enumerates lockW [1, 2] :=
  enumerates_of (.of_any (played_trace lockCalls lockCalls_play).any) (by decide) fun t => by
    rw [registered_iff, show regTypes (played lockCalls lockCalls_play).1 = [2, 1] by decide +kernel]; simp; omega

/-- **C40** is false: a query on a full-owning group and a concurrent `attach` to another entity deadlock. -/
theorem C40_query_attach_counterexample : Deadlocks Demo.raceW [1, 2] Demo.lock1 :=
  deadlocks_of ⟨_, Demo.raceTrace⟩ Demo.raceEnumerates (by decide +kernel)

/-- **C40** is false: two queries naming the same two components in different order deadlock. -/
theorem C40_queries_counterexample : Deadlocks Demo.raceW [1, 2] Demo.lock2 :=
  deadlocks_of ⟨_, Demo.raceTrace⟩ Demo.raceEnumerates (by decide +kernel)

/-- **C40** is false: `remove_entity` and a concurrent `attach` to another entity deadlock. -/
theorem C40_remove_attach_counterexample : Deadlocks Demo.lockW [1, 2] Demo.lock3 :=
  deadlocks_of ⟨_, played_trace _ _⟩ Demo.lockEnumerates (by decide +kernel)

/-- **C40** is false: a query that reads a component twice and a concurrent component write deadlock (the lock being
fair). -/
theorem C40_read_twice_counterexample : Deadlocks Demo.raceW [1, 2] Demo.lock4 :=
  deadlocks_of ⟨_, Demo.raceTrace⟩ Demo.raceEnumerates (by decide +kernel)

/-- **C40** is false even for one thread: a query that asks for a component for writing and again blocks itself. -/
theorem C40_self_counterexample : Deadlocks Demo.raceW [1, 2] Demo.lock5 :=
  deadlocks_of ⟨_, Demo.raceTrace⟩ Demo.raceEnumerates (by decide +kernel)

end Xecs
