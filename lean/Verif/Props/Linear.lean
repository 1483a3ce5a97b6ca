import Verif.Proofs.LinearSys
import Verif.Proofs.Reached
import Verif.Props.Misc
import Verif.Props.Considerate
/-
C48, C49: calls on a shared world take effect at single moments.
-/
set_option autoImplicit false
namespace Xecs
open Spec World Hist
variable {V : Type}

theorem any_fit {tr : List (Op V × Out V)} {w : World V} (h : AnyTrace tr w) (hn : NoRebatch tr) : Fit w :=
  Fit.of_look (any_look h hn) fun t r hr => by
    have := C30_read (.of_any h) t
    simp only [resourceRead, M.read, hr, downcastRes] at this
    by_cases ht : r.ty = t
    · exact ht
    · rw [if_neg ht] at this
      cases (Prod.mk.inj this).2

section
variable {tr : List (Op V × Out V)} {w : World V} {order : List TypeId} {n : Nat} {σ : Sys V} {h : List (Event V)}

/-- **C48**. Whatever calls the threads make, and however their steps are interleaved: what they observe is what they
would observe if every operation took effect at one moment between call and return. In particular each operation of
one thread is seen by the others completely or not at all, in one order on which all threads agree, and nothing is
lost. (Batch attaches are to go to entities that do not have the component.) -/
theorem C48_atomic (ht : Reached w) (ho : Enumerates w order)
    {may : Sys V → Nat → ApiCall V → Prop} (hh : (Sys.init w n).History (Config.of w order) may Sys.BatchesFit h σ) :
    ∃ ph, Atomic False w.shared h ph σ.world.shared ∧ ∀ i, (ph i).call = σ.running i := by
  obtain ⟨ph, hl⟩ := history_atomic ht.fit ho hh
  exact ⟨ph, hl.atomic, hl.runs⟩

/-- **C48**: every schedule has a history, and its returns are those of the schedule. -/
theorem C48_history {cfg : Config} {may : Sys V → Nat → ApiCall V → Prop} {P : Sys V → Prop}
    (hs : (Sys.init w n).SchedWhile cfg may P σ) :
    ∃ h, (Sys.init w n).History cfg may P h σ ∧
      returns h = σ.log := by
  obtain ⟨h, hh⟩ := history_of hs
  exact ⟨h, hh, History.log hh⟩

/-- **C49**. If the clients are considerate (`Sys.considerate`, see C65), then this holds of the lives of entities too: an
entity is created with an id not in use, `entity(id)` and `remove_entity(id)` find it alive, an entity that is alive is
reported to exist, it is gone once and only after it has lost all its components; and also queries of owning groups see
only entities having both components. -/
theorem C49_atomic (ht : Mixed tr w) (ho : Enumerates w order)
    (hh : (Sys.init w n).History (Config.of w order) (Sys.considerate (Config.of w order)) (fun _ => True) h σ) :
    ∃ ph, Atomic True w.shared h ph σ.world.shared ∧ ∀ i, (ph i).call = σ.running i := by
  obtain ⟨s0, hr⟩ := ht.origin
  obtain ⟨ph, hl⟩ := history_considerate hr.rel (Fit.of_rel hr.rel) ho hh
  exact ⟨ph, hl.atomic, hl.runs⟩

end

theorem Sys.Sched.always {cfg : Config} {may : Sys V → Nat → ApiCall V → Prop} {σ σ' : Sys V} (h : σ.Sched cfg may σ') :
    σ.SchedWhile cfg may (fun _ => True) σ' := by
  induction h with
  | refl => exact .refl trivial
  | step _ hs ih => exact .step ih hs trivial

namespace Demo

/-- `BatchesFit`, computed. -/
def batchesFitb (σ : Sys Nat) : Bool :=
  σ.threads.all fun th => match th.prog.work with
    | some (.batchStore start stop t _) => (List.range' start (stop - start)).all fun e => (σ.world.value t e).isNone
    | _ => true

theorem batchesFitb_ok (σ : Sys Nat) (h : batchesFitb σ = true) : σ.BatchesFit := by
  intro i start stop t vs ha e h1 h2
  obtain ⟨th, f, hi, hp⟩ := ha.thread
  have := List.all_eq_true.1 h th (List.mem_of_getElem? hi)
  simp only [hp, Prog.work] at this
  have := List.all_eq_true.1 this e (by rw [List.mem_range'_1]; omega)
  simpa using this

/-- Thread 0 creates two entities with components 1 and 2, thread 1 creates one and queries, thread 2 writes and
reads. -/
def lively : List (Choice Nat) :=
  [.start 0 (.createMany 2 [(1, [71, 72]), (2, [81, 82])]), .start 1 (.create [.attach 1 91, .read 2]), .start 2 (.write 3 1 5)] ++
    goes 1 1 ++ goes 2 4 ++ goes 1 23 ++ goes 0 1 ++ [.start 2 (.query (.comp .ref 1))] ++ goes 0 7 ++ goes 2 4 ++ goes 0 4

theorem lively_go : (Sys.init groupW 3).allAlong groupCfg anyb batchesFitb lively = true := by decide +kernel

theorem lively_history : ∃ σ h, (Sys.init groupW 3).History groupCfg Sys.anything Sys.BatchesFit h σ ∧
    returns h = σ.log ∧ σ.log.length = 4 := by
  obtain ⟨σ', h0, h1⟩ := performAll_while (may := Sys.anything) (fun _ _ _ _ => trivial) lively_go
  obtain ⟨h, h2, h3⟩ := C48_history (h1.mono batchesFitb_ok)
  have h4 : ((Sys.init groupW 3).performAll groupCfg anyb lively).map (fun σ => σ.log.length) = some 4 := by decide +kernel
  rw [h0] at h4
  exact ⟨σ', h, h2, h3, by simpa using h4⟩

end Demo

example : ∃ σ h ph, (Sys.init Demo.groupW 3).History Demo.groupCfg Sys.anything Sys.BatchesFit h σ ∧ σ.log.length = 4 ∧
    Atomic False Demo.groupW.shared h ph σ.world.shared := by
  obtain ⟨σ, h, h1, _, h2⟩ := Demo.lively_history
  obtain ⟨ph, h3, _⟩ := C48_atomic (.of_any Demo.groupTrace.any (noRebatch_iff (by decide +kernel))) Demo.groupEnumerates h1
  exact ⟨σ, h, ph, h1, h2, h3⟩

example : ∃ h ph, (Sys.init Demo.groupW 3).History Demo.groupCfg (Sys.considerate Demo.groupCfg) (fun _ => True) h Demo.busyEnd ∧
    Atomic True Demo.groupW.shared h ph Demo.busyEnd.world.shared := by
  obtain ⟨h, h1, _⟩ := C48_history (Demo.busyEnd_kind.always)
  obtain ⟨ph, h3, _⟩ := C49_atomic (.of_trace Demo.groupTrace) Demo.groupEnumerates h1
  exact ⟨h, ph, h1, h3⟩

/-- Three threads have attached and detached components of one entity at the same time. -/
example : ∃ h ph, (Sys.init Demo.groupW 4).History Demo.groupCfg (Sys.considerate Demo.groupCfg) (fun _ => True) h Demo.kindEnd ∧
    returns h = Demo.kindEnd.log ∧ Atomic True Demo.groupW.shared h ph Demo.kindEnd.world.shared := by
  obtain ⟨h, h1, h2⟩ := C48_history (Demo.kindEnd_sched.always)
  obtain ⟨ph, h3, _⟩ := C49_atomic (.of_trace Demo.groupTrace) Demo.groupEnumerates h1
  exact ⟨h, ph, h1, h2, h3⟩

/-- A range of entities has been created together with its components, while another thread attached to another entity. -/
example : ∃ h ph, (Sys.init Demo.groupW 3).History Demo.groupCfg (Sys.considerate Demo.groupCfg) (fun _ => True) h Demo.pourEnd ∧
    returns h = Demo.pourEnd.log ∧ Atomic True Demo.groupW.shared h ph Demo.pourEnd.world.shared := by
  obtain ⟨h, h1, h2⟩ := C48_history (Demo.pourEnd_sched.always)
  obtain ⟨ph, h3, _⟩ := C49_atomic (.of_trace Demo.groupTrace) Demo.groupEnumerates h1
  exact ⟨h, ph, h1, h2, h3⟩

namespace Demo
/-- Thread 0 removes entity 1; when it has left its groups, thread 1 reads two of its components. -/
def tearing : List (Choice Nat) :=
  [.start 0 (.remove 1)] ++ goes 0 24 ++ [.start 1 (.read 1 1)] ++ goes 1 4 ++ [.start 1 (.read 2 1)] ++ goes 1 4
theorem tearing_go : ((Sys.init groupW 3).performAll groupCfg (disciplinedb groupCfg) tearing).isSome = true := by
  decide +kernel
/-- After that. -/
def torn : Sys Nat := ((Sys.init groupW 3).performAll groupCfg (disciplinedb groupCfg) tearing).get tearing_go
end Demo

/-- **C49**: a removal does not take effect at one moment, even if no two threads work on one entity. Entity 1 is in a
group; while `remove_entity(1)` is running another thread finds that one component is gone, and after that reads
another one. -/
theorem C49_removal_counterexample :
    Trace Demo.groupTr Demo.groupW ∧
    (Sys.init Demo.groupW 3).Sched Demo.groupCfg (Sys.disciplined Demo.groupCfg) Demo.torn ∧
    (Demo.groupW.value 1 1 = some 11 ∧ Demo.groupW.value 2 1 = some 12) ∧
    Demo.torn.log = [(1, .read 2 1, some [.val (some 12)]), (1, .read 1 1, some [.val none])] ∧
    Demo.torn.running 0 = some (.remove 1) :=
  ⟨Demo.groupTrace, performed (Demo.disciplinedb_ok Demo.groupCfg) Demo.tearing_go, by decide +kernel, by decide +kernel,
    by decide +kernel⟩

end Xecs
