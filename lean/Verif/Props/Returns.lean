import Verif.Proofs.Steady
import Verif.Props.Races
/-
C58: calls that would return normally, return normally in a shared world.
-/
set_option autoImplicit false
namespace Xecs
open Spec World Hist
variable {V : Type} {tr : List (Op V × Out V)} {w : World V} {order : List TypeId} {n : Nat}

/-- **C58**: considerate clients (`Sys.considerate`, see C65) start a call only if it would return normally, executed alone in the world as it is when it starts. Then no call panics. Missing from the English
property: a `detach` of a type of which, when the call starts, neither the entity nor one with a higher id has a component
(and that the call does not attach before), and queries on non-owning groups, for which it is false
(`C58_detach_counterexample`, `C58_query_counterexample`). -/
theorem C58_returns_partial (h : Mixed tr w) (ho : Enumerates w order) {σ : Sys V}
    (hs : (Sys.init w n).Sched (Config.of w order) (Sys.careful (Config.of w order)) σ) {i : Nat} {c : ApiCall V}
    {r : Option (List (Ret V))} (hl : (i, c, r) ∈ σ.log) : ∃ rs, r = some rs := by
  obtain ⟨_, g, _, _, hw⟩ := h.like
  cases r with
  | some rs => exact ⟨rs, rfl⟩
  | none => exact absurd hl (careful_sched hw ho hs i c)

namespace Demo

theorem prudentb_ok (cfg : Config) (σ : Sys Nat) (i : Nat) (c : ApiCall Nat)
    (h : σ.prudentb cfg (disciplinedb cfg) i c = true) : σ.prudent cfg i c := by
  simp only [Sys.prudentb, Bool.and_eq_true] at h
  refine ⟨disciplinedb_ok cfg σ i c h.1, ?_⟩
  have := h.2
  split at this
  · exact ⟨_, by assumption⟩
  · cases this

theorem noNonb_ok : ∀ (q : Query), Sys.carefulb.noNonb q = true → NoNon q
  | .comp _ _, _ => by simp [NoNon, Parts]
  | .with2 a b, h => by
    simp only [Sys.carefulb.noNonb, Bool.and_eq_true] at h
    exact ⟨noNonb_ok a h.1, noNonb_ok b h.2⟩
  | .with3 a b c, h => by
    simp only [Sys.carefulb.noNonb, Bool.and_eq_true] at h
    exact ⟨noNonb_ok a h.1.1, noNonb_ok b h.1.2, noNonb_ok c h.2⟩
  | .with4 a b c d, h => by
    simp only [Sys.carefulb.noNonb, Bool.and_eq_true] at h
    exact ⟨noNonb_ok a h.1.1.1, noNonb_ok b h.1.1.2, noNonb_ok c h.1.2, noNonb_ok d h.2⟩
  | .with5 a b c d e, h => by
    simp only [Sys.carefulb.noNonb, Bool.and_eq_true] at h
    exact ⟨noNonb_ok a h.1.1.1.1, noNonb_ok b h.1.1.1.2, noNonb_ok c h.1.1.2, noNonb_ok d h.1.2, noNonb_ok e h.2⟩
  | .withoutL a b, h => by
    simp only [Sys.carefulb.noNonb, Bool.and_eq_true] at h
    exact ⟨noNonb_ok a h.1, noNonb_ok b h.2⟩
  | .withoutR a b, h => by
    simp only [Sys.carefulb.noNonb, Bool.and_eq_true] at h
    exact ⟨noNonb_ok a h.1, noNonb_ok b h.2⟩
  | .group k _ _ _ _, h => by simpa [NoNon, Parts, Sys.carefulb.noNonb] using h

theorem secureb_ok {σ : Sys Nat} {id : Option EntityId} {t : TypeId} {after : List (HOp Nat)} :
    ∀ (before : List (HOp Nat)) {ts : List TypeId}, σ.secureb id ts (before ++ .detach t :: after) = true →
      (t ∈ ts ∨ ∃ v, HOp.attach t v ∈ before) ∨ ∃ id' e, id = some id' ∧ id' ≤ e ∧ (σ.world.value t e).isSome = true
  | [], ts, h => by
    simp only [List.nil_append, Sys.secureb, Bool.and_eq_true, Bool.or_eq_true, List.contains_iff_mem] at h
    rcases h.1 with h1 | h1
    · exact .inl (.inl h1)
    · right
      split at h1
      · split at h1
        · simp only [List.any_eq_true, Bool.and_eq_true, decide_eq_true_eq] at h1
          obtain ⟨e, _, h2, h3⟩ := h1
          exact ⟨_, e, rfl, h2, h3⟩
        · cases h1
      · cases h1
  | .attach t' v :: before, ts, h => by
    simp only [List.cons_append, Sys.secureb] at h
    rcases secureb_ok before h with (h1 | ⟨v, h1⟩) | h1
    · rcases List.mem_cons.1 h1 with rfl | h1
      · exact .inl (.inr ⟨v, by simp⟩)
      · exact .inl (.inl h1)
    · exact .inl (.inr ⟨v, List.mem_cons_of_mem _ h1⟩)
    · exact .inr h1
  | .detach t' :: before, ts, h => by
    simp only [List.cons_append, Sys.secureb, Bool.and_eq_true] at h
    rcases secureb_ok before h.2 with (h1 | ⟨v, h1⟩) | h1
    · exact .inl (.inl h1)
    · exact .inl (.inr ⟨v, List.mem_cons_of_mem _ h1⟩)
    · exact .inr h1
  | .read t' :: before, ts, h => by
    simp only [List.cons_append, Sys.secureb] at h
    rcases secureb_ok before h with (h1 | ⟨v, h1⟩) | h1
    · exact .inl (.inl h1)
    · exact .inl (.inr ⟨v, List.mem_cons_of_mem _ h1⟩)
    · exact .inr h1
  | .write t' v' :: before, ts, h => by
    simp only [List.cons_append, Sys.secureb] at h
    rcases secureb_ok before h with (h1 | ⟨v, h1⟩) | h1
    · exact .inl (.inl h1)
    · exact .inl (.inr ⟨v, List.mem_cons_of_mem _ h1⟩)
    · exact .inr h1

theorem carefulb_ok (cfg : Config) (σ : Sys Nat) (i : Nat) (c : ApiCall Nat)
    (h : σ.carefulb cfg (considerateb cfg) i c = true) : σ.careful cfg i c := by
  simp only [Sys.carefulb, Bool.and_eq_true] at h
  refine ⟨considerateb_ok cfg σ i c h.1.1.1, ?_, ?_, ?_⟩
  · intro before t after he
    have := h.1.1.2
    rw [he] at this
    simpa using secureb_ok before this
  · have := h.1.2
    split at this
    · exact ⟨_, by assumption⟩
    · cases this
  · rintro q rfl
    exact noNonb_ok q h.2

/-! ### Where the English property is false -/

/-- A `detach` that finds nothing starts; meanwhile another thread attaches the component to another entity. -/
def missed : List (Choice Nat) := [.start 0 (.on 2 [.detach 2]), .start 1 (.on 1 [.attach 2 9])] ++ goes 1 16 ++ goes 0 13
theorem missed_go : ((Sys.init raceW 2).performAll (Config.of raceW [1, 2])
    (Sys.prudentb (Config.of raceW [1, 2]) (disciplinedb (Config.of raceW [1, 2]))) missed).isSome = true := by decide +kernel
def missedEnd : Sys Nat := ((Sys.init raceW 2).performAll (Config.of raceW [1, 2])
    (Sys.prudentb (Config.of raceW [1, 2]) (disciplinedb (Config.of raceW [1, 2]))) missed).get missed_go

/-- A query on a non-owning group starts; meanwhile another thread detaches a component. -/
def dangling : List (Choice Nat) := [.start 0 (.query (.group .non .ref .ref 3 4)), .start 1 (.on 4 [.detach 3])] ++
  goes 1 18 ++ goes 0 12
theorem dangling_go : ((Sys.init groupW 2).performAll groupCfg
    (Sys.prudentb groupCfg (disciplinedb groupCfg)) dangling).isSome = true := by decide +kernel
def danglingEnd : Sys Nat := ((Sys.init groupW 2).performAll groupCfg
    (Sys.prudentb groupCfg (disciplinedb groupCfg)) dangling).get dangling_go

end Demo

/-- **C58** is false for a `detach` that finds nothing: executed alone it returns `None`, but it panics if, between its
start and its access to the storage, another thread attaches the component to the entity whose id is one lower. -/
theorem C58_detach_counterexample : Trace Demo.raceTr Demo.raceW ∧
    (Sys.init Demo.raceW 2).Sched (Config.of Demo.raceW [1, 2]) (Sys.prudent (Config.of Demo.raceW [1, 2])) Demo.missedEnd ∧
    ((ApiCall.on 2 [.detach 2] : ApiCall Nat).alone [1, 2] Demo.raceW).2 = .ok [.val none] ∧
    Demo.missedEnd.log = [(0, .on 2 [.detach 2], none), (1, .on 1 [.attach 2 9], some [.unit])] :=
  ⟨Demo.raceTrace, performed (Demo.prudentb_ok _) Demo.missed_go, by decide +kernel, by decide +kernel⟩

/-- **C58** is false for queries on non-owning groups: executed alone when it starts the query returns, but it fails if
another thread detaches a component from an entity before it gets its locks. -/
theorem C58_query_counterexample : Trace Demo.groupTr Demo.groupW ∧
    (Sys.init Demo.groupW 2).Sched Demo.groupCfg (Sys.prudent Demo.groupCfg) Demo.danglingEnd ∧
    Demo.danglingEnd.log = [(0, .query (.group .non .ref .ref 3 4), none), (1, .on 4 [.detach 3], some [.val (some 99)])] :=
  ⟨Demo.groupTrace, performed (Demo.prudentb_ok _) Demo.dangling_go, by decide +kernel⟩

/-! ### Examples -/

namespace Demo

/-- One thread creates an entity and works on it, one detaches from another, one removes a third and one queries. -/
def smooth : List (Choice Nat) :=
  [.start 0 (.create [.attach 1 7, .attach 2 8, .detach 1]), .start 1 (.on 5 [.detach 1]), .start 2 (.query (.group .part .ref .ref 1 2))] ++
  goes 0 9 ++ goes 1 3 ++ goes 2 12 ++ [.start 2 (.remove 1)] ++ goes 1 1 ++ goes 0 40 ++ goes 1 14 ++ goes 2 43
theorem smooth_go : ((Sys.init groupW 3).performAll groupCfg
    (Sys.carefulb groupCfg (considerateb groupCfg)) smooth).isSome = true := by decide +kernel
def smoothEnd : Sys Nat := ((Sys.init groupW 3).performAll groupCfg
    (Sys.carefulb groupCfg (considerateb groupCfg)) smooth).get smooth_go
theorem smooth_sched : (Sys.init groupW 3).Sched groupCfg (Sys.careful groupCfg) smoothEnd :=
  performed (carefulb_ok groupCfg) smooth_go

example : smoothEnd.log.length = 4 ∧ ∀ i c r, (i, c, r) ∈ smoothEnd.log → ∃ rs, r = some rs :=
  ⟨by decide +kernel, fun _ _ _ h => C58_returns_partial (.of_trace groupTrace) groupEnumerates smooth_sched h⟩

/-- Three threads attach to and detach from one entity at the same time; a further one detaches a component that the entity
lacks. -/
def tender : List (Choice Nat) := kindAll ++ [.start 0 (.on 1 [.detach 3])] ++ goes 0 18
theorem tender_go : ((Sys.init groupW 4).performAll groupCfg
    (Sys.carefulb groupCfg (considerateb groupCfg)) tender).isSome = true := by decide +kernel
def tenderEnd : Sys Nat := ((Sys.init groupW 4).performAll groupCfg
    (Sys.carefulb groupCfg (considerateb groupCfg)) tender).get tender_go
theorem tender_sched : (Sys.init groupW 4).Sched groupCfg (Sys.careful groupCfg) tenderEnd :=
  performed (carefulb_ok groupCfg) tender_go

example : (0, .on 1 [.detach 3], some [.val none]) ∈ tenderEnd.log ∧ (1, .on 5 [.detach 2, .attach 3 53], some [.val (some 52), .unit]) ∈ tenderEnd.log ∧
    ∀ i c r, (i, c, r) ∈ tenderEnd.log → ∃ rs, r = some rs :=
  ⟨by decide +kernel, by decide +kernel, fun _ _ _ h => C58_returns_partial (.of_trace groupTrace) groupEnumerates tender_sched h⟩

/-- A range of entities is created with two batches of components, while another thread attaches and a third one queries. -/
theorem pour_go : ((Sys.init groupW 3).performAll groupCfg
    (Sys.carefulb groupCfg (considerateb groupCfg)) pourAll).isSome = true := by decide +kernel
def pourCareful : Sys Nat := ((Sys.init groupW 3).performAll groupCfg
    (Sys.carefulb groupCfg (considerateb groupCfg)) pourAll).get pour_go
theorem pour_sched : (Sys.init groupW 3).Sched groupCfg (Sys.careful groupCfg) pourCareful :=
  performed (carefulb_ok groupCfg) pour_go

example : (0, .createMany 2 [(3, [63, 73]), (4, [64, 74])], some [.range 6 8]) ∈ pourCareful.log ∧
    ∀ i c r, (i, c, r) ∈ pourCareful.log → ∃ rs, r = some rs :=
  ⟨by decide +kernel, fun _ _ _ h => C58_returns_partial (.of_trace groupTrace) groupEnumerates pour_sched h⟩

end Demo

end Xecs
