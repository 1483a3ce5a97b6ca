import Verif.Props.Phases
import Verif.Props.Entities
import Verif.Props.Deadlocks
/-
C57: creating and removing entities while the world is shared.
-/
set_option autoImplicit false
namespace Xecs
open Spec World Hist
variable {V : Type} {tr : List (Op V × Out V)} {w : World V} {order : List TypeId} {n : Nat}

theorem Trace.drop {l : List (Op V × Out V)} {u : World V} (h : Trace (l ++ tr) u) : ∃ u', Trace tr u' := by
  generalize hx : l ++ tr = x at h
  induction h generalizing l with
  | init => exact ⟨_, by rw [(List.append_eq_nil_iff.1 hx).2]; exact .init⟩
  | ok h0 ha he ih =>
    cases l with
    | nil => exact ⟨_, by rw [show tr = _ from hx]; exact .ok h0 ha he⟩
    | cons y l => simp only [List.cons_append, List.cons.injEq] at hx; exact ih hx.2
  | fails h0 ha he ih => exact ih hx

theorem Trace.last {op : Op V} {o : Out V} {u : World V} (h : Trace ((op, o) :: tr) u) :
    ∃ u1 u2, Trace tr u1 ∧ Allowed tr op ∧ exec op u1 = (u2, .ok o) := by
  generalize hx : (op, o) :: tr = x at h
  induction h with
  | init => cases hx
  | ok h0 ha he ih => cases hx; exact ⟨_, _, h0, ha, he⟩
  | fails h0 ha he ih => exact ih hx

theorem Trace.dead (h : Trace tr w) {id : EntityId} (hd : alive id tr = false) (t : TypeId) : lastValue t id tr = none := by
  cases hv : lastValue t id tr with
  | none => rfl
  | some v => rw [any_alive h.any h.live.1 h.live.2.1 h.live.2.2 t id (by simp [hv])] at hd; cases hd

/-- An id handed out by `create_entity` was not alive. -/
theorem Trace.newId {o : Out V} (h : Trace ((.createEntity, o) :: tr) w) : ∃ id, o = .id id ∧ alive id tr = false := by
  obtain ⟨u1, u2, h1, _, h2⟩ := h.last
  obtain ⟨_, id, h3, _, h4⟩ := C07_unique (Wild.of_any h1.any) h1.live.2.1
  have h2 : (World.createEntity >>= fun a => pure (Out.id a)) u1 = _ := h2
  rw [bind_pure_ok] at h2
  obtain ⟨x, h5, rfl⟩ := h2
  rw [h3] at h5
  cases h5
  exact ⟨_, rfl, h4⟩

/-- Neither were those handed out by `create_entities`. -/
theorem Trace.newIds {m : Nat} {o : Out V} (h : Trace ((.createEntities m, o) :: tr) w) :
    ∃ a b, o = .range a b ∧ ∀ id, a ≤ id → id < b → alive id tr = false := by
  obtain ⟨u1, u2, h1, _, h2⟩ := h.last
  obtain ⟨_, a, b, h3, h4⟩ := C07_batch (Wild.of_any h1.any) h1.live.2.1 m
  have h2 : (World.createEntities m >>= fun x => pure (Out.range x.1 x.2)) u1 = _ := h2
  rw [bind_pure_ok] at h2
  obtain ⟨x, h5, rfl⟩ := h2
  rw [h3] at h5
  cases h5
  exact ⟨_, _, rfl, fun id ha hb => (h4 id ha hb).2⟩

/-- **C57**, considerate clients (`Sys.considerate`, see C65): every removal recorded is the removal of an entity that is alive at that moment, so an
entity is removed once (before the id is handed out again); and every id handed out is not alive at that moment, so no
two entities in the world have the same id. Missing from the English property: clients that remove an
entity that another thread works on, for which it is false (`C57_once_counterexample`). -/
theorem C57_once_partial (h : Mixed tr w) (ho : Enumerates w order) {l l1 l2 : List (Nat × Op V × Out V)} {σ : Sys V}
    (hl : (Sys.init w n).Record (Config.of w order) (Sys.considerate (Config.of w order)) l σ) {i : Nat} {op : Op V} {o : Out V}
    (hx : l = l1 ++ (i, op, o) :: l2) :
    (∀ ord id, op = .removeEntity ord id → alive id (l2.map Prod.snd ++ tr) = true) ∧
    (∀ id, o = .id id → op = .createEntity → alive id (l2.map Prod.snd ++ tr) = false) ∧
    (∀ m a b, o = .range a b → op = .createEntities m → ∀ id, a ≤ id → id < b → alive id (l2.map Prod.snd ++ tr) = false) := by
  obtain ⟨⟨u, hu⟩, _⟩ := C54_during h ho hl
  rw [hx, List.map_append, List.append_assoc] at hu
  obtain ⟨u', hu⟩ := hu.drop
  refine ⟨?_, ?_, ?_⟩
  · rintro ord id rfl
    exact hu.live.2.1.1
  · rintro id rfl rfl
    obtain ⟨_, h1, h2⟩ := Trace.newId hu
    cases h1
    exact h2
  · rintro m a b rfl rfl
    obtain ⟨_, _, h1, h2⟩ := Trace.newIds hu
    cases h1
    exact h2

/-- **C57**, considerate clients (`Sys.considerate`, see C65): from the moment it is removed until its id is handed out again an entity has no
component. Missing: as in `C57_once_partial` (`C57_leftover_counterexample`). -/
theorem C57_gone_partial (h : Mixed tr w) (ho : Enumerates w order) {l : List (Nat × Op V × Out V)} {σ : Sys V}
    (hl : (Sys.init w n).Record (Config.of w order) (Sys.considerate (Config.of w order)) l σ) {id : EntityId}
    (hd : alive id (l.map Prod.snd ++ tr) = false) (t : TypeId) : σ.world.value t id = none := by
  obtain ⟨⟨u, hu⟩, _, h3, _⟩ := C54_during h ho hl
  cases hv : σ.world.value t id with
  | none => rfl
  | some v => have := h3 t id v hv; rw [hu.dead hd] at this; cases this

/-- **C57**, considerate clients (`Sys.considerate`, see C65): a new entity starts without components. Missing: as in `C57_once_partial`
(`C57_leftover_counterexample`). -/
theorem C57_new_partial (h : Mixed tr w) (ho : Enumerates w order) {l : List (Nat × Op V × Out V)} {σ : Sys V} {i : Nat} :
    (∀ {id : EntityId}, (Sys.init w n).Record (Config.of w order) (Sys.considerate (Config.of w order))
      ((i, .createEntity, .id id) :: l) σ → ∀ t, σ.world.value t id = none) ∧
    (∀ {m a b : Nat}, (Sys.init w n).Record (Config.of w order) (Sys.considerate (Config.of w order))
      ((i, .createEntities m, .range a b) :: l) σ → ∀ id, a ≤ id → id < b → ∀ t, σ.world.value t id = none) := by
  constructor
  · intro id hl t
    obtain ⟨⟨u, hu⟩, _, h3, _⟩ := C54_during h ho hl
    cases hv : σ.world.value t id with
    | none => rfl
    | some v =>
      have h4 := h3 t id v hv
      obtain ⟨_, h1, h2⟩ := Trace.newId hu
      cases h1
      obtain ⟨_, _, h5, _⟩ := hu.last
      rw [show lastValue t id (List.map Prod.snd ((i, Op.createEntity, Out.id id) :: l) ++ tr) =
        lastValue t id (List.map Prod.snd l ++ tr) from rfl, show lastValue t id (List.map Prod.snd l ++ tr) = none from h5.dead h2 t] at h4
      cases h4
  · intro m a b hl id ha hb t
    obtain ⟨⟨u, hu⟩, _, h3, _⟩ := C54_during h ho hl
    cases hv : σ.world.value t id with
    | none => rfl
    | some v =>
      have h4 := h3 t id v hv
      obtain ⟨_, _, h1, h2⟩ := Trace.newIds hu
      cases h1
      obtain ⟨_, _, h5, _⟩ := hu.last
      rw [show lastValue t id (List.map Prod.snd ((i, Op.createEntities m, Out.range a b) :: l) ++ tr) =
        lastValue t id (List.map Prod.snd l ++ tr) from rfl,
        show lastValue t id (List.map Prod.snd l ++ tr) = none from h5.dead (h2 id ha hb) t] at h4
      cases h4

/-! ### Where the English property is false -/

namespace Demo

/-- Two threads remove entity 1; both have checked that it is alive before either goes on. Then two entities are made. -/
def twice : List (Choice Nat) := [.start 0 (.remove 1), .start 1 (.remove 1)] ++ goes 0 3 ++ goes 1 3 ++ goes 0 20 ++ goes 1 17 ++
  [.start 0 (.create [])] ++ goes 0 7 ++ [.start 1 (.create [])] ++ goes 1 7
theorem twice_go : ((Sys.init raceW 2).performAll (Config.of raceW [1, 2]) anyb twice).isSome = true := by decide +kernel
def twiceEnd : Sys Nat := ((Sys.init raceW 2).performAll (Config.of raceW [1, 2]) anyb twice).get twice_go

/-- Entity 1 is removed; when its components are dropped another thread attaches one. Then an entity is made. -/
def leftover : List (Choice Nat) := [.start 0 (.remove 1)] ++ goes 0 19 ++ [.start 1 (.on 1 [.attach 2 9])] ++ goes 1 16 ++
  goes 0 4 ++ [.start 0 (.create [])] ++ goes 0 7
theorem leftover_go : ((Sys.init raceW 2).performAll (Config.of raceW [1, 2]) anyb leftover).isSome = true := by decide +kernel
def leftoverEnd : Sys Nat := ((Sys.init raceW 2).performAll (Config.of raceW [1, 2]) anyb leftover).get leftover_go

end Demo

/-- **C57** is false for clients that work on one entity from two threads: two threads remove the same entity, both calls
return, and the next two `create_entity` calls return the same id. -/
theorem C57_once_counterexample : Trace Demo.raceTr Demo.raceW ∧
    (Sys.init Demo.raceW 2).Sched (Config.of Demo.raceW [1, 2]) Sys.anything Demo.twiceEnd ∧ Demo.twiceEnd.Quiet ∧
    Demo.twiceEnd.log = [(1, .create [], some [.id 1]), (0, .create [], some [.id 1]), (1, .remove 1, some [.unit]),
      (0, .remove 1, some [.unit])] :=
  ⟨Demo.raceTrace, performed (fun _ _ _ _ => trivial) Demo.twice_go, by unfold Sys.Quiet; decide +kernel, by decide +kernel⟩

/-- **C57** is false for clients that work on one entity from two threads: a component attached during the removal stays,
and the next entity made has it. -/
theorem C57_leftover_counterexample : Trace Demo.raceTr Demo.raceW ∧
    (Sys.init Demo.raceW 2).Sched (Config.of Demo.raceW [1, 2]) Sys.anything Demo.leftoverEnd ∧ Demo.leftoverEnd.Quiet ∧
    Demo.leftoverEnd.log = [(0, .create [], some [.id 1]), (0, .remove 1, some [.unit]), (1, .on 1 [.attach 2 9], some [.unit])] ∧
    Demo.leftoverEnd.world.value 2 1 = some 9 :=
  ⟨Demo.raceTrace, performed (fun _ _ _ _ => trivial) Demo.leftover_go, by unfold Sys.Quiet; decide +kernel, by decide +kernel,
    by decide +kernel⟩

/-! ### Examples -/

namespace Demo

/-- An entity is removed while another thread makes some. -/
def recycle : List (Choice Nat) := [.start 0 (.remove 1), .start 1 (.createMany 2 [])] ++ goes 0 19 ++ goes 1 6 ++ goes 0 4 ++
  [.start 1 (.create [.attach 2 7])] ++ goes 1 2
theorem recycle_go : ((Sys.init raceW 2).performAll (Config.of raceW [1, 2]) (disciplinedb (Config.of raceW [1, 2])) recycle).isSome = true := by
  decide +kernel
def recycled : Sys Nat := ((Sys.init raceW 2).performAll (Config.of raceW [1, 2]) (disciplinedb (Config.of raceW [1, 2])) recycle).get recycle_go
def recycleLog : List (Nat × Op Nat × Out Nat) :=
  (Sys.init raceW 2).changes (Config.of raceW [1, 2]) (disciplinedb (Config.of raceW [1, 2])) recycle []
theorem recycle_record : (Sys.init raceW 2).Record (Config.of raceW [1, 2]) (Sys.considerate (Config.of raceW [1, 2])) recycleLog recycled :=
  recorded (disciplinedb_kind _) recycle_go
theorem recycleLog_eq : recycleLog = [(1, .createEntity, .id 1), (0, .removeEntity [1, 2] 1, .unit), (1, .createEntities 2, .range 3 5)] := by
  decide +kernel

/-- Entity 1, which had component 1, was removed, and has just been made again. -/
example : raceW.value 1 1 = some 11 ∧ (∀ t, recycled.world.value t 1 = none) ∧
    alive 1 ([(1, .createEntities 2, .range 3 5)].map Prod.snd ++ raceTr) = true := by
  have h := recycle_record
  rw [recycleLog_eq] at h
  exact ⟨by decide +kernel, (C57_new_partial (.of_trace raceTrace) raceEnumerates).1 h,
    (C57_once_partial (.of_trace raceTrace) raceEnumerates h (l1 := [_]) rfl).1 _ 1 rfl⟩

example : ∀ t, busyEnd.world.value t 1 = none :=
  C57_gone_partial (.of_trace groupTrace) groupEnumerates busyEnd_record (by rw [busyLog_eq]; decide +kernel)

end Demo

end Xecs
