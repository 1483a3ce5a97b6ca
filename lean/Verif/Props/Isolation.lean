import Verif.Proofs.Isolation
import Verif.Proofs.NoBatches
import Verif.Proofs.Steady
import Verif.Props.Linear
import Verif.Props.Keeping
/-
C69: threads that work on different entities do not affect each other.
-/
set_option autoImplicit false
namespace Xecs
open Spec World Hist
variable {V : Type}

theorem mem_worked {i : Nat} {E : Nat → Bool} {log : List (Nat × ApiCall V × Option (List (Ret V)))} {c : ApiCall V}
    {r : Option (List (Ret V))} : (c, r) ∈ worked i E log ↔ (i, c, r) ∈ log ∧ c.worksOn E = true := by
  simp [worked, ofThread]

theorem mem_returns {h : List (Event V)} {i : Nat} {c : ApiCall V} {r : Option (List (Ret V))} :
    (i, c, r) ∈ returns h ↔ Event.ret i c r ∈ h := by
  simp only [returns, List.mem_filterMap]
  constructor
  · rintro ⟨e, he, hx⟩
    cases e with
    | call j c' => cases hx
    | ret j c' r' => cases hx; exact he
  · intro he
    exact ⟨_, he, rfl⟩

theorem blind_respecting {i : Nat} {E : Nat → Bool} {new : Bool} {may : Sys V → Nat → ApiCall V → Prop} (hb : Sys.Blind may) :
    Sys.Blind (Sys.respecting i E new may) :=
  fun σ σ' j c h1 h2 h3 => ⟨hb σ σ' j c h1 h2 h3.1, h3.2⟩

/-- What the idealised world says about the work of thread `i`. -/
theorem isolated_of {life : Prop} {new : Bool} (hlife : new = true → life) {i : Nat} {E : Nat → Bool} {a0 a : Shared V}
    {h : List (Event V)} {ph : Nat → Phase V} (ha : Atomic life a0 h ph a)
    (hcalls : ∀ j c, Event.call j c ∈ h → (j = i ∧ c.worksOn E = true) ∨ c.leavesAlone new E)
    (hok : ∀ x ∈ worked i E (returns h), x.2 ≠ none)
    (hnew : new = true → ∀ e, E e = true → a0.alive e = true) :
    worked i E (returns h) = replies a0 (workedCalls i E (returns h)) ∧
    ((∀ c, (ph i).call = some c → c.worksOn E = false) →
      ∀ t e, E e = true → a.value t e = (replay a0 (workedCalls i E (returns h))).value t e) := by
  have := ha.isolated hlife hcalls (fun c r hm hw => hok (c, r) (mem_worked.2 ⟨mem_returns.2 hm, hw⟩)) hnew
  exact ⟨this.answers, fun hi t e he => agree_of_working this.mine hi e he t⟩

section
variable {tr : List (Op V × Out V)} {w : World V} {order : List TypeId} {n : Nat} {σ : Sys V} {i : Nat}
  {E : EntityId → Bool}

/-- **C69**. If nobody but thread `i` changes the entities `E`, and thread `i` does so by operations on handles and by
writes (reading is free to all, and so is anything else that leaves `E` alone: queries, counts, resources, work on other
entities, removing others, creating entities), then what its calls on `E` have returned is what they return if made one
after the other without other threads, and when they are over the entities have the components these calls give them.
Any history before, any interleaving, groups of any kind. (Created entities get no components here, see
C69_considerate; calls that panic are excluded.) -/
theorem C69_isolated (ht : Reached w) (ho : Enumerates w order)
    (hs : (Sys.init w n).SchedWhile (Config.of w order) (Sys.respecting i E false Sys.anything) Sys.BatchesFit σ)
    (hok : ∀ x ∈ worked i E σ.log, x.2 ≠ none) :
    worked i E σ.log = replies w.shared (workedCalls i E σ.log) ∧
    ((∀ c, σ.running i = some c → c.worksOn E = false) →
      ∀ t e, E e = true → σ.world.value t e = (replay w.shared (workedCalls i E σ.log)).value t e) := by
  obtain ⟨h, h1, h2⟩ := C48_history hs
  obtain ⟨ph, p1, p2⟩ := C48_atomic ht ho h1
  have := isolated_of (new := false) (fun h => by cases h) p1
    (fun j c hm => by obtain ⟨_, h⟩ := History.may h1 j c hm; exact h.2) (by rw [h2]; exact hok) (fun h => by cases h)
  rw [h2, p2 i] at this
  exact this

/-- **C69** for considerate clients (see C65), who may also create entities with components meanwhile. -/
theorem C69_considerate (ht : Mixed tr w) (ho : Enumerates w order)
    (hs : (Sys.init w n).Sched (Config.of w order) (Sys.respecting i E true (Sys.considerate (Config.of w order))) σ)
    (hE : ∀ e, E e = true → alive e tr = true) (hok : ∀ x ∈ worked i E σ.log, x.2 ≠ none) :
    worked i E σ.log = replies w.shared (workedCalls i E σ.log) ∧
    ((∀ c, σ.running i = some c → c.worksOn E = false) →
      ∀ t e, E e = true → σ.world.value t e = (replay w.shared (workedCalls i E σ.log)).value t e) := by
  obtain ⟨h, h1, h2⟩ := C48_history hs.always
  obtain ⟨ph, p1, p2⟩ := C49_atomic ht ho (History.weaken (fun _ _ _ h => h.1) h1)
  have := isolated_of (new := true) (i := i) (E := E) (fun _ => trivial) p1
    (fun j c hm => by obtain ⟨_, h⟩ := History.may h1 j c hm; exact h.2) (by rw [h2]; exact hok) (fun _ e he => by
      obtain ⟨s, hr⟩ := ht.origin
      rw [shared_alive hr.rel, ← hr.alive e]
      exact hE e he)
  rw [h2, p2 i] at this
  exact this

/-- **C69**: so the work of a thread on entities of its own is deterministic. Make the same calls on the same contents
in another schedule, with other threads doing other things, on another computer (the enumeration order `order'` may be
another one): they return the same, and the entities end up with the same components. -/
theorem C69_deterministic (ht : Reached w) (ho : Enumerates w order)
    (hs : (Sys.init w n).SchedWhile (Config.of w order) (Sys.respecting i E false Sys.anything) Sys.BatchesFit σ)
    (hok : ∀ x ∈ worked i E σ.log, x.2 ≠ none)
    {order' : List TypeId} {n' j : Nat} {σ' : Sys V} (ho' : Enumerates w order')
    (hs' : (Sys.init w n').SchedWhile (Config.of w order') (Sys.respecting j E false Sys.anything) Sys.BatchesFit σ')
    (hok' : ∀ x ∈ worked j E σ'.log, x.2 ≠ none)
    (hc : workedCalls i E σ.log = workedCalls j E σ'.log) :
    worked i E σ.log = worked j E σ'.log ∧
    ((∀ c, σ.running i = some c → c.worksOn E = false) → (∀ c, σ'.running j = some c → c.worksOn E = false) →
      ∀ t e, E e = true → σ.world.value t e = σ'.world.value t e) := by
  obtain ⟨h1, h2⟩ := C69_isolated ht ho hs hok
  obtain ⟨h3, h4⟩ := C69_isolated ht ho' hs' hok'
  refine ⟨by rw [h1, h3, hc], fun hi hj t e he => ?_⟩
  rw [h2 hi t e he, h4 hj t e he, hc]

theorem parted_leaves {own : Nat → Nat} {i j : Nat} {c : ApiCall V} (h : c.worksOn (fun e => own e == j) = true) :
    (j = i ∧ c.worksOn (fun e => own e == i) = true) ∨ c.leavesAlone false (fun e => own e == i) := by
  by_cases hj : j = i
  · subst hj; exact .inl ⟨rfl, h⟩
  · refine .inr ?_
    cases c with
    | on id s => simp only [ApiCall.worksOn, ApiCall.leavesAlone, beq_iff_eq] at h ⊢; simp [h, hj]
    | write t id v => simp only [ApiCall.worksOn, ApiCall.leavesAlone, beq_iff_eq] at h ⊢; simp [h, hj]
    | read t id => exact trivial
    | _ => simp [ApiCall.worksOn] at h

theorem parted_batchless {own : Nat → Nat} {j : Nat} {c : ApiCall V} (h : c.worksOn (fun e => own e == j) = true) :
    c.batchless = true := by
  cases c <;> first | rfl | simp [ApiCall.worksOn] at h

theorem parted_worked {own : Nat → Nat} {cfg : Config} (hs : (Sys.init w n).Sched cfg (Sys.parted own) σ) (i : Nat) :
    worked i (fun e => own e == i) σ.log = ofThread i σ.log := by
  have h := (hs.made (P := fun j c => c.worksOn (fun e => own e == j) = true) fun _ _ _ h => h).1
  refine List.filter_eq_self.2 fun x hx => ?_
  obtain ⟨y, hy, hx⟩ := List.mem_filterMap.1 hx
  split at hx
  · next hyi =>
    cases hx
    have := h y hy
    rw [hyi] at this
    exact this
  · cases hx

theorem parted_sched {own : Nat → Nat} {cfg : Config} (hs : (Sys.init w n).Sched cfg (Sys.parted own) σ) (i : Nat) :
    (Sys.init w n).SchedWhile cfg (Sys.respecting i (fun e => own e == i) false Sys.anything) Sys.BatchesFit σ := by
  have h1 : (Sys.init w n).Sched cfg (fun σ j c => Sys.respecting i (fun e => own e == i) false Sys.anything σ j c ∧
      c.batchless = true) σ := by
    induction hs with
    | refl => exact .refl
    | step _ h ih =>
      exact .step ih (Sys.Step.mono (fun _ j c hp => ⟨⟨trivial, parted_leaves hp⟩, parted_batchless hp⟩) h)
  have h2 := h1.batchless fun _ _ _ h => h.2
  clear h1 hs
  induction h2 with
  | refl h => exact .refl h
  | step _ h hp ih => exact .step ih (Sys.Step.mono (fun _ j c h => h.1) h) hp

/-- **C69**: parallel work on disjoint sets of entities is deterministic. If each thread only works on entities of its own
(attaching, detaching, reading, writing), and each thread makes the same calls in two schedules and none of them panics,
then all calls return the same in both, and all components are the same when all calls are over -- although the two
schedules interleave the threads differently, the entities share storages and groups, and the storages may end up in
different orders. -/
theorem C69_parallel (ht : Reached w) (own : EntityId → Nat) (ho : Enumerates w order)
    (hs : (Sys.init w n).Sched (Config.of w order) (Sys.parted own) σ) (hq : σ.Quiet)
    (hok : ∀ x ∈ σ.log, x.2.2 ≠ none)
    {order' : List TypeId} {n' : Nat} {σ' : Sys V} (ho' : Enumerates w order')
    (hs' : (Sys.init w n').Sched (Config.of w order') (Sys.parted own) σ') (hq' : σ'.Quiet)
    (hok' : ∀ x ∈ σ'.log, x.2.2 ≠ none)
    (hc : ∀ i, (ofThread i σ.log).map Prod.fst = (ofThread i σ'.log).map Prod.fst) :
    (∀ i, ofThread i σ.log = ofThread i σ'.log) ∧ ∀ t e, σ.world.value t e = σ'.world.value t e := by
  have hid : ∀ {σ : Sys V}, σ.Quiet → ∀ (i : Nat) (E : Nat → Bool) c, σ.running i = some c → c.worksOn E = false := by
    intro σ hq i E c hc
    unfold Sys.running at hc
    rcases hi : σ.threads[i]? with _ | th
    · rw [hi] at hc; cases hc
    · rw [hi] at hc
      have := hq th (List.mem_of_getElem? hi)
      simp only [Option.bind] at hc
      rw [this] at hc; cases hc
  have hk : ∀ {σ : Sys V}, (∀ x ∈ σ.log, x.2.2 ≠ none) → ∀ (i : Nat) (E : Nat → Bool), ∀ x ∈ worked i E σ.log, x.2 ≠ none := by
    intro σ h i E x hx
    obtain ⟨c, r⟩ := x
    exact h _ (mem_worked.1 hx).1
  have key : ∀ i, _ := fun i => C69_deterministic ht ho (parted_sched hs i) (hk hok i _) ho' (parted_sched hs' i) (hk hok' i _)
    (by unfold workedCalls; rw [parted_worked hs, parted_worked hs']; exact hc i)
  refine ⟨fun i => ?_, fun t e => ?_⟩
  · have := (key i).1
    rw [parted_worked hs, parted_worked hs'] at this
    exact this
  · exact (key (own e)).2 (hid hq _ _) (hid hq' _ _) t e (by simp)

/-- **C69** for clients that keep handles, guards and open queries, and work through them. -/
theorem C69_keeping {τ : KSys V} (ht : Reached w) (ho : Enumerates w order)
    (hs : (KSys.init w n).SchedWhile (Config.of w order) (KSys.keeping (Sys.respecting i E false Sys.anything))
      KSys.BatchesFit τ)
    (hok : ∀ x ∈ worked i E τ.answers, x.2 ≠ none) :
    worked i E τ.answers = replies w.shared (workedCalls i E τ.answers) ∧
    ((∀ c, (τ.running i).bind KCall.plain = some c → c.worksOn E = false) →
      ∀ t e, E e = true → τ.world.value t e = (replay w.shared (workedCalls i E τ.answers)).value t e) := by
  obtain ⟨h, h1, h2⟩ := C52_history ho hs
  obtain ⟨σ, s1, s2, _⟩ := sim_history (P := Sys.BatchesFit) (blind_respecting fun _ _ _ _ _ _ _ => trivial)
    (fun τ σ hn hb i start stop t vs ha => by rw [hn.1]; exact hb i start stop t vs (hn.2 i start stop t vs ha)) ho h1
  obtain ⟨ph, p1, p2⟩ := C48_atomic ht ho s1
  have := isolated_of (new := false) (fun h => by cases h) p1
    (fun j c hm => by obtain ⟨_, h⟩ := History.may s1 j c hm; exact h.2) (by rw [h2]; exact hok) (fun h => by cases h)
  rw [h2, p2 i, s2.world, s2.runs i] at this
  exact this

/-- **C69** for considerate clients that keep things. -/
theorem C69_keeping_considerate {τ : KSys V} (ht : Mixed tr w) (ho : Enumerates w order)
    (hs : (KSys.init w n).Sched (Config.of w order)
      (KSys.keeping (Sys.respecting i E true (Sys.considerate (Config.of w order)))) τ)
    (hE : ∀ e, E e = true → alive e tr = true) (hok : ∀ x ∈ worked i E τ.answers, x.2 ≠ none) :
    worked i E τ.answers = replies w.shared (workedCalls i E τ.answers) ∧
    ((∀ c, (τ.running i).bind KCall.plain = some c → c.worksOn E = false) →
      ∀ t e, E e = true → τ.world.value t e = (replay w.shared (workedCalls i E τ.answers)).value t e) := by
  obtain ⟨h, h1, h2⟩ := C52_history (P := fun _ => True) ho hs.always
  obtain ⟨σ, s1, s2, _⟩ := sim_history (P := fun _ => True) (blind_respecting blind_considerate) (fun _ _ _ _ => trivial) ho h1
  obtain ⟨ph, p1, p2⟩ := C49_atomic ht ho (History.weaken (fun _ _ _ h => h.1) s1)
  have := isolated_of (new := true) (i := i) (E := E) (fun _ => trivial) p1
    (fun j c hm => by obtain ⟨_, h⟩ := History.may s1 j c hm; exact h.2) (by rw [h2]; exact hok) (fun _ e he => by
      obtain ⟨s, hr⟩ := ht.origin
      rw [shared_alive hr.rel, ← hr.alive e]
      exact hE e he)
  rw [h2, p2 i, s2.world, s2.runs i] at this
  exact this

end

/-! ### Examples -/

namespace Demo

/-- Entity 5 is thread 0's, the others are thread 1's. -/
def own5 (e : EntityId) : Nat := if e = 5 then 0 else 1
/-- `Sys.parted`, as a Boolean. -/
def partedb : Sys Nat → Nat → ApiCall Nat → Bool := fun _ j c => c.worksOn fun e => own5 e == j
/-- The entities of thread 0: entity 5. -/
def isFive (e : EntityId) : Bool := e == 5
/-- Leaving entity 5 to thread 0, as a Boolean. -/
def respectb (new : Bool) : Nat → ApiCall Nat → Bool := fun j c => (j == 0 && c.worksOn isFive) ||
  match c with
  | .on id _ => id != 5
  | .write _ id _ => id != 5
  | .remove id => id != 5
  | .fill start stop _ => decide (stop ≤ 5) || decide (5 < start)
  | .create s => new || s.isEmpty
  | .createMany _ bs => new || bs.isEmpty
  | _ => true

theorem respectb_ok {new : Bool} {j : Nat} {c : ApiCall Nat} (h : respectb new j c = true) :
    (j = 0 ∧ c.worksOn isFive = true) ∨ c.leavesAlone new isFive := by
  simp only [respectb, Bool.or_eq_true, Bool.and_eq_true, beq_iff_eq] at h
  rcases h with h | h
  · exact .inl h
  · refine .inr ?_
    cases c <;> simp_all [ApiCall.leavesAlone, isFive]
    intro e h1 h2
    omega

/-- Two threads detach and attach components of two entities of one group, thread 0 first. -/
def sideA : List (Choice Nat) :=
  [.start 0 (.on 5 [.detach 1, .attach 1 7]), .start 1 (.on 1 [.detach 1, .attach 1 9])] ++ goes 0 16 ++ goes 1 32 ++ goes 0 16
/-- The same calls, thread 1 first. -/
def sideB : List (Choice Nat) :=
  [.start 0 (.on 5 [.detach 1, .attach 1 7]), .start 1 (.on 1 [.detach 1, .attach 1 9])] ++ goes 1 16 ++ goes 0 32 ++ goes 1 16
theorem sideA_go : ((Sys.init groupW 2).performAll groupCfg partedb sideA).isSome = true := by decide +kernel
theorem sideB_go : ((Sys.init groupW 2).performAll groupCfg partedb sideB).isSome = true := by decide +kernel
/-- The end of the first. -/
def sideAEnd : Sys Nat := ((Sys.init groupW 2).performAll groupCfg partedb sideA).get sideA_go
/-- The end of the second. -/
def sideBEnd : Sys Nat := ((Sys.init groupW 2).performAll groupCfg partedb sideB).get sideB_go
theorem sideA_sched : (Sys.init groupW 2).Sched groupCfg (Sys.parted own5) sideAEnd :=
  performed (mayb := partedb) (fun _ _ _ h => h) sideA_go
theorem sideB_sched : (Sys.init groupW 2).Sched groupCfg (Sys.parted own5) sideBEnd :=
  performed (mayb := partedb) (fun _ _ _ h => h) sideB_go

/-- Thread 0 works on entity 5, while thread 1 creates an entity in the same group and thread 2 removes one. -/
def sideC : List (Choice Nat) :=
  [.start 1 (.create [.attach 1 8, .attach 2 9]), .start 0 (.on 5 [.attach 1 7, .read 1]), .start 2 (.remove 1)] ++
    goes 1 10 ++ goes 2 10 ++ goes 0 21
theorem sideC_go : ((Sys.init groupW 3).performAll groupCfg (fun σ j c => considerateb groupCfg σ j c && respectb true j c)
    sideC).isSome = true := by decide +kernel
/-- When thread 0 is done. -/
def sideCEnd : Sys Nat := ((Sys.init groupW 3).performAll groupCfg
  (fun σ j c => considerateb groupCfg σ j c && respectb true j c) sideC).get sideC_go
theorem sideC_sched : (Sys.init groupW 3).Sched groupCfg (Sys.respecting 0 isFive true (Sys.considerate groupCfg)) sideCEnd :=
  performed (may := Sys.respecting 0 isFive true (Sys.considerate groupCfg)) (fun σ j c h => by
    rw [Bool.and_eq_true] at h
    exact ⟨considerateb_ok groupCfg σ j c h.1, respectb_ok h.2⟩) sideC_go

/-- Thread 0 keeps a handle of entity 5 and works through it, while thread 1 works on entity 1. -/
def sideK : List (KChoice Nat) := [.start 0 (.openHandle 5)] ++ kgoes 0 3 ++
  [.start 1 (.call (.on 1 [.detach 1, .attach 1 9])), .start 0 (.viaHandle 5 [.attach 1 7, .read 1])] ++ kgoes 1 16 ++ kgoes 0 18
theorem sideK_go : (KSys.init groupW 3).allAlong groupCfg
    (KSys.keepingb fun σ j c => considerateb groupCfg σ j c && respectb false j c) kbatchesFitb sideK = true := by
  decide +kernel
theorem sideK_some : ((KSys.init groupW 3).performAll groupCfg
    (KSys.keepingb fun σ j c => considerateb groupCfg σ j c && respectb false j c) sideK).isSome = true := by
  decide +kernel
/-- When thread 0 is done. -/
def sideKEnd : KSys Nat := ((KSys.init groupW 3).performAll groupCfg
    (KSys.keepingb fun σ j c => considerateb groupCfg σ j c && respectb false j c) sideK).get sideK_some
theorem sideK_while : (KSys.init groupW 3).SchedWhile groupCfg (KSys.keeping (Sys.respecting 0 isFive false Sys.anything))
    KSys.BatchesFit sideKEnd := by
  obtain ⟨σ', h1, h2⟩ := kperformAll_while (keepingb_ok (may := Sys.respecting 0 isFive false Sys.anything) fun σ j c h => by
    rw [Bool.and_eq_true] at h
    exact ⟨trivial, respectb_ok h.2⟩) sideK_go
  have : σ' = sideKEnd := Option.some.inj (h1.symm.trans (Option.some_get sideK_some).symm)
  rw [← this]
  exact h2.mono kbatchesFitb_ok
theorem leaves_mono {c : ApiCall Nat} {E : EntityId → Bool} (h : c.leavesAlone false E) : c.leavesAlone true E := by
  cases c <;> first | exact h | exact .inl rfl
theorem sideK_sched : (KSys.init groupW 3).Sched groupCfg
    (KSys.keeping (Sys.respecting 0 isFive true (Sys.considerate groupCfg))) sideKEnd :=
  kperformed (keepingb_ok (may := Sys.respecting 0 isFive true (Sys.considerate groupCfg)) fun σ j c h => by
    rw [Bool.and_eq_true] at h
    exact ⟨considerateb_ok groupCfg σ j c h.1, (respectb_ok h.2).imp_right leaves_mono⟩) sideK_some

end Demo

/-- The two schedules end with the same components, although the storages are in different orders. -/
example : (∀ i, ofThread i Demo.sideAEnd.log = ofThread i Demo.sideBEnd.log) ∧
    (∀ t e, Demo.sideAEnd.world.value t e = Demo.sideBEnd.world.value t e) ∧
    Demo.sideAEnd.world.value 1 5 = some 7 ∧
    (Demo.sideAEnd.world.comps 1).map (fun s => s.set.entities) = some [1, 5] ∧
    (Demo.sideBEnd.world.comps 1).map (fun s => s.set.entities) = some [5, 1] := by
  obtain ⟨h1, h2⟩ := C69_parallel (.of_any Demo.groupTrace.any Demo.groupTrace.live.1) Demo.own5 Demo.groupEnumerates Demo.sideA_sched
    (by unfold Sys.Quiet; decide +kernel) (by decide +kernel) Demo.groupEnumerates Demo.sideB_sched
    (by unfold Sys.Quiet; decide +kernel) (by decide +kernel) (fun i => by
      have ha : Demo.sideAEnd.log = [(0, .on 5 [.detach 1, .attach 1 7], some [.val (some 51), .unit]),
        (1, .on 1 [.detach 1, .attach 1 9], some [.val (some 11), .unit])] := by decide +kernel
      have hb : Demo.sideBEnd.log = [(1, .on 1 [.detach 1, .attach 1 9], some [.val (some 11), .unit]),
        (0, .on 5 [.detach 1, .attach 1 7], some [.val (some 51), .unit])] := by decide +kernel
      rw [ha, hb]
      by_cases h0 : i = 0
      · subst h0; rfl
      · by_cases h1 : i = 1
        · subst h1; rfl
        · simp [ofThread, Ne.symm h0, Ne.symm h1])
  exact ⟨h1, h2, by decide +kernel, by decide +kernel, by decide +kernel⟩
example : worked 0 (fun e => Demo.own5 e == 0) Demo.sideAEnd.log = [(.on 5 [.detach 1, .attach 1 7], some [.val (some 51), .unit])] := by
  decide +kernel
example := C69_isolated (.of_any Demo.groupTrace.any Demo.groupTrace.live.1) Demo.groupEnumerates (parted_sched Demo.sideA_sched 0)
  (by decide +kernel)
example := C69_deterministic (.of_any Demo.groupTrace.any Demo.groupTrace.live.1) Demo.groupEnumerates (parted_sched Demo.sideA_sched 0)
  (by decide +kernel) Demo.groupEnumerates (parted_sched Demo.sideB_sched 0) (by decide +kernel) (by decide +kernel)
example : worked 0 Demo.isFive Demo.sideCEnd.log = [(.on 5 [.attach 1 7, .read 1], some [.unit, .val (some 7)])] ∧
    Demo.sideCEnd.running 1 = some (.create [.attach 1 8, .attach 2 9]) ∧ Demo.sideCEnd.running 2 = some (.remove 1) := by
  decide +kernel
example := C69_considerate (.of_trace Demo.groupTrace) Demo.groupEnumerates Demo.sideC_sched
  (fun e he => by rw [Demo.isFive, beq_iff_eq] at he; subst he; decide +kernel) (by decide +kernel)
example : worked 0 Demo.isFive Demo.sideKEnd.answers =
    [(.on 5 [.attach 1 7, .read 1], some [.unit, .val (some 7)]), (.on 5 [], some [])] := by
  decide +kernel
example := C69_keeping (.of_any Demo.groupTrace.any Demo.groupTrace.live.1) Demo.groupEnumerates Demo.sideK_while (by decide +kernel)
example := C69_keeping_considerate (.of_trace Demo.groupTrace) Demo.groupEnumerates Demo.sideK_sched
  (fun e he => by rw [Demo.isFive, beq_iff_eq] at he; subst he; decide +kernel) (by decide +kernel)

end Xecs
