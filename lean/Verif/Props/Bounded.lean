import Verif.Proofs.Bounded
import Verif.Props.Deadlocks
import Verif.Props.Keeping
/-
C74: the work of a call is bounded, and whoever is not held up returns.
-/
set_option autoImplicit false
namespace Xecs
open Spec World Hist
variable {V : Type} {w : World V} {n : Nat} {cfg : Config}

section plain
variable {may : Sys V → Nat → ApiCall V → Prop} {σ σ' : Sys V}

/-- **C74.** In every step exactly one thread moves, so the steps of a schedule can be attributed to threads. -/
theorem C74_moves (h : σ.Step cfg may σ') :
    ∃ (i : Nat), σ'.threads[i]? ≠ σ.threads[i]? ∧ ∀ (j : Nat), j ≠ i → σ'.threads[j]? = σ.threads[j]? :=
  let ⟨i, _, h1, h2⟩ := (Sys.machine cfg may).moves h
  ⟨i, h1, h2⟩

/-- **C74.** Every schedule is a list of turns. -/
theorem C74_turns (h : σ.Sched cfg may σ') : ∃ is, σ.Turns cfg may is σ' := by
  induction h with
  | refl => exact ⟨[], .refl⟩
  | step _ hs ih =>
    obtain ⟨is, ih⟩ := ih
    obtain ⟨i, hi, _⟩ := C74_moves hs
    exact ⟨i :: is, .step ih hs hi⟩

/-- **C74.** From any moment on, whatever the schedule: a thread makes at most as many steps as the calls cost that it has
begun altogether, less those that were over before. -/
theorem C74_thread {is : List Nat} (h0 : (Sys.init w n).Sched cfg may σ) (h : σ.Turns cfg may is σ') (i : Nat) :
    is.count i + ((σ.finished i).map (ApiCall.cost cfg)).sum ≤ ((σ'.begun i).map (ApiCall.cost cfg)).sum := by
  obtain ⟨js, hc⟩ := h0.chain
  have := ((Sys.fair_init w n).chain hc).count h.chain (i := i)
  have e : (Sys.machine cfg may).call σ' i = σ'.running i := rfl
  have e1 : (Sys.machine cfg may).own σ i = σ.finished i := rfl
  have e2 : (Sys.machine cfg may).own σ' i = σ'.finished i := rfl
  have e3 : (Sys.machine cfg may).cost = ApiCall.cost cfg := rfl
  rw [e, e1, e2, e3] at this
  unfold Sys.begun
  cases hr : σ'.running i with
  | none => simpa using this.1 hr
  | some c =>
    have := this.2 c hr
    simp only [Option.toList_some, List.cons_append, List.nil_append, List.map_cons, List.sum_cons]
    omega

/-- **C74.** As long as a thread has not finished any call, it makes fewer steps than the call that it is executing costs,
whatever the others do meanwhile. -/
theorem C74_call {is : List Nat} {i : Nat} {c : ApiCall V} (h0 : (Sys.init w n).Sched cfg may σ)
    (h : σ.Turns cfg may is σ') (hf : σ'.finished i = σ.finished i) (hc : σ'.running i = some c) :
    is.count i < c.cost cfg := by
  obtain ⟨js, hch⟩ := h0.chain
  have := (((Sys.fair_init w n).chain hch).count h.chain (i := i)).2 c hc
  have e1 : (Sys.machine cfg may).own σ' i = (Sys.machine cfg may).own σ i := hf
  have e3 : (Sys.machine cfg may).cost c = c.cost cfg := rfl
  rw [e1, e3] at this
  omega

/-- **C74.** Altogether the threads make at most as many steps as all the calls cost that they have begun. -/
theorem C74_total {is : List Nat} (h : (Sys.init w n).Turns cfg may is σ) :
    is.length ≤ ((List.range n).map fun i => ((σ.begun i).map (ApiCall.cost cfg)).sum).sum := by
  have hlt : ∀ i ∈ is, i < n := by
    have := h.chain.lt.2
    have e : ((Sys.machine cfg may).threads (Sys.init w n)).length = n := List.length_replicate
    rwa [e] at this
  rw [Machine.length_eq_counts hlt]
  exact Machine.sum_le _ _ _ fun i _ => by have := C74_thread .refl h i; omega

end plain

section forever
variable {may : Sys V → Nat → ApiCall V → Prop} {σ : Nat → Sys V}

/-- **C74.** In a schedule without end, a thread that moves again and again returns from calls again and again: nobody is kept
busy for ever by what the others do. -/
theorem C74_thread_returns (h0 : (Sys.init w n).Sched cfg may (σ 0)) (hs : ∀ k, (σ k).Step cfg may (σ (k + 1))) {i : Nat}
    (hi : ∀ k, ∃ k', k ≤ k' ∧ (σ (k' + 1)).threads[i]? ≠ (σ k').threads[i]?) (k : Nat) :
    ∃ k', k ≤ k' ∧ ∃ c r, (σ (k' + 1)).log = (i, c, r) :: (σ k').log := by
  obtain ⟨js, hc⟩ := h0.chain
  exact Machine.returns_again (M := Sys.machine cfg may) ((Sys.fair_init w n).chain hc) hs hi k

/-- **C74.** In a schedule without end calls return again and again: no livelock. -/
theorem C74_returns (h0 : (Sys.init w n).Sched cfg may (σ 0)) (hs : ∀ k, (σ k).Step cfg may (σ (k + 1))) :
    ∃ (i : Nat), ∀ k, ∃ k', k ≤ k' ∧ ∃ c r, (σ (k' + 1)).log = (i, c, r) :: (σ k').log := by
  obtain ⟨i, hi⟩ := Machine.someone (M := Sys.machine cfg may) hs
  exact ⟨i, C74_thread_returns h0 hs hi⟩

end forever

section keeping
variable {may : KSys V → Nat → KCall V → Prop} {τ τ' : KSys V}

/-- **C74**, for clients that keep handles, guards and queries. -/
theorem C74_keeping_moves (h : τ.Step cfg may τ') :
    ∃ (i : Nat), τ'.threads[i]? ≠ τ.threads[i]? ∧ ∀ (j : Nat), j ≠ i → τ'.threads[j]? = τ.threads[j]? :=
  let ⟨i, _, h1, h2⟩ := (KSys.machine cfg may).moves h
  ⟨i, h1, h2⟩

/-- **C74**, for clients that keep things: every schedule is a list of turns. -/
theorem C74_keeping_turns (h : τ.Sched cfg may τ') : ∃ is, τ.Turns cfg may is τ' := by
  induction h with
  | refl => exact ⟨[], .refl⟩
  | step _ hs ih =>
    obtain ⟨is, ih⟩ := ih
    obtain ⟨i, hi, _⟩ := C74_keeping_moves hs
    exact ⟨i :: is, .step ih hs hi⟩

/-- **C74**, for clients that keep things: a thread makes at most as many steps as the calls cost that it has begun
altogether, less those that were over before. -/
theorem C74_keeping_thread {is : List Nat} (h0 : (KSys.init w n).Sched cfg may τ) (h : τ.Turns cfg may is τ') (i : Nat) :
    is.count i + ((τ.finished i).map (KCall.cost cfg)).sum ≤ ((τ'.begun i).map (KCall.cost cfg)).sum := by
  obtain ⟨js, hc⟩ := h0.chain
  have := ((KSys.fair_init w n).chain hc).count h.chain (i := i)
  have e : (KSys.machine cfg may).call τ' i = τ'.running i := rfl
  have e1 : (KSys.machine cfg may).own τ i = τ.finished i := rfl
  have e2 : (KSys.machine cfg may).own τ' i = τ'.finished i := rfl
  have e3 : (KSys.machine cfg may).cost = KCall.cost cfg := rfl
  rw [e, e1, e2, e3] at this
  unfold KSys.begun
  cases hr : τ'.running i with
  | none => simpa using this.1 hr
  | some c =>
    have := this.2 c hr
    simp only [Option.toList_some, List.cons_append, List.nil_append, List.map_cons, List.sum_cons]
    omega

/-- **C74**, for clients that keep things: as long as a thread has not finished any call, it makes fewer steps than the call
that it is executing costs, whatever is kept by whom. -/
theorem C74_keeping_call {is : List Nat} {i : Nat} {c : KCall V} (h0 : (KSys.init w n).Sched cfg may τ)
    (h : τ.Turns cfg may is τ') (hf : τ'.finished i = τ.finished i) (hc : τ'.running i = some c) :
    is.count i < c.cost cfg := by
  obtain ⟨js, hch⟩ := h0.chain
  have := (((KSys.fair_init w n).chain hch).count h.chain (i := i)).2 c hc
  have e1 : (KSys.machine cfg may).own τ' i = (KSys.machine cfg may).own τ i := hf
  have e3 : (KSys.machine cfg may).cost c = c.cost cfg := rfl
  rw [e1, e3] at this
  omega

/-- **C74**, for clients that keep things: in a schedule without end, a thread that moves again and again returns from calls
again and again, and there is such a thread. -/
theorem C74_keeping_returns {τ : Nat → KSys V} (h0 : (KSys.init w n).Sched cfg may (τ 0))
    (hs : ∀ k, (τ k).Step cfg may (τ (k + 1))) :
    (∀ (i : Nat), (∀ k, ∃ k', k ≤ k' ∧ (τ (k' + 1)).threads[i]? ≠ (τ k').threads[i]?) →
      ∀ k, ∃ k', k ≤ k' ∧ ∃ c r, (τ (k' + 1)).log = (i, c, r) :: (τ k').log) ∧
    ∃ (i : Nat), ∀ k, ∃ k', k ≤ k' ∧ (τ (k' + 1)).threads[i]? ≠ (τ k').threads[i]? := by
  obtain ⟨js, hc⟩ := h0.chain
  exact ⟨fun i hi k => Machine.returns_again (M := KSys.machine cfg may) ((KSys.fair_init w n).chain hc) hs hi k,
    Machine.someone (M := KSys.machine cfg may) hs⟩

end keeping

/-! ### Concrete cases -/
namespace Demo

theorem anyoneb_ok (σ : Sys Nat) (i : Nat) (c : ApiCall Nat) (_ : (fun _ _ _ => true : Sys Nat → Nat → ApiCall Nat → Bool) σ i c = true) :
    Sys.anything σ i c := trivial

/-- While thread 0 attaches a component and tells the group, thread 1 asks for an entity and begins to read. -/
def countedChoices : List (Choice Nat) :=
  [.start 0 (.on 1 [.attach 1 7])] ++ goes 0 2 ++ [.start 1 (.exist 2)] ++ goes 1 4 ++ goes 0 12 ++ [.start 1 (.read 1 2)] ++
    goes 1 2

theorem counted_go : ((Sys.init raceW 2).performAll (Config.of raceW [1, 2]) (fun _ _ _ => true) countedChoices).isSome = true := by
  decide +kernel
/-- Thread 0 has two steps to go, thread 1 two. -/
def countedS : Sys Nat :=
  ((Sys.init raceW 2).performAll (Config.of raceW [1, 2]) (fun _ _ _ => true) countedChoices).get counted_go
theorem counted_turns : (Sys.init raceW 2).Turns (Config.of raceW [1, 2]) Sys.anything (countedChoices.map Choice.who).reverse
    countedS := by
  have := performAll_turns anyoneb_ok .refl (Option.some_get counted_go).symm
  rwa [List.append_nil] at this

theorem counted_end_go : (countedS.performAll (Config.of raceW [1, 2]) (fun _ _ _ => true) (goes 0 2)).isSome = true := by
  decide +kernel
/-- Thread 0 has returned. -/
def countedEnd : Sys Nat :=
  (countedS.performAll (Config.of raceW [1, 2]) (fun _ _ _ => true) (goes 0 2)).get counted_end_go
theorem counted_end_turns : (Sys.init raceW 2).Turns (Config.of raceW [1, 2]) Sys.anything
    ([0, 0] ++ (countedChoices.map Choice.who).reverse) countedEnd :=
  performAll_turns anyoneb_ok counted_turns (Option.some_get counted_end_go).symm

end Demo

/-- The call makes 15 of its 17 steps, and the two that remain. -/
example : (Demo.countedChoices.map Choice.who).reverse.count 0 = 15 ∧
    (ApiCall.on 1 [.attach 1 7] : ApiCall Nat).cost (Config.of Demo.raceW [1, 2]) = 17 ∧ 15 < 17 :=
  ⟨by decide +kernel, by decide +kernel, by
    have := C74_call (i := 0) (c := .on 1 [.attach 1 7]) .refl Demo.counted_turns (by decide +kernel) (by decide +kernel)
    have e : (Demo.countedChoices.map Choice.who).reverse.count 0 = 15 := by decide +kernel
    have e' : (ApiCall.on 1 [.attach 1 7] : ApiCall Nat).cost (Config.of Demo.raceW [1, 2]) = 17 := by decide +kernel
    rw [e, e'] at this
    exact this⟩
/-- The bound is met: thread 0 has made 17 steps for its one call. -/
example : ([0, 0] ++ (Demo.countedChoices.map Choice.who).reverse).count 0 = 17 ∧
    ((Demo.countedEnd.begun 0).map (ApiCall.cost (Config.of Demo.raceW [1, 2]))).sum = 17 := by decide +kernel
example := C74_thread .refl Demo.counted_end_turns 0
example := C74_total Demo.counted_end_turns

namespace Demo

/-- Asking for the same entity for ever, one step at a time. -/
def askingT : Nat → Thread Nat
  | 0 => .idle
  | 1 => { call := some (.exist 1), prog := (ApiCall.exist 1).prog (Config.of raceW [1, 2]), held := [], subject := none }
  | 2 => { call := some (.exist 1), prog := .act (.has 1) fun r => .rel .em .ref (.done [r]), held := [(.em, .ref)], subject := none }
  | 3 => { call := some (.exist 1), prog := .rel .em .ref (.done [.bool true]), held := [(.em, .ref)], subject := none }
  | _ => { call := some (.exist 1), prog := .done [.bool true], held := [], subject := none }
/-- The states of that schedule. -/
def asking (k : Nat) : Sys Nat :=
  { world := raceW, threads := [askingT (k % 5)], log := List.replicate (k / 5) (0, .exist 1, some [.bool true]) }

theorem asking_has : (Act.has 1).run raceW = (raceW, .ok (.bool true)) := by
  have h : World.exist 1 raceW = (raceW, .ok true) := by
    have : (World.exist 1 raceW).2 = .ok true := by decide +kernel
    exact congrArg (Prod.mk raceW) this
  simp only [Act.run, M.bind_apply, h]
  rfl

/-- Time `5 * q + r`. -/
theorem asking_at (q r : Nat) (hr : r < 5) : asking (5 * q + r) =
    { world := raceW, threads := [askingT r], log := List.replicate q (0, .exist 1, some [.bool true]) } := by
  have h1 : (5 * q + r) / 5 = q := by omega
  have h2 : (5 * q + r) % 5 = r := by omega
  simp only [asking, h1, h2]

theorem asking_step (k : Nat) : (asking k).Step (Config.of raceW [1, 2]) Sys.anything (asking (k + 1)) := by
  have hk : k = 5 * (k / 5) + k % 5 := (Nat.div_add_mod k 5).symm
  have hlt := Nat.mod_lt k (show 5 > 0 by omega)
  generalize k / 5 = q at hk
  generalize k % 5 = r at hk hlt
  subst hk
  have free : ∀ {l : Lock} {m : Mode} {th : Thread Nat} {lg}, th.held = [] →
      ({ world := raceW, threads := [th], log := lg } : Sys Nat).Free l m := by
    intro l m th lg h th' hth g hg
    rw [List.mem_singleton.1 hth, h] at hg
    cases hg
  rcases (by omega : r = 0 ∨ r = 1 ∨ r = 2 ∨ r = 3 ∨ r = 4) with rfl | rfl | rfl | rfl | rfl
  · rw [asking_at q 0 (by omega), asking_at q 1 (by omega)]
    exact .start (i := 0) (th := askingT 0) rfl rfl trivial
  · rw [asking_at q 1 (by omega), show 5 * q + 1 + 1 = 5 * q + 2 from rfl, asking_at q 2 (by omega)]
    exact .acq (i := 0) (th := askingT 1) (l := .em) (m := .ref) rfl rfl (free rfl)
  · rw [asking_at q 2 (by omega), show 5 * q + 2 + 1 = 5 * q + 3 from rfl, asking_at q 3 (by omega)]
    exact .act (i := 0) (th := askingT 2) (a := .has 1) rfl rfl asking_has
  · rw [asking_at q 3 (by omega), show 5 * q + 3 + 1 = 5 * q + 4 from rfl, asking_at q 4 (by omega)]
    exact .rel (i := 0) (th := askingT 3) (l := .em) (m := .ref) rfl rfl
  · rw [asking_at q 4 (by omega), show 5 * q + 4 + 1 = 5 * (q + 1) + 0 by omega, asking_at (q + 1) 0 (by omega)]
    exact .ret (i := 0) (th := askingT 4) (c := .exist 1) rfl rfl rfl

theorem asking_start : asking 0 = Sys.init raceW 1 := rfl

/-- While two threads use what they keep and a third goes on keeping it: the choices of `kbegin` and `krest`. -/
theorem kcounted_turns : (KSys.init groupW 3).Turns groupCfg (KSys.keeping Sys.attaching)
    ((krest.map KChoice.who).reverse ++ (kbegin.map KChoice.who).reverse) kend := by
  have h1 := kperformAll_turns (keepingb_ok attachingb_ok) .refl (Option.some_get kmid_go).symm
  rw [List.append_nil] at h1
  exact kperformAll_turns (keepingb_ok attachingb_ok) h1 (Option.some_get kend_go).symm

end Demo

/-- A schedule without end, which is as the theorem says. -/
example : ∀ k, ∃ k', k ≤ k' ∧ ∃ c r, (Demo.asking (k' + 1)).log = (0, c, r) :: (Demo.asking k').log :=
  C74_thread_returns (w := Demo.raceW) (n := 1) (Demo.asking_start ▸ .refl) Demo.asking_step (i := 0) fun k => by
    refine ⟨5 * k, by omega, ?_⟩
    rw [Demo.asking_at k 1 (by omega), show 5 * k = 5 * k + 0 from rfl, Demo.asking_at k 0 (by omega)]
    intro e
    have : (Demo.askingT 1).call = (Demo.askingT 0).call := congrArg Thread.call (Option.some.inj e)
    cases this
example := C74_returns (w := Demo.raceW) (n := 1) (Demo.asking_start ▸ .refl) Demo.asking_step

/-- Two calls of thread 0, an opening and an attaching: all their steps, not more, are in its turns. -/
example : ((Demo.krest.map KChoice.who).reverse ++ (Demo.kbegin.map KChoice.who).reverse).count 0 ≤
    ((Demo.kend.begun 0).map (KCall.cost Demo.groupCfg)).sum := by
  have := C74_keeping_thread .refl Demo.kcounted_turns 0
  have e : (KSys.init Demo.groupW 3).finished 0 = [] := rfl
  rw [e] at this
  exact this
example : ((Demo.krest.map KChoice.who).reverse ++ (Demo.kbegin.map KChoice.who).reverse).count 0 = 20 ∧
    ((Demo.kend.begun 0).map (KCall.cost Demo.groupCfg)).sum = 27 := by decide +kernel
end Xecs
