import Verif.Proofs.KeepingDrain
import Verif.Props.Deadlocks
import Verif.Props.Keeping
/-
C61: clients that keep handles, guards and queries, and take locks in order.
-/
set_option autoImplicit false
namespace Xecs
open Spec World Hist
variable {V : Type} {w : World V} {n : Nat} {order : List TypeId} {τ : KSys V}

/-- **C61**, for clients that update entities, read, write, and run queries on plain components, and that may keep any
handles, guards and queries across calls: if the component types can be ordered such that each group, each query and (if
entities are removed) the storage map list their types in order, and if a client that keeps something makes only calls
whose locks come later -- entity table, groups, storages in order, resources in order --, then in no schedule do threads
ever wait for one another in a circle. -/
theorem C61_updating {ρ : TypeId → Nat} (ho : Enumerates w order) (hg : ∀ g ∈ w.groups, ρ g.tyA < ρ g.tyB)
    (h : (KSys.init w n).Sched (Config.of w order) (KSys.updating (Config.of w order) ρ) τ) : ¬ ∃ S, τ.Circle S :=
  fun ⟨S, hS⟩ => (kord_sched ho (before_strict _) (kord_updating hg) h).no_circle (before_strict _) S hS

/-- **C61**, for clients that create entities, read, write, and run queries on plain components and on groups, and that
may keep anything across calls: the same, groups not counting in the order. -/
theorem C61_scanning {ρ : TypeId → Nat} (ho : Enumerates w order)
    (h : (KSys.init w n).Sched (Config.of w order) (KSys.scanning (Config.of w order) ρ) τ) : ¬ ∃ S, τ.Circle S :=
  fun ⟨S, hS⟩ => (kord_sched ho (before_strict _) kord_scanning h).no_circle (before_strict _) S hS

/-- **C61.** Whatever clients do: a thread executing a call whose next step is not possible waits for a thread. -/
theorem C61_waits {cfg : Config} {may : KSys V → Nat → KCall V → Prop} {i : Nat} {th : KThread V}
    (hi : τ.threads[i]? = some th) (hc : th.call ≠ none)
    (hno : ¬ ∃ τ', τ.Step cfg may τ' ∧ τ'.threads[i]? ≠ some th) : ∃ j, τ.Waits i j := by
  refine Classical.byContradiction fun hw => hno ?_
  have hlt : i < τ.threads.length := (List.getElem?_eq_some_iff.1 hi).1
  have set : ∀ {ts : List (KThread V)} {t : KThread V}, ts = τ.threads → t ≠ th → (ts.set i t)[i]? ≠ some th := by
    rintro ts t rfl ht
    rw [List.getElem?_set_self hlt]
    exact fun e => ht (Option.some.inj e)
  obtain ⟨c, hc⟩ := Option.ne_none_iff_exists'.1 hc
  have acc := fun (p q : Prog V) (h : p.After q) (e : p = q) => by
    have key : ∀ q : Prog V, Acc Prog.After q → ¬ Prog.After q q := by
      intro q hq
      induction hq with
      | intro q _ ih => exact fun h => ih q h h
    exact key q (Prog.After.acc q) (e ▸ h)
  cases hp : th.prog with
  | done rs => exact ⟨_, .ret hi hp hc, set rfl fun e => by rw [← e] at hc; cases hc⟩
  | panic => exact ⟨_, .panic hi hp hc, set rfl fun e => by rw [← e] at hc; cases hc⟩
  | acq l m p =>
    refine ⟨_, .acq hi hp ?_, set rfl fun e => ?_⟩
    · intro thj hj g hg hcl
      obtain ⟨j, hj'⟩ := List.getElem?_of_mem hj
      exact hw ⟨j, th, thj, l, m, p, hi, hj', by rw [hc]; simp, hp, .inl ⟨g, hg, hcl⟩⟩
    · exact acc p _ (.acq l m p) ((congrArg KThread.prog e).trans hp)
  | rel l m p => exact ⟨_, .rel hi hp, set rfl fun e => acc p _ (.rel l m p) ((congrArg KThread.prog e).trans hp)⟩
  | act a f =>
    rcases hr : a.run τ.world with ⟨w, e | r⟩
    · exact ⟨_, .fault hi hp hr hc, set rfl fun e => by rw [← e] at hc; cases hc⟩
    · exact ⟨_, .act hi hp hr, set rfl fun e =>
        acc (f r) _ (.act r rfl) ((congrArg KThread.prog e).trans hp)⟩

/-- **C61.** For the two kinds of clients: from every reachable state all running calls can be brought to an end and all
that is kept can be dropped. -/
theorem C61_drains {ρ : TypeId → Nat} (ho : Enumerates w order)
    (h : ((∀ g ∈ w.groups, ρ g.tyA < ρ g.tyB) ∧
        (KSys.init w n).Sched (Config.of w order) (KSys.updating (Config.of w order) ρ) τ) ∨
      (KSys.init w n).Sched (Config.of w order) (KSys.scanning (Config.of w order) ρ) τ) :
    ∃ τ', τ.Sched (Config.of w order) KSys.dropping τ' ∧ τ'.AtRest := by
  rcases h with ⟨hg, h⟩ | h
  · exact kdrains (before_strict _) fun τ' h' =>
      kord_sched ho (before_strict _) (kord_updating hg) (h.trans (h'.policy KSys.dropping_updating))
  · exact kdrains (before_strict _) fun τ' h' =>
      kord_sched ho (before_strict _) kord_scanning (h.trans (h'.policy KSys.dropping_scanning))

/-- **C61.** Whatever was done before: a schedule in which clients only drop what they keep ends. -/
theorem C61_finite (cfg : Config) (τ : Nat → KSys V) : ¬ ∀ i, (τ i).Step cfg KSys.dropping (τ (i + 1)) := by
  intro h
  have key : ∀ x : KSys V, Acc (fun τ' τ : KSys V => τ.Step cfg KSys.dropping τ') x → ∀ i, τ i ≠ x := by
    intro x ha
    induction ha with
    | intro x _ ih => rintro i rfl; exact ih _ (h i) (i + 1) rfl
  exact key _ (kstep_acc (τ 0)) 0 rfl

/-- **C61.** Circles are for ever: threads that are held up by the guards of one another (or of themselves) never do
another step, in any schedule, whatever the other threads do. -/
theorem C61_forever {cfg : Config} {may : KSys V → Nat → KCall V → Prop} {S : Nat → Prop} {τ' : KSys V}
    (hS : ∀ i, S i → ∃ j, S j ∧ τ.HeldUp i j) (hs : τ.Sched cfg may τ') {i : Nat} (hi : S i) :
    τ'.threads[i]? = τ.threads[i]? := by
  induction hs generalizing i with
  | refl => rfl
  | step hprev hst ih =>
    rename_i τ1 τ2
    -- whoever makes this step is not one of them
    have key : ∀ {k : Nat} {th : KThread V}, τ1.threads[k]? = some th →
        (th.call = none ∨ (∀ l m p, th.prog ≠ .acq l m p) ∨ ∃ l m p, th.prog = .acq l m p ∧ τ1.Free l m) → ¬ S k := by
      intro k th hk hor hSk
      obtain ⟨j, hj, thi, thj, l, m, p, h1, h2, h3, h4, g, hg, hcl⟩ := hS k hSk
      have h1' := ih hSk; rw [hk, h1] at h1'; cases h1'
      have h2' := ih hj; rw [h2] at h2'
      rcases hor with hor | hor | ⟨l', m', p', hp, hf⟩
      · exact h3 hor
      · exact hor l m p h4
      · rw [h4] at hp; cases hp
        exact hf thj (List.mem_of_getElem? h2') g hg hcl
    have other : ∀ {k : Nat} {th t : KThread V} {ts : List (KThread V)}, ts = τ1.threads → τ1.threads[k]? = some th →
        ¬ S k → (ts.set k t)[i]? = τ.threads[i]? := by
      rintro k th t ts rfl hk hSk
      have hne : k ≠ i := by rintro rfl; exact hSk hi
      rw [List.getElem?_set_ne hne]
      exact ih hi
    cases hst with
    | start h1 h2 h3 h4 => exact other rfl h1 (key h1 (.inl h2))
    | acq h1 h2 h3 => exact other rfl h1 (key h1 (.inr (.inr ⟨_, _, _, h2, h3⟩)))
    | rel h1 h2 => exact other rfl h1 (key h1 (.inr (.inl fun l m p e => by rw [h2] at e; cases e)))
    | act h1 h2 h3 => exact other rfl h1 (key h1 (.inr (.inl fun l m p e => by rw [h2] at e; cases e)))
    | fault h1 h2 h3 h4 => exact other rfl h1 (key h1 (.inr (.inl fun l m p e => by rw [h2] at e; cases e)))
    | panic h1 h2 h3 => exact other rfl h1 (key h1 (.inr (.inl fun l m p e => by rw [h2] at e; cases e)))
    | ret h1 h2 h3 => exact other rfl h1 (key h1 (.inr (.inl fun l m p e => by rw [h2] at e; cases e)))

/-! ### Concrete cases -/
namespace Demo

/-- `KSys.Later` for the types in numerical order, as a Boolean. -/
def laterb (cfg : Config) (rank : Lock → Nat × Nat) (count : Lock → Bool) : KSys Nat → Nat → KCall Nat → Bool := fun τ i c =>
  (c.locks cfg).all fun l => !count l || (match τ.threads[i]? with
    | some th => th.kept.all fun k => (k.guards cfg).all fun g => !count g.1 ||
        decide ((rank g.1).1 < (rank l).1 ∨ ((rank g.1).1 = (rank l).1 ∧ (rank g.1).2 < (rank l).2))
    | none => true)

theorem laterb_ok {cfg : Config} {rank : Lock → Nat × Nat} {count : Lock → Bool} {τ : KSys Nat} {i : Nat} {c : KCall Nat}
    (h : laterb cfg rank count τ i c = true) : ∀ l ∈ c.locks cfg, count l = true → ∀ th, τ.threads[i]? = some th →
      ∀ k ∈ th.kept, ∀ g ∈ k.guards cfg, count g.1 = true → Lock.Before rank g.1 l := by
  intro l hl hcl th hi k hk g hg hcg
  have h1 := List.all_eq_true.1 h l hl
  rw [hcl, Bool.not_true, Bool.false_or, hi] at h1
  have h2 := List.all_eq_true.1 (List.all_eq_true.1 h1 k hk) g hg
  rw [hcg, Bool.not_true, Bool.false_or] at h2
  simp only [decide_eq_true_eq] at h2
  exact h2

/-- The clients of `C61_updating`. -/
def kupdatingb (cfg : Config) : KSys Nat → Nat → KCall Nat → Bool := fun τ i c =>
  KSys.keepingb (updatingb cfg) τ i c && laterb cfg (Lock.groupsFirst byNumber) (fun _ => true) τ i c

theorem kupdatingb_ok (cfg : Config) (τ : KSys Nat) (i : Nat) (c : KCall Nat) (h : kupdatingb cfg τ i c = true) :
    KSys.updating cfg byNumber τ i c := by
  simp only [kupdatingb, Bool.and_eq_true] at h
  exact ⟨keepingb_ok (updatingb_ok cfg) τ i c h.1, fun l hl th hi k hk g hg => laterb_ok h.2 l hl rfl th hi k hk g hg rfl⟩

/-- The clients of `C61_scanning`. -/
def kscanningb (cfg : Config) : KSys Nat → Nat → KCall Nat → Bool := fun τ i c =>
  KSys.keepingb scanningb τ i c && laterb cfg (Lock.storesFirst byNumber) (fun l => !l.isGroup) τ i c

theorem kscanningb_ok (cfg : Config) (τ : KSys Nat) (i : Nat) (c : KCall Nat) (h : kscanningb cfg τ i c = true) :
    KSys.scanning cfg byNumber τ i c := by
  simp only [kscanningb, Bool.and_eq_true] at h
  exact ⟨keepingb_ok scanningb_ok τ i c h.1, fun l hl hn th hi k hk g hg hgn =>
    laterb_ok h.2 l hl (by simp [hn]) th hi k hk g hg (by simp [hgn])⟩

/-- `KSys.Waits`, as a Boolean. -/
def waitsb (τ : KSys Nat) (i j : Nat) : Bool :=
  match τ.threads[i]?, τ.threads[j]? with
  | some thi, some thj =>
    thi.call.isSome && match thi.prog with
      | .acq l m _ => (thj.held.any fun g => decide (Guard.clash (l, m) g)) ||
          (m == .ref && match thj.prog with | .acq l' .mut _ => l' == l | _ => false)
      | _ => false
  | _, _ => false

theorem waitsb_ok {τ : KSys Nat} {i j : Nat} (h : waitsb τ i j = true) : τ.Waits i j := by
  unfold waitsb at h
  split at h
  · rename_i thi thj hi hj
    simp only [Bool.and_eq_true, Option.isSome_iff_ne_none] at h
    obtain ⟨hc, h⟩ := h
    split at h
    · rename_i l m p hp
      refine ⟨thi, thj, l, m, p, hi, hj, hc, hp, ?_⟩
      simp only [Bool.or_eq_true, List.any_eq_true, Bool.and_eq_true, beq_iff_eq, decide_eq_true_eq] at h
      rcases h with h | ⟨h, h'⟩
      · exact .inl h
      · refine .inr ⟨h, ?_⟩
        split at h'
        · rename_i l' p' hp'
          have := eq_of_beq h'; subst this
          exact ⟨p', hp'⟩
        · cases h'
    · cases h
  · cases h

/-- `KSys.HeldUp`, as a Boolean. -/
def heldUpb (τ : KSys Nat) (i j : Nat) : Bool :=
  match τ.threads[i]?, τ.threads[j]? with
  | some thi, some thj =>
    thi.call.isSome && match thi.prog with
      | .acq l m _ => thj.held.any fun g => decide (Guard.clash (l, m) g)
      | _ => false
  | _, _ => false

theorem heldUpb_ok {τ : KSys Nat} {i j : Nat} (h : heldUpb τ i j = true) : τ.HeldUp i j := by
  unfold heldUpb at h
  split at h
  · rename_i thi thj hi hj
    simp only [Bool.and_eq_true, Option.isSome_iff_ne_none] at h
    obtain ⟨hc, h⟩ := h
    split at h
    · rename_i l m p hp
      refine ⟨thi, thj, l, m, p, hi, hj, hc, hp, ?_⟩
      simpa only [List.any_eq_true, decide_eq_true_eq] using h
    · cases h
  · cases h

/-- Storages in numerical order. -/
abbrev tidyCfg : Config := Config.of groupW [1, 2, 3, 4]
theorem tidyEnumerates : Enumerates groupW [1, 2, 3, 4] :=
  enumerates_of (.of_any groupTrace.any) (by decide) fun t => by
    rw [registered_iff, show regTypes groupTr = [4, 3, 2, 1] by decide +kernel]; simp; omega

/-- Thread 0 keeps a handle of entity 1 and attaches through it; thread 1 keeps a read guard on the storage of 1, reads
through it, and looks at the storage of 2; thread 2 keeps a query on 1 and 2. In the end thread 0 wants to attach another
component and waits for thread 2; thread 1 has dropped its guard and removes an entity. -/
def ktidy : List (KChoice Nat) :=
  [.start 0 (.openHandle 1)] ++ kgoes 0 3 ++ [.start 1 (.openStore 1 .ref)] ++ kgoes 1 2 ++
    [.start 2 (.openView kquery)] ++ kgoes 2 4 ++ [.start 0 (.viaHandle 1 [.attach 3 13])] ++ kgoes 0 15 ++
    [.start 1 (.storeGet 1 5)] ++ kgoes 1 2 ++ [.start 1 (.call (.read 2 5))] ++ kgoes 1 4 ++
    [.start 0 (.viaHandle 1 [.attach 1 15]), .start 1 (.drop (.store 1 .ref))] ++ kgoes 1 2 ++
    [.start 1 (.call (.remove 5))] ++ kgoes 1 18

theorem ktidy_go : ((KSys.init groupW 3).performAll tidyCfg (kupdatingb tidyCfg) ktidy).isSome = true := by decide +kernel
/-- The state reached. -/
def ktidyS : KSys Nat := ((KSys.init groupW 3).performAll tidyCfg (kupdatingb tidyCfg) ktidy).get ktidy_go
theorem ktidy_sched : (KSys.init groupW 3).Sched tidyCfg (KSys.updating tidyCfg byNumber) ktidyS :=
  kperformed (kupdatingb_ok tidyCfg) ktidy_go

/-- Threads 0 and 1 keep a query on the same group, thread 0 opens one more, on another group, for writing, and writes
through it; thread 2 keeps a handle and writes through it, waiting for both; thread 1 wants to run the query on the other
group and waits for thread 0. -/
def kscan : List (KChoice Nat) :=
  [.start 0 (.openView (.group .part .ref .ref 1 2))] ++ kgoes 0 9 ++
    [.start 1 (.openView (.group .part .ref .ref 1 2))] ++ kgoes 1 9 ++
    [.start 0 (.openView (.group .non .mut .ref 3 4))] ++ kgoes 0 13 ++ [.start 0 (.storeSet 3 2 5)] ++ kgoes 0 2 ++
    [.start 2 (.openHandle 1)] ++ kgoes 2 3 ++ [.start 2 (.viaHandle 1 [.read 2, .write 1 9])] ++ kgoes 2 3 ++
    [.start 1 (.call (.query (.group .non .ref .ref 3 4)))]

theorem kscan_go : ((KSys.init groupW 3).performAll groupCfg (kscanningb groupCfg) kscan).isSome = true := by decide +kernel
/-- The state reached. -/
def kscanS : KSys Nat := ((KSys.init groupW 3).performAll groupCfg (kscanningb groupCfg) kscan).get kscan_go
theorem kscan_sched : (KSys.init groupW 3).Sched groupCfg (KSys.scanning groupCfg byNumber) kscanS :=
  kperformed (kscanningb_ok groupCfg) kscan_go

/-- Not in order: thread 0 keeps the storage of 1 and wants that of 2, thread 1 the other way round. -/
def kcross : List (KChoice Nat) :=
  [.start 0 (.openStore 1 .mut), .start 1 (.openStore 2 .mut)] ++ kgoes 0 2 ++ kgoes 1 2 ++
    [.start 0 (.openStore 2 .ref), .start 1 (.openStore 1 .ref)]
theorem kcross_go : ((KSys.init groupW 3).performAll groupCfg (KSys.keepingb anyb) kcross).isSome = true := by decide +kernel
/-- The state reached. -/
def kcrossS : KSys Nat := ((KSys.init groupW 3).performAll groupCfg (KSys.keepingb anyb) kcross).get kcross_go
theorem kcross_sched : (KSys.init groupW 3).Sched groupCfg (KSys.keeping Sys.anything) kcrossS :=
  kperformed (keepingb_ok fun _ _ _ _ => trivial) kcross_go

end Demo

example : ¬ ∃ S, Demo.ktidyS.Circle S := C61_updating Demo.tidyEnumerates Demo.orderly_groups Demo.ktidy_sched
/-- Threads do wait in that state, and do keep things. -/
example : Demo.ktidyS.Waits 0 2 ∧ Demo.ktidyS.Keeps 0 (.handle 1) ∧ Demo.ktidyS.Keeps 2 (.view Demo.kquery) :=
  ⟨Demo.waitsb_ok (by decide +kernel), keepsb_ok (by decide +kernel), keepsb_ok (by decide +kernel)⟩
example := C61_drains Demo.tidyEnumerates (.inl ⟨Demo.orderly_groups, Demo.ktidy_sched⟩)
example : ¬ ∃ S, Demo.kscanS.Circle S := C61_scanning Demo.groupEnumerates Demo.kscan_sched
example : Demo.kscanS.Waits 1 0 ∧ Demo.kscanS.Waits 2 0 ∧ Demo.kscanS.Waits 2 1 ∧
    Demo.kscanS.Keeps 0 (.view (.group .non .mut .ref 3 4)) ∧ Demo.kscanS.Keeps 0 (.view (.group .part .ref .ref 1 2)) :=
  ⟨Demo.waitsb_ok (by decide +kernel), Demo.waitsb_ok (by decide +kernel), Demo.waitsb_ok (by decide +kernel),
    keepsb_ok (by decide +kernel), keepsb_ok (by decide +kernel)⟩
example := C61_drains Demo.groupEnumerates (.inr Demo.kscan_sched)

/-- **C61**: the order is needed. Two threads that each keep a storage guard and ask for the other's wait for one another
for ever. -/
theorem C61_disorder : (KSys.init Demo.groupW 3).Sched Demo.groupCfg (KSys.keeping Sys.anything) Demo.kcrossS ∧
    Demo.kcrossS.Circle fun i => i = 0 ∨ i = 1 := by
  refine ⟨Demo.kcross_sched, ⟨0, .inl rfl⟩, ?_⟩
  rintro i (rfl | rfl)
  · exact ⟨1, .inr rfl, Demo.waitsb_ok (by decide +kernel)⟩
  · exact ⟨0, .inl rfl, Demo.waitsb_ok (by decide +kernel)⟩

example {τ' : KSys Nat} (h : Demo.kcrossS.Sched Demo.groupCfg (KSys.keeping Sys.anything) τ') :
    τ'.threads[0]? = Demo.kcrossS.threads[0]? := by
  refine C61_forever (S := fun i => i = 0 ∨ i = 1) ?_ h (.inl rfl)
  rintro i (rfl | rfl)
  · exact ⟨1, .inr rfl, Demo.heldUpb_ok (by decide +kernel)⟩
  · exact ⟨0, .inl rfl, Demo.heldUpb_ok (by decide +kernel)⟩

/-- **C61**: so does a single thread that creates an entity while it keeps a handle. -/
theorem C61_self : (KSys.init Demo.groupW 3).Sched Demo.groupCfg (KSys.keeping Sys.anything) Demo.kstuck ∧
    Demo.kstuck.Circle fun i => i = 0 :=
  ⟨Demo.kstuck_sched, ⟨0, rfl⟩, fun i h => ⟨0, rfl, by rw [h]; exact Demo.waitsb_ok (by decide +kernel)⟩⟩

end Xecs
