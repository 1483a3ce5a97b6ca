import Verif.Proofs.FineKeeping
import Verif.Props.Keeping
import Verif.Props.Fine
/-
C67 for clients that keep handles, guards and iterators.
-/
set_option autoImplicit false
namespace Xecs
open Spec World Hist
variable {V : Type} {tr : List (Op V × Out V)} {w : World V} {order : List TypeId} {n : Nat}
  {impl : Act V → Stm (World V) (Ret V)} {may : KSys V → Nat → KCall V → Prop} {φ φ' : KFSys V}

/-- **C67**, also for clients that keep handles, guards and iterators across calls: whatever threads do in any
interleaving of statements, they do in an interleaving of whole pieces of work; and all data that no thread is in the
middle of modifying is as it is there. -/
theorem C67_keeping_reduction (ho : Enumerates w order) (hi : Splits (Config.of w order) impl)
    (hs : (KFSys.init w n).Sched (Config.of w order) impl may φ) :
    (KSys.init w n).Sched (Config.of w order) may φ.sys ∧
    ∀ l, φ.Untouched (Config.of w order) l → Sys.SameAt φ.mem φ.sys.world l := by
  obtain ⟨h1, h2⟩ := KFSys.reduced ho hi hs
  exact ⟨h1, h2.same⟩

/-- **C67.** When no thread is in the middle of a piece of work, the world is the one of that interleaving. -/
theorem C67_keeping_at_rest (ho : Enumerates w order) (hi : Splits (Config.of w order) impl)
    (hs : (KFSys.init w n).Sched (Config.of w order) impl may φ) (hr : φ.AtRest) : φ.mem = φ.sys.world := by
  refine sameAt_ext fun l => (C67_keeping_reduction ho hi hs).2 l fun i a h => ?_
  have := h.2
  rw [hr i] at this
  cases this

/-- **C67.** Nothing is lost: every interleaving of pieces of work is an interleaving of statements. -/
theorem C67_keeping_converse (ho : Enumerates w order) (hi : Splits (Config.of w order) impl) {τ : KSys V}
    (hs : (KSys.init w n).Sched (Config.of w order) may τ) :
    ∃ φ, (KFSys.init w n).Sched (Config.of w order) impl may φ ∧ φ.sys = τ ∧ φ.mem = τ.world ∧ φ.AtRest :=
  KFSys.of_sched ho hi hs

/-- **C67.** What a thread in the middle of a piece of work modifies, no other thread in the middle of one touches, and
what it touches no other thread keeps a conflicting guard on. -/
theorem C67_keeping_no_race (ho : Enumerates w order) (hi : Splits (Config.of w order) impl)
    (hs : (KFSys.init w n).Sched (Config.of w order) impl may φ) {i j : Nat} (hij : i ≠ j) {b : Act V} (hb : φ.Working j b) :
    (∀ a, φ.Working i a → ∀ g ∈ a.footprint (Config.of w order), ∀ g' ∈ b.footprint (Config.of w order), ¬ g.clash g') ∧
    (∀ g, φ.sys.KeepsGuard (Config.of w order) i g → ∀ g' ∈ b.footprint (Config.of w order), ¬ g.clash g') := by
  obtain ⟨h1, h2⟩ := C51_no_race ho (C67_keeping_reduction ho hi hs).1 hij hb.1
  exact ⟨fun a ha => h1 a ha.1, h2⟩

/-- **C67.** What a thread keeps a guard on stays as it is, statement by statement, whatever the other threads do; and
unless the thread itself is in the middle of modifying it, it is as in the interleaving of pieces of work. -/
theorem C67_keeping_kept (ho : Enumerates w order) (hi : Splits (Config.of w order) impl)
    (hs : (KFSys.init w n).Sched (Config.of w order) impl may φ) {i : Nat} {g : Guard}
    (hg : φ.sys.KeepsGuard (Config.of w order) i g) :
    (∀ φ', φ.Step (Config.of w order) impl may φ' → φ'.rest i = φ.rest i → Sys.SameAt φ.mem φ'.mem g.1) ∧
    (φ.rest i = none → Sys.SameAt φ.mem φ.sys.world g.1) := by
  obtain ⟨h1, h2⟩ := KFSys.reduced ho hi hs
  refine ⟨fun φ' h hr => ?_, fun hr => h2.same _ fun j b hj hm => ?_⟩
  · have same : ∀ l, Sys.SameAt φ.mem φ.mem l := fun l => by cases l <;> rfl
    cases h with
    | @work j u k hj =>
      obtain ⟨b, b1, b2, -⟩ := h2.rest j _ hj
      have hij : i ≠ j := by
        rintro rfl
        rw [hj] at hr
        have hr : some (k φ.mem) = some (.step u k) := by
          rw [← hr]; simp [KFSys.setRest]
        exact Stm.rest_ne rfl (Option.some.inj hr)
      exact (b2.1 φ.mem (.refl _ _)).2.2.2 g.1 fun hm => (C51_no_race ho h1 hij b1).2 g hg _ hm ⟨rfl, .inr rfl⟩
    | start _ _ _ _ => exact same _
    | acq _ _ _ => exact same _
    | rel _ _ => exact same _
    | «begin» _ _ _ => exact same _
    | done _ _ _ => exact same _
    | fault _ _ _ _ => exact same _
    | panic _ _ _ => exact same _
    | ret _ _ _ => exact same _
  · have hij : i ≠ j := by
      rintro rfl
      have := hj.2
      rw [hr] at this
      cases this
    exact (C51_no_race ho h1 hij hj.1).2 g hg _ hm ⟨rfl, .inr rfl⟩

/-- **C67.** Work can always go on: if, no new calls being started, no thread can do anything, then no thread is in the
middle of a piece of work, and no thread can do anything in the interleaving of pieces of work either. -/
theorem C67_keeping_progress (ho : Enumerates w order) (hi : Splits (Config.of w order) impl)
    (hs : (KFSys.init w n).Sched (Config.of w order) impl may φ)
    (hend : ∀ φ', ¬ φ.Step (Config.of w order) impl (fun _ _ _ => False) φ') :
    φ.AtRest ∧ ∀ τ', ¬ φ.sys.Step (Config.of w order) (fun _ _ _ => False) τ' := by
  obtain ⟨h1, h2⟩ := KFSys.reduced ho hi hs
  have hr : φ.AtRest := by
    intro i
    cases h : φ.rest i with
    | none => rfl
    | some m =>
      obtain ⟨φ', h'⟩ := KFSys.working_goes (impl := impl) (may := fun _ _ _ => False) (KBase.of ho h1) h2 (i := i) (by rw [h]; rfl)
      exact absurd h' (hend φ')
  refine ⟨hr, fun σ' h => ?_⟩
  cases h with
  | start a b c d => exact d
  | acq a b c => exact hend _ (.acq a b c)
  | rel a b => exact hend _ (.rel a b)
  | panic a b c => exact hend _ (.panic a b c)
  | ret a b c => exact hend _ (.ret a b c)
  | act a b c => exact hend _ (.begin a b (hr _))
  | fault a b c d => exact hend _ (.begin a b (hr _))

/-! ### A thread in the middle of attaching through a kept handle

In `kmid` (C51) thread 0 is attaching a component through a handle it keeps, and has to tell the group; thread 1 keeps a read
guard on the storage of type 4 and thread 2 an open query on the types 1 and 2. -/
namespace Demo

theorem kfine_sched : ∃ φ : KFSys Nat, (KFSys.init groupW 3).Sched groupCfg Act.stm (KSys.keeping Sys.attaching) φ ∧
    φ.sys = kmid ∧ φ.Working 1 (.storeRead 4 2) ∧ φ.rest 2 = none := by
  obtain ⟨φ, h1, h2, h3, h4⟩ := C67_keeping_converse (impl := Act.stm) groupEnumerates (C67_code _) kmid_sched
  have ha : kmid.AboutTo 1 (.storeRead 4 2) := by unfold KSys.AboutTo; decide +kernel
  obtain ⟨th, f, a1, a2⟩ := ha.thread
  refine ⟨_, .step h1 (.begin (i := 1) (by rw [h2]; exact a1) a2 (h4 1)), h2, ⟨?_, by simp [KFSys.setRest]⟩,
    by simp [KFSys.setRest, h4 2]⟩
  show φ.sys.AboutTo 1 _
  rw [h2]
  exact ha

end Demo

example : ∃ φ : KFSys Nat, φ.Working 1 (.storeRead 4 2) ∧ φ.sys = Demo.kmid ∧
    Sys.SameAt φ.mem φ.sys.world (.store 1) ∧
    ∀ g, φ.sys.KeepsGuard Demo.groupCfg 0 g → ∀ g' ∈ (Act.storeRead (V := Nat) 4 2).footprint Demo.groupCfg, ¬ g.clash g' := by
  obtain ⟨φ, h1, h2, h3, h4⟩ := Demo.kfine_sched
  refine ⟨φ, h3, h2, (C67_keeping_kept Demo.groupEnumerates (C67_code _) h1 (i := 2) (g := (.store 1, .ref)) ?_).2 h4,
    (C67_keeping_no_race Demo.groupEnumerates (C67_code _) h1 (by decide) h3).2⟩
  rw [h2]
  exact Keeps.guard (k := .view Demo.kquery) (by decide +kernel) (keepsb_ok (by decide +kernel))

/-! At the end of that run (`kend`) all calls have returned and the threads still keep what they opened. -/
example : ∃ φ : KFSys Nat, (KFSys.init Demo.groupW 3).Sched Demo.groupCfg Act.stm (KSys.keeping Sys.attaching) φ ∧
    φ.sys = Demo.kend ∧ φ.mem = Demo.kend.world ∧ ∀ τ', ¬ φ.sys.Step Demo.groupCfg (fun _ _ _ => False) τ' := by
  obtain ⟨φ, h1, h2, h3, h4⟩ := C67_keeping_converse (impl := Act.stm) Demo.groupEnumerates (C67_code _) Demo.kend_sched
  refine ⟨φ, h1, h2, h2 ▸ C67_keeping_at_rest Demo.groupEnumerates (C67_code _) h1 h4,
    (C67_keeping_progress Demo.groupEnumerates (C67_code _) h1 fun φ' hs => ?_).2⟩
  have hb := KBase.of Demo.groupEnumerates (C67_keeping_reduction Demo.groupEnumerates (C67_code _) h1).1
  have key : ∀ {i : Nat} {th : KThread Nat}, φ.sys.threads[i]? = some th → th.prog = .done [] ∧ th.call = none := by
    intro i th hi
    have hc := (h2 ▸ Demo.kend_quiet) th (List.mem_of_getElem? hi)
    exact ⟨hb.idle i th hi hc, hc⟩
  cases hs with
  | start _ _ _ h => exact h
  | acq h h' _ => rw [(key h).1] at h'; cases h'
  | rel h h' => rw [(key h).1] at h'; cases h'
  | «begin» h h' _ => rw [(key h).1] at h'; cases h'
  | work h => rw [h4] at h; cases h
  | done h _ _ => rw [h4] at h; cases h
  | fault h _ _ _ => rw [h4] at h; cases h
  | panic h h' _ => rw [(key h).1] at h'; cases h'
  | ret h _ h' => rw [(key h).2] at h'; cases h'

end Xecs
