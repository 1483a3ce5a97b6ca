import Verif.Proofs.FineBack
import Verif.Props.Linear
import Verif.Props.Sharing
import Verif.Props.Threads
/-
C67: threads may be interleaved between any two statements.
-/
set_option autoImplicit false
namespace Xecs
open Spec World Hist
variable {V : Type} {tr : List (Op V × Out V)} {w : World V} {order : List TypeId} {n : Nat}
  {impl : Act V → Stm (World V) (Ret V)} {may : Sys V → Nat → ApiCall V → Prop} {φ φ' : FSys V}

theorem FSys.reduced (ho : Enumerates w order) (hi : Splits (Config.of w order) impl)
    (hs : (FSys.init w n).Sched (Config.of w order) impl may φ) :
    (Sys.init w n).Sched (Config.of w order) may φ.sys ∧ FSys.Keyed (Config.of w order) φ :=
  FSys.reduction (φ := FSys.init w n) hi (Basics.init ho n) (.init rfl n) hs

/-- **C67.** The statements of the code do what the pieces of work do, and each of them touches only what the footprint
of the piece of work mentions. -/
theorem C67_code (cfg : Config) : Splits cfg (Act.stm (V := V)) := code_splits cfg

/-- **C67.** Interleaving single statements is no more than interleaving pieces of work: whatever threads do in any
interleaving of statements -- what calls they start, what locks they take, what the calls return and in what order -- they
do in an interleaving of whole pieces of work; and all data that no thread is in the middle of modifying is as it is
there. (For every way to divide the pieces of work into statements that respect the footprints, in particular the code's.) -/
theorem C67_reduction (ho : Enumerates w order) (hi : Splits (Config.of w order) impl)
    (hs : (FSys.init w n).Sched (Config.of w order) impl may φ) :
    (Sys.init w n).Sched (Config.of w order) may φ.sys ∧
    ∀ l, φ.Untouched (Config.of w order) l → Sys.SameAt φ.mem φ.sys.world l := by
  obtain ⟨h1, h2⟩ := FSys.reduced ho hi hs
  exact ⟨h1, h2.same⟩

/-- **C67.** When no thread is in the middle of a piece of work, the world is the one of that interleaving. -/
theorem C67_at_rest (ho : Enumerates w order) (hi : Splits (Config.of w order) impl)
    (hs : (FSys.init w n).Sched (Config.of w order) impl may φ) (hr : φ.AtRest) : φ.mem = φ.sys.world := by
  refine sameAt_ext fun l => (C67_reduction ho hi hs).2 l fun i a h => ?_
  have := h.2
  rw [hr i] at this
  cases this

/-- **C67.** Nothing is lost: every interleaving of pieces of work is an interleaving of statements. -/
theorem C67_converse (ho : Enumerates w order) (hi : Splits (Config.of w order) impl) {σ : Sys V}
    (hs : (Sys.init w n).Sched (Config.of w order) may σ) :
    ∃ φ, (FSys.init w n).Sched (Config.of w order) impl may φ ∧ φ.sys = σ ∧ φ.mem = σ.world ∧ φ.AtRest :=
  FSys.of_sched hi (Basics.init ho n) hs (φ := FSys.init w n) rfl rfl fun _ => rfl

/-- **C67.** There are no data races between statements: what a thread in the middle of a piece of work modifies, no other
thread in the middle of one touches. -/
theorem C67_no_race (ho : Enumerates w order) (hi : Splits (Config.of w order) impl)
    (hs : (FSys.init w n).Sched (Config.of w order) impl may φ) {i j : Nat} (hij : i ≠ j) {a b : Act V}
    (ha : φ.Working i a) (hb : φ.Working j b) :
    ∀ g ∈ a.footprint (Config.of w order), ∀ g' ∈ b.footprint (Config.of w order), ¬ g.clash g' :=
  C35_no_race (C67_reduction ho hi hs).1 hij ha.1 hb.1

/-- **C67.** Work is not disturbed: as long as a thread that is in the middle of a piece of work does not itself go on with
it, everything the work touches stays as it is, whatever the other threads do. -/
theorem C67_private (ho : Enumerates w order) (hi : Splits (Config.of w order) impl)
    (hs : (FSys.init w n).Sched (Config.of w order) impl may φ) (h : φ.Step (Config.of w order) impl may φ') {i : Nat} {a : Act V}
    (ha : φ.Working i a) (hr : φ'.rest i = φ.rest i) : ∀ g ∈ a.footprint (Config.of w order), Sys.SameAt φ.mem φ'.mem g.1 := by
  obtain ⟨h1, h2⟩ := FSys.reduced ho hi hs
  have hb := (Basics.init ho n).sched h1
  have same : ∀ l, Sys.SameAt φ.mem φ.mem l := fun l => by cases l <;> rfl
  cases h with
  | @work j u k hj =>
    obtain ⟨b, b1, b2, -⟩ := h2.rest j _ hj
    have hij : i ≠ j := by
      rintro rfl
      rw [hj] at hr
      have hr : some (k φ.mem) = some (.step u k) := by
        rw [← hr]; simp [FSys.setRest]
      exact Stm.rest_ne rfl (Option.some.inj hr)
    intro g hg
    exact (b2.1 φ.mem (.refl _ _)).2.2.2 g.1 fun hm => FSys.no_clash hb hij ha.1 b1 g hg _ hm ⟨rfl, .inr rfl⟩
  | start _ _ _ => exact fun g _ => same _
  | acq _ _ _ => exact fun g _ => same _
  | rel _ _ => exact fun g _ => same _
  | «begin» _ _ _ => exact fun g _ => same _
  | done _ _ _ => exact fun g _ => same _
  | fault _ _ _ _ => exact fun g _ => same _
  | panic _ _ _ => exact fun g _ => same _
  | ret _ _ _ => exact fun g _ => same _

/-- **C67.** Work can always go on: if, no new calls being started, no thread can do anything, then no thread is in the
middle of a piece of work, and no thread can do anything in the interleaving of pieces of work either. So there are no
other deadlocks. -/
theorem C67_progress (ho : Enumerates w order) (hi : Splits (Config.of w order) impl)
    (hs : (FSys.init w n).Sched (Config.of w order) impl may φ) (hend : ∀ φ', ¬ φ.Step (Config.of w order) impl Sys.nothing φ') :
    φ.AtRest ∧ ∀ σ', ¬ φ.sys.Step (Config.of w order) Sys.nothing σ' := by
  obtain ⟨h1, h2⟩ := FSys.reduced ho hi hs
  have hb := (Basics.init ho n).sched h1
  have hr : φ.AtRest := by
    intro i
    cases h : φ.rest i with
    | none => rfl
    | some m =>
      obtain ⟨φ', h'⟩ := FSys.working_goes (impl := impl) (may := Sys.nothing) hb h2 (i := i) (by rw [h]; rfl)
      exact absurd h' (hend φ')
  refine ⟨hr, fun σ' h => ?_⟩
  cases h with
  | start a b c => exact hend _ (.start a b c)
  | acq a b c => exact hend _ (.acq a b c)
  | rel a b => exact hend _ (.rel a b)
  | panic a b c => exact hend _ (.panic a b c)
  | ret a b c => exact hend _ (.ret a b c)
  | act a b c => exact hend _ (.begin a b (hr _))
  | fault a b c d => exact hend _ (.begin a b (hr _))

/-- **C67**, what this means for C38: when all calls have returned, every query yields exactly the entities that match it,
however the statements of the calls were interleaved. -/
theorem C67_queries (ht : Mixed tr w) (ho : Enumerates w order)
    (hs : (FSys.init w n).Sched (Config.of w order) Act.stm Sys.attaching φ) (hq : φ.sys.Quiet) {q : Query} (he : Exists tr q)
    (hu : Unmoved tr q) (hb : Unbatched tr q) (hc : q.Conflictless) :
    ∃ l, Yields φ.mem q l ∧ Lists l (q.answer φ.mem.value) := by
  obtain ⟨h1, h2⟩ := FSys.reduced ho (C67_code _) hs
  have hba := (Basics.init ho n).sched h1
  have hr : φ.AtRest := by
    intro i
    cases h : φ.rest i with
    | none => rfl
    | some m =>
      obtain ⟨a, ha, -⟩ := h2.rest i m h
      obtain ⟨th, f, e1, e2⟩ := ha.thread
      have hm := List.mem_of_getElem? e1
      rw [hba.idle th hm (hq th hm)] at e2
      cases e2
  rw [C67_at_rest ho (C67_code _) hs hr]
  exact C38_complete ht ho h1 hq he hu hb hc

/-- **C67**, what this means for C49: however the statements of the calls of considerate clients are interleaved, the calls
that have returned so far have a history in which each of their effects happens at once (see C49), and when no thread is in
the middle of a piece of work that history ends in the world as it is. -/
theorem C67_atomic (ht : Mixed tr w) (ho : Enumerates w order)
    (hs : (FSys.init w n).Sched (Config.of w order) Act.stm (Sys.considerate (Config.of w order)) φ) :
    ∃ h ph w', returns h = φ.sys.log ∧ Atomic True w.shared h ph w'.shared ∧ (∀ i, (ph i).call = φ.sys.running i) ∧
      (∀ l, φ.Untouched (Config.of w order) l → Sys.SameAt φ.mem w' l) ∧ (φ.AtRest → φ.mem = w') := by
  obtain ⟨h1, h2⟩ := C67_reduction ho (C67_code _) hs
  have hsw : (Sys.init w n).SchedWhile (Config.of w order) (Sys.considerate (Config.of w order)) (fun _ => True) φ.sys := by
    clear h2
    generalize φ.sys = σ at h1
    induction h1 with
    | refl => exact .refl trivial
    | step _ hs ih => exact .step ih hs trivial
  obtain ⟨h, e1, e2⟩ := C48_history hsw
  obtain ⟨ph, e3, e4⟩ := C49_atomic ht ho e1
  exact ⟨h, ph, _, e2, e3, e4, h2, C67_at_rest ho (C67_code _) hs⟩

/-! ### Two threads in the middle of their work -/

namespace FSys

/-- The next statement of thread `i`. -/
def advance (i : Nat) (φ : FSys V) : FSys V :=
  match φ.rest i with
  | some (.step u k) => { φ.setRest i (some (k φ.mem)) with mem := u φ.mem }
  | _ => φ

theorem Sched.advance {cfg : Config} {φ0 : FSys V} (h : φ0.Sched cfg impl may φ) (i : Nat) : φ0.Sched cfg impl may (φ.advance i) := by
  unfold FSys.advance
  split
  · next hr => exact .step h (.work hr)
  · exact h

end FSys

namespace Demo

/-- In the state `mid` (C35) the threads 0 and 1 begin to attach a component each. -/
def fine0 : FSys Nat :=
  { sys := mid, mem := mid.world
    rest := fun j => if j = 1 then some (Act.stm (.attachStore 1 3 55)) else
      if j = 0 then some (Act.stm (.attachStore 2 2 77)) else none }

/-- Some of their statements, by turns. -/
def fine1 : FSys Nat := [0, 1, 0, 0, 1, 1, 0, 0, 1].foldl (fun φ i => φ.advance i) fine0

theorem fine0_sched : (FSys.init Demo.w 2).Sched cfg Act.stm Sys.anything fine0 := by
  obtain ⟨φ, h1, h2, h3, h4⟩ := C67_converse (impl := Act.stm) enumerates (C67_code _) mid_sched
  obtain ⟨th0, f0, a1, a2⟩ := Sys.AboutTo.thread (σ := mid) (i := 0) (a := .attachStore 2 2 77) (by unfold Sys.AboutTo; decide +kernel)
  obtain ⟨th1, f1, b1, b2⟩ := Sys.AboutTo.thread (σ := mid) (i := 1) (a := .attachStore 1 3 55) (by unfold Sys.AboutTo; decide +kernel)
  have := FSys.Sched.step (FSys.Sched.step h1 (.begin (i := 0) (by rw [h2]; exact a1) a2 (h4 0)))
    (.begin (i := 1) (th := th1) (by show φ.sys.threads[1]? = _; rw [h2]; exact b1) b2 (by simp [FSys.setRest, h4 1]))
  obtain ⟨sys, mem, rest⟩ := φ
  obtain rfl := h2
  obtain rfl := h3
  have hrest : rest = fun _ => none := funext h4
  subst hrest
  exact this

theorem fine1_sched : (FSys.init Demo.w 2).Sched cfg Act.stm Sys.anything fine1 := by
  unfold fine1
  exact ((((((((fine0_sched.advance 0).advance 1).advance 0).advance 0).advance 1).advance 1).advance 0).advance 0).advance 1

/-- Both are in the middle of their work: thread 0 has replaced the component already, and the storage thread 1 works on is
inconsistent for the moment, it has an index for entity 3 but not the entity. -/
example : fine1.Working 0 (.attachStore 2 2 77) ∧ fine1.Working 1 (.attachStore 1 3 55) := by
  refine ⟨⟨?_, by decide +kernel⟩, ⟨?_, by decide +kernel⟩⟩ <;> (unfold Sys.AboutTo; decide +kernel)
example : ((fine1.mem.comps 2).map fun st => (st.set.entities, st.set.data)) = some ([2, 1, 3], [77, 20, 31]) ∧
    ((fine1.sys.world.comps 2).map fun st => (st.set.entities, st.set.data)) = some ([2, 1, 3], [21, 20, 31]) ∧
    ((fine1.mem.comps 1).map fun st => (st.set.indices, st.set.entities, st.set.data)) =
      some ([none, none, some 1, some 2], [2], [11]) := by decide +kernel

end Demo

example := C67_reduction Demo.enumerates (C67_code _) Demo.fine1_sched
example := C67_no_race Demo.enumerates (C67_code _) Demo.fine1_sched (i := 0) (j := 1) (by decide)
  (a := .attachStore 2 2 77) (b := .attachStore 1 3 55)
  ⟨by unfold Sys.AboutTo; decide +kernel, by decide +kernel⟩ ⟨by unfold Sys.AboutTo; decide +kernel, by decide +kernel⟩

/-- While thread 1 goes on with its work, what thread 0 works on stays as it is. -/
example : (Demo.fine1.advance 1).mem.comps 2 = Demo.fine1.mem.comps 2 := by
  have hk : ∃ u k, Demo.fine1.rest 1 = some (.step u k) := by
    have h : ((Demo.fine1.rest 1).map fun m => match m with | .step _ _ => true | .ret _ => false) = some true := by decide +kernel
    cases hr : Demo.fine1.rest 1 with
    | none => rw [hr] at h; cases h
    | some m =>
      cases m with
      | ret r => rw [hr] at h; cases h
      | step u k => exact ⟨u, k, rfl⟩
  obtain ⟨u, k, hr⟩ := hk
  have hs : Demo.fine1.Step Demo.cfg Act.stm Sys.anything (Demo.fine1.advance 1) := by
    unfold FSys.advance
    simp only [hr]
    exact .work hr
  have := C67_private Demo.enumerates (C67_code _) Demo.fine1_sched hs (i := 0) (a := .attachStore 2 2 77)
    ⟨by unfold Sys.AboutTo; decide +kernel, by decide +kernel⟩ (by unfold FSys.advance; simp only [hr]; rfl)
  exact (this (.store 2, .mut) (by decide +kernel)).symm

/-- The schedule of C38, statement by statement. -/
example : ∃ φ l, (FSys.init Demo.groupW 3).Sched Demo.groupCfg Act.stm Sys.attaching φ ∧ φ.sys = Demo.attachEnd ∧
    Yields φ.mem (.group .non .ref .ref 3 4) l ∧ (1, .pair (.leaf 13) (.leaf 14)) ∈ l := by
  obtain ⟨φ, h1, h2, h3, h4⟩ := C67_converse (impl := Act.stm) Demo.groupEnumerates (C67_code _) Demo.attachEnd_sched
  obtain ⟨l, e1, e2⟩ := C67_queries (.of_trace Demo.groupTrace) Demo.groupEnumerates h1 (h2 ▸ Demo.attachEnd_quiet)
    (q := .group .non .ref .ref 3 4) (by decide +kernel) (by decide +kernel) (by decide +kernel) (by decide +kernel)
  exact ⟨φ, l, h1, h2, e1, (e2.2 1 _).2 (by rw [h3]; decide +kernel)⟩

/-- The schedule of C49, statement by statement. -/
example : ∃ φ h ph, (FSys.init Demo.groupW 4).Sched Demo.groupCfg Act.stm (Sys.considerate Demo.groupCfg) φ ∧
    returns h = Demo.kindEnd.log ∧ Atomic True Demo.groupW.shared h ph φ.mem.shared := by
  obtain ⟨φ, h1, h2, h3, h4⟩ := C67_converse (impl := Act.stm) Demo.groupEnumerates (C67_code _) Demo.kindEnd_sched
  obtain ⟨h, ph, w', e1, e2, _, _, e5⟩ := C67_atomic (.of_trace Demo.groupTrace) Demo.groupEnumerates h1
  exact ⟨φ, h, ph, h1, by rw [e1, h2], by rw [e5 h4]; exact e2⟩

/-- In the schedule of C38 everything has come to an end. -/
example : ∃ φ, (FSys.init Demo.groupW 3).Sched Demo.groupCfg Act.stm Sys.attaching φ ∧ φ.sys = Demo.attachEnd ∧
    ∀ σ', ¬ φ.sys.Step Demo.groupCfg Sys.nothing σ' := by
  obtain ⟨φ, h1, h2, h3, h4⟩ := C67_converse (impl := Act.stm) Demo.groupEnumerates (C67_code _) Demo.attachEnd_sched
  refine ⟨φ, h1, h2, (C67_progress Demo.groupEnumerates (C67_code _) h1 fun φ' hs => ?_).2⟩
  have hb := (Basics.init Demo.groupEnumerates 3).sched (C67_reduction Demo.groupEnumerates (C67_code _) h1).1
  have key : ∀ {i : Nat} {th : Thread Nat}, φ.sys.threads[i]? = some th → th.prog = .done [] ∧ th.call = none := by
    intro i th hi
    have hm := List.mem_of_getElem? hi
    have hc := (h2 ▸ Demo.attachEnd_quiet) th hm
    exact ⟨by rw [hb.idle th hm hc]; rfl, hc⟩
  cases hs with
  | start _ _ h => exact h
  | acq h h' _ => rw [(key h).1] at h'; cases h'
  | rel h h' => rw [(key h).1] at h'; cases h'
  | «begin» h h' _ => rw [(key h).1] at h'; cases h'
  | work h => rw [h4] at h; cases h
  | done h _ _ => rw [h4] at h; cases h
  | fault h _ _ _ => rw [h4] at h; cases h
  | panic h h' _ => rw [(key h).1] at h'; cases h'
  | ret h _ h' => rw [(key h).2] at h'; cases h'

end Xecs
