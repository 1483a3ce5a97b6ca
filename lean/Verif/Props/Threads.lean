import Verif.Props.Demo
import Verif.Proofs.Handles
import Verif.Proofs.Schedule
import Verif.Proofs.Creating
/-
Properties of a world shared by several threads (C35, C36, ...).
-/
set_option autoImplicit false
namespace Xecs
open Spec World Hist

/-! ### A concrete shared world

Two threads share the world of `Demo`. Thread 0 attaches a component to entity 2 and reads it, thread 1 creates
an entity, attaches two components to it, and runs a query; the steps are interleaved. -/
namespace Demo

/-- The configuration of the world of `Demo`. -/
def cfg : Config := Config.of w [2, 1, 3]

theorem enumerates : Enumerates w [2, 1, 3] :=
  enumerates_of (.of_any trace.any) (by decide) fun t => by
    rw [registered_iff, show regTypes tr = [3, 2, 1] by decide +kernel]; simp; omega

/-- Everything is allowed. -/
def anyb : Sys Nat → Nat → ApiCall Nat → Bool := fun _ _ _ => true

/-- The interleaving. -/
def choices : List (Choice Nat) :=
  [.start 0 (.on 2 [.attach 2 77, .read 1])] ++ goes 0 3 ++ [.start 1 (.on 3 [.attach 1 55])] ++ goes 1 3

theorem choices_go : ((Sys.init w 2).performAll cfg anyb choices).isSome = true := by decide +kernel

/-- The state in the middle of the schedule. -/
def mid : Sys Nat := ((Sys.init w 2).performAll cfg anyb choices).get choices_go

theorem mid_sched : (Sys.init w 2).Sched cfg Sys.anything mid := performed (fun _ _ _ _ => trivial) choices_go

end Demo

variable {V : Type}

/-! ### C35 -/

/-- **C35.** At no moment of any schedule, whatever the threads do, do two guards on one lock coexist of which
one is a write guard. -/
theorem C35_exclusion {w : World V} {n : Nat} {cfg : Config} {may : Sys V → Nat → ApiCall V → Prop} {σ : Sys V}
    (h : (Sys.init w n).Sched cfg may σ) : σ.Exclusive :=
  (h.inv (Excl.init w n) fun _ _ h hs => h.step hs).exclusive

/-- **C35.** All work is done under guards: a thread that is about to do a piece of work holds a guard on
everything the work touches, a write guard where it modifies. -/
theorem C35_guarded {w : World V} {n : Nat} {cfg : Config} {may : Sys V → Nat → ApiCall V → Prop} {σ : Sys V}
    (h : (Sys.init w n).Sched cfg may σ) {i : Nat} {th : Thread V} {a : Act V} {f : Ret V → Prog V}
    (hi : σ.threads[i]? = some th) (ha : th.prog = .act a f) :
    ∀ g ∈ a.footprint cfg, Covers th.held g := by
  have hs : AllSafe cfg σ := h.inv (AllSafe.init cfg w n) fun _ _ h hs => h.step hs
  have := hs i th hi
  rw [ha] at this
  exact this.1

/-- **C35.** There are no data races: if two threads are both about to work, then what one modifies the other
does not touch. -/
theorem C35_no_race {w : World V} {n : Nat} {cfg : Config} {may : Sys V → Nat → ApiCall V → Prop} {σ : Sys V}
    (h : (Sys.init w n).Sched cfg may σ) {i j : Nat} (hij : i ≠ j) {a b : Act V} (ha : σ.AboutTo i a)
    (hb : σ.AboutTo j b) : ∀ g ∈ a.footprint cfg, ∀ g' ∈ b.footprint cfg, ¬ g.clash g' := by
  obtain ⟨thi, fi, hi, pi⟩ := ha.thread
  obtain ⟨thj, fj, hj, pj⟩ := hb.thread
  have hx : Excl σ := h.inv (Excl.init w n) fun _ _ h hs => h.step hs
  intro g hg g' hg' hc
  have key : ∀ (h1 h2 : Guard), h1 ∈ thi.held → h2 ∈ thj.held → h1.1 = h2.1 → (h1.2 = .mut ∨ h2.2 = .mut) → False :=
    fun h1 h2 m1 m2 e o => hx.cross i j thi thj hi hj hij h1 m1 h2 m2 ⟨e, o⟩
  rcases C35_guarded h hi pi g hg with c1 | c1 <;> rcases C35_guarded h hj pj g' hg' with c2 | c2
  · exact key g g' c1 c2 hc.1 hc.2
  · exact key g _ c1 c2 hc.1 (.inr rfl)
  · exact key _ g' c1 c2 hc.1 (.inl rfl)
  · exact key _ _ c1 c2 hc.1 (.inl rfl)

/-- **C35.** The account of what a piece of work touches is right: the work does not modify anything else, and
neither its result nor what it does depends on anything else. (`w` and `w2` are worlds with the same groups,
apart from their contents.) -/
theorem C35_footprint {w w2 : World V} {order : List TypeId} (a : Act V) :
    (∀ l, (l, Mode.mut) ∉ a.footprint (Config.of w order) → Sys.SameAt w (a.run w).1 l) ∧
    (w.groups.map Group.shape = w2.groups.map Group.shape →
      (∀ g ∈ a.footprint (Config.of w order), Sys.SameAt w w2 g.1) →
      (a.run w).2 = (a.run w2).2 ∧
      ∀ g ∈ a.footprint (Config.of w order), Sys.SameAt (a.run w).1 (a.run w2).1 g.1) := by
  constructor
  · intro l hl
    exact (run_frame (cfg := Config.of w order) rfl (r := (a.run w).2) rfl).sameAt hl
  · intro hs hw
    obtain ⟨h1, h2⟩ := run_local (cfg := Config.of w order) (w1 := w) (w2 := w2) rfl ⟨hs, hw⟩
    exact ⟨h1, h2.same⟩

/-- **C35.** Hence treating a piece of work as one step loses nothing: if two threads are both about to work, the
order in which they do it makes no difference to the world or to the results. -/
theorem C35_commute {w : World V} {n : Nat} {order : List TypeId} (ho : Enumerates w order)
    {may : Sys V → Nat → ApiCall V → Prop} {σ : Sys V}
    (h : (Sys.init w n).Sched (Config.of w order) may σ) {i j : Nat} (hij : i ≠ j) {a b : Act V}
    (ha : σ.AboutTo i a) (hb : σ.AboutTo j b) :
    (b.run (a.run σ.world).1).2 = (b.run σ.world).2 ∧ (a.run (b.run σ.world).1).2 = (a.run σ.world).2 ∧
    (b.run (a.run σ.world).1).1 = (a.run (b.run σ.world).1).1 :=
  run_commute ((Basics.init ho n).sched h).mat.groups (C35_no_race h hij ha hb)

/-- **C35.** No guard is leaked: when a call returns, its thread has dropped all guards. -/
theorem C35_released {w : World V} {n : Nat} {cfg : Config} {may : Sys V → Nat → ApiCall V → Prop} {σ : Sys V}
    (h : (Sys.init w n).Sched cfg may σ) {i : Nat} {th : Thread V} {rs : List (Ret V)}
    (hi : σ.threads[i]? = some th) (hd : th.prog = .done rs) : th.held = [] := by
  have hs : AllSafe cfg σ := h.inv (AllSafe.init cfg w n) fun _ _ h hs => h.step hs
  have := hs i th hi
  rw [hd] at this
  exact this

example : Demo.mid.AboutTo 0 (.attachStore 2 2 77) ∧ Demo.mid.AboutTo 1 (.attachStore 1 3 55) := by
  constructor <;> (unfold Sys.AboutTo; decide +kernel)
example := C35_exclusion Demo.mid_sched
example := C35_commute Demo.enumerates Demo.mid_sched (i := 0) (j := 1) (by decide)
  (a := .attachStore 2 2 77) (b := .attachStore 1 3 55) (by unfold Sys.AboutTo; decide +kernel)
  (by unfold Sys.AboutTo; decide +kernel)

/-! ### C36 -/

/-- **C36.** As long as some thread holds an `Entity` or `Entities` handle, no removal and no allocation of an
entity takes effect, in any schedule: the entity table, and so every answer of `exist`, stays the same. -/
theorem C36_handle_protects {w : World V} {n : Nat} {order : List TypeId} (ho : Enumerates w order)
    {may : Sys V → Nat → ApiCall V → Prop} {σ σ' : Sys V}
    (h : (Sys.init w n).Sched (Config.of w order) may σ) {i : Nat}
    (h' : σ.SchedWhile (Config.of w order) may (Sys.HoldsHandle i) σ') :
    σ'.world.em = σ.world.em ∧ ∀ id, (World.exist id σ'.world).2 = (World.exist id σ.world).2 := by
  have hb := (Basics.init ho n).sched h
  have key : Basics (Config.of w order) σ' ∧ σ'.HoldsHandle i ∧ σ'.world.em = σ.world.em := by
    induction h' with
    | refl hp => exact ⟨hb, hp, rfl⟩
    | step _ hs hp ih =>
      obtain ⟨h1, h2, h3⟩ := ih
      exact ⟨h1.step hs, hp, (h1.em_step hs h2).trans h3⟩
  refine ⟨key.2.2, fun id => ?_⟩
  simp only [World.exist, M.read, key.2.2]

/-- **C36.** Whenever a thread is about to attach or detach a component through a handle (to a storage or to a
group), in any schedule and whatever the other threads do, `exist` holds of the entity at that moment. -/
theorem C36_attach_alive {w : World V} {n : Nat} {order : List TypeId} (ho : Enumerates w order)
    {may : Sys V → Nat → ApiCall V → Prop} {σ : Sys V}
    (h : (Sys.init w n).Sched (Config.of w order) may σ) {i : Nat} {a : Act V} (ha : σ.AboutTo i a)
    {id : EntityId} (hid : a.through = some id) : World.exist id σ.world = (σ.world, .ok true) := by
  have key : Basics (Config.of w order) σ ∧ Informed σ :=
    h.inv (P := fun σ => Basics (Config.of w order) σ ∧ Informed σ) ⟨Basics.init ho n, Informed.init w n⟩ fun _ _ h hs => ⟨h.1.step hs, Informed.step h.1 h.2 hs⟩
  obtain ⟨th, f, hi, hp⟩ := ha.thread
  obtain ⟨K, k1, k2, k3⟩ := key.2 i th hi
  rw [hp] at k1
  have := k3 id (k1.1 id hid)
  simp [World.exist, M.read, this]


/-- In the state `Demo.mid` thread 1 holds a handle, and keeps it while thread 0 attaches a component and thread 1
goes on until it waits. -/
theorem Demo.while_handle : ∃ σ', Demo.mid.performAll Demo.cfg Demo.anyb (goes 0 6 ++ goes 1 2) = some σ' ∧
    Demo.mid.SchedWhile Demo.cfg Sys.anything (Sys.HoldsHandle 1) σ' := by
  obtain ⟨σ', h1, h2⟩ := performAll_while (may := Sys.anything) (fun _ _ _ _ => trivial)
    (P := fun σ => (σ.threads[1]?.map fun th => th.held.contains (Lock.em, Mode.ref)) == some true)
    (show Demo.mid.allAlong Demo.cfg Demo.anyb _ (goes 0 6 ++ goes 1 2) = true by decide +kernel)
  refine ⟨σ', h1, h2.mono fun σ hσ => ?_⟩
  simp only [beq_iff_eq, Option.map_eq_some_iff, List.contains_iff_mem] at hσ
  exact hσ

example : ∃ σ', Demo.mid.performAll Demo.cfg Demo.anyb (goes 0 6 ++ goes 1 2) = some σ' ∧
    ∀ id, (World.exist id σ'.world).2 = (World.exist id Demo.mid.world).2 := by
  obtain ⟨σ', h1, h2⟩ := Demo.while_handle
  exact ⟨σ', h1, (C36_handle_protects Demo.enumerates Demo.mid_sched h2).2⟩
example : World.exist 2 Demo.mid.world = (Demo.mid.world, .ok true) :=
  C36_attach_alive Demo.enumerates Demo.mid_sched (i := 0) (a := .attachStore 2 2 77)
    (by unfold Sys.AboutTo; decide +kernel) rfl

/-! ### C37 -/

/-- **C37.** The world has any history (`Wild`: also with calls that panicked or were given dead ids), provided
only entities alive were removed. Then any number of threads share it and do anything but remove entities. In
every schedule, the ids handed out by the finished `create_entity` and `create_entities` calls are distinct from
one another and from those alive when the sharing began, and all of them are still alive. -/
theorem C37_distinct {tr : List (Op V × Out V)} {w : World V} (h : Wild tr w) (hr : RemovesLive tr) {n : Nat}
    {order : List TypeId} (ho : Enumerates w order) {σ : Sys V}
    (hs : (Sys.init w n).Sched (Config.of w order) Sys.noRemoval σ) :
    σ.issued.Nodup ∧
    ∀ id ∈ σ.issued, alive id tr = false ∧ World.exist id σ.world = (σ.world, .ok true) := by
  have hem := wild_em h hr
  obtain ⟨pend, hp⟩ := fresh_sched hem.inv ho hs
  obtain ⟨free, hinv⟩ := hp.inv
  refine ⟨hp.issuedNodup, fun id hid => ?_⟩
  obtain ⟨h1, h2⟩ := hp.issuedNew id hid
  have := hinv.mem_entities.1 h1
  refine ⟨?_, by simp [World.exist, M.read, EntityManager.has_live hinv this.1 this.2.1 this.2.2]⟩
  rw [← hem.alive] at h2
  simpa using h2

/-- **C37.** Under the same conditions no `create_entity` and no `create_entities` panics: a finished call has
returned an id, or as many ids as asked for. -/
theorem C37_succeeds {tr : List (Op V × Out V)} {w : World V} (h : Wild tr w) (hr : RemovesLive tr) {n : Nat}
    {order : List TypeId} (ho : Enumerates w order) {σ : Sys V}
    (hs : (Sys.init w n).Sched (Config.of w order) Sys.noRemoval σ) {i : Nat} {r : Option (List (Ret V))} :
    ((i, ApiCall.create [], r) ∈ σ.log → ∃ id, r = some [.id id]) ∧
    (∀ m, (i, ApiCall.createMany m [], r) ∈ σ.log → ∃ a, r = some [.range a (a + m)]) := by
  obtain ⟨pend, hp⟩ := fresh_sched (wild_em h hr).inv ho hs
  constructor
  · intro hm
    obtain ⟨y, hy, id, rfl⟩ := (hp.log _ hm rfl).2 rfl
    exact ⟨id, hy⟩
  · intro m hm
    obtain ⟨y, hy, a, rfl⟩ := (hp.log _ hm rfl).2 rfl
    exact ⟨a, hy⟩

namespace Demo

/-- No removals, as a Boolean. -/
def noRemovalb : Sys Nat → Nat → ApiCall Nat → Bool := fun _ _ c => match c with | .remove _ => false | _ => true

/-- Three threads create entities. -/
def creating : List (Choice Nat) :=
  [.start 0 (.create [])] ++ goes 0 3 ++ [.start 1 (.create [.attach 1 5]), .start 2 (.createMany 3 [])] ++
    goes 1 3 ++ goes 2 3 ++ goes 0 4 ++ goes 2 3 ++ goes 1 25

theorem creating_go : ((Sys.init w 3).performAll cfg noRemovalb creating).isSome = true := by decide +kernel

/-- The state reached. -/
def created : Sys Nat := ((Sys.init w 3).performAll cfg noRemovalb creating).get creating_go

theorem created_sched : (Sys.init w 3).Sched cfg Sys.noRemoval created :=
  performed (fun _ _ c h id hc => by subst hc; simp [noRemovalb] at h) creating_go

end Demo

example := C37_distinct (.of_any Demo.trace.any) (show RemovesLive Demo.tr by decide +kernel) Demo.enumerates Demo.created_sched
example : Demo.created.issued = [6, 7, 8, 9, 5] := by decide +kernel
example := C37_succeeds (.of_any Demo.trace.any) (show RemovesLive Demo.tr by decide +kernel) Demo.enumerates
  Demo.created_sched (i := 0) (r := some [.id 5])
example : (Demo.created.log.map fun x => (x.1, match x.2.1 with | .create [] => true | _ => false)).contains (0, true) :=
  by decide +kernel

end Xecs
