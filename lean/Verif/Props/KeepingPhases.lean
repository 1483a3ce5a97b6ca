import Verif.Props.Keeping
import Verif.Props.Returns
import Verif.Props.Conserve
/-
C54, C57, C58 and C59 for clients that keep handles, guards and open queries across calls.
-/
set_option autoImplicit false
namespace Xecs
open Spec World Hist
variable {V : Type} {tr : List (Op V × Out V)} {w : World V} {order : List TypeId} {n : Nat} {τ : KSys V}

theorem blind_careful {cfg : Config} : Sys.Blind (Sys.careful (V := V) cfg) := by
  intro σ σ' i c hw hm h
  refine ⟨blind_considerate σ σ' i c hw hm h.1, ?_, ?_, h.2.2.2⟩
  · have := h.2.1
    unfold Sys.Secure at this ⊢
    rw [← hw]; exact this
  · rw [← hw]; exact h.2.2.1

/-- **C54** for clients that keep things: when all calls are over -- whatever is still kept --, the changes can be listed in
one order, in which each thread's changes are what its calls have done according to their results, in the order of the
calls; and the world is one that a single owner could have got to by these changes (in the sense of C54_sequential,
C54_state and C54_queries). -/
theorem C54_keeping (h : Mixed tr w) (ho : Enumerates w order)
    (hs : (KSys.init w n).Sched (Config.of w order) (KSys.keeping (Sys.considerate (Config.of w order))) τ) (hq : τ.Quiet) :
    ∃ l : List (Nat × Op V × Out V), (∀ i, Told order (ofThread i τ.answers) (ofThread i l)) ∧
      Mixed (l.map Prod.snd ++ tr) τ.world := by
  obtain ⟨σ, h1, h2, _⟩ := sim_sched blind_considerate ho hs
  obtain ⟨l, _, g2, g3⟩ := C54_account h ho h1 (h2.quiet fun i c hr => by
    unfold KSys.running at hr
    rw [Option.bind_eq_some_iff] at hr
    obtain ⟨th, e1, e2⟩ := hr
    rw [hq th (List.mem_of_getElem? e1)] at e2; cases e2)
  rw [h2.answers] at g2
  rw [h2.world] at g3
  exact ⟨l, g2, g3⟩

/-- **C54** for clients that keep things, at any moment: the changes made so far are ones a single owner could have made;
which entities exist is as they say; every component anybody can see has the value they say; an entity that no running
call works on has exactly the components they say. -/
theorem C54_keeping_during (h : Mixed tr w) (ho : Enumerates w order)
    (hs : (KSys.init w n).Sched (Config.of w order) (KSys.keeping (Sys.considerate (Config.of w order))) τ) :
    ∃ l : List (Nat × Op V × Out V), (∃ u, Trace (l.map Prod.snd ++ tr) u) ∧
    (∀ id, Usable id (l.map Prod.snd ++ tr) → World.exist id τ.world = (τ.world,
      if handedOut id (l.map Prod.snd ++ tr) then .ok (alive id (l.map Prod.snd ++ tr)) else .error .panic)) ∧
    (∀ t id v, τ.world.value t id = some v → lastValue t id (l.map Prod.snd ++ tr) = some v) ∧
    (∀ t id, alive id (l.map Prod.snd ++ tr) = false → τ.world.value t id = none) := by
  obtain ⟨σ, h1, h2, _⟩ := sim_sched blind_considerate ho hs
  obtain ⟨l, hl⟩ := Sys.record_of h1
  obtain ⟨⟨u, hu⟩, g2, g3, _⟩ := C54_during h ho hl
  rw [h2.world] at g2 g3
  refine ⟨l, ⟨u, hu⟩, g2, g3, fun t id hd => ?_⟩
  cases hv : τ.world.value t id with
  | none => rfl
  | some v => have := g3 t id v hv; rw [hu.dead hd] at this; cases this

/-- **C58** for clients that keep things. Missing: as in `C58_returns_partial`. (A call may wait forever for a guard that
its own thread keeps, C53; it does not panic.) -/
theorem C58_keeping_partial (h : Mixed tr w) (ho : Enumerates w order)
    (hs : (KSys.init w n).Sched (Config.of w order) (KSys.keeping (Sys.careful (Config.of w order))) τ) {i : Nat}
    {c : ApiCall V} {r : Option (List (Ret V))} (hl : (i, c, r) ∈ τ.answers) : ∃ rs, r = some rs := by
  obtain ⟨σ, h1, h2, _⟩ := sim_sched blind_careful ho hs
  rw [← h2.answers] at hl
  exact C58_returns_partial h ho h1 hl

/-- **C59** for clients that keep things: when no call is running, what is stored and what was handed back was there at the start or was named
in some call, each value once. -/
theorem C59_keeping (ho : Enumerates w order) {may : Sys V → Nat → ApiCall V → Prop} (hb : Sys.Blind may)
    (hs : (KSys.init w n).Sched (Config.of w order) (KSys.keeping may) τ) (hq : τ.Quiet) (t : TypeId) :
    ∃ gone : List V, (τ.world.held t ++ (τ.answers.flatMap fun x => x.2.1.returned t x.2.2) ++ gone).Perm
      (w.held t ++ τ.answers.flatMap fun x => x.2.1.named t) := by
  obtain ⟨σ, h1, h2, _⟩ := sim_sched hb ho hs
  obtain ⟨gone, hg⟩ := C59_shared h1 t
  have hq' : σ.Quiet := h2.quiet fun i c hr => by
    unfold KSys.running at hr
    rw [Option.bind_eq_some_iff] at hr
    obtain ⟨th, e1, e2⟩ := hr
    rw [hq th (List.mem_of_getElem? e1)] at e2; cases e2
  have e : σ.named t = σ.log.flatMap fun x => x.2.1.named t := by
    have e : ∀ f : Thread V → List V, (∀ th ∈ σ.threads, f th = []) → σ.threads.flatMap f = [] :=
      fun f h => List.flatMap_eq_nil_iff.2 h
    unfold Sys.named
    rw [e _ fun th hth => by rw [hq' th hth], List.append_nil]
  refine ⟨gone, ?_⟩
  rw [← h2.world]
  simpa only [Sys.returned, e, h2.answers] using hg

namespace Demo

/-- Thread 0 creates an entity and attaches through the handle, which it keeps; thread 1 keeps a storage guard and reads
through it; thread 2 detaches. -/
def kphase : List (KChoice Nat) := [.start 0 .createHandle] ++ kgoes 0 6 ++
  [.start 0 (.viaHandle 3 [.attach 1 7, .attach 2 8]), .start 2 (.call (.on 5 [.detach 1]))] ++ kgoes 0 9 ++ kgoes 2 2 ++
  [.start 1 (.openStore 3 .ref)] ++ kgoes 1 2 ++ [.start 1 (.storeGet 3 2)] ++ kgoes 0 20 ++ kgoes 2 16 ++ kgoes 1 2
theorem kphase_go : ((KSys.init groupW 3).performAll groupCfg
    (KSys.keepingb (Sys.carefulb groupCfg (considerateb groupCfg))) kphase).isSome = true := by decide +kernel
def kphaseEnd : KSys Nat := ((KSys.init groupW 3).performAll groupCfg
    (KSys.keepingb (Sys.carefulb groupCfg (considerateb groupCfg))) kphase).get kphase_go
theorem kphase_careful : (KSys.init groupW 3).Sched groupCfg (KSys.keeping (Sys.careful groupCfg)) kphaseEnd :=
  kperformed (keepingb_ok (carefulb_ok groupCfg)) kphase_go
theorem kphase_go' : ((KSys.init groupW 3).performAll groupCfg (KSys.keepingb (disciplinedb groupCfg)) kphase).isSome = true := by
  decide +kernel
def kphaseEnd' : KSys Nat := ((KSys.init groupW 3).performAll groupCfg (KSys.keepingb (disciplinedb groupCfg)) kphase).get kphase_go'
theorem kphase_sched : (KSys.init groupW 3).Sched groupCfg (KSys.keeping (Sys.considerate groupCfg)) kphaseEnd' :=
  kperformed (keepingb_ok (disciplinedb_kind groupCfg)) kphase_go'
theorem kphase_quiet : kphaseEnd'.Quiet := by
  have : (kphaseEnd'.threads.all fun th => th.call.isNone) = true := by decide +kernel
  intro th hth
  simpa using List.all_eq_true.1 this th hth

end Demo

example : Demo.kphaseEnd'.Keeps 0 (.handle 3) := keepsb_ok (by decide +kernel)
example : Demo.kphaseEnd'.answers = [(1, .read 3 2, some [.val (some 23)]), (2, .on 5 [.detach 1], some [.val (some 51)]),
    (0, .on 3 [.attach 1 7, .attach 2 8], some [.unit, .unit]), (0, .create [], some [.id 3])] := by decide +kernel
example : ∃ l, (∀ i, Told [4, 2, 3, 1] (ofThread i Demo.kphaseEnd'.answers) (ofThread i l)) ∧
    Mixed (l.map Prod.snd ++ Demo.groupTr) Demo.kphaseEnd'.world :=
  C54_keeping (.of_trace Demo.groupTrace) Demo.groupEnumerates Demo.kphase_sched Demo.kphase_quiet
example := C54_keeping_during (.of_trace Demo.groupTrace) Demo.groupEnumerates Demo.kphase_sched
example : ∃ rs, some [Ret.val (some 51)] = some rs :=
  C58_keeping_partial (.of_trace Demo.groupTrace) Demo.groupEnumerates Demo.kphase_careful (i := 2) (c := .on 5 [.detach 1])
    (by decide +kernel)
example : ∃ gone : List Nat, (Demo.kphaseEnd'.world.held 1 ++ [51] ++ gone).Perm (Demo.groupW.held 1 ++ [7]) := by
  have := C59_keeping Demo.groupEnumerates blind_considerate Demo.kphase_sched Demo.kphase_quiet 1
  rw [show (Demo.kphaseEnd'.answers.flatMap fun x => x.2.1.returned 1 x.2.2) = [51] by decide +kernel,
    show (Demo.kphaseEnd'.answers.flatMap fun x => x.2.1.named 1) = [7] by decide +kernel] at this
  exact this

end Xecs
