import Verif.Proofs.Clear
import Verif.Props.Deadlocks
import Verif.Props.Ordered
/-
C66: threads do not wait for themselves.
-/
set_option autoImplicit false
namespace Xecs
open Spec World Hist
variable {V : Type} {w : World V} {n : Nat} {order : List TypeId} {σ : Sys V} {τ : KSys V}

theorem tame_clash (hw : ∀ g ∈ w.groups, g.kind ≠ .non → g.tyA ≠ g.tyB) (ho : Enumerates w order) :
    Prog.Tame Guard.clash (Config.of w order) where
  work := by
    intro x hx hc
    obtain ⟨g, hg, rfl⟩ := List.mem_map.1 hx
    have := hw g hg
    cases g <;> simp_all [Guard.clash, Group.shape, Shape.modeA, Shape.modeB, Group.kind, Group.tyA, Group.tyB]
  scan := by
    intro x hx hc
    simp [Guard.clash] at hc
  order := ho.1

/-- Two guards of the same lock. -/
abbrev sameLock (g h : Guard) : Prop := g.1 = h.1

theorem tame_same (hw : ∀ g ∈ w.groups, g.tyA ≠ g.tyB) (ho : Enumerates w order) :
    Prog.Tame sameLock (Config.of w order) where
  work := by
    intro x hx hc
    obtain ⟨g, hg, rfl⟩ := List.mem_map.1 hx
    exact hw g hg (Lock.store.inj hc).symm
  scan := by
    intro x hx hc
    obtain ⟨g, hg, rfl⟩ := List.mem_map.1 hx
    exact hw g hg (Lock.store.inj hc).symm
  order := ho.1

theorem apart_clash {cfg : Config} {q : Query} (h : q.Conflictless) : Prog.Apart Guard.clash cfg q := by
  refine Prog.apart_of (fun h => h.1) q (h.imp fun {x y} hxy hc => hxy ?_) (.inr fun k j hc => ?_)
  · simp [Guard.clash] at hc
  · exact ⟨(Lock.store.inj hc.1).symm, hc.2.symm⟩

theorem apart_same {cfg : Config} {q : Query} (h : q.Single) : Prog.Apart sameLock cfg q := by
  refine Prog.apart_of (fun h => h) q ((List.pairwise_map.1 h.1).imp fun {x y} hxy hc => hxy ?_) (.inl h.2)
  exact (Lock.store.inj hc).symm

/-- **C66.** In every schedule of threads whose queries have no conflicting parts, on a world without an owning group of a
type with itself, no thread ever waits for itself. -/
theorem C66_never_self (hw : ∀ g ∈ w.groups, g.kind ≠ .non → g.tyA ≠ g.tyB) (ho : Enumerates w order)
    (h : (Sys.init w n).Sched (Config.of w order) Sys.unconflicting σ) (i : Nat) : ¬ σ.WaitsForItself i := by
  rintro ⟨th, l, m, p, h1, h2, g, hg, hc⟩
  have := clear_sched (R := Guard.clash) (fun _ _ c hm => Prog.clear_call (fun h => h.1) (tame_clash hw ho) c
    fun q e => apart_clash (hm q e)) h th (List.mem_of_getElem? h1)
  rw [h2] at this
  exact this.1 g hg hc

/-- **C66.** Hence a thread that waits, waits for another one that is executing a call: one that holds a guard clashing with
the one waited for, or -- the lock being fair -- one that waits to write. -/
theorem C66_others (hw : ∀ g ∈ w.groups, g.kind ≠ .non → g.tyA ≠ g.tyB) (ho : Enumerates w order)
    (h : (Sys.init w n).Sched (Config.of w order) Sys.unconflicting σ) {i : Nat} {th : Thread V} {l : Lock} {m : Mode}
    {p : Prog V} (hi : σ.threads[i]? = some th) (hp : th.prog = .acq l m p) (hb : σ.Blocked i) :
    ∃ (j : Nat) (thj : Thread V), j ≠ i ∧ σ.threads[j]? = some thj ∧ thj.call ≠ none ∧
      ((∃ g ∈ thj.held, Guard.clash (l, m) g) ∨ ∃ p', thj.prog = .acq l .mut p') := by
  have hidle := ((Basics.init ho n).sched h).idle
  obtain ⟨th', l', m', p', h1, h2, h3⟩ := hb
  obtain rfl : th = th' := Option.some.inj (hi.symm.trans h1)
  rw [hp] at h2
  cases h2
  rcases h3 with h3 | ⟨rfl, thj, hj, p', hpj⟩
  · obtain ⟨thj, hj, g, hg, hc⟩ : ∃ thj ∈ σ.threads, ∃ g ∈ thj.held, Guard.clash (l, m) g :=
      Classical.byContradiction fun hn => h3 fun thj hj g hg hc => hn ⟨thj, hj, g, hg, hc⟩
    obtain ⟨j, hj'⟩ := List.getElem?_of_mem hj
    refine ⟨j, thj, ?_, hj', fun hn => ?_, .inl ⟨g, hg, hc⟩⟩
    · rintro rfl
      obtain rfl : th = thj := Option.some.inj (hi.symm.trans hj')
      exact C66_never_self hw ho h j ⟨th, l, m, p, hi, hp, g, hg, hc⟩
    · rw [hidle thj hj hn] at hg
      simp [Thread.idle] at hg
  · obtain ⟨j, hj'⟩ := List.getElem?_of_mem hj
    refine ⟨j, thj, ?_, hj', fun hn => ?_, .inr ⟨p', hpj⟩⟩
    · rintro rfl
      obtain rfl : th = thj := Option.some.inj (hi.symm.trans hj')
      rw [hp] at hpj
      cases hpj
    · rw [hidle thj hj hn] at hpj
      simp [Thread.idle] at hpj

/-- **C66.** A deadlock takes two calls. -/
theorem C66_two (hw : ∀ g ∈ w.groups, g.kind ≠ .non → g.tyA ≠ g.tyB) (ho : Enumerates w order)
    (h : (Sys.init w n).Sched (Config.of w order) Sys.unconflicting σ) (hd : σ.Deadlock) :
    ∃ i j, i ≠ j ∧ σ.Running i ∧ σ.Running j := by
  obtain ⟨⟨i, hr⟩, hd⟩ := hd
  have hb := hd i hr
  obtain ⟨th, l, m, p, h1, h2, h3⟩ := hb
  obtain ⟨j, thj, h4, h5, h6, _⟩ := C66_others hw ho h h1 h2 ⟨th, l, m, p, h1, h2, h3⟩
  exact ⟨i, j, fun e => h4 e.symm, hr, thj, h5, h6⟩

/-- **C66.** If moreover no group pairs a type with itself and queries name every type at most once and at most one group, no
thread takes a lock it holds already, not even both times for reading: the recursive read locks that a fair lock turns into
deadlocks do not occur. -/
theorem C66_reentry (hw : ∀ g ∈ w.groups, g.tyA ≠ g.tyB) (ho : Enumerates w order)
    (h : (Sys.init w n).Sched (Config.of w order) Sys.singly σ) (i : Nat) : ¬ σ.LocksAgain i := by
  rintro ⟨th, l, m, p, h1, h2, m', hg⟩
  have := clear_sched (R := sameLock) (fun _ _ c hm => Prog.clear_call (fun h => h) (tame_same hw ho) c
    fun q e => apart_same (hm q e)) h th (List.mem_of_getElem? h1)
  rw [h2] at this
  exact this.1 _ hg rfl

theorem keptGuards_keeps {cfg : Config} {i : Nat} {th : KThread V} (hi : τ.threads[i]? = some th) {g : Guard}
    (hg : g ∈ th.keptGuards cfg) : τ.KeepsGuard cfg i g := by
  obtain ⟨k, hk, hg⟩ := List.mem_flatMap.1 hg
  exact ⟨th, hi, k, hk, hg⟩

theorem kclear {R : Guard → Guard → Prop} {cfg : Config} (hR : ∀ {g h}, R g h → g.1 = h.1) (hc : Prog.Tame R cfg)
    {c : KCall V} (hq : ∀ q, c.opens = some q → Prog.Apart R cfg q) {K : List Guard}
    (hK : ∀ g ∈ c.asks cfg, ∀ h ∈ K, ¬ R g h) : (c.prog cfg).Clear R K := by
  have := (Prog.clear_kcall hR hc c hq).add (K := K) (Prog.asks_kcall c fun g hg => hK g hg)
  simpa using this

/-- **C66**, for clients that keep handles and guards: a thread that makes no call asking for a lock that clashes with a
guard it keeps, and whose queries have no conflicting parts, never waits for itself. -/
theorem C66_keeping (hw : ∀ g ∈ w.groups, g.kind ≠ .non → g.tyA ≠ g.tyB) (ho : Enumerates w order)
    (h : (KSys.init w n).Sched (Config.of w order) (KSys.unconflicting (Config.of w order)) τ) (i : Nat) :
    ¬ τ.Waits i i := by
  rintro ⟨th, th', l, m, p, h1, h1', _, h2, h3⟩
  obtain rfl : th = th' := Option.some.inj (h1.symm.trans h1')
  have := clear_ksched (R := Guard.clash) ho (fun _ _ c th hm hi => kclear (fun h => h.1) (tame_clash hw ho)
    (fun q e => apart_clash (hm.1 q e)) fun g hg k hk => hm.2 g hg k (keptGuards_keeps hi hk)) h i th h1
  rcases h3 with ⟨g, hg, hc⟩ | ⟨rfl, p', h4⟩
  · rw [h2] at this
    exact this.1 g hg hc
  · rw [h2] at h4
    cases h4

/-- **C66**, for the same clients: a circle of threads that wait for one another has two members at least. -/
theorem C66_keeping_two (hw : ∀ g ∈ w.groups, g.kind ≠ .non → g.tyA ≠ g.tyB) (ho : Enumerates w order)
    (h : (KSys.init w n).Sched (Config.of w order) (KSys.unconflicting (Config.of w order)) τ) {S : Nat → Prop}
    (hc : τ.Circle S) : ∃ i j, i ≠ j ∧ S i ∧ S j := by
  obtain ⟨⟨i, hi⟩, hc⟩ := hc
  obtain ⟨j, hj, hw'⟩ := hc i hi
  exact ⟨i, j, fun e => C66_keeping hw ho h i (by rw [← e] at hw'; exact hw'), hi, hj⟩

/-- **C66**, for clients that keep handles and guards: a thread that makes no call asking for a lock of which it keeps a
guard, and whose queries name every type at most once and at most one group, takes no lock it holds already. -/
theorem C66_keeping_reentry (hw : ∀ g ∈ w.groups, g.tyA ≠ g.tyB) (ho : Enumerates w order)
    (h : (KSys.init w n).Sched (Config.of w order) (KSys.singly (Config.of w order)) τ) (i : Nat) : ¬ τ.LocksAgain i := by
  rintro ⟨th, l, m, p, h1, h2, m', hg⟩
  have := clear_ksched (R := sameLock) ho (fun _ _ c th hm hi => kclear (fun h => h) (tame_same hw ho)
    (fun q e => apart_same (hm.1 q e)) fun g hg k hk => hm.2 g hg k (keptGuards_keeps hi hk)) h i th h1
  rw [h2] at this
  exact this.1 _ hg rfl

theorem single_conflictless {q : Query} (h : q.Single) : q.Conflictless :=
  (List.pairwise_map.1 h.1).imp fun hxy hc => hxy hc.1

/-- `Sys.Blocked`, as a Boolean. -/
def Sys.blockedb (σ : Sys V) (i : Nat) : Bool :=
  match σ.threads[i]? with
  | some th => match th.prog with
    | .acq l m _ => !σ.freeb l m || (m == .ref && σ.threads.any fun thj =>
        match thj.prog with | .acq l' .mut _ => l' == l | _ => false)
    | _ => false
  | none => false

theorem blocked_of {i : Nat} (h : σ.blockedb i = true) : σ.Blocked i := by
  unfold Sys.blockedb at h
  split at h
  · rename_i th hi
    split at h
    · rename_i l m p hp
      refine ⟨th, l, m, p, hi, hp, ?_⟩
      simp only [Bool.or_eq_true, Bool.not_eq_true', Bool.and_eq_true, beq_iff_eq, List.any_eq_true] at h
      rcases h with h | ⟨h, thj, hj, h'⟩
      · exact .inl fun hf => by rw [freeb_iff.2 hf] at h; cases h
      · refine .inr ⟨h, thj, hj, ?_⟩
        split at h'
        · rename_i l' p' hp'
          have := eq_of_beq h'; subst this
          exact ⟨p', hp'⟩
        · cases h'
    · cases h
  · cases h

/-- `Sys.WaitsForItself`, as a Boolean. -/
def Sys.selfb (σ : Sys V) (i : Nat) : Bool :=
  match σ.threads[i]? with
  | some th => match th.prog with
    | .acq l m _ => th.held.any fun g => decide (Guard.clash (l, m) g)
    | _ => false
  | none => false

theorem selfWaits_of {i : Nat} (h : σ.selfb i = true) : σ.WaitsForItself i := by
  unfold Sys.selfb at h
  split at h
  · rename_i th hi
    split at h
    · rename_i l m p hp
      simp only [List.any_eq_true, decide_eq_true_eq] at h
      exact ⟨th, l, m, p, hi, hp, h⟩
    · cases h
  · cases h

namespace Demo

/-- `Sys.unconflicting`, as a Boolean. -/
def unconflictingb : Sys Nat → Nat → ApiCall Nat → Bool := fun _ _ c =>
  match c with
  | .query q => decide q.Conflictless
  | _ => true
theorem unconflictingb_ok (σ : Sys Nat) (i : Nat) (c : ApiCall Nat) (h : unconflictingb σ i c = true) :
    σ.unconflicting i c := by
  rintro q rfl
  simpa [unconflictingb] using h

/-- `Sys.singly`, as a Boolean. -/
def singlyb : Sys Nat → Nat → ApiCall Nat → Bool := fun _ _ c =>
  match c with
  | .query q => decide q.Single
  | _ => true
theorem singlyb_ok (σ : Sys Nat) (i : Nat) (c : ApiCall Nat) (h : singlyb σ i c = true) : σ.singly i c := by
  rintro q rfl
  simpa [singlyb] using h

/-- A query that reads a component twice and asks for a group, a removal and a write, all waiting. -/
def jam : List (Choice Nat) :=
  [.start 0 (.query (.with2 (.comp .ref 1) (.group .part .ref .ref 1 2))), .start 1 (.remove 5), .start 2 (.write 1 1 9)] ++
    goes 0 1 ++ goes 1 5
theorem jam_go : ((Sys.init groupW 3).performAll groupCfg unconflictingb jam).isSome = true := by decide +kernel
/-- The state reached. -/
def jamS : Sys Nat := ((Sys.init groupW 3).performAll groupCfg unconflictingb jam).get jam_go
theorem jam_sched : (Sys.init groupW 3).Sched groupCfg Sys.unconflicting jamS := performed unconflictingb_ok jam_go

/-- The same with a query that takes no lock twice. -/
def jam2 : List (Choice Nat) :=
  [.start 0 (.query (.with2 (.comp .mut 4) (.group .part .ref .mut 1 2))), .start 1 (.remove 5), .start 2 (.write 1 1 9)] ++
    goes 0 1 ++ goes 1 13 ++ goes 0 2
theorem jam2_go : ((Sys.init groupW 3).performAll groupCfg singlyb jam2).isSome = true := by decide +kernel
/-- The state reached. -/
def jam2S : Sys Nat := ((Sys.init groupW 3).performAll groupCfg singlyb jam2).get jam2_go
theorem jam2_sched : (Sys.init groupW 3).Sched groupCfg Sys.singly jam2S := performed singlyb_ok jam2_go

/-- `KSys.unconflicting`, as a Boolean. -/
def kunconflictingb (cfg : Config) : KSys Nat → Nat → KCall Nat → Bool := fun τ i c =>
  (match c.opens with | some q => decide q.Conflictless | none => true) &&
  match τ.threads[i]? with
  | some th => (c.asks cfg).all fun g => (th.keptGuards cfg).all fun h => decide (¬ g.clash h)
  | none => false
theorem kunconflictingb_ok (cfg : Config) (τ : KSys Nat) (i : Nat) (c : KCall Nat) (h : kunconflictingb cfg τ i c = true) :
    KSys.unconflicting cfg τ i c := by
  rw [kunconflictingb, Bool.and_eq_true] at h
  refine ⟨fun q e => ?_, fun g hg h' hk => ?_⟩
  · have := h.1
    rw [e] at this
    simpa using this
  · obtain ⟨th, hi, k, hk, hg'⟩ := hk
    have := h.2
    rw [hi] at this
    simp only [List.all_eq_true, decide_eq_true_eq] at this
    exact this g hg h' (List.mem_flatMap.2 ⟨k, hk, hg'⟩)

/-- `KSys.singly`, as a Boolean. -/
def ksinglyb (cfg : Config) : KSys Nat → Nat → KCall Nat → Bool := fun τ i c =>
  (match c.opens with | some q => decide q.Single | none => true) &&
  match τ.threads[i]? with
  | some th => (c.asks cfg).all fun g => (th.keptGuards cfg).all fun h => decide (g.1 ≠ h.1)
  | none => false
theorem ksinglyb_ok (cfg : Config) (τ : KSys Nat) (i : Nat) (c : KCall Nat) (h : ksinglyb cfg τ i c = true) :
    KSys.singly cfg τ i c := by
  rw [ksinglyb, Bool.and_eq_true] at h
  refine ⟨fun q e => ?_, fun g hg h' hk => ?_⟩
  · have := h.1
    rw [e] at this
    simpa using this
  · obtain ⟨th, hi, k, hk, hg'⟩ := hk
    have := h.2
    rw [hi] at this
    simp only [List.all_eq_true, decide_eq_true_eq] at this
    exact this g hg h' (List.mem_flatMap.2 ⟨k, hk, hg'⟩)

/-- Thread 0 keeps a handle of entity 1 and a read guard on the storage of 2, and attaches through the handle; thread 1 keeps
a query on 3 and wants to create an entity; thread 2 waits to write to the storage of 2. -/
def kjam : List (KChoice Nat) :=
  [.start 0 (.openHandle 1)] ++ kgoes 0 3 ++ [.start 0 (.openStore 2 .ref)] ++ kgoes 0 2 ++
    [.start 1 (.openView (.comp .ref 3))] ++ kgoes 1 3 ++ [.start 0 (.viaHandle 1 [.read 2, .detach 3])] ++ kgoes 0 6 ++
    [.start 1 .createHandle, .start 2 (.call (.write 2 1 9))]
theorem kjam_go : ((KSys.init groupW 3).performAll groupCfg (kunconflictingb groupCfg) kjam).isSome = true := by decide +kernel
/-- The state reached. -/
def kjamS : KSys Nat := ((KSys.init groupW 3).performAll groupCfg (kunconflictingb groupCfg) kjam).get kjam_go
theorem kjam_sched : (KSys.init groupW 3).Sched groupCfg (KSys.unconflicting groupCfg) kjamS :=
  kperformed (kunconflictingb_ok groupCfg) kjam_go

/-- Thread 0 keeps a handle and detaches through it; thread 1 keeps a group query and asks for another. -/
def kjam2 : List (KChoice Nat) :=
  [.start 0 (.openHandle 1)] ++ kgoes 0 3 ++ [.start 1 (.openView (.group .part .ref .ref 1 2))] ++ kgoes 1 9 ++
    [.start 0 (.viaHandle 1 [.detach 3]), .start 1 (.openStore 3 .ref)] ++ kgoes 1 2 ++ kgoes 0 5
theorem kjam2_go : ((KSys.init groupW 3).performAll groupCfg (ksinglyb groupCfg) kjam2).isSome = true := by decide +kernel
/-- The state reached. -/
def kjam2S : KSys Nat := ((KSys.init groupW 3).performAll groupCfg (ksinglyb groupCfg) kjam2).get kjam2_go
theorem kjam2_sched : (KSys.init groupW 3).Sched groupCfg (KSys.singly groupCfg) kjam2S :=
  kperformed (ksinglyb_ok groupCfg) kjam2_go

/-- A query with conflicting parts, see `C40_self_counterexample`. -/
theorem lock5_go : ((Sys.init raceW 2).performAll (Config.of raceW [1, 2]) anyb lock5).isSome = true := by decide +kernel
/-- Two threads that keep a guard and ask for the other's, see `C61_disorder`. -/
theorem kcross_go2 : ((KSys.init groupW 3).performAll groupCfg (kunconflictingb groupCfg) kcross).isSome = true := by
  decide +kernel
/-- A query naming two groups, each at most reading, locks group 0 a second time while looking for group 1; in between
`detach` has asked to write to it. -/
def lock6 : List (Choice Nat) :=
  [.start 0 (.query (.with2 (.group .part .ref .ref 1 2) (.group .non .ref .ref 3 4))), .start 1 (.on 1 [.detach 1])] ++
    goes 0 9 ++ goes 1 4

end Demo

example (i : Nat) : ¬ Demo.jamS.WaitsForItself i :=
  C66_never_self (by decide +kernel) Demo.groupEnumerates Demo.jam_sched i
/-- Two of them wait for one another. -/
example : Demo.jamS.Blocked 0 ∧ Demo.jamS.Blocked 2 := ⟨blocked_of (by decide +kernel), blocked_of (by decide +kernel)⟩
example : ∃ l m j thj, (∃ th p, Demo.jamS.threads[0]? = some th ∧ th.prog = .acq l m p) ∧ j ≠ 0 ∧
    Demo.jamS.threads[j]? = some thj ∧ thj.call ≠ none ∧
    ((∃ g ∈ thj.held, Guard.clash (l, m) g) ∨ ∃ p', thj.prog = .acq l .mut p') := by
  have hb : Demo.jamS.Blocked 0 := blocked_of (by decide +kernel)
  obtain ⟨th, l, m, p, h1, h2, h3⟩ := id hb
  obtain ⟨j, thj, h⟩ := C66_others (by decide +kernel) Demo.groupEnumerates Demo.jam_sched h1 h2 hb
  exact ⟨l, m, j, thj, ⟨th, p, h1, h2⟩, h⟩
example : ∃ i j, i ≠ j ∧ Demo.jam2S.Running i ∧ Demo.jam2S.Running j :=
  C66_two (by decide +kernel) Demo.groupEnumerates
    (Demo.jam2_sched.policy fun _ _ _ h q e => single_conflictless (h q e)) (deadlock_of (by decide +kernel))
example (i : Nat) : ¬ Demo.jam2S.LocksAgain i :=
  C66_reentry (by decide +kernel) Demo.groupEnumerates Demo.jam2_sched i
example (i : Nat) : ¬ Demo.kjamS.Waits i i :=
  C66_keeping (by decide +kernel) Demo.groupEnumerates Demo.kjam_sched i
/-- Thread 0 has kept a handle and a guard and is in the middle of a call. -/
example : Demo.kjamS.Keeps 0 (.handle 1) ∧ Demo.kjamS.Keeps 0 (.store 2 .ref) ∧ (Demo.kjamS.running 0).isSome = true :=
  ⟨keepsb_ok (by decide +kernel), keepsb_ok (by decide +kernel), by decide +kernel⟩
example : ∃ i j, i ≠ j ∧ (i = 0 ∨ i = 1) ∧ (j = 0 ∨ j = 1) :=
  C66_keeping_two (S := fun i => i = 0 ∨ i = 1) (by decide +kernel) Demo.groupEnumerates
    (kperformed (Demo.kunconflictingb_ok Demo.groupCfg) Demo.kcross_go2) ⟨⟨0, .inl rfl⟩, by
      rintro i (rfl | rfl)
      · exact ⟨1, .inr rfl, Demo.waitsb_ok (by decide +kernel)⟩
      · exact ⟨0, .inl rfl, Demo.waitsb_ok (by decide +kernel)⟩⟩
example (i : Nat) : ¬ Demo.kjam2S.LocksAgain i :=
  C66_keeping_reentry (by decide +kernel) Demo.groupEnumerates Demo.kjam2_sched i

/-- **C66**: the conditions are needed. A query with conflicting parts waits for itself. -/
theorem C66_conflict : ∃ σ, (Sys.init Demo.raceW 2).Sched (Config.of Demo.raceW [1, 2]) Sys.anything σ ∧
    σ.WaitsForItself 0 := by
  exact ⟨_, performed (fun _ _ _ _ => trivial) Demo.lock5_go, selfWaits_of (by decide +kernel)⟩

/-- **C66**: a thread that keeps a handle and creates an entity waits for itself. -/
theorem C66_kept : (KSys.init Demo.groupW 3).Sched Demo.groupCfg (KSys.keeping Sys.anything) Demo.kstuck ∧
    Demo.kstuck.Waits 0 0 := ⟨Demo.kstuck_sched, Demo.waitsb_ok (by decide +kernel)⟩

/-- **C66**: a query naming two groups, neither of them for writing, locks the first one again and deadlocks with a
concurrent `detach`, from a world with an allowed history. -/
theorem C66_two_groups : Deadlocks Demo.groupW [4, 2, 3, 1] Demo.lock6 :=
  deadlocks_of ⟨_, Demo.groupTrace⟩ Demo.groupEnumerates (by decide +kernel)

end Xecs
