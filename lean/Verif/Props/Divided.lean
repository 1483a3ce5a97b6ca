import Verif.Proofs.Divided
import Verif.Props.Ordered
/-
C40 and C61 for clients that update some groups and query others.
-/
set_option autoImplicit false
namespace Xecs
open Spec World Hist
variable {V : Type} {w : World V} {n : Nat} {order : List TypeId} {σ : Sys V} {τ : KSys V}

/-- **C40**, for clients that update some groups and query others, whatever the world: if the component types can be
numbered and divided into early and late ones -- those below `k`, and the others -- such that queries list their types in
order and name a group only when all types so far, including its own, are early; and components come and go only of
types whose groups have late types only, in order; and entities are removed only if all groups are such, and the storages
are visited in order -- then there is no deadlock in any schedule. This covers group queries next to updates. Missing from
the English property: the rest, where there are deadlocks (the counterexamples). -/
theorem C40_divided_partial {ρ : TypeId → Nat} {k : Nat}
    (h : (Sys.init w n).Sched (Config.of w order) (Sys.dividing (Config.of w order) ρ k) σ) : ¬ σ.Deadlock :=
  (ord_sched (before_strict _) (fun _ _ _ hc => Prog.ord_dividing hc) h).no_deadlock (before_strict _)

/-- **C40**, for these clients: from every reachable state all running calls can be brought to an end without starting
others. -/
theorem C40_divided_drains_partial {ρ : TypeId → Nat} {k : Nat}
    (h : (Sys.init w n).Sched (Config.of w order) (Sys.dividing (Config.of w order) ρ k) σ) :
    ∃ σ', σ.Sched (Config.of w order) Sys.nothing σ' ∧ σ'.Quiet :=
  drains fun _ h' => C40_divided_partial (h.trans (h'.policy fun _ _ _ h => False.elim h))

/-- **C40.** The clients of `C40_updating_partial` are such clients: all types are late. -/
theorem C40_updating_divided {ρ : TypeId → Nat} (hg : ∀ g ∈ w.groups, ρ g.tyA < ρ g.tyB) (σ : Sys V) (i : Nat)
    (c : ApiCall V) (h : Sys.updating (Config.of w order) ρ σ i c) : Sys.dividing (Config.of w order) ρ 0 σ i c := by
  have late : ∀ g ∈ (Config.of w order).groups, g.Late ρ 0 := by
    intro g hgm
    obtain ⟨g', h1, rfl⟩ := List.mem_map.1 hgm
    exact ⟨Nat.zero_le _, Nat.zero_le _, hg g' h1⟩
  cases c with
  | on id s => exact fun _ _ _ _ g hg _ => late g hg
  | create s => exact fun _ _ _ _ g hg _ => late g hg
  | remove id => exact ⟨late, h⟩
  | query q =>
    have stops : ∀ q : Query, q.Groupless → q.stops = q.accesses.map fun x => some x.1 := by
      intro q
      induction q with
      | comp m t => intro _; rfl
      | group k ma mb a b => exact fun h => False.elim h
      | with2 a b iha ihb | withoutL a b iha ihb | withoutR a b iha ihb =>
        intro h; simp only [Query.stops, Query.accesses, iha h.1, ihb h.2, List.map_append]
      | with3 a b c iha ihb ihc =>
        intro h; simp only [Query.stops, Query.accesses, iha h.1, ihb h.2.1, ihc h.2.2, List.map_append]
      | with4 a b c d iha ihb ihc ihd =>
        intro h
        simp only [Query.stops, Query.accesses, iha h.1, ihb h.2.1, ihc h.2.2.1, ihd h.2.2.2, List.map_append]
      | with5 a b c d e iha ihb ihc ihd ihe =>
        intro h
        simp only [Query.stops, Query.accesses, iha h.1, ihb h.2.1, ihc h.2.2.1, ihd h.2.2.2.1, ihe h.2.2.2.2,
          List.map_append]
    show q.Ascending ρ 0
    rw [Query.Ascending, stops q h.1, List.pairwise_map]
    exact h.2
  | _ => trivial

/-- **C61**, for clients that update some groups and query others as in `C40_divided_partial`, and that may keep any
handles, guards and queries across calls: if a client that keeps something makes only calls whose locks come later --
entity table, storages of early types, groups by age, storages of late types, resources --, then in no schedule do threads
ever wait for one another in a circle. -/
theorem C61_divided {ρ : TypeId → Nat} {k : Nat} (ho : Enumerates w order)
    (h : (KSys.init w n).Sched (Config.of w order) (KSys.dividing (Config.of w order) ρ k) τ) : ¬ ∃ S, τ.Circle S :=
  fun ⟨S, hS⟩ => (kord_sched ho (before_strict _) kord_dividing h).no_circle (before_strict _) S hS

/-- **C61**, for these clients: from every reachable state all running calls can be brought to an end and all that is kept
can be dropped. -/
theorem C61_divided_drains {ρ : TypeId → Nat} {k : Nat} (ho : Enumerates w order)
    (h : (KSys.init w n).Sched (Config.of w order) (KSys.dividing (Config.of w order) ρ k) τ) :
    ∃ τ', τ.Sched (Config.of w order) KSys.dropping τ' ∧ τ'.AtRest :=
  kdrains (before_strict _) fun _ h' =>
    kord_sched ho (before_strict _) kord_dividing (h.trans (h'.policy KSys.dropping_dividing))

/-! ### Concrete cases -/
namespace Demo

/-- The clients of `C40_divided_partial` for the types in numerical order, as a Boolean. -/
def dividingb (cfg : Config) (n : Nat) : Sys Nat → Nat → ApiCall Nat → Bool := fun _ _ c =>
  let late : Shape → Bool := fun g => decide (n ≤ g.a) && decide (n ≤ g.b) && decide (g.a < g.b)
  let ops : List (HOp Nat) → Bool := fun s => s.all fun o => match o.changes with
    | some t => cfg.groups.all fun g => !(t == g.a || t == g.b) || late g
    | none => true
  match c with
  | .on _ s => ops s
  | .create s => ops s
  | .remove _ => cfg.groups.all late && decide (cfg.order.Pairwise fun t u => t < u)
  | .query q => decide (q.stops.Pairwise fun x y => (match x, y with
      | some t, some u => decide (t < u)
      | some t, none => decide (t < n)
      | none, some u => decide (n ≤ u)
      | none, none => false) = true)
  | _ => true

theorem dividingb_ok (cfg : Config) (n : Nat) (σ : Sys Nat) (i : Nat) (c : ApiCall Nat)
    (h : dividingb cfg n σ i c = true) : Sys.dividing cfg byNumber n σ i c := by
  have ops : ∀ s : List (HOp Nat), (s.all fun o => match o.changes with
      | some t => cfg.groups.all fun g => !(t == g.a || t == g.b) || (decide (n ≤ g.a) && decide (n ≤ g.b) && decide (g.a < g.b))
      | none => true) = true →
      ∀ o ∈ s, ∀ t, o.changes = some t → ∀ g ∈ cfg.groups, (t = g.a ∨ t = g.b) → g.Late byNumber n := by
    intro s hs o ho t ht g hg htg
    have h1 := List.all_eq_true.1 hs o ho
    rw [ht] at h1
    have h2 := List.all_eq_true.1 h1 g hg
    have h3 : (t == g.a || t == g.b) = true := by simpa using htg
    rw [h3, Bool.not_true, Bool.false_or] at h2
    simp only [Bool.and_eq_true, decide_eq_true_eq] at h2
    exact ⟨h2.1.1, h2.1.2, h2.2⟩
  cases c with
  | on id s => exact ops s h
  | create s => exact ops s h
  | remove id =>
    simp only [dividingb, Bool.and_eq_true, List.all_eq_true, decide_eq_true_eq] at h
    exact ⟨fun g hg => ⟨(h.1 g hg).1.1, (h.1 g hg).1.2, (h.1 g hg).2⟩, h.2⟩
  | query q =>
    simp only [dividingb, decide_eq_true_eq] at h
    refine List.Pairwise.imp (fun {x y} hxy => ?_) h
    cases x <;> cases y <;> simp [byNumber] at hxy ⊢ <;> exact hxy
  | _ => trivial

/-- A query on the group of types 1 and 2 and on type 3; meanwhile a component of type 3, which is in another group, is
attached: the one waits for the other. -/
def divided : List (Choice Nat) :=
  [.start 0 (.query (.with2 (.group .part .ref .mut 1 2) (.comp .mut 3))), .start 1 (.on 5 [.attach 3 59]),
    .start 2 (.write 2 1 7)] ++ goes 1 12 ++ goes 0 7

theorem divided_go : ((Sys.init groupW 3).performAll groupCfg (dividingb groupCfg 3) divided).isSome = true := by
  decide +kernel
/-- The state reached. -/
def dividedS : Sys Nat := ((Sys.init groupW 3).performAll groupCfg (dividingb groupCfg 3) divided).get divided_go
theorem divided_sched : (Sys.init groupW 3).Sched groupCfg (Sys.dividing groupCfg byNumber 3) dividedS :=
  performed (dividingb_ok _ _) divided_go

/-- The same clients, keeping things. -/
def kdividingb (cfg : Config) (n : Nat) : KSys Nat → Nat → KCall Nat → Bool := fun τ i c =>
  KSys.keepingb (dividingb cfg n) τ i c && laterb cfg (Lock.divided byNumber n) (fun _ => true) τ i c

theorem kdividingb_ok (cfg : Config) (n : Nat) (τ : KSys Nat) (i : Nat) (c : KCall Nat)
    (h : kdividingb cfg n τ i c = true) : KSys.dividing cfg byNumber n τ i c := by
  simp only [kdividingb, Bool.and_eq_true] at h
  exact ⟨keepingb_ok (dividingb_ok cfg n) τ i c h.1, fun l hl th hi k hk g hg => laterb_ok h.2 l hl rfl th hi k hk g hg rfl⟩

/-- Thread 0 keeps a handle and a query on the group of types 1 and 2; thread 1 keeps a handle and attaches a component of
type 3, which is in another group; thread 0 wants to write one and waits. -/
def kdivided : List (KChoice Nat) :=
  [.start 0 (.openHandle 1)] ++ kgoes 0 3 ++ [.start 0 (.openView (.group .part .ref .mut 1 2))] ++ kgoes 0 9 ++
    [.start 1 (.openHandle 5)] ++ kgoes 1 3 ++ [.start 1 (.viaHandle 5 [.attach 3 59, .detach 4])] ++ kgoes 1 10 ++
    [.start 0 (.viaHandle 1 [.write 3 8])]
theorem kdivided_go : ((KSys.init groupW 2).performAll groupCfg (kdividingb groupCfg 3) kdivided).isSome = true := by
  decide +kernel
/-- The state reached. -/
def kdividedS : KSys Nat := ((KSys.init groupW 2).performAll groupCfg (kdividingb groupCfg 3) kdivided).get kdivided_go
theorem kdivided_sched : (KSys.init groupW 2).Sched groupCfg (KSys.dividing groupCfg byNumber 3) kdividedS :=
  kperformed (kdividingb_ok _ _) kdivided_go

end Demo

example : ¬ Demo.dividedS.Deadlock := C40_divided_partial Demo.divided_sched
example : ∃ σ', Demo.dividedS.Sched Demo.groupCfg Sys.nothing σ' ∧ σ'.Quiet :=
  C40_divided_drains_partial Demo.divided_sched
/-- Two threads do wait in that state. -/
example : (Demo.dividedS.threads.map fun th => match th.prog with | .acq l m _ => !Demo.dividedS.freeb l m | _ => false) =
    [true, false, true] := by decide +kernel

example : ¬ ∃ S, Demo.kdividedS.Circle S := C61_divided Demo.groupEnumerates Demo.kdivided_sched
example : ∃ τ', Demo.kdividedS.Sched Demo.groupCfg KSys.dropping τ' ∧ τ'.AtRest :=
  C61_divided_drains Demo.groupEnumerates Demo.kdivided_sched
example : Demo.kdividedS.Waits 0 1 := Demo.waitsb_ok (by decide +kernel)

end Xecs
