import Verif.Proofs.ConsiderateStep
import Verif.Proofs.Attaching
import Verif.Props.Sharing
/-
C65: threads that attach and detach components of the same entity at the same time.
-/
set_option autoImplicit false
namespace Xecs
open Spec World Hist

namespace Demo

/-- Do two chains conflict, as a Boolean. -/
def conflictb (cfg : Config) (ops ops' : List (HOp Nat)) : Bool :=
  cfg.groups.any fun g => (g.cutBy ops && g.fedBy ops') || (g.fedBy ops && g.cutBy ops')

/-- `Filling`, as a Boolean. -/
def fillingb (σ : Sys Nat) (id : EntityId) : Bool :=
  σ.threads.any fun th => match th.prog.fills with
    | some (a, b) => decide (a ≤ id) && decide (id < b)
    | none => false

theorem fillingb_ok {σ : Sys Nat} {id : EntityId} (h : fillingb σ id = false) : ¬ σ.Filling id := by
  rintro ⟨th, hth, a, b, h1, h2, h3⟩
  rw [fillingb, List.any_eq_false] at h
  have := h th hth
  rw [h1] at this
  simp [h2, h3] at this

/-- Considerate, as a Boolean. -/
def considerateb (cfg : Config) : Sys Nat → Nat → ApiCall Nat → Bool := fun σ _ c =>
  match c with
  | .on id ops => (σ.world.em.entities.contains id && !fillingb σ id) &&
      σ.threads.all fun th => th.subject != some id ||
        match th.call.bind ApiCall.chain with
        | some ops' => !conflictb cfg ops ops'
        | none => false
  | .remove id => !fillingb σ id && (σ.world.em.entities.contains id && (σ.threads.all fun th => th.subject != some id) &&
      cfg.indexed.all fun x => cfg.indexed.all fun y => !(x.1 < y.1) ||
        !([x.2.a, x.2.b, y.2.a, y.2.b].all fun t => (σ.world.value t id).isSome) || (!x.2.owns y.2.a && !x.2.owns y.2.b))
  | .createMany _ batches => decide (batches.map Prod.fst).Nodup
  | .fill start stop batches => decide (start ≤ stop) && decide (batches.map Prod.fst).Nodup &&
      (List.range' start (stop - start)).all fun id => σ.world.em.entities.contains id && !fillingb σ id &&
        (σ.threads.all fun th => th.subject != some id) && batches.all fun b => (σ.world.value b.1 id).isNone
  | _ => true

theorem considerateb_ok (cfg : Config) : ∀ (σ : Sys Nat) i c, considerateb cfg σ i c = true → σ.considerate cfg i c := by
  intro σ i c h
  cases c with
  | on id ops =>
    simp only [considerateb, Bool.and_eq_true, List.contains_iff_mem, List.all_eq_true, Bool.or_eq_true] at h
    refine ⟨h.1.1, fillingb_ok (by simpa using h.1.2), fun th hth hs => ?_⟩
    rcases h.2 th hth with h2 | h2
    · simp [hs] at h2
    · cases hc : th.call with
      | none => rw [hc] at h2; cases h2
      | some c =>
        rw [hc] at h2
        cases hch : c.chain with
        | none => rw [Option.bind_some, hch] at h2; cases h2
        | some ops' =>
          rw [Option.bind_some, hch] at h2
          refine ⟨c, ops', rfl, hch, ?_⟩
          rintro ⟨g, hg, h3⟩
          have : conflictb cfg ops ops' = true := by
            rw [conflictb, List.any_eq_true]
            refine ⟨g, hg, ?_⟩
            rcases h3 with ⟨h4, h5⟩ | ⟨h4, h5⟩ <;> simp [h4, h5]
          dsimp only at h2
          rw [this] at h2; cases h2
  | remove id =>
    simp only [considerateb, Bool.and_eq_true, List.contains_iff_mem, List.all_eq_true] at h
    have hf : ¬ σ.Filling id := fillingb_ok (by simpa using h.1)
    replace h := h.2
    refine ⟨h.1.1, hf, fun th hth => by simpa using h.1.2 th hth, ?_⟩
    intro i j gi gj hij hi hj hv
    have mem : ∀ {k : Nat} {g : Shape}, cfg.groups[k]? = some g → (k, g) ∈ cfg.indexed := by
      intro k g hk
      rw [Config.indexed, List.mem_iff_getElem?]
      exact ⟨k, by simp [hk]⟩
    have := h.2 _ (mem hi) _ (mem hj)
    simp only [Bool.or_eq_true, Bool.not_eq_true', decide_eq_false_iff_not, Bool.and_eq_true] at this
    rcases this with (h | h) | h
    · exact absurd hij h
    · simp [hv] at h
    · exact h
  | createMany n bs => simpa [considerateb, Sys.considerate] using h
  | fill x y bs =>
    simp only [considerateb, Bool.and_eq_true, decide_eq_true_eq, List.contains_iff_mem, List.all_eq_true,
      List.mem_range'_1] at h
    refine ⟨h.1.1, h.1.2, fun id h1 h2 => ?_⟩
    · have h3 := h.2 id ⟨h1, by omega⟩
      exact ⟨h3.1.1.1, fillingb_ok (by simpa using h3.1.1.2), fun th hth => by simpa using h3.1.2 th hth,
        fun b hb => by simpa using h3.2 b hb⟩
  | _ => trivial

end Demo

variable {V : Type} {tr : List (Op V × Out V)} {w : World V} {n : Nat} {order : List TypeId} {σ : Sys V}

theorem Sys.Step.mono_at {cfg : Config} {may may' : Sys V → Nat → ApiCall V → Prop} {σ σ' : Sys V}
    (hm : ∀ i c, may σ i c → may' σ i c) (h : σ.Step cfg may σ') : σ.Step cfg may' σ' := by
  cases h with
  | start h1 h2 h3 => exact .start h1 h2 (hm _ _ h3)
  | acq h1 h2 h3 => exact .acq h1 h2 h3
  | rel h1 h2 => exact .rel h1 h2
  | act h1 h2 h3 => exact .act h1 h2 h3
  | fault h1 h2 h3 h4 => exact .fault h1 h2 h3 h4
  | panic h1 h2 h3 => exact .panic h1 h2 h3
  | ret h1 h2 h3 => exact .ret h1 h2 h3

/-- When no call is running nobody tends to anything. -/
theorem Pact.quiet {cfg : Config} {T : Nat → Prop} {s : State V} (h : Pact cfg T s σ) (hq : σ.Quiet) (k : Nat) (g : Shape)
    (id : Nat) (ht : T k) (hk : cfg.groups[k]? = some g) (ha : s.has g.a id = true) (hb : s.has g.b id = true) :
    memAt s k id = true := by
  rcases h.complete k g id ht hk ha hb with h1 | ⟨j, th, hj, hs, _⟩
  · exact h1
  · have := h.ok j th hj
    unfold Placed at this
    rw [hs] at this
    obtain ⟨_, c, hc, _⟩ := this
    rw [hq th (List.mem_of_getElem? hj)] at hc; cases hc

theorem pact_considerate {s0 : State V} (hr : Origin tr w s0) (ho : Enumerates w order)
    (hs : (Sys.init w n).Sched (Config.of w order) (Sys.considerate (Config.of w order)) σ) :
    Basics (Config.of w order) σ ∧ ∃ s, Pact (Config.of w order) (fun _ => False) s σ :=
  pact_sched hr.rel ho (fun k g id ht hk ha hb => ht.elim) hs Sys.spares_nothing

/-- When no call is running, the groups that were not bypassed by batch attaches are complete. -/
theorem pact_fully {s0 : State V} (hr : Origin tr w s0) (ho : Enumerates w order)
    (hs : (Sys.init w n).Sched (Config.of w order) (Sys.considerate (Config.of w order)) σ) (hq : σ.Quiet) :
    Basics (Config.of w order) σ ∧ ∃ s, Rel σ.world s ∧
      FullyIn tr s0 s (Config.of w order) σ.Batched := by
  obtain ⟨hb, s', hd'⟩ := pact_sched hr.rel ho
    (T := fun k => Synced tr s0 k ∧ ∀ g, (Config.of w order).groups[k]? = some g → ¬ σ.Batched g.a ∧ ¬ σ.Batched g.b)
    (fun k g id ht hk ha hb => disc_start hr k g id ht.1 hk ha hb) hs (by
      refine ⟨fun th hth c hc => (by rw [hq th hth] at hc; cases hc), fun x hx => ?_⟩
      obtain ⟨i, c, r⟩ := x
      cases c with
      | createMany m bs =>
        rintro ⟨t, vs⟩ hb k g ht hk
        have hB : σ.Batched t := ⟨i, _, r, vs, hx, hb⟩
        have := ht.2 g hk
        simp only [Shape.touches, Bool.or_eq_false_iff, beq_eq_false_iff_ne]
        exact ⟨fun e => this.1 (e ▸ hB), fun e => this.2 (e ▸ hB)⟩
      | fill x y bs =>
        rintro ⟨t, vs⟩ hb k g ht hk
        have hB : σ.Batched t := ⟨i, _, r, vs, hx, hb⟩
        have := ht.2 g hk
        simp only [Shape.touches, Bool.or_eq_false_iff, beq_eq_false_iff_ne]
        exact ⟨fun e => this.1 (e ▸ hB), fun e => this.2 (e ▸ hB)⟩
      | _ => trivial)
  refine ⟨hb, s', hd'.rel, fun k g id ht hk h1 h2 h3 h4 => ?_⟩
  exact hd'.quiet hq k g id ⟨ht, fun g' hk' => (by rw [hk] at hk'; cases hk'; exact ⟨h1, h2⟩)⟩ hk h3 h4

/-- The types of which batches have been attached. -/
def Sys.batchedTypes (σ : Sys V) : List TypeId := σ.log.flatMap fun x => x.2.1.batches.map Prod.fst

theorem unbatched_of {q : Query}
    (h : Parts (fun _ => True) (fun _ a b => a ∉ σ.batchedTypes ∧ b ∉ σ.batchedTypes) q) : σ.Unbatched q := by
  have key : ∀ t, σ.Batched t → t ∈ σ.batchedTypes := by
    rintro t ⟨i, c, r, vs, h1, h2⟩
    rw [Sys.batchedTypes, List.mem_flatMap]
    exact ⟨_, h1, List.mem_map.2 ⟨_, h2, rfl⟩⟩
  exact Parts.imp (fun _ h => h) (fun _ a b h => ⟨fun h' => h.1 (key a h'), fun h' => h.2 (key b h')⟩) q h

/-! ### C65 -/

/-- **C65.** After any allowed history the world is shared by any number of considerate clients
(`Sys.considerate`: any number of threads may attach and detach components of one entity at the same time, unless one
of them detaches a type of a group while another attaches a type of the same group). At every moment of
every schedule a query on an owning group succeeds, yields no entity twice, and every entity it yields has both
components, with the values shown. -/
theorem C65_sound (h : Mixed tr w) (ho : Enumerates w order)
    (hs : (Sys.init w n).Sched (Config.of w order) (Sys.considerate (Config.of w order)) σ) {k : Kind} {ma mb : Mode}
    {a b : TypeId} (hk : k ≠ .non) (hg : madeGroup (ofKind k) a b tr = true) :
    ∃ l, Yields σ.world (.group k ma mb a b) l ∧ (l.map Prod.fst).Nodup ∧
      ∀ x ∈ l, bothOf (σ.world.value a x.1) (σ.world.value b x.1) = some x.2 := by
  obtain ⟨h1, h2, h3⟩ := h.made_registered hg
  obtain ⟨s0, hr⟩ := h.origin
  obtain ⟨hb, s, hd⟩ := pact_considerate hr ho hs
  obtain ⟨l, l1, l2⟩ := rel_lists hd.rel.core (rel_defined hr ho hb hd.rel (q := .group k ma mb a b) ⟨h1, h2, hg⟩)
    (fun e => absurd e hk) (group_conflictless (.inl (h3 (by cases k <;> simp_all [ofKind]))))
  exact ⟨l, l1, l2.1, fun x hx => state_pair hd.rel ((l2.2 x.1 x.2).1 hx)⟩

/-- **C65.** When all calls of considerate clients have returned, every query on plain components and owning groups
(not bypassed by batch attaches, neither before nor by calls that create ranges of entities) yields exactly the entities that match it, each once, with their values. -/
theorem C65_complete (h : Mixed tr w) (ho : Enumerates w order)
    (hs : (Sys.init w n).Sched (Config.of w order) (Sys.considerate (Config.of w order)) σ) (hq : σ.Quiet) {q : Query}
    (he : Exists tr q) (hk : Parts (fun _ => True) (fun k _ _ => k ≠ .non) q) (hb : Unbatched tr q) (hb' : σ.Unbatched q)
    (hc : q.Conflictless) : ∃ l, Yields σ.world q l ∧ Lists l (q.answer σ.world.value) := by
  obtain ⟨s0, hr⟩ := h.origin
  obtain ⟨hba, s, hrel, hfull⟩ := pact_fully hr ho hs hq
  have hf : s.FreshIn q := (freshIn_iff q).2 (Parts.imp (fun _ h => h) (fun k a b h e => absurd e h) q hk)
  obtain ⟨l, l1, l2⟩ := rel_lists hrel.core (rel_defined hr ho hba hrel he) hf hc
  exact ⟨l, l1, l2.1, fun id x => by rw [l2.2, rel_answer hr ho hba hrel hfull he hb hb']⟩

/-- **C65.** For considerate clients, queries that name no group are exact at every moment of every schedule, also in
the middle of other threads' calls. -/
theorem C65_plain (h : Mixed tr w) (ho : Enumerates w order)
    (hs : (Sys.init w n).Sched (Config.of w order) (Sys.considerate (Config.of w order)) σ) {q : Query}
    (he : Exists tr q) (hk : q.Groupless) (hc : q.Conflictless) :
    ∃ l, Yields σ.world q l ∧ Lists l (q.answer σ.world.value) := by
  obtain ⟨s0, hr⟩ := h.origin
  obtain ⟨hba, s, hd⟩ := pact_considerate hr ho hs
  have key : ∀ {P : Kind → TypeId → TypeId → Prop}, Parts (fun _ => True) P q := groupless_parts hk
  obtain ⟨l, l1, l2⟩ := rel_lists hd.rel.core (rel_defined hr ho hba hd.rel he) ((freshIn_iff q).2 key) hc
  refine ⟨l, l1, l2.1, fun id x => ?_⟩
  rw [l2.2, (state_answer q id key).2, show (σ.world.value) = s.get from funext fun t => funext fun e => value_eq hd.rel t e]

/-- **C65.** Among considerate clients no attach panics: a call that attaches, reads and writes through a handle, with
types that are registered, returns normally (if it returns). -/
theorem C65_returns (h : Mixed tr w) (ho : Enumerates w order)
    (hs : (Sys.init w n).Sched (Config.of w order) (Sys.considerate (Config.of w order)) σ) {i : Nat} {c : ApiCall V}
    (hc : c.soft = true) (hp : c.proper (Config.of w order) = true) {r : Option (List (Ret V))}
    (hl : (i, c, r) ∈ σ.log) : r ≠ none := by
  obtain ⟨s0, hr⟩ := h.origin
  obtain ⟨_, s, hd⟩ := pact_considerate hr ho hs
  rintro rfl
  exact hd.log i c hl ⟨hc, hp⟩

theorem considerate_of {cfg : Config} {σ : Sys V} (hf : ∀ id, ¬ σ.Filling id) {i : Nat} {c : ApiCall V}
    (h : σ.disciplined cfg i c) : σ.considerate cfg i c := by
  have nocut : ∀ (g : Shape) (id : EntityId) (ops : List (HOp V)), (ApiCall.on id ops).soft = true → g.cutBy ops = false := by
    intro g id ops h
    simp only [ApiCall.soft, List.all_eq_true] at h
    simp only [Shape.cutBy, List.any_eq_false]
    intro o ho
    have := h o ho
    cases o <;> simp_all
  cases c with
  | on id ops =>
    refine ⟨h.1, hf id, fun th hth hsub => ?_⟩
    rcases h.2 with h2 | ⟨h2, h3⟩
    · exact absurd hsub (h2 th hth)
    · have h4 := h3 th hth hsub
      cases hc : th.call with
      | none => rw [hc] at h4; cases h4
      | some c' =>
        rw [hc] at h4
        simp only [Option.map_some, Option.some.injEq] at h4
        cases c' with
        | on id' ops' =>
          refine ⟨_, ops', rfl, rfl, ?_⟩
          rintro ⟨g, _, ⟨h5, _⟩ | ⟨_, h5⟩⟩
          · rw [nocut g id ops h2] at h5; cases h5
          · rw [nocut g id' ops' h4] at h5; cases h5
        | _ => cases h4
  | remove id => exact ⟨h.1, hf id, h.2⟩
  | createMany m bs =>
    have h : bs = [] := h
    subst h
    exact List.nodup_nil
  | fill x y bs => exact False.elim h
  | _ => exact h

theorem Prog.Quiet.fills {cfg : Config} {T : Nat → Prop} : ∀ {p : Prog V}, Quiet cfg T p → p.fills = none
  | .done _, _ => rfl
  | .panic, _ => rfl
  | .acq _ _ p, h => Quiet.fills (p := p) h
  | .rel _ _ p, h => Quiet.fills (p := p) h
  | .act a f, h => by
    rcases h with ⟨h, _⟩ | ⟨n, rfl, _⟩ | ⟨rfl, _⟩
    · cases a <;> first | rfl | cases h
    · rfl
    · rfl

theorem Prog.Gentle.fills {cfg : Config} {id : Nat} {b : Bool} : ∀ {p : Prog V}, Gentle cfg id b p → p.fills = none
  | .done _, _ => rfl
  | .panic, _ => rfl
  | .acq _ _ p, h => Gentle.fills (p := p) h
  | .rel _ _ p, h => Gentle.fills (p := p) h
  | .act a f, h => by cases a <;> first | rfl | exact False.elim h

/-- **C65.** The clients of C39 -- each entity is worked on by one thread, or by several that only attach, and ranges of
entities are created without components -- are considerate. -/
theorem C65_generalises (h : Mixed tr w) (ho : Enumerates w order)
    (hs : (Sys.init w n).Sched (Config.of w order) (Sys.disciplined (Config.of w order)) σ) :
    (Sys.init w n).Sched (Config.of w order) (Sys.considerate (Config.of w order)) σ := by
  obtain ⟨s0, hr⟩ := h.origin
  induction hs with
  | refl => exact .refl
  | step h1 h2 ih =>
    refine .step ih (h2.mono_at fun i c => considerate_of fun id => ?_)
    obtain ⟨_, cl, s, hd⟩ := disc_sched hr.rel ho (T := fun _ => False) (fun k g id ht => ht.elim) h1
    rintro ⟨th, hth, a, b, h3, _⟩
    obtain ⟨j, hj⟩ := List.getElem?_of_mem hth
    have hok := hd.ok j th hj
    have : th.prog.fills = none := by
      rcases hc : cl j with _ | ⟨e, _ | _⟩
      · rw [hc] at hok; exact hok.1.fills
      · rw [hc] at hok
        obtain ⟨_, _, _, _, _, h4⟩ := hok
        exact h4.fills
      · rw [hc] at hok; exact hok.2.2.2.fills
    rw [this] at h3; cases h3

namespace Demo

theorem disciplinedb_kind (cfg : Config) (σ : Sys Nat) (i : Nat) (c : ApiCall Nat) (h : disciplinedb cfg σ i c = true) :
    σ.considerate cfg i c := by
  have key : (σ.threads.all fun th => th.prog.fills.isNone) = true → ∀ id, ¬ σ.Filling id := by
    rintro h id ⟨th, hth, a, b, h1, _⟩
    have := (List.all_eq_true.1 h) th hth
    rw [h1] at this; cases this
  cases c with
  | on id ops =>
    have h0 := h
    simp only [disciplinedb, Bool.and_eq_true] at h
    exact considerate_of (key h.1) (disciplinedb_ok cfg σ i _ h0)
  | remove id =>
    have h0 := h
    simp only [disciplinedb, Bool.and_eq_true] at h
    exact considerate_of (key h.1) (disciplinedb_ok cfg σ i _ h0)
  | createMany m bs =>
    have : bs = [] := by simpa [disciplinedb] using h
    subst this
    exact List.nodup_nil
  | fill x y bs => cases h
  | _ => trivial

theorem busyMid_kind : (Sys.init groupW 3).Sched groupCfg (Sys.considerate groupCfg) busyMid :=
  performed (disciplinedb_kind groupCfg) busyMid_go
theorem busyEnd_kind : (Sys.init groupW 3).Sched groupCfg (Sys.considerate groupCfg) busyEnd :=
  performed (disciplinedb_kind groupCfg) busyEnd_go

end Demo

/-! ### Three threads at work on one entity -/

namespace Demo

/-- Thread 0 has taken entity 5 out of the group of 1 and 2, to detach 1; thread 1 detaches 2 from the same entity and
attaches 3; thread 2 has stored component 4 but not looked at the groups; thread 3 queries. -/
def kindChoices : List (Choice Nat) :=
  [.start 0 (.on 5 [.detach 1]), .start 1 (.on 5 [.detach 2, .attach 3 53]), .start 2 (.on 5 [.attach 4 54]),
   .start 3 (.query (.group .part .ref .ref 1 2))] ++ goes 0 13 ++ goes 2 5 ++ goes 1 32 ++ goes 3 12
/-- The same, to the end. -/
def kindAll : List (Choice Nat) := kindChoices ++ goes 2 13 ++ goes 0 5

theorem kindMid_go : ((Sys.init groupW 4).performAll groupCfg (considerateb groupCfg) kindChoices).isSome = true := by
  decide +kernel
theorem kindEnd_go : ((Sys.init groupW 4).performAll groupCfg (considerateb groupCfg) kindAll).isSome = true := by
  decide +kernel
/-- In the middle. -/
def kindMid : Sys Nat := ((Sys.init groupW 4).performAll groupCfg (considerateb groupCfg) kindChoices).get kindMid_go
/-- At the end. -/
def kindEnd : Sys Nat := ((Sys.init groupW 4).performAll groupCfg (considerateb groupCfg) kindAll).get kindEnd_go

theorem kindMid_sched : (Sys.init groupW 4).Sched groupCfg (Sys.considerate groupCfg) kindMid :=
  performed (considerateb_ok groupCfg) kindMid_go
theorem kindEnd_sched : (Sys.init groupW 4).Sched groupCfg (Sys.considerate groupCfg) kindEnd :=
  performed (considerateb_ok groupCfg) kindEnd_go
theorem kindEnd_quiet : kindEnd.Quiet := by unfold Sys.Quiet; decide +kernel

end Demo

/-- Two threads are still at work on entity 5, a third one has finished. -/
example : Demo.kindMid.threads.map Thread.subject = [some 5, none, some 5, none] ∧
    Demo.kindMid.world.value 1 5 = some 51 ∧ Demo.kindMid.world.value 2 5 = none ∧
    Demo.kindMid.world.value 3 5 = some 53 ∧ Demo.kindMid.world.value 4 5 = some 54 := by decide +kernel
example : ∃ l, Yields Demo.kindMid.world (.group .part .ref .ref 1 2) l ∧ (l.map Prod.fst).Nodup ∧
      ∀ x ∈ l, bothOf (Demo.kindMid.world.value 1 x.1) (Demo.kindMid.world.value 2 x.1) = some x.2 :=
  C65_sound (.of_trace Demo.groupTrace) Demo.groupEnumerates Demo.kindMid_sched (k := .part) (by simp) (by decide +kernel)
example : ∃ l, Yields Demo.kindMid.world (.with2 (.comp .ref 3) (.comp .mut 4)) l ∧ (5, .pair (.leaf 53) (.leaf 54)) ∈ l := by
  obtain ⟨l, h1, h2⟩ := C65_plain (.of_trace Demo.groupTrace) Demo.groupEnumerates Demo.kindMid_sched
    (q := .with2 (.comp .ref 3) (.comp .mut 4)) (by decide +kernel) (by decide +kernel) (by decide +kernel)
  exact ⟨l, h1, (h2.2 5 _).2 (by decide +kernel)⟩
/-- At the end entity 5 is in the group no more, and entity 1 still is. -/
example : ∃ l, Yields Demo.kindEnd.world (.group .part .ref .mut 1 2) l ∧ (1, .pair (.leaf 11) (.leaf 12)) ∈ l ∧
    ∀ x, (5, x) ∉ l := by
  obtain ⟨l, h1, h2⟩ := C65_complete (.of_trace Demo.groupTrace) Demo.groupEnumerates Demo.kindEnd_sched Demo.kindEnd_quiet
    (q := .group .part .ref .mut 1 2) (by decide +kernel) (by simp [Parts]) (by decide +kernel)
    (unbatched_of (by simp only [Parts]; decide +kernel)) (by decide +kernel)
  refine ⟨l, h1, (h2.2 1 _).2 (by decide +kernel), fun x hx => ?_⟩
  have := (h2.2 5 x).1 hx
  rw [show (Query.group .part .ref .mut 1 2).answer Demo.kindEnd.world.value 5 = none by decide +kernel] at this
  cases this
example : ∃ r, (2, ApiCall.on 5 [.attach 4 54], r) ∈ Demo.kindEnd.log ∧ r ≠ none := by
  have h : (2, ApiCall.on 5 [.attach 4 54], some [Ret.unit]) ∈ Demo.kindEnd.log := by decide +kernel
  exact ⟨_, h, C65_returns (.of_trace Demo.groupTrace) Demo.groupEnumerates Demo.kindEnd_sched rfl (by decide +kernel) h⟩
/-- The second thread's call is not allowed by the discipline of C39, which lets one thread at a time detach. -/
example : ¬ Demo.kindMid.disciplined Demo.groupCfg 1 (.on 5 [.detach 2]) := by
  rintro ⟨_, h | ⟨h, _⟩⟩
  · have : ∃ th ∈ Demo.kindMid.threads, th.subject = some 5 := by decide +kernel
    obtain ⟨th, h1, h2⟩ := this
    exact h th h1 h2
  · cases h

/-! ### A range of entities is created with its components -/

namespace Demo

/-- Thread 0 creates two entities and has attached the first of two batches of components to them; thread 1 has stored
component 3 of entity 1; thread 2 has asked for everything with component 3. -/
def pourChoices : List (Choice Nat) :=
  [.start 0 (.createMany 2 [(3, [63, 73]), (4, [64, 74])]), .start 1 (.on 1 [.attach 3 13])] ++ goes 0 7 ++ goes 1 6 ++
   [.start 2 (.query (.comp .ref 3))] ++ goes 2 4
/-- The same, to the end. -/
def pourAll : List (Choice Nat) := pourChoices ++ goes 0 5 ++ goes 1 12

theorem pourMid_go : ((Sys.init groupW 3).performAll groupCfg (considerateb groupCfg) pourChoices).isSome = true := by
  decide +kernel
theorem pourEnd_go : ((Sys.init groupW 3).performAll groupCfg (considerateb groupCfg) pourAll).isSome = true := by
  decide +kernel
/-- In the middle. -/
def pourMid : Sys Nat := ((Sys.init groupW 3).performAll groupCfg (considerateb groupCfg) pourChoices).get pourMid_go
/-- At the end. -/
def pourEnd : Sys Nat := ((Sys.init groupW 3).performAll groupCfg (considerateb groupCfg) pourAll).get pourEnd_go

theorem pourMid_sched : (Sys.init groupW 3).Sched groupCfg (Sys.considerate groupCfg) pourMid :=
  performed (considerateb_ok groupCfg) pourMid_go
theorem pourEnd_sched : (Sys.init groupW 3).Sched groupCfg (Sys.considerate groupCfg) pourEnd :=
  performed (considerateb_ok groupCfg) pourEnd_go
theorem pourEnd_quiet : pourEnd.Quiet := by unfold Sys.Quiet; decide +kernel

end Demo

/-- The entities have been created, the first batch of components is there, the second one is not, and another thread
works on entity 1. -/
example : Demo.pourMid.threads.map (fun th => th.prog.fills) = [some (6, 8), none, none] ∧
    Demo.pourMid.threads.map Thread.subject = [none, some 1, none] ∧
    Demo.pourMid.world.value 3 6 = some 63 ∧ Demo.pourMid.world.value 4 6 = none ∧
    Demo.pourMid.world.value 3 7 = some 73 ∧ Demo.pourMid.world.value 3 1 = some 13 := by decide +kernel
example : ∃ l, Yields Demo.pourMid.world (.comp .ref 3) l ∧ (7, .leaf 73) ∈ l ∧ (1, .leaf 13) ∈ l := by
  obtain ⟨l, h1, h2⟩ := C65_plain (.of_trace Demo.groupTrace) Demo.groupEnumerates Demo.pourMid_sched
    (q := .comp .ref 3) (by decide +kernel) (by decide +kernel) (by decide +kernel)
  exact ⟨l, h1, (h2.2 7 _).2 (by decide +kernel), (h2.2 1 _).2 (by decide +kernel)⟩
example : ∃ l, Yields Demo.pourMid.world (.group .part .ref .ref 1 2) l ∧ (l.map Prod.fst).Nodup ∧
      ∀ x ∈ l, bothOf (Demo.pourMid.world.value 1 x.1) (Demo.pourMid.world.value 2 x.1) = some x.2 :=
  C65_sound (.of_trace Demo.groupTrace) Demo.groupEnumerates Demo.pourMid_sched (k := .part) (by simp) (by decide +kernel)
/-- At the end all components are there, and queries on groups over other types are exact. -/
example : ∃ l, Yields Demo.pourEnd.world (.with2 (.comp .ref 4) (.group .part .ref .mut 1 2)) l ∧ l = [] := by
  obtain ⟨l, h1, h2⟩ := C65_complete (.of_trace Demo.groupTrace) Demo.groupEnumerates Demo.pourEnd_sched Demo.pourEnd_quiet
    (q := .with2 (.comp .ref 4) (.group .part .ref .mut 1 2)) (by decide +kernel) (by simp [Parts]) (by decide +kernel)
    (unbatched_of (by simp only [Parts]; decide +kernel)) (by decide +kernel)
  refine ⟨l, h1, ?_⟩
  have h3 : Yields Demo.pourEnd.world (.with2 (.comp .ref 4) (.group .part .ref .mut 1 2)) [] := by
    unfold Yields; decide +kernel
  have := h1.symm.trans h3
  simpa using this
example : Demo.pourEnd.world.value 4 7 = some 74 ∧ Demo.pourEnd.world.value 3 6 = some 63 ∧
    Demo.pourEnd.log.map (fun x => x.2.2) = [some [.unit], some [.range 6 8],
      some [.items [(4, some (.leaf 99)), (2, some (.leaf 23)), (6, some (.leaf 63)), (7, some (.leaf 73)), (1, some (.leaf 13))]]] := by
  decide +kernel
/-- Nobody may attach to the new entities before they have all their components. -/
example : ¬ Demo.pourMid.considerate Demo.groupCfg 2 (.on 6 [.attach 4 10]) := by
  rintro ⟨_, h, _⟩
  have : Demo.fillingb Demo.pourMid 6 = true := by decide +kernel
  rw [Demo.fillingb, List.any_eq_true] at this
  obtain ⟨th, h1, h2⟩ := this
  split at h2
  · rename_i a b h3
    simp only [Bool.and_eq_true, decide_eq_true_eq] at h2
    exact h ⟨th, h1, a, b, h3, h2⟩
  · cases h2

/-! ### Entities that exist already get one more batch of components -/

namespace Demo

/-- Thread 0 has created entities 6 and 7 with component 3; then it starts to attach a batch of component 4 and one of
component 1 to them, while thread 1 attaches component 3 to entity 1. -/
def topupChoices : List (Choice Nat) :=
  [.start 0 (.createMany 2 [(3, [63, 73])])] ++ goes 0 9 ++
   [.start 1 (.on 1 [.attach 3 13]), .start 0 (.fill 6 8 [(4, [64, 74]), (1, [61, 71])])] ++ goes 0 4 ++ goes 1 6
theorem topup_go : ((Sys.init groupW 3).performAll groupCfg (considerateb groupCfg) topupChoices).isSome = true := by
  decide +kernel
/-- One of the two batches is there. -/
def topup : Sys Nat := ((Sys.init groupW 3).performAll groupCfg (considerateb groupCfg) topupChoices).get topup_go
theorem topup_sched : (Sys.init groupW 3).Sched groupCfg (Sys.considerate groupCfg) topup :=
  performed (considerateb_ok groupCfg) topup_go

end Demo

example : Demo.topup.threads.map (fun th => th.prog.fills) = [some (6, 8), none, none] ∧
    Demo.topup.world.value 4 7 = some 74 ∧ Demo.topup.world.value 1 7 = none ∧ Demo.topup.world.value 3 1 = some 13 := by
  decide +kernel
example : ∃ l, Yields Demo.topup.world (.with2 (.comp .ref 3) (.comp .ref 4)) l ∧ (7, .pair (.leaf 73) (.leaf 74)) ∈ l := by
  obtain ⟨l, h1, h2⟩ := C65_plain (.of_trace Demo.groupTrace) Demo.groupEnumerates Demo.topup_sched
    (q := .with2 (.comp .ref 3) (.comp .ref 4)) (by decide +kernel) (by decide +kernel) (by decide +kernel)
  exact ⟨l, h1, (h2.2 7 _).2 (by decide +kernel)⟩
/-- Nobody may attach a second batch of component 4 to the range. -/
example : ¬ Demo.topup.considerate Demo.groupCfg 2 (.fill 6 8 [(4, [1, 2])]) := by
  rintro ⟨_, _, h⟩
  have := (h 6 (by decide) (by decide)).2.2.2 (4, [1, 2]) (by simp)
  exact absurd this (by decide +kernel)

/-! ### The condition cannot be dropped -/

namespace Demo

/-- Only `detach::<1>` and `attach::<2>` on entity 1, alive. -/
def pairb : Sys Nat → Nat → ApiCall Nat → Bool := fun σ _ c =>
  match c with
  | .on id [.detach 1] => id == 1 && σ.world.em.entities.contains 1
  | .on id [.attach 2 12] => id == 1 && σ.world.em.entities.contains 1
  | _ => false

theorem rude_go : ((Sys.init raceW 2).performAll (Config.of raceW [1, 2]) pairb race).isSome = true := by decide +kernel
/-- When both calls have returned. -/
def rude : Sys Nat := ((Sys.init raceW 2).performAll (Config.of raceW [1, 2]) pairb race).get rude_go

theorem pairb_ok : ∀ (σ : Sys Nat) i c, pairb σ i c = true →
    1 ∈ σ.world.em.entities ∧ (c = .on 1 [.detach 1] ∨ c = .on 1 [.attach 2 12]) := by
  intro σ i c h
  unfold pairb at h
  split at h <;> simp_all

end Demo

/-- **C65.** The condition cannot be weakened to allow two threads to work on one entity of which one detaches a type
of a group and the other attaches a type of the same group: clients that call nothing but `detach::<1>` and
`attach::<2>` on one entity alive break the group of 1 and 2. All calls have returned normally, and its query yields an
entity that lacks a component. -/
theorem C65_sharp :
    Conflicting (Config.of Demo.raceW [1, 2]) [HOp.detach 1] [HOp.attach 2 12] ∧
    (Sys.init Demo.raceW 2).Sched (Config.of Demo.raceW [1, 2]) (fun σ _ c =>
      1 ∈ σ.world.em.entities ∧ (c = .on 1 [.detach 1] ∨ c = .on 1 [.attach 2 12])) Demo.rude ∧
    Demo.rude.Quiet ∧ (∀ x ∈ Demo.rude.log, x.2.2 ≠ none) ∧
    ∃ id v, Yields Demo.rude.world (.group .full .ref .ref 1 2) [(id, v)] ∧
      bothOf (Demo.rude.world.value 1 id) (Demo.rude.world.value 2 id) ≠ some v := by
  refine ⟨?_, performed Demo.pairb_ok Demo.rude_go, by unfold Sys.Quiet; decide +kernel, by decide +kernel,
    2, .pair (.leaf 21) (.leaf 12), by unfold Yields; decide +kernel, by decide +kernel⟩
  exact ⟨⟨.full, 1, 2⟩, by decide +kernel, .inl (by decide +kernel)⟩

namespace Demo

/-- Only creating two entities with components 3 and 4, and attaching 4 to an entity alive. -/
def hastyb : Sys Nat → Nat → ApiCall Nat → Bool := fun σ _ c =>
  match c with
  | .createMany 2 bs => bs == [(3, [63, 73]), (4, [64, 74])]
  | .on id [.attach 4 10] => σ.world.em.entities.contains id
  | _ => false

theorem hastyb_ok : ∀ (σ : Sys Nat) i c, hastyb σ i c = true →
    c = .createMany 2 [(3, [63, 73]), (4, [64, 74])] ∨ ∃ id ∈ σ.world.em.entities, c = .on id [.attach 4 10] := by
  intro σ i c h
  unfold hastyb at h
  split at h <;> simp_all

/-- The component is attached between the two batches. -/
def hastyChoices : List (Choice Nat) :=
  [.start 0 (.createMany 2 [(3, [63, 73]), (4, [64, 74])])] ++ goes 0 7 ++ [.start 1 (.on 6 [.attach 4 10])] ++ goes 1 18 ++
    goes 0 5
theorem hasty_go : ((Sys.init groupW 2).performAll groupCfg hastyb hastyChoices).isSome = true := by decide +kernel
/-- When both calls have returned. -/
def hasty : Sys Nat := ((Sys.init groupW 2).performAll groupCfg hastyb hastyChoices).get hasty_go

end Demo

/-- **C65.** Nor can one allow a thread to attach a component to one of the entities that another thread has created and
is still attaching batches of components to: the entity ends up in the storage twice, and a query on the one
component yields it twice, although all calls have returned normally. -/
theorem C65_sharp_filling :
    (Sys.init Demo.groupW 2).Sched Demo.groupCfg (fun σ _ c =>
      c = .createMany 2 [(3, [63, 73]), (4, [64, 74])] ∨ ∃ id ∈ σ.world.em.entities, c = .on id [.attach 4 10]) Demo.hasty ∧
    Demo.hasty.Quiet ∧ (∀ x ∈ Demo.hasty.log, x.2.2 ≠ none) ∧
    ∃ l, Yields Demo.hasty.world (.comp .ref 4) l ∧ ¬ (l.map Prod.fst).Nodup := by
  refine ⟨performed Demo.hastyb_ok Demo.hasty_go, by unfold Sys.Quiet; decide +kernel, by decide +kernel,
    [(4, .leaf 44), (2, .leaf 24), (6, .leaf 10), (6, .leaf 64), (7, .leaf 74)], by unfold Yields; decide +kernel,
    by decide +kernel⟩

end Xecs
