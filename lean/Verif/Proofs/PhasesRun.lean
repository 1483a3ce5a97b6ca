import Verif.Proofs.PhasesStep
/-
A shared phase of considerate clients with the accompanying sequential history.
-/
set_option autoImplicit false
namespace Xecs
open Spec World
variable {V : Type}

section
variable {cfg : Config} {T : Nat → Prop}

theorem Echo.start {s g : State V} {σ : Sys V} (hd : Pact cfg T s σ) (hb : Basics cfg σ)
    (h : Echo cfg s g σ) {i : Nat} {th : Thread V} {c : ApiCall V} (hi : σ.threads[i]? = some th) (hc : th.call = none)
    (hmay : Sys.considerate cfg σ i c) :
    Echo cfg s g (σ.setThread i { call := some c, prog := c.prog cfg, held := [], subject := c.subject }) := by
  have hr := groupsReg hd.rel.core hb.mat
  have hsub : th.subject = none := by
    rw [hb.idle th (List.mem_of_getElem? hi) hc]; rfl
  have hthr : ∀ (th' : Thread V) (j : Nat), (σ.setThread i th').threads[j]? = if j = i then some th' else σ.threads[j]? :=
    fun th' j => setThread_threads σ i th' j hi
  have quiet : (c.prog cfg).Open cfg → c.subject = none →
      Echo cfg s g (σ.setThread i { call := some c, prog := c.prog cfg, held := [], subject := c.subject }) :=
    fun h1 h2 => h.idle hi (hthr _) hsub h2 h1
  have alone : ∀ id, c.subject = some id → σ.NoneOn id → c.chain = none →
      (c.prog cfg).Serial cfg id (fun t => s.has t id) (fun k => memAt s k id) (fun t => s.has t id) (fun k => memAt s k id) →
      Echo cfg s g (σ.setThread i { call := some c, prog := c.prog cfg, held := [], subject := c.subject }) := by
    intro id h1 hn h2 h3
    have hno : ∀ (j : Nat) (t : Thread V), σ.threads[j]? = some t → t.subject ≠ some id :=
      fun j t hj => hn t (List.mem_of_getElem? hj)
    refine h.move hi (hthr _) (.inr hsub) (.inl h1) (e := id) (by show c.subject = none → _; rw [h1]; simp) h.base h.shapes h.vals
      (fun x _ => .refl s x) (fun x _ => .refl g x) ?_
    refine Track.one (hthr _) (fun j t _ hj => hno j t hj) h1 (by simp [Thread.OnChain, h2]) ?_
    obtain ⟨f1, f2⟩ := h.free hno
    have e3 : (fun t => g.has t id) = fun t => s.has t id := funext f1
    have e4 : (fun k => memAt g k id) = fun k => memAt s k id := funext f2
    rw [e3, e4]; exact h3
  cases c with
  | on id script =>
    obtain ⟨hlive, _, hpeace⟩ := hmay
    have hall : ∀ (j : Nat) (t : Thread V), σ.threads[j]? = some t → t.subject = some id → t.OnChain := by
      intro j t hj ht
      obtain ⟨c, ops', h1, h2, _⟩ := hpeace t (List.mem_of_getElem? hj) ht
      simp [Thread.OnChain, h1, h2]
    refine h.move hi (hthr _) (.inr hsub) (.inl rfl) (e := id) (by simp [ApiCall.subject]) h.base h.shapes h.vals
      (fun x _ => .refl s x) (fun x _ => .refl g x) ?_
    exact (h.ent id).enter (hthr _) hi hall (by rw [hsub]; simp) (by simp [Thread.OnChain, ApiCall.chain])
      (Prog.adds_handle hr script [] _)
  | remove id =>
    obtain ⟨hlive, _, hn, hrem⟩ := hmay
    refine alone id rfl hn rfl (Prog.serial_remove hr ?_)
    intro i j gi gj hij hgi hgj h1 h2 h3 h4
    refine hrem i j gi gj hij hgi hgj ?_
    rintro t (rfl | rfl | rfl | rfl) <;> rw [value_eq hd.rel] <;> assumption
  | create script => exact quiet (Prog.open_create hr script) rfl
  | _ => exact quiet (Prog.open_other (by simp) (by simp) (by simp)) rfl

/-- A call is over. -/
theorem Echo.over {s g : State V} {σ : Sys V} (hd : Pact cfg T s σ)
    (h : Echo cfg s g σ) {i : Nat} {th : Thread V} {c : ApiCall V} {r : Option (List (Ret V))} (hi : σ.threads[i]? = some th)
    (hp : th.prog = .panic ∨ ∃ rs, th.prog = .done rs) : Echo cfg s g (σ.finish i c r) := by
  have hthr : ∀ (j : Nat), (σ.finish i c r).threads[j]? = if j = i then some .idle else σ.threads[j]? :=
    fun j => setThread_threads σ i .idle j hi
  cases h1 : th.subject with
  | none => exact h.idle hi hthr h1 rfl trivial
  | some e =>
    refine h.move hi hthr (.inl h1) (.inr rfl) (fun _ => trivial) h.base h.shapes h.vals (fun x _ => .refl s x) (fun x _ => .refl g x) ?_
    by_cases h3 : th.OnChain
    · refine (h.ent e).leave hthr hi (hd.chains hi h1 h3) (by simp [Thread.idle]) fun k _ ho => ?_
      rcases hp with hp | ⟨rs, hp⟩ <;> rw [hp] at ho <;> rcases ho with ho | ⟨_, _, ho⟩ <;> exact ho
    · have hs := (h.ent e).hard i th hi h1 h3
      have : ((fun t => s.has t e) = fun t => g.has t e) ∧ (fun k => memAt s k e) = fun k => memAt g k e := by
        rcases hp with hp | ⟨rs, hp⟩ <;> rw [hp] at hs <;> exact hs
      exact Track.nobody hthr (hd.sole hi h1 h3) (by simp [Thread.idle]) this.1 this.2

/-- A piece of work. -/
theorem Echo.work {s g : State V} {σ σ' : Sys V} {u : World V} (hd : Pact cfg T s σ) (hb : Basics cfg σ)
    (hu : Rel u g) (h : Echo cfg s g σ) {i : Nat} {a : Act V} {r : Ret V} (hw : σ.Works i a r σ') :
    ∃ s' g', Rel σ'.world s' ∧ Follows cfg g (a.change cfg.order r) g' ∧ Echo cfg s' g' σ' ∧ (Crisp s g → Crisp s' g') := by
  obtain ⟨th, f, w, h1, h2, h3, rfl⟩ := hw
  cases hs : th.subject with
  | none => rw [← hs]; exact (h.work_none hd hb h1 h2 h3 hs).1 r rfl
  | some e =>
    rw [← hs]
    by_cases hc : th.OnChain
    · exact (h.work_chain hd hb hu h1 h2 h3 hs hc).1 r rfl
    · exact (h.work_alone hd hb hu h1 h2 h3 hs hc).1 r rfl

theorem Echo.step {s g : State V} {σ σ' : Sys V} {u : World V} (hd : Pact cfg T s σ) (hb : Basics cfg σ)
    (hu : Rel u g) (h : Echo cfg s g σ) {x : Option (Nat × Op V × Out V)} (hs : σ.Step cfg (Sys.considerate cfg) σ')
    (hm : σ.Makes cfg.order σ' x) :
    ∃ s' g', Rel σ'.world s' ∧ Follows cfg g (x.map Prod.snd) g' ∧ Echo cfg s' g' σ' ∧ (Crisp s g → Crisp s' g') := by
  cases x with
  | some x =>
    obtain ⟨i, x⟩ := x
    obtain ⟨a, r, hw, hx⟩ := hm
    have := h.work hd hb hu hw
    rw [hx] at this; exact this
  | none =>
    cases hs with
    | start h1 h2 h3 => exact ⟨s, g, hd.rel, rfl, h.start hd hb h1 h2 h3, fun h => h⟩
    | acq h1 h2 h3 =>
      refine ⟨s, g, hd.rel, rfl, h.calm h1 (fun j => setThread_threads σ _ _ j h1) rfl rfl ?_ ?_ ?_ ?_ h.base h.shapes h.vals
        (.refl s) (.refl g), fun h => h⟩
      · intro k e _ ho; rw [h2] at ho; exact ho
      · intro e A _ _ ha; rw [h2] at ha; exact ha
      · intro e _ _ ha; rw [h2] at ha; exact ha
      · intro _ ha; rw [h2] at ha; exact ha
    | rel h1 h2 =>
      refine ⟨s, g, hd.rel, rfl, h.calm h1 (fun j => setThread_threads σ _ _ j h1) rfl rfl ?_ ?_ ?_ ?_ h.base h.shapes h.vals
        (.refl s) (.refl g), fun h => h⟩
      · intro k e _ ho; rw [h2] at ho; exact ho
      · intro e A _ _ ha; rw [h2] at ha; exact ha
      · intro e _ _ ha; rw [h2] at ha; exact ha
      · intro _ ha; rw [h2] at ha; exact ha
    | act h1 h2 h3 =>
      rename_i i th a f w' r
      have hw : σ.Works i a r _ := ⟨th, f, w', h1, h2, h3, rfl⟩
      have := h.work hd hb hu hw
      rw [hm i a r hw] at this; exact this
    | fault h1 h2 h3 h4 =>
      rename_i i th a f w e c
      have : ∃ s', Rel w s' ∧ Echo cfg s' g ({ σ with world := w }.finish i c none) ∧ (Crisp s g → Crisp s' g) := by
        cases hs : th.subject with
        | none => exact (h.work_none hd hb h1 h2 h3 hs).2 e c rfl h4
        | some id =>
          by_cases hc : th.OnChain
          · exact (h.work_chain hd hb hu h1 h2 h3 hs hc).2 e c rfl h4
          · exact (h.work_alone hd hb hu h1 h2 h3 hs hc).2 e c rfl h4
      obtain ⟨s', q1, q2⟩ := this
      exact ⟨s', g, q1, rfl, q2⟩
    | panic h1 h2 h3 => exact ⟨s, g, hd.rel, rfl, h.over hd h1 (.inl h2), fun h => h⟩
    | ret h1 h2 h3 => exact ⟨s, g, hd.rel, rfl, h.over hd h1 (.inr ⟨_, h2⟩), fun h => h⟩

/-- At the start. -/
theorem Echo.init {w : World V} {g : State V} (h : Rel w g.unfresh) {order : List Nat} (ho : Enumerates w order) (n : Nat) :
    Echo (Config.of w order) g.unfresh g (Sys.init w n) := by
  have hidle : ∀ (j : Nat) (th : Thread V), (Sys.init w n).threads[j]? = some th → th = .idle := by
    intro j th hj
    have := List.mem_of_getElem? hj
    rw [Sys.init, List.mem_replicate] at this
    exact this.2
  have hsh : g.unfresh.groups.map SGroup.shape = g.groups.map SGroup.shape := by
    simp only [State.unfresh, List.map_map]
    rfl
  refine ⟨⟨rfl, rfl, rfl, fun _ => rfl, rfl⟩, ?_, fun _ _ _ => rfl, fun e => ⟨fun _ => ⟨rfl, fun k hk => ?_, fun k hk => .inl ?_⟩, ?_, ?_⟩, ?_⟩
  · rw [← hsh, ← shapes_eq h.core]; rfl
  · rw [unfresh_mem] at hk; exact hk
  · rw [unfresh_mem]; exact hk
  · intro j th hj hs; rw [hidle j th hj] at hs; cases hs
  · intro j th hj hs; rw [hidle j th hj] at hs; cases hs
  · intro j th hj _; rw [hidle j th hj]; trivial

/-- The same pact, for another description of the same world. -/
theorem Pact.congr {s s' : State V} {σ : Sys V} (h : Pact cfg T s σ) (h' : Rel σ.world s') : Pact cfg T s' σ := by
  have hs := h.rel.unique h'
  obtain ⟨h1, h2, h3, h4, h5, _⟩ := unfresh_fields hs
  have hhas : ∀ t e, s'.has t e = s.has t e := by intro t e; simp only [State.has, State.get, h3]
  have hmem : ∀ k e, memAt s' k e = memAt s k e := by intro k e; rw [← unfresh_mem, ← hs, unfresh_mem]
  have ha : ∀ e, Alike s s' e := fun e => ⟨fun t => hhas t e, fun k => hmem k e, live_of h2.symm h1.symm e⟩
  refine ⟨h', fun i th hi => (h.ok i th hi).keep (.of_alike fun id _ => ha id), h.apart, h.claim, fun k g id ht hk a b => ?_, h.log⟩
  rw [hhas] at a b
  rw [hmem]; exact h.complete k g id ht hk a b

/-- When all calls are over, both agree. -/
theorem Echo.done {s g : State V} {σ : Sys V} (hd : Pact cfg T s σ) (hb : Basics cfg σ)
    (h : Echo cfg s g σ) (hq : σ.Quiet) : s.unfresh = g.unfresh := by
  have hno : ∀ e (j : Nat) (t : Thread V), σ.threads[j]? = some t → t.subject ≠ some e := by
    intro e j t hj
    have := hb.idle t (List.mem_of_getElem? hj) (hq t (List.mem_of_getElem? hj))
    rw [this]; simp [Thread.idle]
  have hhas : ∀ t e, g.has t e = s.has t e := fun t e => (h.free (hno e)).1 t
  refine unfresh_ext h.base.next.symm h.base.free.symm (fun t => (h.base.dom t).symm) (fun t e => ?_) (fun t => by rw [h.base.hw]) ?_ ?_
    fun t => by rw [h.base.res]
  · cases hh : s.has t e with
    | true => exact (h.vals t e hh).symm
    | false =>
      have h1 := hhas t e
      rw [hh] at h1
      simp only [State.has] at hh h1
      rw [Option.isSome_eq_false_iff, Option.isNone_iff_eq_none] at hh h1
      rw [hh, h1]
  · rw [← h.shapes, hb.mat.groups, shapes_eq hd.rel.core]
  · exact fun k e => ((h.free (hno e)).2 k).symm

end

/-- `s` is like `g`; it has the same non-owning groups up to date, as far as no group owns their types. -/
structure Apt (s g : State V) : Prop where
  same : s.unfresh = g.unfresh
  fresh : ∀ (k : Nat) gk, g.groups[k]? = some gk → gk.kind = .non → gk.fresh = true →
    (∀ (j : Nat) gj, g.groups[j]? = some gj → gj.owns gk.a = false ∧ gj.owns gk.b = false) →
    ∃ sk, s.groups[k]? = some sk ∧ sk.fresh = true

/-- There is a sequential history of the same calls and results whose state is that of `w`, including which non-owning
groups are up to date. -/
def Kin (tr : List (Op V × Out V)) (w : World V) : Prop := ∃ u g s, Trace tr u ∧ Run tr u g ∧ Rel w s ∧ Apt s g

/-- There is a sequential history of the same calls and results whose state is that of `w`. -/
def Like (tr : List (Op V × Out V)) (w : World V) : Prop := ∃ u g, Trace tr u ∧ Run tr u g ∧ Rel w g.unfresh

theorem Kin.like {tr : List (Op V × Out V)} {w : World V} (h : Kin tr w) : Like tr w := by
  obtain ⟨u, g, s, h1, h2, h3, h4⟩ := h
  exact ⟨u, g, h1, h2, h4.same ▸ h3.unfresh⟩

theorem phase_run {w : World V} {tr : List (Op V × Out V)} {u : World V} {g s0 : State V} (ht : Trace tr u) (hr : Run tr u g)
    (h : Rel w s0) (ha : Apt s0 g) {order : List Nat} (ho : Enumerates w order) {n : Nat} {l : List (Nat × Op V × Out V)} {σ : Sys V}
    (hl : (Sys.init w n).Record (Config.of w order) (Sys.considerate (Config.of w order)) l σ) :
    Basics (Config.of w order) σ ∧ ∃ s, Pact (Config.of w order) (fun _ => False) s σ ∧
      ∃ u' g', Trace (l.map Prod.snd ++ tr) u' ∧ Run (l.map Prod.snd ++ tr) u' g' ∧ Echo (Config.of w order) s g' σ ∧ Crisp s g' := by
  induction hl with
  | refl =>
    exact ⟨Basics.init ho n, _, Pact.init h ho (fun _ _ _ h => False.elim h) n, u, g, ht, hr,
      (Echo.init (ha.same ▸ h.unfresh) ho n).congr (by rw [← ha.same]; simp only [State.unfresh, List.map_map]; rfl),
      fun k gk h1 h2 h3 h4 => .inl (ha.fresh k gk h1 h2 h3 h4)⟩
  | step hrec hs hm ih =>
    rename_i l σ σ' x
    obtain ⟨hb, s, hd, u', g', ht', hr', he, hc⟩ := ih
    obtain ⟨s1, g1, h1, h2, h3, h4⟩ := he.step hd hb hr'.rel hs hm
    obtain ⟨s2, hd'⟩ := hd.step hb hs fun _ _ _ _ => ApiCall.spares_nothing
    have hc' := h4 hc
    refine ⟨hb.step hs, s1, hd'.congr h1, ?_⟩
    cases x with
    | none =>
      have : g1 = g' := h2
      subst this
      exact ⟨u', g1, ht', hr', h3, hc'⟩
    | some x =>
      obtain ⟨i, op, o⟩ := x
      obtain ⟨h4, h5⟩ := h2
      obtain ⟨u2, h6, h7⟩ := ghost_step ht' hr' he.shapes h4 h5
      exact ⟨u2, g1, h6, h7, h3, hc'⟩

theorem Kin.phase {w : World V} {tr : List (Op V × Out V)} (h : Kin tr w) {order : List Nat} (ho : Enumerates w order)
    {n : Nat} {l : List (Nat × Op V × Out V)} {σ : Sys V}
    (hl : (Sys.init w n).Record (Config.of w order) (Sys.considerate (Config.of w order)) l σ) (hq : σ.Quiet) :
    Kin (l.map Prod.snd ++ tr) σ.world := by
  obtain ⟨u, g, s0, ht, hr, hw, ha⟩ := h
  obtain ⟨hb, s, hd, u', g', ht', hr', he, hc⟩ := phase_run ht hr hw ha ho hl
  have hsame := he.done hd hb hq
  refine ⟨u', g', s, ht', hr', hd.rel, hsame, fun k gk h1 h2 h3 h4 => ?_⟩
  rcases hc k gk h1 h2 h3 h4 with h5 | ⟨t, e, _, h6, h7⟩
  · exact h5
  · rw [← unfresh_has, hsame, unfresh_has, h6] at h7; cases h7

end Xecs
