import Verif.Proofs.Linear
import Verif.Proofs.ConsiderateStep
/-
Schedules are executions of the idealised world.
-/
set_option autoImplicit false
namespace Xecs
open Spec World
variable {V : Type}

/-- The state of a shared world corresponds to a state of the idealised world. -/
structure Lin (life : Prop) (cfg : Config) (a0 : Shared V) (h : List (Event V)) (ph : Nat → Phase V) (σ : Sys V) :
    Prop where
  atomic : Atomic life a0 h ph σ.world.shared
  fit : Fit σ.world
  runs : ∀ i, (ph i).call = σ.running i
  prog : ∀ (i : Nat) (th : Thread V), σ.threads[i]? = some th → th.call ≠ none → th.prog.Follows life cfg (ph i)
  subj : ∀ (i : Nat) (th : Thread V) (c : ApiCall V), σ.threads[i]? = some th → ph i = .called c → th.subject = c.subject

section
variable {life : Prop} {cfg : Config}

theorem Lin.call {a0 : Shared V} {h : List (Event V)} {ph : Nat → Phase V} {σ : Sys V} (hl : Lin life cfg a0 h ph σ)
    (i : Nat) (th : Thread V) (hi : σ.threads[i]? = some th) : (ph i).call = th.call := by
  rw [hl.runs, Sys.running, hi]; rfl

theorem running_set {σ σ' : Sys V} {i : Nat} {th' : Thread V}
    (hth : ∀ (j : Nat), σ'.threads[j]? = if j = i then some th' else σ.threads[j]?) (j : Nat) :
    σ'.running j = if j = i then th'.call else σ.running j := by
  simp only [Sys.running, hth]
  split <;> rfl

theorem Atomic.skips {a0 a : Shared V} {h : List (Event V)} (hs : Suits cfg a) {i : Nat} {p p' : Phase V}
    (hk : Skips cfg p p') : ∀ {ph : Nat → Phase V}, Atomic life a0 h ph a → ph i = p →
      Atomic life a0 h (fun j => if j = i then p' else ph j) a := by
  induction hk with
  | refl =>
    rename_i p
    intro ph hh hp
    have : (fun j => if j = i then p else ph j) = ph := by
      funext j
      split
      · next hj => subst hj; exact hp.symm
      · rfl
    rw [this]; exact hh
  | step h1 hrest ih =>
    rename_i p0 p1 p2
    intro ph hh hp
    have h2 := Atomic.point (i := i) (p := p1) hh (by rw [hp]; exact h1.point hs life)
    have := ih h2 (by simp)
    have he : (fun j => if j = i then p2 else if j = i then p1 else ph j) = fun j => if j = i then p2 else ph j := by
      funext j; split <;> rfl
    rw [he] at this; exact this

theorem suits_of {w : World V} (hm : Matches cfg w) (hf : Fit w) : Suits cfg w.shared := by
  constructor
  · intro t ht
    have hn : w.comps t = none := by
      have := hm.order t
      cases hc : w.comps t with
      | none => rfl
      | some st =>
        rw [hc] at this
        simp [Config.registered] at ht
        exact absurd (this.2 rfl) ht
    exact ⟨by simp [World.shared, World.hasRegistered, hn], fun e => value_none hn e⟩
  · intro t ht
    rw [hf.resv]
    have := hm.res t
    rw [ht] at this
    cases hc : w.res t with
    | none => rfl
    | some r => rw [hc] at this; cases this

/-- The phase of one thread changed. -/
def setPhase (ph : Nat → Phase V) (i : Nat) (p : Phase V) : Nat → Phase V := fun j => if j = i then p else ph j

theorem Lin.set {a0 : Shared V} {h h' : List (Event V)} {ph : Nat → Phase V} {σ σ' : Sys V} (hl : Lin life cfg a0 h ph σ)
    {i : Nat} {th' : Thread V} {p : Phase V}
    (hth : ∀ (j : Nat), σ'.threads[j]? = if j = i then some th' else σ.threads[j]?)
    (ha : Atomic life a0 h' (setPhase ph i p) σ'.world.shared) (hf : Fit σ'.world) (h1 : p.call = th'.call)
    (h2 : th'.call ≠ none → th'.prog.Follows life cfg p) (h3 : ∀ c, p = .called c → th'.subject = c.subject) :
    Lin life cfg a0 h' (setPhase ph i p) σ' := by
  refine ⟨ha, hf, fun j => ?_, fun j th hj hc => ?_, fun j th c hj hc => ?_⟩
  · rw [running_set hth]
    simp only [setPhase]
    split
    · exact h1
    · exact hl.runs j
  all_goals
    rw [hth] at hj
    by_cases hij : j = i
    · subst hij
      simp only [if_true, Option.some.injEq] at hj
      subst hj
      simp only [setPhase, if_true] at *
      first | exact h2 hc | exact h3 c hc
    · rw [if_neg hij] at hj
      simp only [setPhase, if_neg hij] at *
      first | exact hl.prog j th hj hc | exact hl.subj j th c hj hc

theorem shows_none {σ σ' : Sys V} {i : Nat} {th th' : Thread V} (hi : σ.threads[i]? = some th)
    (hth : ∀ (j : Nat), σ'.threads[j]? = if j = i then some th' else σ.threads[j]?) (hc : th'.call = th.call)
    (hlog : σ'.log = σ.log) {e : Option (Event V)} : σ.Shows σ' e ↔ e = none := by
  have hr : ∀ j, σ'.running j = σ.running j := by
    intro j
    rw [running_set hth]
    split
    · next h => subst h; simp [Sys.running, hi, hc]
    · rfl
  constructor
  · intro h
    rcases e with _ | (⟨j, c⟩ | ⟨j, c, r⟩)
    · rfl
    · have h' : σ.running j = none ∧ σ'.running j = some c := h
      rw [hr, h'.1] at h'; cases h'.2
    · have h' : σ'.log = (j, c, r) :: σ.log := h
      rw [hlog] at h'
      exact absurd (congrArg List.length h') (by simp)
  · rintro rfl
    exact ⟨hlog, hr⟩

theorem shows_call {σ σ' : Sys V} {i : Nat} {th th' : Thread V} {c : ApiCall V} (hi : σ.threads[i]? = some th)
    (hth : ∀ (j : Nat), σ'.threads[j]? = if j = i then some th' else σ.threads[j]?) (h1 : th.call = none)
    (h2 : th'.call = some c) (hlog : σ'.log = σ.log) {e : Option (Event V)} :
    σ.Shows σ' e ↔ e = some (.call i c) := by
  have hr := running_set hth
  constructor
  · intro h
    rcases e with _ | (⟨j, c'⟩ | ⟨j, c', r⟩)
    · have h' : σ'.log = σ.log ∧ ∀ j, σ'.running j = σ.running j := h
      have := h'.2 i
      rw [hr, if_pos rfl, h2] at this
      simp [Sys.running, hi, h1] at this
    · have h' : σ.running j = none ∧ σ'.running j = some c' := h
      rw [hr] at h'
      by_cases hj : j = i
      · subst hj
        rw [if_pos rfl, h2] at h'
        cases h'.2; rfl
      · rw [if_neg hj, h'.1] at h'
        cases h'.2
    · have h' : σ'.log = (j, c', r) :: σ.log := h
      rw [hlog] at h'
      exact absurd (congrArg List.length h') (by simp)
  · rintro rfl
    refine ⟨?_, ?_⟩
    · simp [Sys.running, hi, h1]
    · rw [hr, if_pos rfl, h2]

theorem shows_ret {σ σ' : Sys V} {i : Nat} {c : ApiCall V} {r : Option (List (Ret V))}
    (hth : ∀ (j : Nat), σ'.threads[j]? = if j = i then some .idle else σ.threads[j]?)
    (hlog : σ'.log = (i, c, r) :: σ.log) {e : Option (Event V)} : σ.Shows σ' e ↔ e = some (.ret i c r) := by
  have hr := running_set hth
  constructor
  · intro h
    rcases e with _ | (⟨j, c'⟩ | ⟨j, c', r'⟩)
    · have h' : σ'.log = σ.log ∧ ∀ j, σ'.running j = σ.running j := h
      rw [hlog] at h'
      exact absurd (congrArg List.length h'.1) (by simp)
    · have h' : σ.running j = none ∧ σ'.running j = some c' := h
      rw [hr] at h'
      by_cases hj : j = i
      · rw [if_pos hj] at h'; cases h'.2
      · rw [if_neg hj, h'.1] at h'; cases h'.2
    · have h' : σ'.log = (j, c', r') :: σ.log := h
      rw [hlog] at h'
      simp only [List.cons.injEq, and_true, Prod.mk.injEq] at h'
      obtain ⟨rfl, rfl, rfl⟩ := h'
      rfl
  · rintro rfl
    exact hlog

theorem call_idle {p : Phase V} (h : p.call = none) : p = .idle := by
  cases p <;> simp_all [Phase.call]

theorem Lin.finish {a0 : Shared V} {h : List (Event V)} {ph : Nat → Phase V} {σ : Sys V} (hl : Lin life cfg a0 h ph σ)
    {i : Nat} {th : Thread V} {c : ApiCall V} {r : Option (List (Ret V))} (hi : σ.threads[i]? = some th)
    (hc : th.call = some c) (hr : ∀ rs, r = some rs → (ph i).result = some rs) :
    (∀ e, σ.Shows (σ.finish i c r) e ↔ e = some (.ret i c r)) ∧
      Lin life cfg a0 (.ret i c r :: h) (setPhase ph i .idle) (σ.finish i c r) := by
  have hth : ∀ (j : Nat), (σ.finish i c r).threads[j]? = if j = i then some .idle else σ.threads[j]? :=
    fun j => setThread_threads σ i .idle j hi
  refine ⟨fun e => shows_ret hth rfl, hl.set hth ?_ hl.fit rfl (fun h => absurd rfl h) (fun c h => by cases h)⟩
  have hph : (ph i).call = some c := (hl.call i th hi).trans hc
  cases r with
  | none => exact .panic hl.atomic hph
  | some rs => exact .ret hl.atomic hph (hr rs rfl)

theorem Lin.needs {a0 : Shared V} {h : List (Event V)} {ph : Nat → Phase V} {σ : Sys V} (hl : Lin life cfg a0 h ph σ)
    {i : Nat} {th : Thread V} (hi : σ.threads[i]? = some th)
    (hlife : life → ∃ s, Rel σ.world s ∧ ∀ id, σ.threads[i]? = some th → th.subject = some id → s.live id = true) :
    life → (ph i).Needs σ.world.shared := by
  intro l
  obtain ⟨s, h1, h3⟩ := hlife l
  have hsub := fun c => hl.subj i th c hi
  cases hph : ph i with
  | called c =>
    have := hsub c hph
    cases c <;> try trivial
    · exact (shared_alive h1 _).trans (h3 _ hi this)
    · exact (shared_alive h1 _).trans (h3 _ hi this)
  | _ => trivial

/-- A step of a shared world is a sequence of moments of the idealised world. -/
theorem Lin.step {may : Sys V → Nat → ApiCall V → Prop} {a0 : Shared V} {h : List (Event V)} {ph : Nat → Phase V}
    {σ σ' : Sys V} (hl : Lin life cfg a0 h ph σ) (hb : Basics cfg σ) (hs : σ.Step cfg may σ')
    (hbt : σ.BatchesFit)
    (hlife : life → ∃ s, Rel σ.world s ∧
      (∀ i id, σ.AboutTo i (.emRemove id) → s.live id = true ∧ ∀ t, s.has t id = false) ∧
      (∀ i start stop t vs, σ.AboutTo i (.batchStore start stop t vs) → ∀ e, start ≤ e → e < stop → s.live e = true) ∧
      ∀ (i : Nat) (th : Thread V) (id : Nat), σ.threads[i]? = some th → th.subject = some id → s.live id = true) :
    ∃ e, (∀ e', σ.Shows σ' e' ↔ e' = e) ∧ ∃ ph', Lin life cfg a0 (e.toList ++ h) ph' σ' := by
  cases hs with
  | start hi hc hmay =>
    rename_i i th c
    have hth : ∀ (j : Nat), (σ.setThread i { call := some c, prog := c.prog cfg, held := [], subject := c.subject }).threads[j]? =
        if j = i then some { call := some c, prog := c.prog cfg, held := [], subject := c.subject } else σ.threads[j]? :=
      fun j => setThread_threads σ i _ j hi
    refine ⟨_, fun e => shows_call hi hth hc rfl rfl, ?_⟩
    have h1 : ph i = .idle := call_idle ((hl.call i th hi).trans hc)
    have h2 := Atomic.call c hl.atomic h1
    obtain ⟨p, h3, h4⟩ := Prog.follows_call life cfg c
    have h5 := Atomic.skips (suits_of hb.mat hl.fit) h3 h2 (i := i) (by simp)
    have he : (fun j => if j = i then p else if j = i then .called c else ph j) = setPhase ph i p := by
      funext j; simp only [setPhase]; split <;> rfl
    rw [he] at h5
    refine ⟨setPhase ph i p, hl.set hth h5 hl.fit h3.call (fun _ => h4) fun c' hc' => ?_⟩
    have := h3.call
    rw [hc'] at this
    cases this
    rfl
  | acq hi hp hf =>
    rename_i i th l m p
    have hth : ∀ (j : Nat), (σ.setThread i { th with prog := p, held := (l, m) :: th.held }).threads[j]? =
        if j = i then some { th with prog := p, held := (l, m) :: th.held } else σ.threads[j]? :=
      fun j => setThread_threads σ i _ j hi
    refine ⟨none, fun e => shows_none hi hth rfl rfl, setPhase ph i (ph i), ?_⟩
    have he : setPhase ph i (ph i) = ph := by funext j; simp only [setPhase]; split <;> simp_all
    refine hl.set hth (by rw [he]; exact hl.atomic) hl.fit (hl.call i th hi) (fun hc => ?_) (fun c hc => hl.subj i th c hi hc)
    have := hl.prog i th hi hc
    rw [hp] at this; exact this
  | rel hi hp =>
    rename_i i th l m p
    have hth : ∀ (j : Nat), (σ.setThread i { th with prog := p, held := th.held.erase (l, m) }).threads[j]? =
        if j = i then some { th with prog := p, held := th.held.erase (l, m) } else σ.threads[j]? :=
      fun j => setThread_threads σ i _ j hi
    refine ⟨none, fun e => shows_none hi hth rfl rfl, setPhase ph i (ph i), ?_⟩
    have he : setPhase ph i (ph i) = ph := by funext j; simp only [setPhase]; split <;> simp_all
    refine hl.set hth (by rw [he]; exact hl.atomic) hl.fit (hl.call i th hi) (fun hc => ?_) (fun c hc => hl.subj i th c hi hc)
    have := hl.prog i th hi hc
    rw [hp] at this; exact this
  | act hi hp hr =>
    rename_i i th a f w r
    have hab : σ.AboutTo i a := by simp [Sys.AboutTo, hi, hp, Prog.work]
    have hth : ∀ (j : Nat), (({ σ with world := w } : Sys V).setThread i { th with prog := f r, subject := a.subjectAfter r th.subject }).threads[j]? =
        if j = i then some { th with prog := f r, subject := a.subjectAfter r th.subject } else σ.threads[j]? :=
      fun j => setThread_threads { σ with world := w } i _ j hi
    refine ⟨none, fun e => shows_none hi hth rfl rfl, ?_⟩
    have hcall : th.call ≠ none := by
      intro hc
      have := hb.idle th (List.mem_of_getElem? hi) hc
      subst this
      cases hp
    obtain ⟨hf', heff⟩ := run_effect (life := life) hl.fit (a := a)
      (fun start stop t vs ha => by subst ha; exact hbt i start stop t vs hab)
      (fun l => by
        obtain ⟨s, h1, h2, _⟩ := hlife l
        exact ⟨s, h1, fun id ha => by subst ha; exact h2 i id hab⟩)
      (fun l start stop t vs ha e h1 h2 => by
        subst ha
        obtain ⟨s, h3, _, h4, _⟩ := hlife l
        exact (shared_alive h3 e).trans (h4 i start stop t vs hab e h1 h2)) hr
    have hfo := hl.prog i th hi hcall
    rw [hp] at hfo
    have hneeds := hl.needs (i := i) hi fun l => by
      obtain ⟨s, h1, _, _, h3⟩ := hlife l
      exact ⟨s, h1, h3 i th⟩
    obtain ⟨p1, p2, h1, h2, h3, h4⟩ := hfo _ _ _ heff hneeds
    have hat : Atomic life a0 h (setPhase ph i p1) w.shared := by
      rcases h1 with ⟨rfl, h1⟩ | h1
      · have he : setPhase ph i (ph i) = ph := by funext j; simp only [setPhase]; split <;> simp_all
        rw [he, h1]; exact hl.atomic
      · exact .point hl.atomic h1
    have hm : Matches cfg w := (hb.step (Sys.Step.act (cfg := cfg) (may := may) hi hp hr)).mat
    have h5 := Atomic.skips (suits_of hm hf') h2 hat (i := i) (by simp [setPhase])
    have he : (fun j => if j = i then p2 else setPhase ph i p1 j) = setPhase ph i p2 := by
      funext j; simp only [setPhase]; split <;> rfl
    rw [he] at h5
    refine ⟨setPhase ph i p2, hl.set hth h5 hf' ?_ (fun _ => h4) fun c hc => ?_⟩
    · rw [h2.call]
      have := hl.call i th hi
      rcases h1 with ⟨rfl, _⟩ | h1
      · exact this
      · exact h1.call.trans this
    · rw [hc] at h3; exact False.elim h3
  | fault hi hp hr hc =>
    rename_i i th a f w e c
    have hab : σ.AboutTo i a := by simp [Sys.AboutTo, hi, hp, Prog.work]
    have hcall : th.call ≠ none := by rw [hc]; simp
    obtain ⟨hf', heff⟩ := run_fail (life := life) hl.fit (a := a)
      (fun start stop t vs ha => by subst ha; exact hbt i start stop t vs hab)
      (fun l => by
        obtain ⟨s, h1, h2, _⟩ := hlife l
        exact ⟨s, h1, fun id ha => by subst ha; exact h2 i id hab⟩)
      (fun l start stop t vs ha e h1 h2 => by
        subst ha
        obtain ⟨s, h3, _, h4, _⟩ := hlife l
        exact (shared_alive h3 e).trans (h4 i start stop t vs hab e h1 h2)) hr
    have hth : ∀ (j : Nat), (({ σ with world := w } : Sys V).finish i c none).threads[j]? = if j = i then some .idle else σ.threads[j]? :=
      fun j => setThread_threads { σ with world := w } i .idle j hi
    refine ⟨_, fun e => shows_ret hth rfl, setPhase ph i .idle,
      hl.set hth ?_ hf' rfl (fun h => absurd rfl h) (fun c h => by cases h)⟩
    have hph : (ph i).call = some c := (hl.call i th hi).trans hc
    rcases heff with heff | ⟨r, heff⟩
    · have := Atomic.panic hl.atomic hph
      rw [← heff] at this
      exact this
    · have hfo := hl.prog i th hi hcall
      rw [hp] at hfo
      have hneeds := hl.needs (i := i) hi fun l => by
        obtain ⟨s, h1, _, _, h3⟩ := hlife l
        exact ⟨s, h1, h3 i th⟩
      obtain ⟨p1, p2, h1, _⟩ := hfo _ _ _ heff hneeds
      rcases h1 with ⟨_, h1⟩ | h1
      · have := Atomic.panic hl.atomic hph
        rw [← h1] at this
        exact this
      · have hat := Atomic.panic (c := c) (i := i) (.point hl.atomic h1) (by simpa using h1.call.trans hph)
        have he : (fun j => if j = i then .idle else if j = i then p1 else ph j) = setPhase ph i .idle := by
          funext j; simp only [setPhase]; split <;> rfl
        rw [he] at hat
        exact hat
  | panic hi hp hc =>
    rename_i i th c
    obtain ⟨h1, h2⟩ := hl.finish hi hc (r := none) (fun rs h => by cases h)
    exact ⟨_, h1, _, h2⟩
  | ret hi hp hc =>
    rename_i i th c rs
    have hfo := hl.prog i th hi (by rw [hc]; simp)
    rw [hp] at hfo
    obtain ⟨h1, h2⟩ := hl.finish hi hc (r := some rs) (fun rs' h => by cases h; exact hfo)
    exact ⟨_, h1, _, h2⟩

theorem Lin.init {w : World V} (hf : Fit w) (n : Nat) : Lin life cfg w.shared [] (fun _ => .idle) (Sys.init w n) := by
  refine ⟨.init, hf, fun i => ?_, fun i th hi hc => ?_, fun i th c hi hc => by cases hc⟩
  · simp only [Sys.running, Sys.init, List.getElem?_replicate]
    split <;> rfl
  · have := List.mem_of_getElem? hi
    rw [Sys.init, List.mem_replicate] at this
    rw [this.2] at hc; exact absurd rfl hc

/-- Every step can be observed in one way. -/
theorem step_shows {may : Sys V → Nat → ApiCall V → Prop} {σ σ' : Sys V} (hs : σ.Step cfg may σ') : ∃ e, σ.Shows σ' e := by
  cases hs with
  | start hi hc hmay =>
    rename_i i th c
    exact ⟨_, (shows_call (th' := { call := some c, prog := c.prog cfg, held := [], subject := c.subject }) hi
      (fun j => setThread_threads _ _ _ j hi) hc rfl rfl).2 rfl⟩
  | acq hi hp hf =>
    rename_i i th l m p
    exact ⟨_, (shows_none (th' := { th with prog := p, held := (l, m) :: th.held }) hi
      (fun j => setThread_threads _ _ _ j hi) rfl rfl).2 rfl⟩
  | rel hi hp =>
    rename_i i th l m p
    exact ⟨_, (shows_none (th' := { th with prog := p, held := th.held.erase (l, m) }) hi
      (fun j => setThread_threads _ _ _ j hi) rfl rfl).2 rfl⟩
  | act hi hp hr =>
    rename_i i th a f w r
    exact ⟨_, (shows_none (th' := { th with prog := f r, subject := a.subjectAfter r th.subject }) hi
      (fun j => setThread_threads { σ with world := w } i _ j hi) rfl rfl).2 rfl⟩
  | fault hi hp hr hc =>
    rename_i i th a f w e c
    exact ⟨some (.ret i c none), rfl⟩
  | panic hi hp hc =>
    rename_i i th c
    exact ⟨some (.ret i c none), rfl⟩
  | ret hi hp hc =>
    rename_i i th c rs
    exact ⟨some (.ret i c (some rs)), rfl⟩

/-- Every schedule has a history. -/
theorem history_of {may : Sys V → Nat → ApiCall V → Prop} {σ σ' : Sys V} {P : Sys V → Prop}
    (h : σ.SchedWhile cfg may P σ') : ∃ l, σ.History cfg may P l σ' := by
  induction h with
  | refl h => exact ⟨[], .refl h⟩
  | step hprev hs hp ih =>
    obtain ⟨l, hl⟩ := ih
    obtain ⟨e, he⟩ := step_shows hs
    exact ⟨_, .step hl hs he hp⟩

theorem History.sched {may : Sys V → Nat → ApiCall V → Prop} {P : Sys V → Prop} {σ σ' : Sys V} {h : List (Event V)}
    (hh : σ.History cfg may P h σ') : σ.Sched cfg may σ' ∧ P σ' := by
  induction hh with
  | refl hp => exact ⟨.refl, hp⟩
  | step _ hs _ hp ih => exact ⟨.step ih.1 hs, hp⟩

theorem History.log {may : Sys V → Nat → ApiCall V → Prop} {P : Sys V → Prop} {w : World V} {n : Nat} {σ : Sys V}
    {h : List (Event V)} (hh : (Sys.init w n).History cfg may P h σ) : returns h = σ.log := by
  induction hh with
  | refl hp => rfl
  | step hh hs he hP ih =>
    rename_i h0 σ1 σ2 e0
    rcases e0 with _ | (⟨j, c'⟩ | ⟨j, c', r'⟩)
    · have h' : σ2.log = σ1.log ∧ ∀ j, σ2.running j = σ1.running j := he
      rw [h'.1]; exact ih
    · have h' : σ1.running j = none ∧ σ2.running j = some c' := he
      have : σ2.log = σ1.log := by
        cases hs with
        | start hi hc hm => rfl
        | acq hi hp hf => rfl
        | rel hi hp => rfl
        | act hi hp hr => rfl
        | fault hi hp hr hc =>
          rename_i i th a f w e c
          have := (shows_ret (σ := σ1) (σ' := ({ σ1 with world := w } : Sys V).finish i c none)
            (fun j => setThread_threads { σ1 with world := w } i .idle j hi) rfl).1 he
          cases this
        | panic hi hp hc =>
          rename_i i th c
          have := (shows_ret (σ' := σ1.finish i c none) (fun j => setThread_threads σ1 i .idle j hi) rfl).1 he
          cases this
        | ret hi hp hc =>
          rename_i i th c rs
          have := (shows_ret (σ' := σ1.finish i c (some rs)) (fun j => setThread_threads σ1 i .idle j hi) rfl).1 he
          cases this
      rw [this]; exact ih
    · have h' : σ2.log = (j, c', r') :: σ1.log := he
      rw [h', ← ih]; rfl

/-- Arbitrary clients. -/
theorem history_atomic {may : Sys V → Nat → ApiCall V → Prop} {w : World V} {order : List Nat} {n : Nat} {σ : Sys V}
    {h : List (Event V)} (hf : Fit w) (ho : Enumerates w order)
    (hh : (Sys.init w n).History (Config.of w order) may Sys.BatchesFit h σ) :
    ∃ ph, Lin False (Config.of w order) w.shared h ph σ := by
  induction hh with
  | refl _ => exact ⟨_, .init hf n⟩
  | step hh hs he hp ih =>
    obtain ⟨ph, hl⟩ := ih
    obtain ⟨h1, h2⟩ := History.sched hh
    obtain ⟨e, h3, ph', h4⟩ := hl.step ((Basics.init ho n).sched h1) hs h2 False.elim
    rw [(h3 _).1 he]
    exact ⟨ph', h4⟩

/-- What considerate clients are about to do. -/
theorem Pact.may {cfg : Config} {T : Nat → Prop} {s : State V} {σ : Sys V} (hd : Pact cfg T s σ) (i : Nat) (a : Act V)
    (hab : σ.AboutTo i a) : (∀ id, a = .emRemove id → s.live id = true ∧ ∀ t, s.has t id = false) ∧
    ∀ start stop t vs, a = .batchStore start stop t vs → ∀ e, start ≤ e → e < stop → s.live e = true ∧ s.has t e = false := by
  obtain ⟨th, f, hi, hp⟩ := hab.thread
  have hok := hd.ok i th hi
  unfold Placed at hok
  rw [hp] at hok
  cases hsub : th.subject with
  | none =>
    rw [hsub] at hok
    rcases hok.1 with (⟨hq, _⟩ | ⟨m, rfl, _⟩ | ⟨rfl, _⟩) | ⟨x, y, D, ⟨t, vs, rfl, hD, _⟩, _, hcl⟩
    · exact ⟨fun id ha => (by subst ha; simp [Act.mild] at hq), fun _ _ _ _ ha => (by subst ha; simp [Act.mild] at hq)⟩
    · exact ⟨fun id ha => (by cases ha), fun _ _ _ _ ha => (by cases ha)⟩
    · exact ⟨fun id ha => (by cases ha), fun _ _ _ _ ha => (by cases ha)⟩
    · refine ⟨fun id ha => (by cases ha), fun start stop t' vs' ha => ?_⟩
      cases ha
      exact fun e h1 h2 => (hcl e ⟨_, _, rfl, h1, h2⟩).imp (fun h => h) fun h => h _ hD
  | some id =>
    rw [hsub] at hok
    obtain ⟨hlv, c, _, hq⟩ := hok
    cases hch : c.chain with
    | some ops =>
      rw [hch] at hq
      have hq := hq.1
      exact ⟨fun id ha => by subst ha; exact False.elim hq, fun _ _ _ _ ha => by subst ha; exact False.elim hq⟩
    | none =>
      rw [hch] at hq
      have hq := hq.2
      refine ⟨fun id ha => ?_, fun _ _ _ _ ha => by subst ha; exact False.elim hq⟩
      subst ha
      obtain ⟨rfl, h3, _⟩ := hq
      exact ⟨hlv, h3⟩

/-- Considerate clients. -/
theorem history_considerate {w : World V} {s0 : State V} (hrel : Rel w s0)
    {order : List Nat} {n : Nat} {σ : Sys V} {h : List (Event V)} (hf : Fit w) (ho : Enumerates w order)
    (hh : (Sys.init w n).History (Config.of w order) (Sys.considerate (Config.of w order)) (fun _ => True) h σ) :
    ∃ ph, Lin True (Config.of w order) w.shared h ph σ := by
  induction hh with
  | refl _ => exact ⟨_, .init hf n⟩
  | step hh hs he hp ih =>
    obtain ⟨ph, hl⟩ := ih
    rename_i h0 σ1 σ2 e0
    obtain ⟨h1, h1'⟩ := History.sched hh
    obtain ⟨hb, s, hd⟩ := pact_sched hrel ho (T := fun _ => False) (fun k g id ht => ht.elim) h1 Sys.spares_nothing
    have hmay := hd.may
    obtain ⟨e, h3, ph', h4⟩ := hl.step hb hs
      (fun i start stop t vs hab e h4 h5 => by
        rw [value_eq hd.rel]
        have := ((hmay i _ hab).2 start stop t vs rfl e h4 h5).2
        simpa [State.has] using this)
      (fun _ => ⟨s, hd.rel, fun i id hab => (hmay i _ hab).1 id rfl,
        fun i start stop t vs hab e h4 h5 => ((hmay i _ hab).2 start stop t vs rfl e h4 h5).1, fun i th id hi hsub => by
        have hok := hd.ok i th hi
        unfold Placed at hok
        rw [hsub] at hok
        exact hok.1⟩)
    rw [(h3 _).1 he]
    exact ⟨ph', h4⟩

/-- Worlds are well formed. -/
theorem Fit.of_look {tr : List (Op V × Out V)} {w : World V} (h : Look w tr) (hr : ∀ t r, w.res t = some r → r.ty = t) :
    Fit w :=
  ⟨fun t st hs => by obtain ⟨_, h2, h3, _⟩ := h.at_some hs; exact ⟨h2, h3⟩, hr⟩

theorem Fit.of_rel {w : World V} {s : State V} (h : Rel w s) : Fit w := by
  refine ⟨fun t st hs => ?_, fun t r hr => ?_⟩
  · have := h.core.st t
    rw [hs] at this
    cases hc : s.comp t with
    | none => rw [hc] at this; exact False.elim this
    | some f => rw [hc] at this; exact ⟨this.1, this.2.1⟩
  · rw [h.res] at hr
    cases hc : s.res t with
    | none => rw [hc] at hr; cases hr
    | some v => rw [hc] at hr; cases hr; rfl

end
end Xecs
