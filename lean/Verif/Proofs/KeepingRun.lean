import Verif.Proofs.KeepingLive
/-
Every schedule of clients that keep things is matched, step by step.
-/
set_option autoImplicit false
namespace Xecs
variable {V : Type} {cfg : Config}

/-! ### What is observed -/

theorem krunning_set {τ τ' : KSys V} {i : Nat} {th' : KThread V}
    (hth : ∀ (j : Nat), τ'.threads[j]? = if j = i then some th' else τ.threads[j]?) (j : Nat) :
    τ'.running j = if j = i then th'.call else τ.running j := by
  simp only [KSys.running, hth]
  split <;> rfl

theorem kshows_none {τ τ' : KSys V} {i : Nat} {th th' : KThread V} (hi : τ.threads[i]? = some th)
    (hth : ∀ (j : Nat), τ'.threads[j]? = if j = i then some th' else τ.threads[j]?)
    (hc : th'.call.bind KCall.plain = th.call.bind KCall.plain)
    (hlog : τ'.log = τ.log) {e : Option (Event V)} : τ.Shows τ' e ↔ e = none := by
  have hr : ∀ j, (τ'.running j).bind KCall.plain = (τ.running j).bind KCall.plain := by
    intro j
    rw [krunning_set hth]
    split
    · next h => subst h; simp [KSys.running, hi, hc]
    · rfl
  constructor
  · intro h
    rcases e with _ | (⟨j, c⟩ | ⟨j, c, r⟩)
    · rfl
    · obtain ⟨k, h1, h2, h3⟩ : ∃ k : KCall V, k.plain = some c ∧ τ.running j = none ∧ τ'.running j = some k := h
      have := hr j
      rw [h2, h3] at this
      simp [h1] at this
    · obtain ⟨k, h1, h2⟩ : ∃ k : KCall V, k.plain = some c ∧ τ'.log = (j, k, r) :: τ.log := h
      rw [hlog] at h2
      exact absurd (congrArg List.length h2) (by simp)
  · rintro rfl
    exact .inl ⟨hlog, hr⟩

theorem kshows_call {τ τ' : KSys V} {i : Nat} {th th' : KThread V} {k : KCall V} {c : ApiCall V}
    (hi : τ.threads[i]? = some th)
    (hth : ∀ (j : Nat), τ'.threads[j]? = if j = i then some th' else τ.threads[j]?) (h1 : th.call = none)
    (h2 : th'.call = some k) (hk : k.plain = some c) (hlog : τ'.log = τ.log) {e : Option (Event V)} :
    τ.Shows τ' e ↔ e = some (.call i c) := by
  have hr := krunning_set hth
  constructor
  · intro h
    rcases e with _ | (⟨j, c'⟩ | ⟨j, c', r⟩)
    · rcases h with ⟨_, h⟩ | ⟨j, k', r, _, h⟩
      · have := h i
        rw [hr, if_pos rfl, h2] at this
        simp [KSys.running, hi, h1, hk] at this
      · rw [hlog] at h
        exact absurd (congrArg List.length h) (by simp)
    · obtain ⟨k', p1, p2, p3⟩ : ∃ k : KCall V, k.plain = some c' ∧ τ.running j = none ∧ τ'.running j = some k := h
      rw [hr] at p3
      by_cases hj : j = i
      · subst hj
        rw [if_pos rfl, h2] at p3
        cases p3
        rw [hk] at p1; cases p1; rfl
      · rw [if_neg hj, p2] at p3
        cases p3
    · obtain ⟨k', p1, p2⟩ : ∃ k : KCall V, k.plain = some c' ∧ τ'.log = (j, k, r) :: τ.log := h
      rw [hlog] at p2
      exact absurd (congrArg List.length p2) (by simp)
  · rintro rfl
    refine ⟨k, hk, ?_, ?_⟩
    · simp [KSys.running, hi, h1]
    · rw [hr, if_pos rfl, h2]

theorem kshows_ret {τ τ' : KSys V} {i : Nat} {th' : KThread V} {k : KCall V} {r : Option (List (Ret V))}
    (hth : ∀ (j : Nat), τ'.threads[j]? = if j = i then some th' else τ.threads[j]?) (hc : th'.call = none)
    (hlog : τ'.log = (i, k, r) :: τ.log) {e : Option (Event V)} :
    τ.Shows τ' e ↔ e = k.plain.map fun c => .ret i c r := by
  have hr := krunning_set hth
  constructor
  · intro h
    rcases e with _ | (⟨j, c'⟩ | ⟨j, c', r'⟩)
    · rcases h with ⟨h, _⟩ | ⟨j, k', r', hk, h⟩
      · rw [hlog] at h
        exact absurd (congrArg List.length h) (by simp)
      · rw [hlog] at h
        simp only [List.cons.injEq, and_true, Prod.mk.injEq] at h
        obtain ⟨rfl, rfl, rfl⟩ := h
        rw [hk]; rfl
    · obtain ⟨k', p1, p2, p3⟩ : ∃ k : KCall V, k.plain = some c' ∧ τ.running j = none ∧ τ'.running j = some k := h
      rw [hr] at p3
      by_cases hj : j = i
      · rw [if_pos hj, hc] at p3; cases p3
      · rw [if_neg hj, p2] at p3; cases p3
    · obtain ⟨k', p1, p2⟩ : ∃ k : KCall V, k.plain = some c' ∧ τ'.log = (j, k, r') :: τ.log := h
      rw [hlog] at p2
      simp only [List.cons.injEq, and_true, Prod.mk.injEq] at p2
      obtain ⟨rfl, rfl, rfl⟩ := p2
      rw [p1]; rfl
  · rintro rfl
    cases hk : k.plain with
    | none => exact .inr ⟨i, k, r, hk, hlog⟩
    | some c => exact ⟨k, hk, hlog⟩

/-- Every step can be observed in one way. -/
theorem kstep_shows {may : KSys V → Nat → KCall V → Prop} {τ τ' : KSys V} (hs : τ.Step cfg may τ') :
    ∃ e, τ.Shows τ' e := by
  cases hs with
  | start hi hc hperm hmay =>
    rename_i i th c
    have hth := fun j => kset_threads τ i { th with
        call := some c, prog := c.prog cfg, subject := c.subject, kept := c.leaves th.kept } j hi
    cases hk : c.plain with
    | none => exact ⟨none, (kshows_none hi hth (by simp [hc, hk]) rfl).2 rfl⟩
    | some c' => exact ⟨_, (kshows_call hi hth hc rfl hk rfl).2 rfl⟩
  | acq hi hp hf =>
    rename_i i th l m p
    have hth := fun j => kset_threads τ i { th with prog := p, held := (l, m) :: th.held } j hi
    exact ⟨none, (kshows_none hi hth rfl rfl).2 rfl⟩
  | rel hi hp =>
    rename_i i th l m p
    have hth := fun j => kset_threads τ i { th with prog := p, held := th.held.erase (l, m) } j hi
    exact ⟨none, (kshows_none hi hth rfl rfl).2 rfl⟩
  | act hi hp hr =>
    rename_i i th a f w r
    have hth := fun j => kset_threads { τ with world := w } i
      { th with prog := f r, subject := a.subjectAfter r th.subject } j hi
    exact ⟨none, (kshows_none hi hth rfl rfl).2 rfl⟩
  | fault hi hp hr hc =>
    rename_i i th a f w e c
    have hth := fun j => kfinish_threads { τ with world := w } i
      { th with call := none, prog := .done [], held := th.kept.flatMap (Keep.guards cfg), subject := none } c none j hi
    exact ⟨c.plain.map fun c => .ret i c none, (kshows_ret (k := c) hth rfl rfl).2 rfl⟩
  | panic hi hp hc =>
    rename_i i th c
    have hth := fun j => kfinish_threads τ i
      { th with call := none, prog := .done [], held := th.kept.flatMap (Keep.guards cfg), subject := none } c none j hi
    exact ⟨c.plain.map fun c => .ret i c none, (kshows_ret (k := c) hth rfl rfl).2 rfl⟩
  | ret hi hp hc =>
    rename_i i th c rs
    have hth := fun j => kfinish_threads τ i
      { th with call := none, prog := .done [], subject := none, kept := c.keeps cfg rs ++ th.kept } c (some rs) j hi
    exact ⟨c.plain.map fun c => .ret i c (some rs), (kshows_ret (k := c) hth rfl rfl).2 rfl⟩

/-! ### Steps -/

/-- The same world, and no batches about to be attached but those about to be attached there. -/
def Near (τ : KSys V) (σ : Sys V) : Prop :=
  σ.world = τ.world ∧ ∀ i start stop t vs, σ.AboutTo i (.batchStore start stop t vs) → τ.AboutTo i (.batchStore start stop t vs)

theorem Sim.about {τ : KSys V} {σ : Sys V} (h : Sim cfg τ σ) {i : Nat} {a : Act V} (ha : σ.AboutTo i a) : τ.AboutTo i a := by
  unfold Sys.AboutTo at ha
  rw [Option.bind_eq_some_iff] at ha
  obtain ⟨b, h1, h2⟩ := ha
  obtain ⟨k, h3, h4⟩ := h.back h1
  rw [KSys.AboutTo, h3, Option.bind_some, ← h4.work, h2]

theorem Sim.near {τ : KSys V} {σ : Sys V} (h : Sim cfg τ σ) : Near τ σ := ⟨h.world, fun _ _ _ _ _ ha => h.about ha⟩

theorem Sim.near_mid {τ : KSys V} {σ σ1 : Sys V} (h : Sim cfg τ σ) {i : Nat} {b : Thread V} (hw : σ1.world = τ.world)
    (hth : ∀ (j : Nat), j ≠ i → σ1.threads[j]? = σ.threads[j]?) (hi : σ1.threads[i]? = some b)
    (hb : b.prog.work = none ∨ ∃ id, b.prog.work = some (.has id)) : Near τ σ1 := by
  refine ⟨hw, fun j start stop t vs ha => ?_⟩
  by_cases hj : j = i
  · subst hj
    rw [Sys.AboutTo, hi, Option.bind_some] at ha
    rcases hb with hb | ⟨id, hb⟩ <;> (rw [hb] at ha; cases ha)
  · exact h.about (by rw [Sys.AboutTo, ← hth j hj]; exact ha)

theorem Sim.set {τ τ' : KSys V} {σ σ' : Sys V} (h : Sim cfg τ σ) {i : Nat} {k' : KThread V} {b' : Thread V}
    (hk : ∀ (j : Nat), τ'.threads[j]? = if j = i then some k' else τ.threads[j]?)
    (hb : ∀ (j : Nat), σ'.threads[j]? = if j = i then some b' else σ.threads[j]?)
    (hl : τ'.threads.length = τ.threads.length) (hl' : σ'.threads.length = σ.threads.length)
    (hw : σ'.world = τ'.world)
    (hlog : σ'.log = τ'.log.filterMap fun x => x.2.1.plain.map fun c => (x.1, c, x.2.2))
    (hs : SimT cfg k' b') : Sim cfg τ' σ' := by
  refine ⟨hw, hlog, by rw [hl, hl', h.len], fun j k b h1 h2 => ?_⟩
  rw [hk] at h1; rw [hb] at h2
  by_cases hj : j = i
  · rw [if_pos hj] at h1 h2; cases h1; cases h2; exact hs
  · rw [if_neg hj] at h1 h2; exact h.sim j k b h1 h2

variable {may : Sys V → Nat → ApiCall V → Prop} {P : Sys V → Prop}

theorem History.quiet {σ0 σ σ' : Sys V} {h : List (Event V)} (hh : σ0.History cfg may P h σ) (hs : σ.Step cfg may σ')
    (he : σ.Shows σ' none) (hp : P σ') : σ0.History cfg may P h σ' := .step (e := none) hh hs he hp

/-- Dropping guards before returning. -/
theorem release_history {σ0 : Sys V} {h : List (Event V)} {i : Nat} {rs : List (Ret V)} : ∀ (gs : List Guard) {σ : Sys V}
    {b : Thread V}, σ.threads[i]? = some b → b.prog = Prog.releaseAll gs (.done rs) → σ0.History cfg may P h σ →
    (∀ (σ1 : Sys V) (b1 : Thread V), σ1.world = σ.world → (∀ (j : Nat), j ≠ i → σ1.threads[j]? = σ.threads[j]?) →
      σ1.threads[i]? = some b1 → b1.prog.work = none → P σ1) →
    ∃ (σ1 : Sys V) (b1 : Thread V), σ0.History cfg may P h σ1 ∧ σ1.threads[i]? = some b1 ∧ b1.prog = .done rs ∧
      b1.call = b.call ∧ σ1.world = σ.world ∧ σ1.log = σ.log ∧ (∀ (j : Nat), j ≠ i → σ1.threads[j]? = σ.threads[j]?) ∧
      σ1.threads.length = σ.threads.length := by
  intro gs
  induction gs with
  | nil => intro σ b hi hp hh _; exact ⟨σ, b, hh, hi, hp, rfl, rfl, rfl, fun _ _ => rfl, rfl⟩
  | cons g gs ih =>
    intro σ b hi hp hh hP
    obtain ⟨l, m⟩ := g
    have hth := fun j => setThread_threads σ i
      { b with prog := Prog.releaseAll gs (.done rs), held := b.held.erase (l, m) } j hi
    have hi1 := hth i
    rw [if_pos rfl] at hi1
    have hne : ∀ (j : Nat), j ≠ i → (σ.setThread i
      { b with prog := Prog.releaseAll gs (.done rs), held := b.held.erase (l, m) }).threads[j]? = σ.threads[j]? := by
      intro j hj; rw [hth, if_neg hj]
    have hh1 : σ0.History cfg may P h (σ.setThread i
        { b with prog := Prog.releaseAll gs (.done rs), held := b.held.erase (l, m) }) :=
      History.quiet hh (.rel hi hp) ((shows_none hi hth rfl rfl).2 rfl)
        (hP _ _ rfl hne hi1 (Prog.work_releaseAll gs rs))
    obtain ⟨σ1, b1, r1, r2, r3, r4, r5, r6, r7, r8⟩ := ih hi1 rfl hh1 fun σ2 b2 h1 h2 h3 h4 =>
      hP σ2 b2 h1 (fun j hj => by rw [h2 j hj, hne j hj]) h3 h4
    refine ⟨σ1, b1, r1, r2, r3, r4, r5, r6, fun j hj => by rw [r7 j hj, hne j hj], ?_⟩
    rw [r8]; simp [Sys.setThread]

theorem shadow_map {τ : KSys V} {σ : Sys V} (h : Sim cfg τ σ) :
    τ.shadow.threads.map (fun th => (th.call, th.subject, th.prog.fills)) =
      σ.threads.map (fun th => (th.call, th.subject, th.prog.fills)) := by
  apply List.ext_getElem?
  intro j
  simp only [KSys.shadow, List.map_map, List.getElem?_map]
  cases hk : τ.threads[j]? with
  | none =>
    have : σ.threads[j]? = none := by
      rw [List.getElem?_eq_none_iff] at hk ⊢
      rw [h.len]; exact hk
    rw [this]; rfl
  | some k =>
    obtain ⟨b, hb, hs⟩ := h.partner hk
    rw [hb]
    simp only [Option.map_some, Function.comp]
    have h1 := hs.shadow
    simp only [Prod.mk.injEq] at h1
    rw [h1.1, h1.2, hs.fills]

theorem perm_kept_erase {kept : List Keep} {k : Keep} (h : k ∈ kept) :
    (kept.flatMap (Keep.guards cfg)).Perm (k.guards cfg ++ (kept.erase k).flatMap (Keep.guards cfg)) := by
  have := List.Perm.flatMap_right (Keep.guards cfg) (List.perm_cons_erase h)
  simpa using this

theorem has_run_true {w : World V} {id : Nat} (h : w.em.has id = .ok true) :
    (Act.has id).run w = (w, .ok (.bool true)) := by
  simp only [Act.run, World.exist, M.bind_apply, M.read_apply, h]
  rfl

end Xecs
