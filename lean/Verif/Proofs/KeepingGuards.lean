import Verif.Proofs.KeepingPlay
/-
What kept guards guarantee.
-/
set_option autoImplicit false
namespace Xecs
variable {V : Type} {cfg : Config}

theorem KSys.AboutTo.thread {τ : KSys V} {i : Nat} {a : Act V} (h : τ.AboutTo i a) :
    ∃ th f, τ.threads[i]? = some th ∧ th.prog = .act a f := by
  unfold KSys.AboutTo at h
  rw [Option.bind_eq_some_iff] at h
  obtain ⟨th, h1, h2⟩ := h
  cases hp : th.prog <;> rw [hp] at h2 <;> simp [Prog.work] at h2
  subst h2
  exact ⟨th, _, h1, hp⟩

/-- A kept guard is held. -/
theorem Sim.keeps {τ : KSys V} {σ : Sys V} (h : Sim cfg τ σ) {i : Nat} {g : Guard} (hk : τ.KeepsGuard cfg i g) :
    ∃ th, τ.threads[i]? = some th ∧ g ∈ th.keptGuards cfg ∧ g ∈ th.held := by
  obtain ⟨th, h1, k, h2, h3⟩ := hk
  obtain ⟨b, _, hs⟩ := h.partner h1
  have : g ∈ th.keptGuards cfg := List.mem_flatMap.2 ⟨k, h2, h3⟩
  exact ⟨th, h1, this, hs.kept this⟩

/-! ### The programs of calls through kept guards -/

/-- All work in the program satisfies `P`. -/
def Prog.Only (P : Act V → Prop) : Prog V → Prop
  | .done _ => True
  | .panic => True
  | .acq _ _ p => Only P p
  | .rel _ _ p => Only P p
  | .act a f => P a ∧ ∀ r, Only P (f r)

theorem Prog.only_all (p : Prog V) : p.Only fun _ => True := by
  induction p with
  | act a f ih => exact ⟨trivial, ih⟩
  | acq l m p ih => exact ih
  | rel l m p ih => exact ih
  | _ => trivial

/-- The work of a call through a kept storage guard or resource guard. -/
def KCall.allows : KCall V → Act V → Prop
  | .storeGet t id, a => a = .storeRead t id
  | .storeSet t id v, a => a = .storeWrite t id v
  | .storeLen t, a => a = .storeCount t
  | .resGet t, a => a = .resRead t
  | .resSet t v, a => a = .resWrite t v
  | _, _ => True

theorem KCall.only (c : KCall V) : (c.prog cfg).Only c.allows := by
  cases c with
  | storeGet t id => simp only [prog]; split <;> simp [Prog.Only, allows]
  | storeSet t id v => simp only [prog]; split <;> simp [Prog.Only, allows]
  | storeLen t => simp only [prog]; split <;> simp [Prog.Only, allows]
  | resGet t => simp only [prog]; split <;> simp [Prog.Only, allows]
  | resSet t v => simp only [prog]; split <;> simp [Prog.Only, allows]
  | _ => exact Prog.only_all _

/-- Every thread does what its call asks for. -/
def KOnly (τ : KSys V) : Prop :=
  ∀ (i : Nat) (th : KThread V) (c : KCall V), τ.threads[i]? = some th → th.call = some c → th.prog.Only c.allows

theorem KOnly.init (w : World V) (n : Nat) : KOnly (KSys.init w n) := by
  intro i th c h hc
  have := List.mem_of_getElem? h
  rw [KSys.init, List.mem_replicate] at this
  rw [this.2] at hc; cases hc

theorem KOnly.step {may : KSys V → Nat → KCall V → Prop} {τ τ' : KSys V} (h : KOnly τ) (hs : τ.Step cfg may τ') :
    KOnly τ' := by
  have key : ∀ {i : Nat} {th' : KThread V},
      (∀ (j : Nat), τ'.threads[j]? = if j = i then some th' else τ.threads[j]?) →
      (∀ c, th'.call = some c → th'.prog.Only c.allows) → KOnly τ' := by
    intro i th' hth h1 j k c hj hc
    rw [hth] at hj
    split at hj
    · simp at hj; subst hj; exact h1 c hc
    · exact h j k c hj hc
  cases hs with
  | start hi hc hperm hmay =>
    refine key (fun j => kset_threads τ _ _ j hi) fun c' hc' => ?_
    simp only [Option.some.injEq] at hc'; subst hc'
    exact KCall.only _
  | acq hi hp hf =>
    refine key (fun j => kset_threads τ _ _ j hi) fun c' hc' => ?_
    have := h _ _ _ hi hc'
    rw [hp] at this
    exact this
  | rel hi hp =>
    refine key (fun j => kset_threads τ _ _ j hi) fun c' hc' => ?_
    have := h _ _ _ hi hc'
    rw [hp] at this
    exact this
  | act hi hp hr =>
    refine key (fun j => kset_threads { τ with world := _ } _ _ j hi) fun c' hc' => ?_
    have := h _ _ _ hi hc'
    rw [hp] at this
    exact this.2 _
  | fault hi hp hr hc =>
    exact key (fun j => kfinish_threads { τ with world := _ } _ _ _ _ j hi) fun c' hc' => by cases hc'
  | panic hi hp hc => exact key (fun j => kfinish_threads τ _ _ _ _ j hi) fun c' hc' => by cases hc'
  | ret hi hp hc => exact key (fun j => kfinish_threads τ _ _ _ _ j hi) fun c' hc' => by cases hc'

theorem konly {w : World V} {n : Nat} {may : KSys V → Nat → KCall V → Prop} {τ : KSys V}
    (hh : (KSys.init w n).Sched cfg may τ) : KOnly τ := by
  induction hh with
  | refl => exact .init w n
  | step _ hs ih => exact ih.step hs

/-! ### Write guards -/

/-- The entity table is not write-locked by something kept. -/
theorem em_not_kept {kept : List Keep} : (Lock.em, Mode.mut) ∉ kept.flatMap (Keep.guards cfg) := by
  intro h
  obtain ⟨k, _, h⟩ := List.mem_flatMap.1 h
  cases k with
  | view q =>
    have : ∀ q : Query, (Lock.em, Mode.mut) ∉ Prog.queryGuards cfg q := by
      intro q
      induction q with
      | comp m t => simp [Prog.queryGuards]
      | group k ma mb a b => simp only [Prog.queryGuards]; split <;> simp
      | _ => simp_all [Prog.queryGuards]
    exact this q h
  | _ => simp [Keep.guards] at h

/-- Work on something that the thread keeps a write guard of goes through this guard. -/
theorem Sim.through {τ : KSys V} {σ : Sys V} (h : Sim cfg τ σ) (hb : Basics cfg σ) (hx : KExcl τ) {i : Nat}
    {th : KThread V} (hi : τ.threads[i]? = some th) {a : Act V} {f : Ret V → Prog V} (hp : th.prog = .act a f)
    {l : Lock} (hk : (l, Mode.mut) ∈ th.keptGuards cfg) {m : Mode} (hf : (l, m) ∈ a.footprint cfg) :
    ∃ c m', th.call = some c ∧ (l, m') ∈ c.via cfg ∧ (m = .mut → m' = .mut) := by
  obtain ⟨b, hbi, hs⟩ := h.partner hi
  have hw := hs.work
  rw [hp] at hw
  obtain ⟨th1, f', h1, h2⟩ := Sys.AboutTo.thread (σ := σ) (i := i) (a := a) (by rw [Sys.AboutTo, hbi]; exact hw)
  rw [hbi] at h1; simp at h1; subst h1
  have hcov : ∃ m', (l, m') ∈ b.held ∧ (m = .mut → m' = .mut) := by
    rcases hb.covers hbi h2 hf with h3 | h3
    · exact ⟨m, h3, fun h => h⟩
    · exact ⟨.mut, h3, fun _ => rfl⟩
  obtain ⟨m', h3, h4⟩ := hcov
  have hown := hx.own i th hi
  cases hs with
  | idle k1 k2 => rw [k2] at h3; simp [Thread.idle] at h3
  | off k1 k2 k3 => rw [k3] at h3; simp [Thread.idle] at h3
  | on k1 k2 k3 k4 k5 k6 k7 k8 k9 =>
    rcases List.mem_append.1 (k8.subset h3) with h5 | h5
    · exfalso
      have := hown.perm k6 fun h hc => h (clash_symm hc)
      exact (List.pairwise_append.1 this).2.2 _ h5 _ hk ⟨rfl, .inr rfl⟩
    · exact ⟨_, m', k1, h5, h4⟩

/-- Only the owner of a write guard changes what it protects, through the guard. -/
theorem Sim.write {τ τ' : KSys V} {σ : Sys V} {may : KSys V → Nat → KCall V → Prop} (h : Sim cfg τ σ) (hb : Basics cfg σ)
    (hx : KExcl τ) (ho : KOnly τ) (hs : τ.Step cfg may τ') {i : Nat} {l : Lock}
    (hk : τ.KeepsGuard cfg i (l, .mut)) :
    Sys.SameAt τ.world τ'.world l ∨
      (∃ t id v, l = .store t ∧ τ.running i = some (.storeSet t id v) ∧ τ'.world = (World.componentWrite t id v τ.world).1) ∨
      (∃ t v, l = .res t ∧ τ.running i = some (.resSet t v) ∧ τ'.world = (World.resourceWrite t v τ.world).1) := by
  obtain ⟨th, hi, hk1, hk2⟩ := h.keeps hk
  have same : Sys.SameAt τ.world τ.world l := by cases l <;> rfl
  have key : ∀ {j : Nat} {k : KThread V} {a : Act V} {f : Ret V → Prog V} {w : World V} {r : R (Ret V)},
      τ.threads[j]? = some k → k.prog = .act a f → a.run τ.world = (w, r) → Sys.SameAt τ.world w l ∨
      (∃ t id v, l = .store t ∧ τ.running i = some (.storeSet t id v) ∧ w = (World.componentWrite t id v τ.world).1) ∨
      (∃ t v, l = .res t ∧ τ.running i = some (.resSet t v) ∧ w = (World.resourceWrite t v τ.world).1) := by
    intro j k a f w r hj hp hr
    by_cases hf : (l, Mode.mut) ∈ a.footprint cfg
    · by_cases hij : j = i
      · subst hij
        rw [hi] at hj; simp at hj; subst hj
        obtain ⟨c, m', h1, h2, h3⟩ := h.through hb hx hi hp hk1 hf
        have h3 := h3 rfl; subst h3
        have hon := ho j th c hi h1
        rw [hp] at hon
        have hrun : τ.running j = some c := by rw [KSys.running, hi]; exact h1
        cases c with
        | storeSet t id v =>
          simp only [KCall.via] at h2
          split at h2 <;> simp at h2
          have : a = .storeWrite t id v := hon.1
          subst this
          refine .inr (.inl ⟨t, id, v, h2, hrun, ?_⟩)
          rcases bindM_cases hr with ⟨w1, b, e1, e2⟩ | ⟨e, e1, e2⟩
          · simp only [M.pure_apply, Prod.mk.injEq] at e2
            rw [e1, ← e2.1]
          · rw [e1]
        | resSet t v =>
          simp only [KCall.via] at h2
          split at h2 <;> simp at h2
          have : a = .resWrite t v := hon.1
          subst this
          refine .inr (.inr ⟨t, v, h2, hrun, ?_⟩)
          rcases bindM_cases hr with ⟨w1, b, e1, e2⟩ | ⟨e, e1, e2⟩
          · simp only [M.pure_apply, Prod.mk.injEq] at e2
            rw [e1, ← e2.1]
          · rw [e1]
        | _ => simp [KCall.via] at h2
      · exact absurd hf (h.frame hb hx hj hp hi hk2 (.inl hij))
    · exact .inl ((run_frame (h.mat hb).groups hr).sameAt hf)
  cases hs with
  | act hj hp hr => exact key hj hp hr
  | fault hj hp hr hc => exact key hj hp hr
  | _ => exact .inl same

/-- Other threads do not touch what a kept guard protects, unless both only read. -/
theorem Sim.untouched {τ : KSys V} {σ : Sys V} (h : Sim cfg τ σ) (hb : Basics cfg σ) (hx : KExcl τ) {i j : Nat}
    (hij : i ≠ j) {g g' : Guard} (hk : τ.KeepsGuard cfg i g) {a : Act V} (ha : τ.AboutTo j a)
    (hf : g' ∈ a.footprint cfg) : ¬ g.clash g' := by
  obtain ⟨th, hi, _, hk2⟩ := h.keeps hk
  obtain ⟨thj, f, hj, hp⟩ := ha.thread
  intro hc
  rcases h.covers hb hj hp hf with h1 | h1
  · exact hx.cross i j th thj hi hj hij g hk2 g' h1 hc
  · exact hx.cross i j th thj hi hj hij g hk2 _ h1 ⟨hc.1, .inr rfl⟩

end Xecs
