import Verif.Proofs.Keeping
/-
The simulation of clients that keep things by clients that do not.
-/
set_option autoImplicit false
namespace Xecs
variable {V : Type} {cfg : Config}

/-! ### Exclusion -/

theorem kset_threads (σ : KSys V) (i : Nat) (th : KThread V) (j : Nat) {th0 : KThread V}
    (h : σ.threads[i]? = some th0) :
    (σ.setThread i th).threads[j]? = if j = i then some th else σ.threads[j]? := by
  simp only [KSys.setThread, List.getElem?_set]
  have hl := (List.getElem?_eq_some_iff.1 h).1
  by_cases hij : j = i
  · subst hij; simp [hl]
  · have : ¬ i = j := fun h => hij h.symm
    simp [hij, this]

theorem kfinish_threads (σ : KSys V) (i : Nat) (th : KThread V) (c : KCall V) (r : Option (List (Ret V))) (j : Nat)
    {th0 : KThread V} (h : σ.threads[i]? = some th0) :
    (σ.finish i th c r).threads[j]? = if j = i then some th else σ.threads[j]? := kset_threads σ i th j h

/-- A step changes one thread. -/
theorem KSys.Step.threads {may : KSys V → Nat → KCall V → Prop} {σ σ' : KSys V}
    (h : σ.Step cfg may σ') : ∃ (i : Nat) (th th' : KThread V), σ.threads[i]? = some th ∧
      ∀ (j : Nat), σ'.threads[j]? = if j = i then some th' else σ.threads[j]? := by
  cases h with
  | start h1 => exact ⟨_, _, _, h1, fun j => kset_threads σ _ _ j h1⟩
  | acq h1 => exact ⟨_, _, _, h1, fun j => kset_threads σ _ _ j h1⟩
  | rel h1 => exact ⟨_, _, _, h1, fun j => kset_threads σ _ _ j h1⟩
  | act h1 => exact ⟨_, _, _, h1, fun j => kset_threads { σ with world := _ } _ _ j h1⟩
  | fault h1 => exact ⟨_, _, _, h1, fun j => kfinish_threads { σ with world := _ } _ _ _ _ j h1⟩
  | panic h1 => exact ⟨_, _, _, h1, fun j => kfinish_threads σ _ _ _ _ j h1⟩
  | ret h1 => exact ⟨_, _, _, h1, fun j => kfinish_threads σ _ _ _ _ j h1⟩

/-- Exclusion, in a form convenient for induction. -/
structure KExcl (σ : KSys V) : Prop where
  own : ∀ (i : Nat) (th : KThread V), σ.threads[i]? = some th → th.held.Pairwise fun g h => ¬ Guard.clash g h
  cross : ∀ (i j : Nat) (thi thj : KThread V), σ.threads[i]? = some thi → σ.threads[j]? = some thj → i ≠ j →
    ∀ g ∈ thi.held, ∀ h ∈ thj.held, ¬ Guard.clash g h

/-- Taking away some of one thread's guards keeps exclusion. -/
theorem KExcl.shrink {σ σ' : KSys V} (h : KExcl σ) {i : Nat} {th th' : KThread V} (hi : σ.threads[i]? = some th)
    (hth : ∀ (j : Nat), σ'.threads[j]? = if j = i then some th' else σ.threads[j]?)
    (hp : th'.held.Pairwise fun g h => ¬ Guard.clash g h) (hs : th'.held ⊆ th.held) : KExcl σ' := by
  constructor
  · intro j thj hj
    rw [hth] at hj
    by_cases hji : j = i
    · simp only [hji, if_true, Option.some.injEq] at hj; subst hj; exact hp
    · simp only [hji, if_false] at hj; exact h.own j thj hj
  · intro a b tha thb ha hb hab g hg g' hg'
    rw [hth] at ha hb
    by_cases hai : a = i
    · simp only [hai, if_true, Option.some.injEq] at ha; subst ha
      have hbi : b ≠ i := fun e => hab (hai.trans e.symm)
      simp only [hbi, if_false] at hb
      exact h.cross i b th thb hi hb (fun e => hbi e.symm) g (hs hg) g' hg'
    · simp only [hai, if_false] at ha
      by_cases hbi : b = i
      · simp only [hbi, if_true, Option.some.injEq] at hb; subst hb
        exact h.cross a i tha th ha hi hai g hg g' (hs hg')
      · simp only [hbi, if_false] at hb
        exact h.cross a b tha thb ha hb hab g hg g' hg'

/-- Taking a free guard keeps exclusion. -/
theorem KExcl.grow {σ σ' : KSys V} (h : KExcl σ) {i : Nat} {th th' : KThread V} (hi : σ.threads[i]? = some th)
    (hth : ∀ (j : Nat), σ'.threads[j]? = if j = i then some th' else σ.threads[j]?) {l : Lock} {m : Mode}
    (hf : σ.Free l m) (hh : th'.held = (l, m) :: th.held) : KExcl σ' := by
  have hmem : ∀ (j : Nat) (thj : KThread V), σ.threads[j]? = some thj → thj ∈ σ.threads :=
    fun j thj hj => List.mem_of_getElem? hj
  constructor
  · intro j thj hj
    rw [hth] at hj
    by_cases hji : j = i
    · simp only [hji, if_true, Option.some.injEq] at hj; subst hj
      rw [hh, List.pairwise_cons]
      exact ⟨fun g hg => hf th (hmem i th hi) g hg, h.own i th hi⟩
    · simp only [hji, if_false] at hj; exact h.own j thj hj
  · intro a b tha thb ha hb hab g hg g' hg'
    rw [hth] at ha hb
    by_cases hai : a = i
    · simp only [hai, if_true, Option.some.injEq] at ha; subst ha
      have hbi : b ≠ i := fun e => hab (hai.trans e.symm)
      simp only [hbi, if_false] at hb
      rw [hh] at hg
      rcases List.mem_cons.1 hg with rfl | hg
      · exact hf thb (hmem b thb hb) g' hg'
      · exact h.cross i b th thb hi hb (fun e => hbi e.symm) g hg g' hg'
    · simp only [hai, if_false] at ha
      by_cases hbi : b = i
      · simp only [hbi, if_true, Option.some.injEq] at hb; subst hb
        rw [hh] at hg'
        rcases List.mem_cons.1 hg' with rfl | hg'
        · exact fun hc => hf tha (hmem a tha ha) g hg (clash_symm hc)
        · exact h.cross a i tha th ha hi hai g hg g' hg'
      · simp only [hbi, if_false] at hb
        exact h.cross a b tha thb ha hb hab g hg g' hg'

theorem KExcl.init (w : World V) (n : Nat) : KExcl (KSys.init w n) := by
  have : ∀ (i : Nat) (th : KThread V), (KSys.init w n).threads[i]? = some th → th.held = [] := by
    intro i th h
    have := List.mem_of_getElem? h
    rw [KSys.init, List.mem_replicate] at this
    rw [this.2]; rfl
  constructor
  · intro i th h; rw [this i th h]; exact List.Pairwise.nil
  · intro i j thi thj h _ _ g hg; rw [this i thi h] at hg; simp at hg

theorem KExcl.exclusive {σ : KSys V} (h : KExcl σ) : σ.Exclusive := by
  intro i j p q thi thj g g' hi hj hp hq hne
  by_cases hij : i = j
  · subst hij
    rw [hi] at hj; simp at hj; subst hj
    have hpq : p ≠ q := fun e => hne (by rw [e])
    have hpw := List.pairwise_iff_getElem.1 (h.own i thi hi)
    obtain ⟨hp', rfl⟩ := List.getElem?_eq_some_iff.1 hp
    obtain ⟨hq', rfl⟩ := List.getElem?_eq_some_iff.1 hq
    rcases Nat.lt_or_ge p q with hlt | hge
    · exact hpw p q hp' hq' hlt
    · exact fun hc => hpw q p hq' hp' (by omega) (clash_symm hc)
  · exact h.cross i j thi thj hi hj hij g (List.mem_of_getElem? hp) g' (List.mem_of_getElem? hq)

/-- Two different guards do not clash, whoever holds them. -/
theorem KExcl.apart {σ : KSys V} (h : KExcl σ) {i j : Nat} {thi thj : KThread V} (hi : σ.threads[i]? = some thi)
    (hj : σ.threads[j]? = some thj) {g g' : Guard} (hg : g ∈ thi.held) (hg' : g' ∈ thj.held) (hne : g ≠ g') :
    ¬ g.clash g' := by
  obtain ⟨p, hp, e1⟩ := List.getElem_of_mem hg
  obtain ⟨q, hq, e2⟩ := List.getElem_of_mem hg'
  refine h.exclusive i j p q thi thj g g' hi hj (List.getElem?_eq_some_iff.2 ⟨hp, e1⟩)
    (List.getElem?_eq_some_iff.2 ⟨hq, e2⟩) fun e => hne ?_
  simp only [Prod.mk.injEq] at e
  obtain ⟨rfl, rfl⟩ := e
  rw [hi] at hj; simp at hj; subst hj
  rw [← e1, ← e2]

/-! ### The relation between threads -/

/-- The guards of the things a thread keeps. -/
def KThread.keptGuards (cfg : Config) (k : KThread V) : List Guard := k.kept.flatMap (Keep.guards cfg)

/-- A thread that keeps things, and the thread that keeps nothing and does the same. -/
inductive SimT (cfg : Config) (k : KThread V) (b : Thread V) : Prop
  | idle : k.call = none → b = .idle → k.prog = .done [] → k.subject = none → k.held.Perm (k.keptGuards cfg) → SimT cfg k b
  | off {c : KCall V} {own : List Guard} : k.call = some c → c.plain = none → b = .idle → k.prog.Mute → k.subject = none →
      k.held.Perm (own ++ k.keptGuards cfg) → k.prog.Tidy (c.gains cfg) own → SimT cfg k b
  | on {c : KCall V} {c' : ApiCall V} {gs own : List Guard} : k.call = some c → c.plain = some c' → b.call = some c' →
      b.subject = k.subject → b.prog = k.prog.andThen gs → k.held.Perm (own ++ k.keptGuards cfg) →
      k.prog.Tidy (c.gains cfg) own → b.held.Perm (own ++ c.via cfg) →
      (∀ g ∈ c.via cfg, Covers (k.keptGuards cfg) g) → SimT cfg k b

theorem Prog.work_releaseAll (gs : List Guard) (rs : List (Ret V)) : (releaseAll gs (.done rs) : Prog V).work = none := by
  cases gs <;> rfl

theorem Prog.work_andThen (gs : List Guard) (p : Prog V) : (p.andThen gs).work = p.work := by
  cases p with
  | done rs => exact Prog.work_releaseAll gs rs
  | _ => rfl

theorem Prog.Mute.work {p : Prog V} (h : p.Mute) : p.work = none := by
  cases p <;> first | rfl | exact False.elim h

theorem SimT.work {k : KThread V} {b : Thread V} (h : SimT cfg k b) : b.prog.work = k.prog.work := by
  cases h with
  | idle h1 h2 h3 => rw [h2, h3]; rfl
  | off h1 h2 h3 h4 => rw [h3, h4.work]; rfl
  | on h1 h2 h3 h4 h5 => rw [h5, Prog.work_andThen]

theorem SimT.shadow {k : KThread V} {b : Thread V} (h : SimT cfg k b) :
    (k.call.bind KCall.plain, k.subject) = (b.call, b.subject) := by
  cases h with
  | idle h1 h2 h3 h4 => rw [h1, h2, h4]; rfl
  | off h1 h2 h3 h4 h5 => rw [h1, h3, h5]; simp [h2, Thread.idle]
  | on h1 h2 h3 h4 h5 => rw [h1, h3, h4]; simp [h2]

theorem Prog.fills_releaseAll (gs : List Guard) (rs : List (Ret V)) : (releaseAll gs (.done rs) : Prog V).fills = none := by
  induction gs with
  | nil => rfl
  | cons g gs ih => exact ih

theorem Prog.fills_andThen (gs : List Guard) : ∀ p : Prog V, (p.andThen gs).fills = p.fills
  | .done rs => Prog.fills_releaseAll gs rs
  | .panic => rfl
  | .acq _ _ p => Prog.fills_andThen gs p
  | .rel _ _ p => Prog.fills_andThen gs p
  | .act a f => by cases a <;> rfl

theorem Prog.Mute.fills : ∀ {p : Prog V}, p.Mute → p.fills = none
  | .done _, _ => rfl
  | .panic, _ => rfl
  | .acq _ _ p, h => Prog.Mute.fills (p := p) h
  | .rel _ _ p, h => Prog.Mute.fills (p := p) h
  | .act _ _, h => False.elim h

theorem SimT.fills {k : KThread V} {b : Thread V} (h : SimT cfg k b) : k.prog.fills = b.prog.fills := by
  cases h with
  | idle h1 h2 h3 => rw [h2, h3]; rfl
  | off h1 h2 h3 h4 => rw [h3, h4.fills]; rfl
  | on h1 h2 h3 h4 h5 => rw [h5, Prog.fills_andThen]

/-- All kept guards are held. -/
theorem SimT.kept {k : KThread V} {b : Thread V} (h : SimT cfg k b) : k.keptGuards cfg ⊆ k.held := by
  intro g hg
  cases h with
  | idle h1 h2 h3 h4 h5 => exact h5.symm.subset hg
  | off h1 h2 h3 h4 h5 h6 => exact h6.symm.subset (List.mem_append_right _ hg)
  | on h1 h2 h3 h4 h5 h6 => exact h6.symm.subset (List.mem_append_right _ hg)

/-- What the one thread holds, the other one holds or something stronger. -/
theorem SimT.held {k : KThread V} {b : Thread V} (h : SimT cfg k b) {g : Guard} (hg : g ∈ b.held) : Covers k.held g := by
  cases h with
  | idle h1 h2 => rw [h2] at hg; simp [Thread.idle] at hg
  | off h1 h2 h3 => rw [h3] at hg; simp [Thread.idle] at hg
  | on h1 h2 h3 h4 h5 h6 h7 h8 h9 =>
    rcases List.mem_append.1 (h8.subset hg) with h | h
    · exact .inl (h6.symm.subset (List.mem_append_left _ h))
    · rcases h9 g h with h | h
      · exact .inl (h6.symm.subset (List.mem_append_right _ h))
      · exact .inr (h6.symm.subset (List.mem_append_right _ h))

/-- The two systems are in the same state. -/
structure Sim (cfg : Config) (τ : KSys V) (σ : Sys V) : Prop where
  world : σ.world = τ.world
  log : σ.log = τ.log.filterMap fun x => x.2.1.plain.map fun c => (x.1, c, x.2.2)
  len : σ.threads.length = τ.threads.length
  sim : ∀ (i : Nat) (k : KThread V) (b : Thread V), τ.threads[i]? = some k → σ.threads[i]? = some b → SimT cfg k b

theorem Sim.partner {τ : KSys V} {σ : Sys V} (h : Sim cfg τ σ) {i : Nat} {k : KThread V} (hi : τ.threads[i]? = some k) :
    ∃ b, σ.threads[i]? = some b ∧ SimT cfg k b := by
  have hl : i < σ.threads.length := by rw [h.len]; exact (List.getElem?_eq_some_iff.1 hi).1
  refine ⟨_, List.getElem?_eq_getElem hl, h.sim i k _ hi (List.getElem?_eq_getElem hl)⟩

theorem Sim.back {τ : KSys V} {σ : Sys V} (h : Sim cfg τ σ) {i : Nat} {b : Thread V} (hi : σ.threads[i]? = some b) :
    ∃ k, τ.threads[i]? = some k ∧ SimT cfg k b := by
  have hl : i < τ.threads.length := by rw [← h.len]; exact (List.getElem?_eq_some_iff.1 hi).1
  refine ⟨_, List.getElem?_eq_getElem hl, h.sim i _ b (List.getElem?_eq_getElem hl) hi⟩

/-- A guard that may be taken there may be taken here. -/
theorem Sim.free {τ : KSys V} {σ : Sys V} (h : Sim cfg τ σ) {l : Lock} {m : Mode} (hf : τ.Free l m) : σ.Free l m := by
  intro b hb g hg hc
  obtain ⟨i, hl, e⟩ := List.getElem_of_mem hb
  obtain ⟨k, hk, hs⟩ := h.back (i := i) (b := b) (List.getElem?_eq_some_iff.2 ⟨hl, e⟩)
  have hk' := List.mem_of_getElem? hk
  rcases hs.held hg with h1 | h1
  · exact hf k hk' g h1 hc
  · exact hf k hk' _ h1 ⟨hc.1, .inr rfl⟩

/-- A guard that a call goes through may be taken here. -/
theorem Sim.freeVia {τ : KSys V} {σ : Sys V} (h : Sim cfg τ σ) (hx : KExcl τ) {i : Nat} {k : KThread V}
    (hi : τ.threads[i]? = some k) (hc : k.call = none) {l : Lock} {m : Mode}
    (hg : Covers (k.keptGuards cfg) (l, m)) : σ.Free l m := by
  intro b hb g hgb hcl
  obtain ⟨j, hl, e⟩ := List.getElem_of_mem hb
  have hj : σ.threads[j]? = some b := List.getElem?_eq_some_iff.2 ⟨hl, e⟩
  obtain ⟨kj, hkj, hs⟩ := h.back hj
  obtain ⟨bi, hbi, hsi⟩ := h.partner hi
  have hij : i ≠ j := by
    rintro rfl
    rw [hi] at hkj; simp at hkj; subst hkj
    rw [hbi] at hj; simp at hj; subst hj
    have := hsi.shadow
    cases hsi with
    | idle h1 h2 => rw [h2] at hgb; simp [Thread.idle] at hgb
    | off h1 => rw [hc] at h1; cases h1
    | on h1 => rw [hc] at h1; cases h1
  rcases hg with h1 | h1 <;> rcases hs.held hgb with h2 | h2
  · exact hx.cross i j k kj hi hkj hij _ (hsi.kept h1) _ h2 hcl
  · exact hx.cross i j k kj hi hkj hij _ (hsi.kept h1) _ h2 ⟨hcl.1, .inr rfl⟩
  · exact hx.cross i j k kj hi hkj hij _ (hsi.kept h1) _ h2 ⟨hcl.1, .inl rfl⟩
  · exact hx.cross i j k kj hi hkj hij _ (hsi.kept h1) _ h2 ⟨hcl.1, .inl rfl⟩

/-- Work is done under guards. -/
theorem Sim.covers {τ : KSys V} {σ : Sys V} (h : Sim cfg τ σ) (hb : Basics cfg σ) {i : Nat} {k : KThread V}
    (hi : τ.threads[i]? = some k) {a : Act V} {f : Ret V → Prog V} (hp : k.prog = .act a f) {g : Guard}
    (hg : g ∈ a.footprint cfg) : Covers k.held g := by
  obtain ⟨b, hbi, hs⟩ := h.partner hi
  have hw := hs.work
  rw [hp] at hw
  obtain ⟨th, f', h1, h2⟩ := Sys.AboutTo.thread (σ := σ) (i := i) (a := a) (by rw [Sys.AboutTo, hbi]; exact hw)
  rw [hbi] at h1; simp at h1; subst h1
  rcases hb.covers hbi h2 hg with h3 | h3
  · exact hs.held h3
  · rcases hs.held h3 with h4 | h4 <;> exact .inr h4

/-- Work that modifies something needs a write guard, so what another guard protects stays as it is. -/
theorem Sim.frame {τ : KSys V} {σ : Sys V} (h : Sim cfg τ σ) (hb : Basics cfg σ) (hx : KExcl τ) {i j : Nat}
    {k kj : KThread V} (hi : τ.threads[i]? = some k) {a : Act V} {f : Ret V → Prog V} (hp : k.prog = .act a f)
    (hj : τ.threads[j]? = some kj) {l : Lock} {m : Mode} (hg : (l, m) ∈ kj.held) (hm : i ≠ j ∨ m = .ref) :
    (l, Mode.mut) ∉ a.footprint cfg := by
  intro hf
  have hc : (l, Mode.mut) ∈ k.held := by rcases h.covers hb hi hp hf with h1 | h1 <;> exact h1
  rcases hm with hij | rfl
  · exact hx.cross i j k kj hi hj hij _ hc _ hg ⟨rfl, .inl rfl⟩
  · exact hx.apart hi hj hc hg (by simp) ⟨rfl, .inl rfl⟩

theorem Prog.not_self (p : Prog V) : ∀ {a : Act V} {f : Ret V → Prog V} {r : Ret V}, p = f r → f r ≠ .act a f := by
  induction p with
  | act a' f' ih =>
    intro a f r h e
    rw [← h] at e
    simp only [Prog.act.injEq] at e
    obtain ⟨rfl, rfl⟩ := e
    exact ih r rfl h.symm
  | _ => intro a f r h e; rw [← h] at e; cases e

theorem Sim.mat {τ : KSys V} {σ : Sys V} (h : Sim cfg τ σ) (hb : Basics cfg σ) : Matches cfg τ.world := h.world ▸ hb.mat

/-- A step leaves everything alone that a read guard protects, and everything that another thread's guard protects. -/
theorem Sim.stable {τ τ' : KSys V} {σ : Sys V} {may : KSys V → Nat → KCall V → Prop} (h : Sim cfg τ σ) (hb : Basics cfg σ)
    (hx : KExcl τ) (hs : τ.Step cfg may τ') {j : Nat} {kj : KThread V} (hj : τ.threads[j]? = some kj) {l : Lock} {m : Mode}
    (hg : (l, m) ∈ kj.held) (hm : m = .ref ∨ τ'.threads[j]? = some kj) : Sys.SameAt τ.world τ'.world l := by
  have key : ∀ {i : Nat} {k : KThread V} {a : Act V} {f : Ret V → Prog V} {w : World V} {r : R (Ret V)},
      τ.threads[i]? = some k → k.prog = .act a f → a.run τ.world = (w, r) → i ≠ j ∨ m = .ref →
      Sys.SameAt τ.world w l := by
    intro i k a f w r hi hp hr hij
    exact (run_frame (h.mat hb).groups hr).sameAt (h.frame hb hx hi hp hj hg hij)
  have same : Sys.SameAt τ.world τ.world l := by cases l <;> rfl
  cases hs with
  | act hi hp hr =>
    rename_i i th a f w r
    by_cases hij : i = j
    · rcases hm with hm | hm
      · exact key hi hp hr (.inr hm)
      · by_cases hr' : m = .ref
        · exact key hi hp hr (.inr hr')
        · subst hij
          rw [hi] at hj; simp at hj; subst hj
          have := kset_threads { τ with world := w } i { th with prog := f r, subject := a.subjectAfter r th.subject } i hi
          rw [this, if_pos rfl] at hm
          simp only [Option.some.injEq] at hm
          have hm' := congrArg KThread.prog hm
          rw [hp] at hm'
          exact False.elim (Prog.not_self _ rfl hm')
    · exact key hi hp hr (.inl hij)
  | fault hi hp hr hc =>
    rename_i i th a f w e c
    by_cases hij : i = j
    · rcases hm with hm | hm
      · exact key hi hp hr (.inr hm)
      · subst hij
        rw [hi] at hj; simp at hj; subst hj
        rw [kfinish_threads { τ with world := w } i _ _ _ i hi, if_pos rfl] at hm
        simp only [Option.some.injEq] at hm
        have := congrArg KThread.call hm
        rw [hc] at this; cases this
    · exact key hi hp hr (.inl hij)
  | _ => exact same

end Xecs
