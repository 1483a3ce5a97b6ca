import Verif.Proofs.Considerate
/-
Considerate clients keep the world consistent: the steps.
-/
set_option autoImplicit false
namespace Xecs
open Spec World
variable {V : Type}

/-- A group that the chain both attaches to and detaches from. -/
def Shape.reworkedBy (g : Shape) (ops : List (HOp V)) : Bool := g.cutBy ops && g.fedBy ops

namespace Prog
variable {T : Prop} {k : Nat} {g : Shape} {id : Nat} {ops : List (HOp V)} {ha hb m : Bool} {p : Prog V}

theorem Stance.of (h1 : g.cutBy ops = true → g.fedBy ops = true → Solo T k g ha hb m p)
    (h4 : g.cutBy ops = true → g.fedBy ops = false → Cuts k g id m p)
    (h2 : g.cutBy ops = false → g.fedBy ops = true → Offers k g id p)
    (h3 : g.cutBy ops = false → g.fedBy ops = false → Idles k g p) : Stance T k g id ops ha hb m p := by
  unfold Stance
  split
  · rename_i h
    split
    · rename_i h'; exact h1 h h'
    · rename_i h'; exact h4 h (by simpa using h')
  · rename_i h
    split
    · rename_i h'; exact h2 (by simpa using h) h'
    · rename_i h'; exact h3 (by simpa using h) (by simpa using h')

theorem Stance.solo (h : Stance T k g id ops ha hb m p) (hc : g.cutBy ops = true) (hd : g.fedBy ops = true) :
    Solo T k g ha hb m p := by
  unfold Stance at h; rwa [if_pos hc, if_pos hd] at h

theorem Stance.cuts (h : Stance T k g id ops ha hb m p) (hc : g.cutBy ops = true) (hd : g.fedBy ops = false) :
    Cuts k g id m p := by
  unfold Stance at h; rwa [if_pos hc, if_neg (by simp [hd])] at h

theorem Stance.offers (h : Stance T k g id ops ha hb m p) (hc : g.cutBy ops = false) (hd : g.fedBy ops = true) :
    Offers k g id p := by
  unfold Stance at h; rwa [if_neg (by simp [hc]), if_pos hd] at h

theorem Stance.idles (h : Stance T k g id ops ha hb m p) (hc : g.cutBy ops = false) (hd : g.fedBy ops = false) :
    Idles k g p := by
  unfold Stance at h; rwa [if_neg (by simp [hc]), if_neg (by simp [hd])] at h

/-- Predicates that do not look at guards, the other way round. -/
structure Passes (P : Prog V → Prop) : Prop where
  acq : ∀ {l m p}, P (.acq l m p) → P p
  rel : ∀ {l m p}, P (.rel l m p) → P p

theorem passes_chained {cfg : Config} {b : Bool} : Passes (V := V) (Chained cfg id b) := ⟨fun h => h, fun h => h⟩
theorem passes_idles : Passes (V := V) (Idles k g) := ⟨fun h => h, fun h => h⟩
theorem passes_offers : Passes (V := V) (Offers k g id) := ⟨fun h => h, fun h => h⟩
theorem passes_solo : Passes (V := V) (Solo T k g ha hb m) :=
  ⟨fun h => by unfold Solo at h; exact h, fun h => by unfold Solo at h; exact h⟩

theorem passes_cuts : Passes (V := V) (Cuts k g id m) :=
  ⟨fun h => by unfold Cuts at h; exact h, fun h => by unfold Cuts at h; exact h⟩

/-- Passing a guard. -/
theorem Stance.through {q : Prog V} (hP : ∀ {P : Prog V → Prop}, Passes P → P p → P q)
    (h : Stance T k g id ops ha hb m p) : Stance T k g id ops ha hb m q :=
  .of (fun hc hd => hP passes_solo (h.solo hc hd)) (fun hc hd => hP passes_cuts (h.cuts hc hd))
    (fun hc hd => hP passes_offers (h.offers hc hd)) (fun hc hd => hP passes_idles (h.idles hc hd))

end Prog

section
variable {cfg : Config} {T : Nat → Prop}

/-- A thread at work on a chain did something to its entity. -/
theorem Pact.chain_step {s s' : State V} {σ : Sys V} {w : World V} (h : Pact cfg T s σ) {i : Nat} {th : Thread V}
    (hi : σ.threads[i]? = some th) {id : Nat} {c : ApiCall V} {ops : List (HOp V)} (hsub : th.subject = some id)
    (hcall : th.call = some c) (hch : c.chain = some ops) {has' mem' : Nat → Bool} {p' : Prog V}
    (hlive : s.live id = true) (hbec : Becomes w s s' id has' mem')
    (hchain : p'.Chained cfg id (c.soft && c.proper cfg))
    (hst : ∀ (k : Nat) g, cfg.groups[k]? = some g → p'.Stance (T k) k g id ops (has' g.a) (has' g.b) (mem' k))
    (hidle : ∀ (k : Nat) g, cfg.groups[k]? = some g → g.cutBy ops = false → g.fedBy ops = false →
      has' g.a = s.has g.a id ∧ has' g.b = s.has g.b id ∧ mem' k = memAt s k id)
    (hmono : ∀ (k : Nat) g, cfg.groups[k]? = some g → g.fedBy ops = false → mem' k = true → memAt s k id = true)
    (hcomp : ∀ (k : Nat) g, T k → cfg.groups[k]? = some g → g.reworkedBy ops = false → has' g.a = true → has' g.b = true →
      mem' k = true ∨ (∃ (j : Nat) (thj : Thread V), j ≠ i ∧ σ.threads[j]? = some thj ∧ Tends k g id thj) ∨
        p'.Vows k id ∨ p'.Severs g id) :
    Pact cfg T s' ({ σ with world := w }.setThread i { th with prog := p', subject := some id }) := by
  refine h.update hi (fun j => setThread_threads { σ with world := w } i _ j hi) hbec.rel ?_ ?_ ?_
    (h.claims_less hi (fun e he => by rw [hsub]; exact he) (fun e he => absurd he (Prog.claims_none hchain.fills e))) ?_
    (fun _ _ h => .inl h)
  · refine ⟨by rw [hbec.live]; exact hlive, c, hcall, ?_⟩
    rw [hch]
    refine ⟨hchain, fun k g hk => ?_⟩
    rw [hbec.has, hbec.has, hbec.mem]
    exact hst k g hk
  · intro j thj hji hj
    refine ⟨fun e he => ?_, fun e cj opsj h1 h2 h3 k g hk hcut => ?_, fun e cj h1 h2 h3 => ?_,
      fun e he => hbec.others e fun hid => h.claim j i thj th e hji hj hi he (.inl (by rw [hid]; exact hsub))⟩
    · by_cases hid : e = id
      · rw [hid]; exact hbec.live
      · exact (hbec.others e hid).live
    · by_cases hid : e = id
      · subst hid
        obtain ⟨c1, c2, o1, o2, e1, e2, e3, e4, hno⟩ := h.apart i j th thj e (fun h => hji h.symm) hi hj hsub h1
        rw [hcall] at e1; cases e1
        rw [h2] at e2; cases e2
        rw [hch] at e3; cases e3
        rw [h3] at e4; cases e4
        have hnf : g.fedBy ops = false := by
          cases hx : g.fedBy ops with
          | false => rfl
          | true => exact absurd ⟨g, List.mem_of_getElem? hk, .inr ⟨hx, hcut⟩⟩ hno
        rw [hbec.has, hbec.has, hbec.mem]
        refine ⟨fun hfed => ?_, hmono k g hk hnf⟩
        have hnc : g.cutBy ops = false := by
          cases hx : g.cutBy ops with
          | false => rfl
          | true => exact absurd ⟨g, List.mem_of_getElem? hk, .inl ⟨hx, hfed⟩⟩ hno
        exact hidle k g hk hnc hnf
      · have ha := hbec.others e hid
        exact ⟨fun _ => ⟨ha.has _, ha.has _, ha.mem _⟩, fun hm => by rw [← ha.mem k]; exact hm⟩
    · by_cases hid : e = id
      · subst hid
        obtain ⟨c1, c2, o1, o2, e1, e2, e3, e4, hno⟩ := h.apart i j th thj e (fun h => hji h.symm) hi hj hsub h1
        rw [h2] at e2; cases e2
        rw [h3] at e4; cases e4
      · exact hbec.others e hid
  · intro j thj e hji hj h1 h2
    cases h1
    exact h.apart i j th thj id (fun e => hji e.symm) hi hj hsub h2
  · intro k g e ht hk h1 h2
    by_cases hid : e = id
    · subst hid
      rw [hbec.has] at h1 h2
      rw [hbec.mem]
      cases hcut : g.reworkedBy ops with
      | true =>
        refine .inr (.inr ⟨rfl, .inl ⟨c, hcall, fun o ho => ?_⟩⟩)
        rw [hch] at ho; cases ho
        simpa only [Shape.reworkedBy, Bool.and_eq_true] using hcut
      | false =>
        rcases hcomp k g ht hk hcut h1 h2 with h3 | h3 | h3
        · exact .inl h3
        · exact .inr (.inl h3)
        · exact .inr (.inr ⟨rfl, .inr h3⟩)
    · rw [(hbec.others e hid).has] at h1 h2
      rw [(hbec.others e hid).mem]
      rcases h.mem_or hi ht hk h1 h2 with h3 | h3 | ⟨h3, _⟩
      · exact .inl h3
      · exact .inr (.inl h3)
      · rw [hsub] at h3; cases h3; exact absurd rfl hid

theorem Pact.step_chain {s : State V} {σ : Sys V} (h : Pact cfg T s σ) (hb : Basics cfg σ)
    {i : Nat} {th : Thread V} {a : Act V} {f : Ret V → Prog V} {w : World V} {r : Xecs.R (Ret V)}
    (hi : σ.threads[i]? = some th) (hp : th.prog = .act a f) (hrun : a.run σ.world = (w, r)) {id : Nat}
    {c : ApiCall V} {ops : List (HOp V)} (hsub : th.subject = some id) (hcall : th.call = some c)
    (hch : c.chain = some ops) :
    (∀ x, r = .ok x → ∃ s', Pact cfg T s' ({ σ with world := w }.setThread i
        { th with prog := f x, subject := a.subjectAfter x th.subject })) ∧
    (∀ e, r = .error e → ∃ s', Pact cfg T s' ({ σ with world := w }.finish i c none)) := by
  have hok := h.ok i th hi
  unfold Placed at hok
  rw [hsub] at hok
  obtain ⟨hlive, c', hc', hok⟩ := hok
  rw [hcall] at hc'; cases hc'
  rw [hch] at hok
  obtain ⟨hchain, hst⟩ := hok
  rw [hp] at hchain
  have hst : ∀ (k : Nat) g, cfg.groups[k]? = some g →
      (Prog.act a f).Stance (T k) k g id ops (s.has g.a id) (s.has g.b id) (memAt s k id) := by
    rw [← hp]; exact hst
  -- duties of this thread
  have duty : ∀ (k : Nat) g, T k → cfg.groups[k]? = some g → g.reworkedBy ops = false → s.has g.a id = true →
      s.has g.b id = true → memAt s k id = true ∨
        (∃ (j : Nat) (thj : Thread V), j ≠ i ∧ σ.threads[j]? = some thj ∧ Tends k g id thj) ∨
        (Prog.act a f).Vows k id ∨ (Prog.act a f).Severs g id := by
    intro k g ht hk hcut ha hb'
    rcases h.mem_or hi ht hk ha hb' with h1 | h1 | ⟨_, h1⟩
    · exact .inl h1
    · exact .inr (.inl h1)
    · rcases h1 with ⟨c', e1, h2⟩ | h1
      · rw [hcall] at e1; cases e1
        simp only [Shape.reworkedBy, (h2 ops hch).1, (h2 ops hch).2, Bool.and_self] at hcut; cases hcut
      · rw [hp] at h1; exact .inr (.inr h1)
  -- the work succeeds and changes the entity as expected
  have good : ∀ (x : Ret V) w' s' has' mem', a.run σ.world = (w', .ok x) → Becomes w' s s' id has' mem' →
      a.subjectAfter x th.subject = th.subject → (f x).Chained cfg id (c.soft && c.proper cfg) →
      (∀ (k : Nat) g, cfg.groups[k]? = some g → (f x).Stance (T k) k g id ops (has' g.a) (has' g.b) (mem' k)) →
      (∀ (k : Nat) g, cfg.groups[k]? = some g → g.cutBy ops = false → g.fedBy ops = false →
        has' g.a = s.has g.a id ∧ has' g.b = s.has g.b id ∧ mem' k = memAt s k id) →
      (∀ (k : Nat) g, cfg.groups[k]? = some g → g.fedBy ops = false → mem' k = true → memAt s k id = true) →
      (∀ (k : Nat) g, T k → cfg.groups[k]? = some g → g.reworkedBy ops = false → has' g.a = true → has' g.b = true →
        mem' k = true ∨ (∃ (j : Nat) (thj : Thread V), j ≠ i ∧ σ.threads[j]? = some thj ∧ Tends k g id thj) ∨
          (f x).Vows k id ∨ (f x).Severs g id) →
      (∀ x, r = .ok x → ∃ s', Pact cfg T s' ({ σ with world := w }.setThread i
        { th with prog := f x, subject := a.subjectAfter x th.subject })) ∧
      (∀ e, r = .error e → ∃ s', Pact cfg T s' ({ σ with world := w }.finish i c none)) := by
    intro x w' s' has' mem' h1 h2 h3 h4 h5 h6 h7 h8
    rw [h1] at hrun; cases hrun
    refine ⟨fun y hy => ?_, fun e he => by cases he⟩
    cases hy
    rw [h3, hsub]
    exact ⟨s', h.chain_step hi hsub hcall hch hlive h2 h4 h5 h6 h7 h8⟩
  have refl := Becomes.refl h.rel id
  have mild : a.mild = true → (∀ x, a.subjectAfter x th.subject = th.subject) → (∀ k, a ≠ .groupAdd k id) →
      (∀ t e, a ≠ .detachStore t e) → ∀ x w', a.run σ.world = (w', .ok x) → (f x).Chained cfg id (c.soft && c.proper cfg) →
      (∀ (k : Nat) g, cfg.groups[k]? = some g → (f x).Stance (T k) k g id ops (s.has g.a id) (s.has g.b id) (memAt s k id)) →
      (∀ x, r = .ok x → ∃ s', Pact cfg T s' ({ σ with world := w }.setThread i
        { th with prog := f x, subject := a.subjectAfter x th.subject })) ∧
      (∀ e, r = .error e → ∃ s', Pact cfg T s' ({ σ with world := w }.finish i c none)) := by
    intro h1 h2 h3 h4 x w' h5 h6 h7
    obtain ⟨s', h8, h9, _⟩ := mild_run h.rel h1 h5
    refine good x w' s' _ _ h5 ⟨h8, fun e _ => h9 e, (h9 id).has, (h9 id).mem, (h9 id).live⟩ (h2 x) h6 h7
      (fun _ _ _ _ _ => ⟨rfl, rfl, rfl⟩) (fun _ _ _ _ h => h) ?_
    intro k g ht hk hcut ha hb'
    rcases duty k g ht hk hcut ha hb' with h10 | h10 | h10
    · exact .inl h10
    · exact .inr (.inl h10)
    · rcases h10 with (h10 | h10) | (⟨t, h10, _⟩ | h10)
      · exact absurd h10 (h3 k)
      · exact .inr (.inr (.inl (h10.2 x)))
      · exact absurd h10 (h4 _ _)
      · exact .inr (.inr (.inr (h10.2 x)))
  cases a with
  | has e =>
    obtain ⟨rfl, h1⟩ := hchain
    refine mild rfl (fun _ => rfl) (by simp) (by simp) _ _ (has_run' h.rel hlive) h1 fun k g hk => ?_
    refine .of (fun hc hd => ?_) (fun hc hd => ?_) (fun hc hd => (hst k g hk).offers hc hd) (fun hc hd => (hst k g hk).idles hc hd)
    · have := (hst k g hk).solo hc hd
      unfold Prog.Solo at this; exact this
    · have := (hst k g hk).cuts hc hd
      unfold Prog.Cuts at this; exact this
  | storeRead t e =>
    obtain ⟨w', x, h1⟩ := storeAccess_ok h.rel (.inl ⟨t, e, rfl⟩)
    refine mild rfl (fun _ => rfl) (by simp) (by simp) x w' h1 (hchain x) fun k g hk => ?_
    refine .of (fun hc hd => ?_) (fun hc hd => ?_) (fun hc hd => (hst k g hk).offers hc hd x) (fun hc hd => (hst k g hk).idles hc hd x)
    · have := (hst k g hk).solo hc hd
      unfold Prog.Solo at this; exact this x
    · have := (hst k g hk).cuts hc hd
      unfold Prog.Cuts at this; exact this x
  | storeWrite t e v =>
    obtain ⟨w', x, h1⟩ := storeAccess_ok h.rel (.inr ⟨t, e, v, rfl⟩)
    refine mild rfl (fun _ => rfl) (by simp) (by simp) x w' h1 (hchain x) fun k g hk => ?_
    refine .of (fun hc hd => ?_) (fun hc hd => ?_) (fun hc hd => (hst k g hk).offers hc hd x) (fun hc hd => (hst k g hk).idles hc hd x)
    · have := (hst k g hk).solo hc hd
      unfold Prog.Solo at this; exact this x
    · have := (hst k g hk).cuts hc hd
      unfold Prog.Cuts at this; exact this x
  | attachStore t e v =>
    obtain ⟨rfl, h1, h2⟩ := hchain
    obtain ⟨w', s', h3, h4, _⟩ := attachStore_run h.rel hb.mat v h1 hlive
    have hcuts : ∀ (k : Nat) g, cfg.groups[k]? = some g → g.cutBy ops = true → g.fedBy ops = false →
        g.touches t = false ∧ (f .unit).Cuts k g e (memAt s k e) := by
      intro k g hk hc hd
      have := (hst k g hk).cuts hc hd
      unfold Prog.Cuts at this; exact this
    refine good _ _ _ _ _ h3 h4 rfl h2 (fun k g hk => ?_) (fun k g hk hc hd => ?_) (fun _ _ _ _ h => h)
      (fun k g ht hk hcut ha hb' => ?_)
    · refine .of (fun hc hd => ?_) (fun hc hd => (hcuts k g hk hc hd).2) (fun hc hd => ((hst k g hk).offers hc hd).2)
        (fun hc hd => ((hst k g hk).idles hc hd).2)
      have := (hst k g hk).solo hc hd
      unfold Prog.Solo at this; exact this
    · obtain ⟨e1, e2⟩ := Prog.touches_false ((hst k g hk).idles hc hd).1
      simp only [e1, e2, Bool.or_false, and_self]
    · cases htt : g.touches t with
      | true =>
        cases hd : g.fedBy ops with
        | true =>
          have hc : g.cutBy ops = false := by simpa [Shape.reworkedBy, hd] using hcut
          exact .inr (.inr (.inl (((hst k g hk).offers hc hd).1 htt)))
        | false =>
          cases hc : g.cutBy ops with
          | true => rw [(hcuts k g hk hc hd).1] at htt; cases htt
          | false => rw [((hst k g hk).idles hc hd).1] at htt; cases htt
      | false =>
        obtain ⟨e1, e2⟩ := Prog.touches_false htt
        simp only [e1, e2, Bool.or_false] at ha hb'
        rcases duty k g ht hk hcut ha hb' with h10 | h10 | (h10 | h10) | (⟨_, h10, _⟩ | h10)
        · exact .inl h10
        · exact .inr (.inl h10)
        · cases h10
        · exact .inr (.inr (.inl (h10.2 _)))
        · cases h10
        · exact .inr (.inr (.inr (h10.2 _)))
  | groupAdd j e =>
    obtain ⟨rfl, ⟨gj, h1⟩, h2⟩ := hchain
    obtain ⟨w', s', h3, h4, _⟩ := groupAdd_run (id := e) h.rel hb.mat h1
    have hcuts : ∀ (k : Nat) g, cfg.groups[k]? = some g → g.cutBy ops = true → g.fedBy ops = false →
        j ≠ k ∧ (f .unit).Cuts k g e (memAt s k e) := by
      intro k g hk hc hd
      have := (hst k g hk).cuts hc hd
      unfold Prog.Cuts at this; exact this
    have hne : ∀ (k : Nat) g, cfg.groups[k]? = some g → g.fedBy ops = false → ¬ k = j := by
      intro k g hk hd
      cases hc : g.cutBy ops with
      | true => exact fun h => (hcuts k g hk hc hd).1 h.symm
      | false => exact fun h => ((hst k g hk).idles hc hd).1 h.symm
    refine good _ _ _ _ _ h3 h4 rfl h2 (fun k g hk => ?_) (fun k g hk hc hd => ?_) (fun k g hk hd => ?_)
      (fun k g ht hk hcut ha hb' => ?_)
    · refine .of (fun hc hd => ?_) (fun hc hd => ?_) (fun hc hd => (hst k g hk).offers hc hd)
        (fun hc hd => ((hst k g hk).idles hc hd).2)
      · have := (hst k g hk).solo hc hd
        unfold Prog.Solo at this
        by_cases hkj : k = j
        · subst hkj
          rw [h1] at hk; cases hk; exact this
        · simp only [hkj, decide_false, Bool.false_and, Bool.or_false] at this ⊢; exact this
      · have := hne k g hk hd
        simp only [this, decide_false, Bool.false_and, Bool.or_false]
        exact (hcuts k g hk hc hd).2
    · have hkj := hne k g hk hd
      simp only [hkj, decide_false, Bool.false_and, Bool.or_false, and_self]
    · have hkj := hne k g hk hd
      simp only [hkj, decide_false, Bool.false_and, Bool.or_false]; exact fun h => h
    · rcases duty k g ht hk hcut ha hb' with h10 | h10 | (h10 | h10) | (⟨_, h10, _⟩ | h10)
      · left; simp [h10]
      · exact .inr (.inl h10)
      · cases h10
        rw [h1] at hk; cases hk
        left; simp [ha, hb']
      · exact .inr (.inr (.inl (h10.2 _)))
      · cases h10
      · exact .inr (.inr (.inr (h10.2 _)))
  | groupRemove j e =>
    obtain ⟨rfl, ⟨gj, h1⟩, h2⟩ := hchain
    obtain ⟨w', s', h3, h4⟩ := groupRemove_run (id := e) h.rel hb.mat h1
    have hcuts : ∀ (k : Nat) g, cfg.groups[k]? = some g → g.cutBy ops = true → g.fedBy ops = false →
        (j = k → (f .unit).Severs g e) ∧ (f .unit).Cuts k g e (memAt s k e && !decide (k = j)) := by
      intro k g hk hc hd
      have := (hst k g hk).cuts hc hd
      unfold Prog.Cuts at this; exact this
    have hne : ∀ (k : Nat) g, cfg.groups[k]? = some g → g.cutBy ops = false → ¬ k = j := by
      intro k g hk hc
      cases hd : g.fedBy ops with
      | true => exact fun h => ((hst k g hk).offers hc hd).1 h.symm
      | false => exact fun h => ((hst k g hk).idles hc hd).1 h.symm
    refine good _ _ _ _ _ h3 h4 rfl h2 (fun k g hk => ?_) (fun k g hk hc hd => ?_) (fun k g hk hd hm => ?_)
      (fun k g ht hk hcut ha hb' => ?_)
    · refine .of (fun hc hd => ?_) (fun hc hd => (hcuts k g hk hc hd).2) (fun hc hd => ((hst k g hk).offers hc hd).2)
        (fun hc hd => ((hst k g hk).idles hc hd).2)
      have := (hst k g hk).solo hc hd
      unfold Prog.Solo at this; exact this
    · have := hne k g hk hc
      simp only [this, decide_false, Bool.not_false, Bool.and_true, and_self]
    · simp only [Bool.and_eq_true] at hm; exact hm.1
    · by_cases hkj : k = j
      · cases hc : g.cutBy ops with
        | false => exact absurd hkj (hne k g hk hc)
        | true =>
          have hd : g.fedBy ops = false := by simpa [Shape.reworkedBy, hc] using hcut
          exact .inr (.inr (.inr ((hcuts k g hk hc hd).1 hkj.symm)))
      · simp only [hkj, decide_false, Bool.not_false, Bool.and_true]
        rcases duty k g ht hk hcut ha hb' with h10 | h10 | (h10 | h10) | (⟨_, h10, _⟩ | h10)
        · exact .inl h10
        · exact .inr (.inl h10)
        · cases h10
        · exact .inr (.inr (.inl (h10.2 _)))
        · cases h10
        · exact .inr (.inr (.inr (h10.2 _)))
  | detachStore t e =>
    obtain ⟨rfl, hb0, h1, h2⟩ := hchain
    have hun : ∀ (k : Nat) g, cfg.groups[k]? = some g → g.cutBy ops = false → g.touches t = false := by
      intro k g hk hc
      cases hd : g.fedBy ops with
      | true => exact ((hst k g hk).offers hc hd).1
      | false => exact ((hst k g hk).idles hc hd).1
    have hsolo : ∀ (k : Nat) g, cfg.groups[k]? = some g → g.cutBy ops = true → g.fedBy ops = true →
        (g.touches t = true → memAt s k e = false) ∧
        (∀ v, (f (.val (some v))).Solo (T k) k g (s.has g.a e && !(g.a == t)) (s.has g.b e && !(g.b == t)) (memAt s k e)) ∧
        ((g.a = t → s.has g.a e = false) → (g.b = t → s.has g.b e = false) →
          (T k → s.has g.a e = true → s.has g.b e = true → memAt s k e = true) ∧
          (f (.val none)).Solo (T k) k g (s.has g.a e) (s.has g.b e) (memAt s k e)) := by
      intro k g hk hc hd
      have := (hst k g hk).solo hc hd
      unfold Prog.Solo at this; exact this
    have hcuts : ∀ (k : Nat) g, cfg.groups[k]? = some g → g.cutBy ops = true → g.fedBy ops = false →
        (g.touches t = true → memAt s k e = false) ∧ ∀ r, (f r).Cuts k g e (memAt s k e) := by
      intro k g hk hc hd
      have := (hst k g hk).cuts hc hd
      unfold Prog.Cuts at this; exact this
    have hnv : ∀ k, ¬ (Prog.act (.detachStore t e) f).Vows k e := by
      rintro k (h3 | h3)
      · cases h3
      · exact h3.1 t e rfl
    have hns : ∀ g, (Prog.act (.detachStore t e) f).Severs g e → g.touches t = true := by
      rintro g (⟨t', h3, h4⟩ | h3)
      · cases h3; exact h4
      · exact absurd rfl (h3.1 t e)
    cases hh : s.has t e with
    | true =>
      obtain ⟨w', s', v, h5, h6⟩ := detachStore_run h.rel hb.mat hh (by
        intro k g hk htt
        cases hc : g.cutBy ops with
        | true =>
          cases hd : g.fedBy ops with
          | true => exact (hsolo k g hk hc hd).1 htt
          | false => exact (hcuts k g hk hc hd).1 htt
        | false => rw [hun k g hk hc] at htt; cases htt)
      refine good _ _ _ _ _ h5 h6 rfl (h2 _) (fun k g hk => ?_) (fun k g hk hc hd => ?_) (fun _ _ _ _ h => h)
        (fun k g ht hk hcut ha hb' => ?_)
      · exact .of (fun hc hd => (hsolo k g hk hc hd).2.1 v) (fun hc hd => (hcuts k g hk hc hd).2 _)
          (fun hc hd => ((hst k g hk).offers hc hd).2 _) (fun hc hd => ((hst k g hk).idles hc hd).2 _)
      · obtain ⟨e1, e2⟩ := Prog.touches_false (hun k g hk hc)
        simp only [e1, e2, Bool.not_false, Bool.and_true, and_self]
      · simp only [Bool.and_eq_true, Bool.not_eq_true'] at ha hb'
        have htt : g.touches t = false := by simp [Shape.touches, ha.2, hb'.2]
        rcases duty k g ht hk hcut ha.1 hb'.1 with h10 | h10 | h10 | h10
        · exact .inl h10
        · exact .inr (.inl h10)
        · exact absurd h10 (hnv k)
        · rw [hns g h10] at htt; cases htt
    | false =>
      have hno : ∀ u, u = t → s.has u e = false := by rintro u rfl; exact hh
      have hnot : ∀ g, (Prog.act (.detachStore t e) f).Severs g e → s.has g.a e = true → s.has g.b e = true → False := by
        intro g h3 ha hb'
        have := hns g h3
        simp only [Shape.touches, Bool.or_eq_true, beq_iff_eq] at this
        rcases this with h4 | h4
        · rw [hno _ h4] at ha; cases ha
        · rw [hno _ h4] at hb'; cases hb'
      rcases detachStore_absent h.rel hb.mat h1 hh with h5 | ⟨e', h5⟩
      · refine good _ _ _ _ _ h5 refl rfl (h2 _) (fun k g hk => ?_) (fun k g hk hc hd => ⟨rfl, rfl, rfl⟩)
          (fun _ _ _ _ h => h) (fun k g ht hk hcut ha hb' => ?_)
        · exact .of (fun hc hd => ((hsolo k g hk hc hd).2.2 (hno _) (hno _)).2) (fun hc hd => (hcuts k g hk hc hd).2 _)
            (fun hc hd => ((hst k g hk).offers hc hd).2 _) (fun hc hd => ((hst k g hk).idles hc hd).2 _)
        · rcases duty k g ht hk hcut ha hb' with h10 | h10 | h10 | h10
          · exact .inl h10
          · exact .inr (.inl h10)
          · exact absurd h10 (hnv k)
          · exact (hnot g h10 ha hb').elim
      · rw [h5] at hrun; cases hrun
        refine ⟨fun x hx => (nomatch hx), fun e'' _ => ⟨s, h.finish hi h.rel (fun _ => .refl _ _) ?_ ?_⟩⟩
        · intro k g id' ht hk h6 ha hb'
          obtain ⟨h6, h7⟩ := h6
          rw [hsub] at h6; cases h6
          rcases h7 with ⟨c', e1, h7⟩ | h7 | h7
          · rw [hcall] at e1; cases e1
            exact ((hsolo k g hk (h7 ops hch).1 (h7 ops hch).2).2.2 (hno _) (hno _)).1 ht ha hb'
          · rw [hp] at h7; exact absurd h7 (hnv k)
          · rw [hp] at h7; exact (hnot g h7 ha hb').elim
        · rintro _ ⟨h6, h7⟩
          rw [h6, h7] at hb0; cases hb0
  | _ => exact False.elim hchain

/-- The only thread working on an entity did something to it. -/
theorem Pact.alone_step {s s' : State V} {σ : Sys V} {w : World V} (h : Pact cfg T s σ) {i : Nat}
    {th : Thread V} (hi : σ.threads[i]? = some th) {id : Nat} {c : ApiCall V} (hsub : th.subject = some id)
    (hcall : th.call = some c) (hch : c.chain = none) (hsoft : c.soft = false) {p' : Prog V} (hrel : Rel w s')
    (hot : ∀ e, e ≠ id → Alike s s' e) (hlive : s'.live id = true)
    (ha : p'.Alone cfg T id (fun t => s'.has t id) (fun k => memAt s' k id)) :
    Pact cfg T s' ({ σ with world := w }.setThread i { th with prog := p', subject := some id }) := by
  have hne : ∀ (j : Nat) thj e, j ≠ i → σ.threads[j]? = some thj → thj.minds e → e ≠ id := by
    rintro j thj e hji hj (he | he) rfl
    rotate_left
    · exact h.claim j i thj th e hji hj hi he (.inl hsub)
    obtain ⟨c1, c2, o1, o2, e1, e2, e3, e4, hno⟩ := h.apart i j th thj e (fun h => hji h.symm) hi hj hsub he
    rw [hcall] at e1; cases e1
    rw [hch] at e3; cases e3
  refine h.update hi (fun j => setThread_threads { σ with world := w } i _ j hi) hrel ?_
    (fun j thj hji hj => .of_alike fun e he => hot e (hne j thj e hji hj he)) ?_
    (h.claims_less hi (fun e he => by rw [hsub]; exact he) (fun e he => absurd he (Prog.claims_none ha.fills e))) ?_
    (fun _ _ h => .inl h)
  · refine ⟨hlive, c, hcall, ?_⟩
    rw [hch]; exact ⟨hsoft, ha⟩
  · intro j thj e hji hj h1 h2
    cases h1
    exact absurd rfl (hne j thj id hji hj (.inl h2))
  · intro k g e ht hk h1 h2
    by_cases he : e = id
    · subst he
      exact .inr (.inr ⟨rfl, .inl ⟨c, hcall, fun ops ho => by rw [hch] at ho; cases ho⟩⟩)
    · rw [(hot e he).has] at h1 h2
      rw [(hot e he).mem]
      rcases h.mem_or hi ht hk h1 h2 with h3 | h3 | ⟨h3, _⟩
      · exact .inl h3
      · exact .inr (.inl h3)
      · rw [hsub] at h3; cases h3; exact absurd rfl he

theorem Pact.step_alone {s : State V} {σ : Sys V} (h : Pact cfg T s σ) (hb : Basics cfg σ)
    {i : Nat} {th : Thread V} {a : Act V} {f : Ret V → Prog V} {w : World V} {r : Xecs.R (Ret V)}
    (hi : σ.threads[i]? = some th) (hp : th.prog = .act a f) (hrun : a.run σ.world = (w, r)) {id : Nat}
    {c : ApiCall V} (hsub : th.subject = some id) (hcall : th.call = some c) (hch : c.chain = none) :
    (∀ x, r = .ok x → ∃ s', Pact cfg T s' ({ σ with world := w }.setThread i
        { th with prog := f x, subject := a.subjectAfter x th.subject })) ∧
    (∀ e, r = .error e → ∃ s', Pact cfg T s' ({ σ with world := w }.finish i c none)) := by
  have hok := h.ok i th hi
  unfold Placed at hok
  rw [hsub] at hok
  obtain ⟨hlive, c', hc', hok⟩ := hok
  rw [hcall] at hc'; cases hc'
  rw [hch] at hok
  obtain ⟨hsoft, halone⟩ := hok
  rw [hp] at halone
  have good : ∀ (x : Ret V) w' s' has' mem', a.run σ.world = (w', .ok x) → Becomes w' s s' id has' mem' →
      a.subjectAfter x th.subject = th.subject → (f x).Alone cfg T id has' mem' →
      (∀ x, r = .ok x → ∃ s', Pact cfg T s' ({ σ with world := w }.setThread i
        { th with prog := f x, subject := a.subjectAfter x th.subject })) ∧
      (∀ e, r = .error e → ∃ s', Pact cfg T s' ({ σ with world := w }.finish i c none)) := by
    intro x w' s' has' mem' h1 h2 h3 h4
    rw [h1] at hrun; cases hrun
    refine ⟨fun y hy => ?_, fun e he => by cases he⟩
    cases hy
    have e1 : (fun t => s'.has t id) = has' := funext h2.has
    have e2 : (fun k => memAt s' k id) = mem' := funext h2.mem
    rw [h3, hsub]
    refine ⟨s', h.alone_step hi hsub hcall hch hsoft h2.rel h2.others (by rw [h2.live]; exact hlive) ?_⟩
    rw [e1, e2]; exact h4
  have mild : a.mild = true → (∀ x, a.subjectAfter x th.subject = th.subject) →
      (∃ w' x, a.run σ.world = (w', .ok x)) →
      (∀ x, (f x).Alone cfg T id (fun t => s.has t id) (fun k => memAt s k id)) →
      (∀ x, r = .ok x → ∃ s', Pact cfg T s' ({ σ with world := w }.setThread i
        { th with prog := f x, subject := a.subjectAfter x th.subject })) ∧
      (∀ e, r = .error e → ∃ s', Pact cfg T s' ({ σ with world := w }.finish i c none)) := by
    intro h1 h2 ⟨w', x, h3⟩ h4
    obtain ⟨s', h5, h6, _⟩ := mild_run h.rel h1 h3
    exact good x w' s' _ _ h3 ⟨h5, fun e _ => h6 e, (h6 id).has, (h6 id).mem, (h6 id).live⟩ (h2 x) (h4 x)
  have refl := Becomes.refl h.rel id
  cases a with
  | has e =>
    obtain ⟨rfl, h1⟩ := halone
    exact good _ _ _ _ _ (has_run' h.rel hlive) refl rfl h1
  | attachStore t e v =>
    obtain ⟨rfl, h1, h2⟩ := halone
    obtain ⟨w', s', h3, h4, _⟩ := attachStore_run h.rel hb.mat v h1 hlive
    exact good _ _ _ _ _ h3 h4 rfl h2
  | groupAdd k e =>
    obtain ⟨rfl, g, h1, h2⟩ := halone
    obtain ⟨w', s', h3, h4, _⟩ := groupAdd_run (id := e) h.rel hb.mat h1
    exact good _ _ _ _ _ h3 h4 rfl h2
  | groupRemove k e =>
    obtain ⟨rfl, ⟨g, h1⟩, h2⟩ := halone
    obtain ⟨w', s', h3, h4⟩ := groupRemove_run (id := e) h.rel hb.mat h1
    exact good _ _ _ _ _ h3 h4 rfl h2
  | detachStore t e =>
    obtain ⟨rfl, h1, h2, h3, h4⟩ := halone
    cases hh : s.has t e with
    | true =>
      obtain ⟨w', s', v, h5, h6⟩ := detachStore_run h.rel hb.mat hh h2
      exact good _ _ _ _ _ h5 h6 rfl (h3 hh v)
    | false =>
      rcases detachStore_absent h.rel hb.mat h1 hh with h5 | ⟨e', h5⟩
      · exact good _ _ _ _ _ h5 refl rfl (h4 hh).2
      · rw [h5] at hrun; cases hrun
        refine ⟨fun x hx => (nomatch hx), fun e'' _ => ⟨s, h.finish hi h.rel (fun _ => .refl _ _) ?_ ?_⟩⟩
        · intro k g id' ht hk h6 ha hb'
          rw [h6.1] at hsub; cases hsub
          exact (h4 hh).1 k g ht hk ha hb'
        · rintro _ ⟨h6, _⟩
          rw [hsoft] at h6; cases h6
  | storeRead t e => exact mild rfl (fun _ => rfl) (storeAccess_ok h.rel (.inl ⟨t, e, rfl⟩)) halone
  | storeWrite t e v => exact mild rfl (fun _ => rfl) (storeAccess_ok h.rel (.inr ⟨t, e, v, rfl⟩)) halone
  | storeHas t e =>
    obtain ⟨rfl, h1, h2⟩ := halone
    exact good _ _ _ _ _ (storeHas_run h.rel hb.mat h1) refl rfl h2
  | groupHas k e =>
    obtain ⟨rfl, ⟨g, h1⟩, h2⟩ := halone
    exact good _ _ _ _ _ (groupHas_run h.rel hb.mat h1) refl rfl h2
  | groupErase k e =>
    obtain ⟨rfl, h1, g, h2, h3, h4⟩ := halone
    obtain ⟨w', s', h5, h6⟩ := groupErase_run h.rel hb.mat h2 h1 h3
    exact good _ _ _ _ _ h5 h6 rfl h4
  | storeErase t e =>
    obtain ⟨rfl, h1, h2, h3⟩ := halone
    obtain ⟨w', s', h5, h6⟩ := storeErase_run h.rel hb.mat h1 h2
    exact good _ _ _ _ _ h5 h6 rfl h3
  | emRemove e =>
    obtain ⟨rfl, h1, h2, h3⟩ := halone
    obtain ⟨w', s', h4, h5, h6, h7, h8, h9⟩ := emRemove_run h.rel hlive h1
    rw [h4] at hrun; cases hrun
    refine ⟨fun y hy => ?_, fun e he => by cases he⟩
    cases hy
    have hne : ∀ (j : Nat) thj e', j ≠ i → σ.threads[j]? = some thj → thj.minds e' → e' ≠ e := by
      rintro j thj e' hji hj (he | he) rfl
      rotate_left
      · exact h.claim j i thj th e' hji hj hi he (.inl hsub)
      obtain ⟨c1, c2, o1, o2, e1, e2, e3, e4, hno⟩ := h.apart i j th thj e' (fun h => hji h.symm) hi hj hsub he
      rw [hcall] at e1; cases e1
      rw [hch] at e3; cases e3
    refine ⟨s', h.update hi (fun j => setThread_threads { σ with world := w } i _ j hi) h5 ⟨.inl h3.waits, ?_⟩
      (fun j thj hji hj => .of_alike fun e' he => h6 e' (hne j thj e' hji hj he)) (fun _ _ _ _ _ h => nomatch h)
      (h.claims_less hi (fun _ h => nomatch h) (fun e he => absurd he (Prog.claims_none
        (Prog.Waits.fills (cfg := cfg) (T := T) (ch := none) h3.waits) e))) ?_
      (fun _ _ h => .inl h)⟩
    · intro c' hc
      have : th.call = some c' := hc
      rw [hcall] at this; cases this; exact hsoft
    · intro k g e' ht hk ha hb'
      by_cases he : e' = e
      · subst he; rw [h8] at ha; cases ha
      · rw [(h6 e' he).has] at ha hb'
        rw [(h6 e' he).mem]
        rcases h.mem_or hi ht hk ha hb' with h10 | h10 | ⟨h10, _⟩
        · exact .inl h10
        · exact .inr (.inl h10)
        · rw [hsub] at h10; cases h10; exact absurd rfl he
  | _ => exact False.elim halone

/-- The entities a thread works on, or is still attaching components to, are alive. -/
theorem Pact.minds_live {s : State V} {σ : Sys V} (h : Pact cfg T s σ) {j : Nat} {th : Thread V} {e : Nat}
    (hj : σ.threads[j]? = some th) (hm : th.minds e) : s.live e = true := by
  have hok := h.ok j th hj
  rcases hm with hm | hm
  · unfold Placed at hok
    rw [hm] at hok; exact hok.1
  · cases hs : th.subject with
    | some id => exact absurd hm (Prog.claims_none (hok.fills hs) e)
    | none =>
      unfold Placed at hok
      rw [hs] at hok
      rcases hok.1 with h1 | ⟨x, y, D, h1, _, h2⟩
      · exact absurd hm (Prog.claims_none h1.fills e)
      · exact (h2 e hm).1

/-- New entities are alive, and were not before. -/
theorem allocateN_fresh {w : World V} {s : State V} (h : Rel w s) (n : Nat) :
    ∃ w' s' a, (Act.allocateN n : Act V).run w = (w', .ok (.range a (a + n))) ∧ Rel w' s' ∧
      (∀ e, (∀ t, s'.has t e = s.has t e) ∧ (∀ k, memAt s' k e = memAt s k e) ∧
        (s.live e = true → s'.live e = true)) ∧
      ∀ e, a ≤ e → e < a + n → s.live e = false ∧ s'.live e = true ∧ ∀ t, s.has t e = false := by
  obtain ⟨w', h1, h2⟩ := createEntities_ref h n
  have hpos : 0 < s.next := by
    rw [← h.next]
    have := h.em.chain
    cases hf : s.free with
    | nil =>
      rw [hf] at this
      exact (List.getElem?_eq_some_iff.1 this).1
    | cons f fs =>
      rw [hf] at this
      exact (List.getElem?_eq_some_iff.1 this.1).1
  refine ⟨w', _, s.next, ?_, h2, fun e => ⟨fun _ => rfl, fun _ => rfl, ?_⟩, fun e he1 he2 => ?_⟩
  · simp only [Act.run, M.bind_apply, h1, M.pure_apply]
  · intro hl
    rw [live_iff] at hl ⊢
    exact ⟨hl.1, by simp; omega, hl.2.2⟩
  · have hdead : s.live e = false := by
      cases hl : s.live e with
      | false => rfl
      | true =>
        have := (live_iff.1 hl).2.1
        omega
    refine ⟨hdead, live_iff.2 ⟨by omega, he2, fun hf => ?_⟩, fun t => ?_⟩
    · have := (h.em.range e hf).2
      rw [h.next] at this
      omega
    · cases hh : s.has t e with
      | false => rfl
      | true => rw [h.live t e hh] at hdead; cases hdead

/-- A batch of new components. -/
theorem batchStore_run {w : World V} {s : State V} (h : Rel w s) {cfg : Config} (hm : Matches cfg w) {x y t : Nat} {vs : List V}
    (hlen : vs.length = y - x) (hreg : cfg.registered t = true) (hl : ∀ e, x ≤ e → e < y → s.live e = true)
    (hn : ∀ e, x ≤ e → e < y → s.has t e = false) :
    ∃ w' f, s.comp t = some f ∧ (Act.batchStore x y t vs).run w = (w', .ok .unit) ∧ Rel w' (s.batchAttached x t f vs) ∧
      (∀ u e, (s.batchAttached x t f vs).has u e = (s.has u e || (u == t && decide (x ≤ e) && decide (e < y)))) ∧
      ∀ e, f e = s.get t e := by
  obtain ⟨f, hf⟩ := registered_comp h.core hm hreg
  have hfe : ∀ e, f e = s.get t e := fun e => by simp [State.get, hf]
  obtain ⟨w', h1, h2⟩ := attachBatch_ref h hlen hf (fun e h1 h2 => hl e h1 (by omega)) (fun e h1 h2 => by
    have := hn e h1 (by omega)
    simp only [State.has, ← hfe, Option.isSome_eq_false_iff, Option.isNone_iff_eq_none] at this
    exact this)
  refine ⟨w', f, hf, ?_, h2, fun u e => ?_, hfe⟩
  · simp only [Act.run, M.bind_apply, h1, M.pure_apply]
  · simp only [State.has, State.get, State.batchAttached, State.setComp]
    by_cases hu : u = t
    · subst hu
      simp only [if_true, hf, BEq.rfl, Bool.true_and]
      by_cases he : x ≤ e ∧ e < x + vs.length
      · have : e - x < vs.length := by omega
        simp only [he, and_self, if_true, List.getElem?_eq_getElem this]
        have : e < y := by omega
        simp [this]
      · simp only [he, if_false]
        by_cases h3 : x ≤ e
        · have : ¬ e < y := by omega
          simp [this]
        · simp [h3]
    · simp [hu]

theorem Pact.step_none {s : State V} {σ : Sys V} (h : Pact cfg T s σ) (hb : Basics cfg σ)
    {i : Nat} {th : Thread V} {a : Act V} {f : Ret V → Prog V} {w : World V} {r : Xecs.R (Ret V)}
    (hi : σ.threads[i]? = some th) (hp : th.prog = .act a f) (hrun : a.run σ.world = (w, r)) (hsub : th.subject = none)
    {c : ApiCall V} (hcall : th.call = some c) :
    (∀ x, r = .ok x → ∃ s', Pact cfg T s' ({ σ with world := w }.setThread i
        { th with prog := f x, subject := a.subjectAfter x th.subject })) ∧
    (∀ e, r = .error e → ∃ s', Pact cfg T s' ({ σ with world := w }.finish i c none)) := by
  have hok := h.ok i th hi
  unfold Placed at hok
  rw [hsub] at hok
  obtain ⟨hq, hsoft⟩ := hok
  rw [hp] at hq
  have hlive : ∀ (j : Nat) thj e, σ.threads[j]? = some thj → thj.minds e → s.live e = true :=
    fun j thj e hj he => h.minds_live hj he
  have hno : ∀ k g e, ¬ Tends k g e th := by
    rintro k g e ⟨h1, _⟩; rw [hsub] at h1; cases h1
  rcases hq with (⟨h1, h2⟩ | ⟨n, rfl, h2⟩ | ⟨rfl, ops, hops, h2⟩) | ⟨x, y, D, ⟨t, vs, rfl, h1, h2, h3, h4, h5⟩, hxy, h6⟩
  · obtain ⟨s', h3, h4, _⟩ := mild_run h.rel h1 hrun
    constructor
    · rintro x rfl
      have hsa : a.subjectAfter x th.subject = none := by
        rw [hsub]; cases a <;> simp_all [Act.subjectAfter, Act.mild]
      refine ⟨s', h.update hi (fun j => setThread_threads { σ with world := w } i _ j hi) h3 ?_
        (fun j thj _ _ => .of_alike fun e _ => h4 e) ?_ (h.claims_less hi (fun e he => by rw [hsa] at he; cases he)
          (fun e he => absurd he (Prog.claims_none (h2 x).fills e))) ?_ (fun _ _ h => .inl h)⟩
      · unfold Placed
        simp only [hsa]
        exact ⟨.inl (h2 x), hsoft⟩
      · intro j thj e _ _ he
        rw [hsa] at he; cases he
      · intro k g e ht hk ha hb
        rw [(h4 e).has] at ha hb
        rw [(h4 e).mem]
        rcases h.mem_or hi ht hk ha hb with h5 | h5 | h5
        · exact .inl h5
        · exact .inr (.inl h5)
        · exact absurd h5 (hno k g e)
    · rintro e rfl
      refine ⟨s', h.finish hi h3 h4 (fun k g e _ _ ht => absurd ht (hno k g e)) ?_⟩
      rintro _ ⟨h5, _⟩
      rw [hsoft c hcall] at h5; cases h5
  · obtain ⟨w', s', a, h3, h4, h5, h6⟩ := allocateN_fresh h.rel n
    rw [h3] at hrun; cases hrun
    refine ⟨fun y hy => ?_, fun e he => by cases he⟩
    cases hy
    have hpo := h2 a (a + n) (by omega)
    have hcl : ∀ e, (f (.range a (a + n))).claims e → a ≤ e ∧ e < a + n := by
      rintro e ⟨x, y, hf, h7⟩
      obtain ⟨rfl, rfl⟩ := hpo.fills hf
      exact h7
    refine ⟨s', h.update hi (fun j => setThread_threads { σ with world := w } i _ j hi) h4 ?_ ?_ ?_ ?_ ?_ (fun _ _ h => .inl h)⟩
    · unfold Placed
      simp only [Act.subjectAfter, hsub]
      refine ⟨.inr ⟨a, a + n, [], hpo, by omega, fun e he => ?_⟩, hsoft⟩
      obtain ⟨h7, h8⟩ := hcl e he
      exact ⟨(h6 e h7 h8).2.1, fun t _ => by rw [(h5 e).1]; exact (h6 e h7 h8).2.2 t⟩
    · intro j thj hji hj
      refine .of_alike fun e he => ⟨(h5 e).1, (h5 e).2.1, ?_⟩
      have := hlive j thj e hj he
      rw [this]; exact (h5 e).2.2 this
    · intro j thj e _ _ he
      simp only [Act.subjectAfter, hsub] at he; cases he
    · intro j thj e hji hj
      have hno : (f (.range a (a + n))).claims e → ¬ thj.minds e := by
        intro he hm
        obtain ⟨h7, h8⟩ := hcl e he
        have := hlive j thj e hj hm
        rw [(h6 e h7 h8).1] at this; cases this
      refine ⟨hno, ?_⟩
      rintro hc (hm | hm)
      · simp only [Act.subjectAfter, hsub] at hm; cases hm
      · exact hno hm (.inr hc)
    · intro k g e ht hk ha hb
      rw [(h5 e).1] at ha hb
      rw [(h5 e).2.1]
      rcases h.mem_or hi ht hk ha hb with h6 | h6 | h6
      · exact .inl h6
      · exact .inr (.inl h6)
      · exact absurd h6 (hno k g e)
  · obtain ⟨w', s', id, h3, h4, h5, h6, h7, h8, h9, _⟩ := allocate_run' h.rel
    rw [h3] at hrun; cases hrun
    refine ⟨fun y hy => ?_, fun e he => by cases he⟩
    cases hy
    have hne : ∀ (j : Nat) thj e, σ.threads[j]? = some thj → thj.minds e → e ≠ id := by
      rintro j thj e hj he rfl
      rw [hlive j thj e hj he] at h6; cases h6
    rw [hcall] at hops
    refine ⟨s', h.update hi (fun j => setThread_threads { σ with world := w } i _ j hi) h4 ?_
      (fun j thj hji hj => .of_alike fun e he => h5 e (hne j thj e hj he)) ?_ ?_ ?_ (fun _ _ h => .inl h)⟩
    · refine ⟨h7, c, hcall, ?_⟩
      have hops' : c.chain = some ops := hops
      rw [hops']
      refine ⟨?_, fun k g hk => ?_⟩
      · rw [hsoft c hcall]; exact (h2 id).1
      · have := (h2 id).2 k g hk
        rw [h8, h8, h9]; exact this
    · intro j thj e hji hj h10 h11
      cases h10
      exact absurd rfl (hne j thj _ hj (.inl h11))
    · intro j thj e hji hj
      have hno := Prog.claims_none (h2 id).1.fills e
      refine ⟨fun hc => absurd hc hno, ?_⟩
      rintro hc (hm | hm)
      · cases hm; exact hne j thj _ hj (.inr hc) rfl
      · exact absurd hm hno
    · intro k g e ht hk ha hb'
      by_cases he : e = id
      · subst he; rw [h8] at ha; cases ha
      · rw [(h5 e he).has] at ha hb'
        rw [(h5 e he).mem]
        rcases h.mem_or hi ht hk ha hb' with h10 | h10 | h10
        · exact .inl h10
        · exact .inr (.inl h10)
        · exact absurd h10 (hno k g e)
  · have hcl : ∀ e, x ≤ e → e < y → (Prog.act (.batchStore x y t vs) f).claims e := fun e he1 he2 => ⟨x, y, rfl, he1, he2⟩
    obtain ⟨w', fc, hfc, h7, h8, h9, _⟩ := batchStore_run h.rel hb.mat h2 h3 (fun e he1 he2 => (h6 e (hcl e he1 he2)).1)
      (fun e he1 he2 => (h6 e (hcl e he1 he2)).2 t h1)
    rw [h7] at hrun; cases hrun
    refine ⟨fun z hz => ?_, fun e he => by cases he⟩
    cases hz
    have hsame : ∀ e, ¬ (x ≤ e ∧ e < y) → Alike s (s.batchAttached x t fc vs) e := by
      intro e he
      refine ⟨fun u => ?_, fun _ => rfl, rfl⟩
      rw [h9]
      by_cases h10 : x ≤ e
      · have : ¬ e < y := fun h => he ⟨h10, h⟩
        simp [this]
      · simp [h10]
    have hless : ∀ e, (f .unit).claims e → th.prog.claims e := by
      rintro e ⟨x', y', hf, h10⟩
      obtain ⟨rfl, rfl⟩ := h5.fills hf
      rw [hp]; exact hcl e h10.1 h10.2
    refine ⟨_, h.update hi (fun j => setThread_threads { σ with world := w } i _ j hi) h8 ?_ ?_ ?_
      (h.claims_less hi (fun e he => ?_) hless) ?_ (fun _ _ h => .inl h)⟩
    · unfold Placed
      simp only [Act.subjectAfter, hsub]
      refine ⟨.inr ⟨x, y, t :: D, h5, hxy, fun e he => ?_⟩, hsoft⟩
      have he' := hless e he
      rw [hp] at he'
      refine ⟨(h6 e he').1, fun u hu => ?_⟩
      simp only [List.mem_cons, not_or] at hu
      rw [h9, (h6 e he').2 u hu.2]
      simp [hu.1]
    · intro j thj hji hj
      refine .of_alike fun e he => hsame e fun hr => ?_
      refine h.claim i j th thj e (fun h => hji h.symm) hi hj ?_ he
      rw [hp]; exact hcl e hr.1 hr.2
    · intro j thj e _ _ he
      simp only [Act.subjectAfter, hsub] at he; cases he
    · simp only [Act.subjectAfter, hsub] at he; cases he
    · intro k g e ht hk ha hb'
      obtain ⟨e1, e2⟩ := Prog.touches_false (h4 k g ht hk)
      rw [h9, e1, Bool.false_and, Bool.false_and, Bool.or_false] at ha
      rw [h9, e2, Bool.false_and, Bool.false_and, Bool.or_false] at hb'
      rcases h.mem_or hi ht hk ha hb' with h10 | h10 | h10
      · exact .inl h10
      · exact .inr (.inl h10)
      · exact absurd h10 (hno k g e)

theorem Placed.guard {s : State V} {th : Thread V} (h : Placed cfg T s th) {p q : Prog V} (hp : th.prog = p)
    (hP : ∀ {P : Prog V → Prop}, Prog.Passes P → P p → P q)
    (hW : ∀ ch, p.Waits cfg T ch → q.Waits cfg T ch)
    (hF : ∀ x y D, p.Pours cfg T x y D → q.Pours cfg T x y D) (hf : q.fills = p.fills)
    (hA : ∀ id has mem, p.Alone cfg T id has mem → q.Alone cfg T id has mem) {held : List Guard} :
    Placed cfg T s { th with prog := q, held := held } := by
  unfold Placed at h ⊢
  show (match th.subject with
    | none => _
    | some id => _)
  cases hs : th.subject with
  | none =>
    rw [hs] at h
    rw [hp] at h
    refine ⟨h.1.imp (hW _) ?_, h.2⟩
    rintro ⟨x, y, D, h1, h2, h3⟩
    refine ⟨x, y, D, hF x y D h1, h2, fun e he => h3 e ?_⟩
    unfold Prog.claims at he ⊢
    rw [← hf]; exact he
  | some id =>
    rw [hs] at h
    obtain ⟨h1, c, h2, h3⟩ := h
    refine ⟨h1, c, h2, ?_⟩
    cases hc : c.chain with
    | some ops =>
      rw [hc, hp] at h3
      exact ⟨hP Prog.passes_chained h3.1, fun k g hk => (h3.2 k g hk).through hP⟩
    | none =>
      rw [hc, hp] at h3
      exact ⟨h3.1, hA _ _ _ h3.2⟩

theorem Pact.step {s : State V} {σ σ' : Sys V} (h : Pact cfg T s σ) (hb : Basics cfg σ)
    (hs : σ.Step cfg (Sys.considerate cfg) σ') (hsp : ∀ th ∈ σ'.threads, ∀ c, th.call = some c → c.spares cfg T) :
    ∃ s', Pact cfg T s' σ' := by
  have work : ∀ {i : Nat} {th : Thread V} {a : Act V} {f : Ret V → Prog V} {w : World V} {r : Xecs.R (Ret V)},
      σ.threads[i]? = some th → th.prog = .act a f → a.run σ.world = (w, r) → ∀ {c}, th.call = some c →
      (∀ x, r = .ok x → ∃ s', Pact cfg T s' ({ σ with world := w }.setThread i
          { th with prog := f x, subject := a.subjectAfter x th.subject })) ∧
      (∀ e, r = .error e → ∃ s', Pact cfg T s' ({ σ with world := w }.finish i c none)) := by
    intro i th a f w r h1 h2 h3 c hc
    cases hsub : th.subject with
    | none => rw [← hsub]; exact h.step_none hb h1 h2 h3 hsub hc
    | some id =>
      rw [← hsub]
      cases hch : c.chain with
      | some ops => exact h.step_chain hb h1 h2 h3 hsub hc hch
      | none => exact h.step_alone hb h1 h2 h3 hsub hc hch
  cases hs with
  | start h1 h2 h3 =>
    rename_i i th c
    have hnew := setThread_threads σ i { call := some c, prog := c.prog cfg, held := [], subject := c.subject } i h1
    rw [if_pos rfl] at hnew
    exact ⟨s, h.start hb h1 h2 h3 (hsp _ (List.mem_of_getElem? hnew) c rfl)⟩
  | acq h1 h2 h3 =>
    rename_i i th l m p
    have hq : Placed cfg T s { th with prog := p, held := (l, m) :: th.held } :=
      (h.ok i th h1).guard (q := p) h2 (fun hP hp => hP.acq hp) (fun _ h => h) (fun _ _ _ h => h) rfl (fun _ _ _ h => h)
    refine ⟨s, h.same h1 (fun j => setThread_threads σ _ _ j h1) h.rel (fun _ => .refl _ _) hq rfl rfl
      (fun e he => by rw [h2]; exact he) ?_ ?_ rfl⟩
    · intro k id ho; rw [h2] at ho; exact ho
    · intro g id ho; rw [h2] at ho; exact ho
  | rel h1 h2 =>
    rename_i i th l m p
    have hq : Placed cfg T s { th with prog := p, held := th.held.erase (l, m) } :=
      (h.ok i th h1).guard (q := p) h2 (fun hP hp => hP.rel hp) (fun _ h => h) (fun _ _ _ h => h) rfl (fun _ _ _ h => h)
    refine ⟨s, h.same h1 (fun j => setThread_threads σ _ _ j h1) h.rel (fun _ => .refl _ _) hq rfl rfl
      (fun e he => by rw [h2]; exact he) ?_ ?_ rfl⟩
    · intro k id ho; rw [h2] at ho; exact ho
    · intro g id ho; rw [h2] at ho; exact ho
  | act h1 h2 h3 =>
    rename_i i th a f w r
    cases hc : th.call with
    | none =>
      have := hb.idle th (List.mem_of_getElem? h1) hc
      subst this; simp [Thread.idle] at h2
    | some c => rw [← hc]; exact (work h1 h2 h3 hc).1 r rfl
  | fault h1 h2 h3 h4 => exact (work h1 h2 h3 h4).2 _ rfl
  | panic h1 h2 h3 =>
    rename_i i th c
    have hok := h.ok i th h1
    refine ⟨s, h.finish h1 h.rel (fun _ => .refl _ _)
      (fun k g id ht hk h4 ha hb' => hok.ended hk ht h4 (.inr h2) ha hb') ?_⟩
    rintro _ ⟨h5, h6⟩
    unfold Placed at hok
    cases hs : th.subject with
    | none =>
      rw [hs] at hok
      rw [hok.2 c h3] at h5; cases h5
    | some id =>
      rw [hs] at hok
      obtain ⟨_, c', h7, h8⟩ := hok
      rw [h3] at h7; cases h7
      cases hc : c.chain with
      | some ops =>
        rw [hc, h2] at h8
        have : (c.soft && c.proper cfg) = false := h8.1
        rw [h5, h6] at this; cases this
      | none => rw [hc] at h8; rw [h8.1] at h5; cases h5
  | ret h1 h2 h3 =>
    rename_i i th c rs
    exact ⟨s, h.finish h1 h.rel (fun _ => .refl _ _)
      (fun k g id ht hk h4 ha hb' => (h.ok i th h1).ended hk ht h4 (.inl ⟨rs, h2⟩) ha hb') (by simp)⟩

theorem Pact.init {w : World V} {s : State V} (hrel : Rel w s) {order : List Nat} (ho : Enumerates w order)
    (hT : ∀ (k : Nat) g id, T k → (Config.of w order).groups[k]? = some g → s.has g.a id = true → s.has g.b id = true →
      memAt s k id = true) (n : Nat) : Pact (Config.of w order) T s (Sys.init w n) := by
  have hidle : ∀ (j : Nat) (th : Thread V), (Sys.init w n).threads[j]? = some th → th = .idle := by
    intro j th hj
    have := List.mem_of_getElem? hj
    rw [Sys.init, List.mem_replicate] at this
    exact this.2
  refine ⟨hrel, ?_, ?_, ?_, ?_, by simp [Sys.init]⟩
  · intro i th hi
    rw [hidle i th hi]
    exact ⟨.inl trivial, by simp [Thread.idle]⟩
  · intro i j thi thj id _ hi _ hsi
    rw [hidle i thi hi] at hsi; cases hsi
  · intro i j thi thj e _ hi _ hsi
    rw [hidle i thi hi] at hsi
    exact absurd hsi (Prog.claims_none rfl e)
  · intro k g id ht hk ha hb
    exact .inl (hT k g id ht hk ha hb)

/-- No call, finished or not, has attached a batch of components of a type of the groups `T`. -/
def Sys.Spares (cfg : Config) (T : Nat → Prop) (σ : Sys V) : Prop :=
  (∀ th ∈ σ.threads, ∀ c, th.call = some c → c.spares cfg T) ∧ ∀ x ∈ σ.log, x.2.1.spares cfg T

theorem Sys.Spares.back {σ σ' : Sys V} {may : Sys V → Nat → ApiCall V → Prop} (hs : σ.Step cfg may σ')
    (h : σ'.Spares cfg T) : σ.Spares cfg T := by
  -- thread `i`, the only one that moves, is at work on the same call, or had none, or its call is in the log now
  have go : ∀ (i : Nat) (th th' : Thread V), σ.threads[i]? = some th →
      (∀ (j : Nat), σ'.threads[j]? = if j = i then some th' else σ.threads[j]?) → (∀ x ∈ σ.log, x ∈ σ'.log) →
      (∀ c, th.call = some c → th'.call = some c ∨ ∃ x ∈ σ'.log, x.2.1 = c) → σ.Spares cfg T := by
    intro i th th' hi hth hlog hc
    refine ⟨fun t ht c hcall => ?_, fun x hx => h.2 x (hlog x hx)⟩
    obtain ⟨j, hj, he⟩ := List.getElem_of_mem ht
    have hj' : σ.threads[j]? = some t := by rw [List.getElem?_eq_getElem hj, he]
    by_cases hji : j = i
    · subst hji
      rw [hi] at hj'; cases hj'
      rcases hc c hcall with h1 | ⟨x, h1, rfl⟩
      · exact h.1 th' (List.mem_of_getElem? (i := j) (by rw [hth]; simp)) c h1
      · exact h.2 x h1
    · exact h.1 t (List.mem_of_getElem? (i := j) (by rw [hth]; simp [hji, hj'])) c hcall
  cases hs with
  | start h1 h2 h3 =>
    exact go _ _ _ h1 (fun j => setThread_threads σ _ _ j h1) (fun _ h => h) (fun c hc => by rw [h2] at hc; cases hc)
  | acq h1 h2 h3 => exact go _ _ _ h1 (fun j => setThread_threads σ _ _ j h1) (fun _ h => h) (fun c hc => .inl hc)
  | rel h1 h2 => exact go _ _ _ h1 (fun j => setThread_threads σ _ _ j h1) (fun _ h => h) (fun c hc => .inl hc)
  | act h1 h2 h3 =>
    exact go _ _ _ h1 (fun j => setThread_threads { σ with world := _ } _ _ j h1) (fun _ h => h) (fun c hc => .inl hc)
  | fault h1 h2 h3 h4 =>
    exact go _ _ _ h1 (fun j => setThread_threads { σ with world := _ } _ .idle j h1) (fun _ h => List.mem_cons_of_mem _ h)
      (fun c hc => by rw [h4] at hc; cases hc; exact .inr ⟨_, List.mem_cons_self, rfl⟩)
  | panic h1 h2 h3 =>
    exact go _ _ _ h1 (fun j => setThread_threads σ _ .idle j h1) (fun _ h => List.mem_cons_of_mem _ h)
      (fun c hc => by rw [h3] at hc; cases hc; exact .inr ⟨_, List.mem_cons_self, rfl⟩)
  | ret h1 h2 h3 =>
    exact go _ _ _ h1 (fun j => setThread_threads σ _ .idle j h1) (fun _ h => List.mem_cons_of_mem _ h)
      (fun c hc => by rw [h3] at hc; cases hc; exact .inr ⟨_, List.mem_cons_self, rfl⟩)

theorem ApiCall.spares_nothing {c : ApiCall V} : c.spares cfg fun _ => False := by
  cases c <;> first | trivial | exact fun _ _ _ _ h => h.elim

theorem Sys.spares_nothing {σ : Sys V} : σ.Spares cfg fun _ => False :=
  ⟨fun _ _ _ _ => ApiCall.spares_nothing, fun _ _ => ApiCall.spares_nothing⟩

theorem pact_sched {w : World V} {s : State V} (hrel : Rel w s) {order : List Nat} (ho : Enumerates w order)
    (hT : ∀ (k : Nat) g id, T k → (Config.of w order).groups[k]? = some g → s.has g.a id = true → s.has g.b id = true →
      memAt s k id = true)
    {n : Nat} {σ : Sys V} (h : (Sys.init w n).Sched (Config.of w order) (Sys.considerate (Config.of w order)) σ)
    (hsp : σ.Spares (Config.of w order) T) :
    Basics (Config.of w order) σ ∧ ∃ s', Pact (Config.of w order) T s' σ := by
  have key : Basics (Config.of w order) σ ∧
      (σ.Spares (Config.of w order) T → ∃ s', Pact (Config.of w order) T s' σ) := by
    refine h.inv (P := fun σ => Basics (Config.of w order) σ ∧
      (σ.Spares (Config.of w order) T → ∃ s', Pact (Config.of w order) T s' σ))
      ⟨Basics.init ho n, fun _ => ⟨s, .init hrel ho hT n⟩⟩ ?_
    rintro σ σ' ⟨hb, hd⟩ hs
    refine ⟨hb.step hs, fun hsp => ?_⟩
    obtain ⟨s', hd⟩ := hd (hsp.back hs)
    exact hd.step hb hs hsp.1
  exact ⟨key.1, key.2 hsp⟩

end
end Xecs
