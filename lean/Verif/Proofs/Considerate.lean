import Verif.Proofs.Chained
/-
Considerate clients keep the world consistent.
-/
set_option autoImplicit false
namespace Xecs
open Spec World
variable {V : Type}

/-- The program is about to attach components to `e`, which it has created. -/
def Prog.claims (p : Prog V) (e : Nat) : Prop := ∃ x y, p.fills = some (x, y) ∧ x ≤ e ∧ e < y

/-- The thread works on `e`, or has created it and is still attaching components to it. -/
def Thread.minds (th : Thread V) (e : Nat) : Prop := th.subject = some e ∨ th.prog.claims e

/-- Attaches batches of components to entities that have no such components yet. -/
def Pouring (cfg : Config) (T : Nat → Prop) (s : State V) (p : Prog V) : Prop :=
  ∃ x y D, p.Pours cfg T x y D ∧ x ≤ y ∧ ∀ e, p.claims e → s.live e = true ∧ ∀ t, t ∉ D → s.has t e = false

/-- A thread is where it should be. -/
def Placed (cfg : Config) (T : Nat → Prop) (s : State V) (th : Thread V) : Prop :=
  match th.subject with
  | none => (th.prog.Waits cfg T (th.call.bind ApiCall.chain) ∨ Pouring cfg T s th.prog) ∧ ∀ c, th.call = some c → c.soft = false
  | some id => s.live id = true ∧ ∃ c, th.call = some c ∧
      match c.chain with
      | some ops => th.prog.Chained cfg id (c.soft && c.proper cfg) ∧
          ∀ (k : Nat) g, cfg.groups[k]? = some g →
            th.prog.Stance (T k) k g id ops (s.has g.a id) (s.has g.b id) (memAt s k id)
      | none => c.soft = false ∧ th.prog.Alone cfg T id (fun t => s.has t id) (fun k => memAt s k id)

/-- The thread will see to it that `id` is in group `k` if it belongs there. -/
def Tends (k : Nat) (g : Shape) (id : Nat) (th : Thread V) : Prop :=
  th.subject = some id ∧ ((∃ c, th.call = some c ∧ ∀ ops, c.chain = some ops → g.cutBy ops = true ∧ g.fedBy ops = true) ∨
    th.prog.Vows k id ∨ th.prog.Severs g id)

/-- Two threads may work on the same entity. -/
def Amicable (cfg : Config) (th th' : Thread V) : Prop :=
  ∃ c c' ops ops', th.call = some c ∧ th'.call = some c' ∧ c.chain = some ops ∧ c'.chain = some ops' ∧
    ¬ Conflicting cfg ops ops'

theorem Conflicting.symm {cfg : Config} {ops ops' : List (HOp V)} (h : Conflicting cfg ops ops') : Conflicting cfg ops' ops := by
  obtain ⟨g, hg, h | h⟩ := h
  · exact ⟨g, hg, .inr h.symm⟩
  · exact ⟨g, hg, .inl h.symm⟩

theorem Amicable.symm {cfg : Config} {th th' : Thread V} (h : Amicable cfg th th') : Amicable cfg th' th := by
  obtain ⟨c, c', ops, ops', h1, h2, h3, h4, h5⟩ := h
  exact ⟨c', c, ops', ops, h2, h1, h4, h3, fun h => h5 h.symm⟩

/-- The invariant of considerate clients; `T` are the groups known to be complete. -/
structure Pact (cfg : Config) (T : Nat → Prop) (s : State V) (σ : Sys V) : Prop where
  rel : Rel σ.world s
  ok : ∀ (i : Nat) th, σ.threads[i]? = some th → Placed cfg T s th
  apart : ∀ (i j : Nat) thi thj id, i ≠ j → σ.threads[i]? = some thi → σ.threads[j]? = some thj →
    thi.subject = some id → thj.subject = some id → Amicable cfg thi thj
  claim : ∀ (i j : Nat) thi thj e, i ≠ j → σ.threads[i]? = some thi → σ.threads[j]? = some thj →
    thi.prog.claims e → ¬ thj.minds e
  complete : ∀ (k : Nat) g id, T k → cfg.groups[k]? = some g → s.has g.a id = true → s.has g.b id = true →
    memAt s k id = true ∨ ∃ (j : Nat) (th : Thread V), σ.threads[j]? = some th ∧ Tends k g id th
  log : ∀ i c, (i, c, none) ∈ σ.log → ¬ (c.soft = true ∧ c.proper cfg = true)

section
variable {cfg : Config} {T : Nat → Prop}

/-- The thread does not mind the change from `s` to `s'`. -/
structure Unmoved' (cfg : Config) (s s' : State V) (th : Thread V) : Prop where
  live : ∀ id, th.subject = some id → s'.live id = s.live id
  solo : ∀ id c ops, th.subject = some id → th.call = some c → c.chain = some ops → ∀ (k : Nat) g,
    cfg.groups[k]? = some g → g.cutBy ops = true →
      (g.fedBy ops = true → s'.has g.a id = s.has g.a id ∧ s'.has g.b id = s.has g.b id ∧ memAt s' k id = memAt s k id) ∧
      (memAt s' k id = true → memAt s k id = true)
  alone : ∀ id c, th.subject = some id → th.call = some c → c.chain = none → Alike s s' id
  claim : ∀ e, th.prog.claims e → Alike s s' e

theorem Unmoved'.of_alike {s s' : State V} {th : Thread V} (h : ∀ id, th.minds id → Alike s s' id) :
    Unmoved' cfg s s' th :=
  ⟨fun id h1 => (h id (.inl h1)).live, fun id _ _ h1 _ _ k g _ _ =>
    ⟨fun _ => ⟨(h id (.inl h1)).has _, (h id (.inl h1)).has _, (h id (.inl h1)).mem k⟩,
      fun hm => by rw [← (h id (.inl h1)).mem k]; exact hm⟩,
    fun id _ h1 _ _ => h id (.inl h1), fun e he => h e (.inr he)⟩

theorem Placed.keep {s s' : State V} {th : Thread V} (h : Placed cfg T s th) (hu : Unmoved' cfg s s' th) :
    Placed cfg T s' th := by
  unfold Placed at h ⊢
  cases hs : th.subject with
  | none =>
    rw [hs] at h
    refine ⟨h.1.imp (fun h => h) ?_, h.2⟩
    rintro ⟨x, y, D, h1, h2, h3⟩
    refine ⟨x, y, D, h1, h2, fun e he => ?_⟩
    have ha := hu.claim e he
    refine ⟨by rw [ha.live]; exact (h3 e he).1, fun t ht => by rw [ha.has]; exact (h3 e he).2 t ht⟩
  | some id =>
    rw [hs] at h
    obtain ⟨h1, c, h2, h3⟩ := h
    refine ⟨by rw [hu.live id hs]; exact h1, c, h2, ?_⟩
    cases hc : c.chain with
    | some ops =>
      rw [hc] at h3
      refine ⟨h3.1, fun k g hk => ?_⟩
      have := h3.2 k g hk
      unfold Prog.Stance at this ⊢
      split
      · rename_i hcut
        rw [if_pos hcut] at this
        obtain ⟨e1, e2⟩ := hu.solo id c ops hs h2 hc k g hk hcut
        split
        · rename_i hfed
          rw [if_pos hfed] at this
          obtain ⟨e1, e2, e3⟩ := e1 hfed
          rw [e1, e2, e3]; exact this
        · rename_i hfed
          rw [if_neg hfed] at this
          cases hm : memAt s' k id with
          | true => rw [e2 hm] at this; exact this
          | false => exact Prog.cuts_mono this
      · rename_i hcut
        rw [if_neg hcut] at this; exact this
    | none =>
      rw [hc] at h3
      have ha := hu.alone id c hs h2 hc
      refine ⟨h3.1, ?_⟩
      show th.prog.Alone cfg T id (fun t => s'.has t id) (fun k => memAt s' k id)
      rw [(alike_funs ha).1, (alike_funs ha).2]
      exact h3.2

theorem Pact.update {s s' : State V} {σ σ' : Sys V} (h : Pact cfg T s σ) {i : Nat} {thi th' : Thread V}
    (hi : σ.threads[i]? = some thi)
    (hth : ∀ (j : Nat), σ'.threads[j]? = if j = i then some th' else σ.threads[j]?)
    (hrel : Rel σ'.world s') (hok : Placed cfg T s' th')
    (hothers : ∀ (j : Nat) thj, j ≠ i → σ.threads[j]? = some thj → Unmoved' cfg s s' thj)
    (hap : ∀ (j : Nat) thj id, j ≠ i → σ.threads[j]? = some thj → th'.subject = some id → thj.subject = some id →
      Amicable cfg th' thj)
    (hcl : ∀ (j : Nat) thj e, j ≠ i → σ.threads[j]? = some thj →
      (th'.prog.claims e → ¬ thj.minds e) ∧ (thj.prog.claims e → ¬ th'.minds e))
    (hcomp : ∀ (k : Nat) g e, T k → cfg.groups[k]? = some g → s'.has g.a e = true → s'.has g.b e = true →
      memAt s' k e = true ∨ (∃ (j : Nat) (thj : Thread V), j ≠ i ∧ σ.threads[j]? = some thj ∧ Tends k g e thj) ∨
        Tends k g e th')
    (hlog : ∀ j c, (j, c, none) ∈ σ'.log → (j, c, none) ∈ σ.log ∨ ¬ (c.soft = true ∧ c.proper cfg = true)) :
    Pact cfg T s' σ' := by
  refine ⟨hrel, ?_, ?_, ?_, ?_, ?_⟩
  · intro j th hj
    rw [hth] at hj
    by_cases hji : j = i
    · simp only [hji, if_true] at hj; cases hj; exact hok
    · simp only [hji, if_false] at hj
      exact (h.ok j th hj).keep (hothers j th hji hj)
  · intro j k thj thk id hjk h1 h2 h3 h4
    rw [hth] at h1 h2
    by_cases hji : j = i
    · have hki : ¬ k = i := fun h => hjk (hji.trans h.symm)
      simp only [hji, if_true] at h1
      simp only [hki, if_false] at h2
      cases h1
      exact hap k thk id hki h2 h3 h4
    · simp only [hji, if_false] at h1
      by_cases hki : k = i
      · simp only [hki, if_true] at h2
        cases h2
        exact (hap j thj id hji h1 h4 h3).symm
      · simp only [hki, if_false] at h2
        exact h.apart j k thj thk id hjk h1 h2 h3 h4
  · intro j k thj thk e hjk h1 h2 h3
    rw [hth] at h1 h2
    by_cases hji : j = i
    · have hki : ¬ k = i := fun h => hjk (hji.trans h.symm)
      simp only [hji, if_true] at h1
      simp only [hki, if_false] at h2
      cases h1
      exact (hcl k thk e hki h2).1 h3
    · simp only [hji, if_false] at h1
      by_cases hki : k = i
      · simp only [hki, if_true] at h2
        cases h2
        exact (hcl j thj e hji h1).2 h3
      · simp only [hki, if_false] at h2
        exact h.claim j k thj thk e hjk h1 h2 h3
  · intro k g e ht hk ha hb
    rcases hcomp k g e ht hk ha hb with h1 | ⟨j, thj, hji, h1, h2⟩ | h1
    · exact .inl h1
    · exact .inr ⟨j, thj, by rw [hth]; simp [hji, h1], h2⟩
    · exact .inr ⟨i, th', by rw [hth]; simp, h1⟩
  · intro j c hj
    rcases hlog j c hj with h1 | h1
    · exact h.log j c h1
    · exact h1

/-- Thread `i` works on and claims no other entities than before. -/
theorem Pact.claims_less {s : State V} {σ : Sys V} (h : Pact cfg T s σ) {i : Nat} {th th' : Thread V}
    (hi : σ.threads[i]? = some th) (h1 : ∀ e, th'.subject = some e → th.subject = some e)
    (h2 : ∀ e, th'.prog.claims e → th.prog.claims e) :
    ∀ (j : Nat) thj e, j ≠ i → σ.threads[j]? = some thj →
      (th'.prog.claims e → ¬ thj.minds e) ∧ (thj.prog.claims e → ¬ th'.minds e) := by
  intro j thj e hji hj
  refine ⟨fun hc => h.claim i j th thj e (fun h => hji h.symm) hi hj (h2 e hc), fun hc hm => ?_⟩
  refine h.claim j i thj th e hji hj hi hc ?_
  exact hm.imp (h1 e) (h2 e)

/-- Programs that attach no batches. -/
theorem Prog.claims_none {p : Prog V} (h : p.fills = none) (e : Nat) : ¬ p.claims e := by
  rintro ⟨x, y, h1, _⟩; rw [h] at h1; cases h1

/-- A thread at work on an entity attaches no batches. -/
theorem Placed.fills {s : State V} {th : Thread V} (h : Placed cfg T s th) {id : Nat} (hs : th.subject = some id) :
    th.prog.fills = none := by
  unfold Placed at h
  rw [hs] at h
  obtain ⟨_, c, _, h3⟩ := h
  split at h3
  · exact h3.1.fills
  · exact h3.2.fills

/-- An old duty, from the point of view of thread `i`. -/
theorem Pact.mem_or {s : State V} {σ : Sys V} (h : Pact cfg T s σ) {i : Nat} {th : Thread V}
    (hi : σ.threads[i]? = some th) {k : Nat} {g : Shape} {e : Nat} (ht : T k) (hk : cfg.groups[k]? = some g)
    (ha : s.has g.a e = true) (hb : s.has g.b e = true) :
    memAt s k e = true ∨ (∃ (j : Nat) (thj : Thread V), j ≠ i ∧ σ.threads[j]? = some thj ∧ Tends k g e thj) ∨ Tends k g e th := by
  rcases h.complete k g e ht hk ha hb with h1 | ⟨j, th', h1, h2⟩
  · exact .inl h1
  · by_cases hji : j = i
    · subst hji
      rw [hi] at h1; cases h1
      exact .inr (.inr h2)
    · exact .inr (.inl ⟨j, th', hji, h1, h2⟩)

/-- No entity changes, thread `i` keeps its call, its subject and its duties. -/
theorem Pact.same {s s' : State V} {σ σ' : Sys V} (h : Pact cfg T s σ) {i : Nat}
    {th th' : Thread V} (hi : σ.threads[i]? = some th)
    (hth : ∀ (j : Nat), σ'.threads[j]? = if j = i then some th' else σ.threads[j]?)
    (hrel : Rel σ'.world s') (halike : ∀ e, Alike s s' e) (hok : Placed cfg T s th') (hcall : th'.call = th.call)
    (hsub : th'.subject = th.subject) (hcl : ∀ e, th'.prog.claims e → th.prog.claims e) (hvows : ∀ k id, th.prog.Vows k id → th'.prog.Vows k id)
    (hsev : ∀ g id, th.prog.Severs g id → th'.prog.Severs g id)
    (hlog : σ'.log = σ.log) : Pact cfg T s' σ' := by
  refine h.update hi hth hrel (hok.keep (.of_alike fun id _ => halike id)) (fun j thj _ _ => .of_alike fun id _ => halike id)
    ?_ (h.claims_less hi (fun e he => by rw [← hsub]; exact he) hcl) ?_ ?_
  · intro j thj id hji hj h1 h2
    rw [hsub] at h1
    have := h.apart i j th thj id (fun e => hji e.symm) hi hj h1 h2
    unfold Amicable at this ⊢
    rw [hcall]; exact this
  · intro k g e ht hk ha hb
    rw [(halike e).has] at ha hb
    rw [(halike e).mem]
    rcases h.mem_or hi ht hk ha hb with h1 | h1 | ⟨h1, h2⟩
    · exact .inl h1
    · exact .inr (.inl h1)
    · refine .inr (.inr ⟨by rw [hsub]; exact h1, ?_⟩)
      rcases h2 with h2 | h2 | h2
      · rw [hcall]; exact .inl h2
      · exact .inr (.inl (hvows k e h2))
      · exact .inr (.inr (hsev g e h2))
  · rw [hlog]; exact fun _ _ h => .inl h

/-- Thread `i`, which has no duties left, is done. -/
theorem Pact.finish {s s' : State V} {σ : Sys V} {w : World V} (h : Pact cfg T s σ) {i : Nat}
    {th : Thread V} (hi : σ.threads[i]? = some th) {c : ApiCall V} {r : Option (List (Ret V))}
    (hrel : Rel w s') (halike : ∀ e, Alike s s' e)
    (hd : ∀ (k : Nat) g id, T k → cfg.groups[k]? = some g → Tends k g id th →
      s.has g.a id = true → s.has g.b id = true → memAt s k id = true)
    (hlog : r = none → ¬ (c.soft = true ∧ c.proper cfg = true)) :
    Pact cfg T s' ({ σ with world := w }.finish i c r) := by
  refine h.update hi (σ' := { σ with world := w }.finish i c r) (th' := .idle)
    (fun j => setThread_threads { σ with world := w } i .idle j hi) hrel ?_
    (fun j thj _ _ => .of_alike fun id _ => halike id) (fun _ _ _ _ _ h => nomatch h)
    (h.claims_less hi (fun _ h => nomatch h) (fun e he => absurd he (Prog.claims_none rfl e))) ?_ ?_
  · exact ⟨.inl trivial, by simp [Thread.idle]⟩
  · intro k g e ht hk ha hb
    rw [(halike e).has] at ha hb
    rw [(halike e).mem]
    rcases h.mem_or hi ht hk ha hb with h1 | h1 | h1
    · exact .inl h1
    · exact .inr (.inl h1)
    · exact .inl (hd k g e ht hk h1 ha hb)
  · intro j c' hj
    rcases List.mem_cons.1 hj with h1 | h1
    · cases h1; exact .inr (hlog rfl)
    · exact .inl h1

/-- What a thread at work has to do about the groups it changes when it ends here. -/
theorem Placed.ended {s : State V} {th : Thread V} (h : Placed cfg T s th) {k : Nat} {g : Shape} {id : Nat}
    (hk : cfg.groups[k]? = some g) (hT : T k) (ht : Tends k g id th)
    (hend : (∃ rs, th.prog = .done rs) ∨ th.prog = .panic) (ha : s.has g.a id = true) (hb : s.has g.b id = true) :
    memAt s k id = true := by
  obtain ⟨hs, ht⟩ := ht
  unfold Placed at h
  rw [hs] at h
  obtain ⟨h1, c, h2, h3⟩ := h
  have hv : ¬ th.prog.Vows k id := by
    rcases hend with ⟨rs, e⟩ | e <;> rw [e] <;> exact fun h => h
  have hv' : ¬ th.prog.Severs g id := by
    rcases hend with ⟨rs, e⟩ | e <;> rw [e] <;> exact fun h => h
  rcases ht with ⟨c', e, hcut⟩ | ht | ht
  · rw [h2] at e; cases e
    cases hc : c.chain with
    | some ops =>
      rw [hc] at h3
      have := h3.2 k g hk
      unfold Prog.Stance at this
      rw [if_pos (hcut ops hc).1, if_pos (hcut ops hc).2] at this
      rcases hend with ⟨rs, e⟩ | e <;> rw [e] at this <;> unfold Prog.Solo at this <;> exact this hT ha hb
    | none =>
      rw [hc] at h3
      have := h3.2
      rcases hend with ⟨rs, e⟩ | e <;> rw [e] at this <;> exact this k g hT hk ha hb
  · exact absurd ht hv
  · exact absurd ht hv'

/-- An idle program does not offer the entity to the group. -/
theorem Prog.idles_vows {k id : Nat} {g : Shape} {p : Prog V} : p.Vows k id → ¬ p.Idles k g := by
  induction p with
  | done => exact fun h => False.elim h
  | panic => exact fun h => False.elim h
  | acq l m p ih => exact ih
  | rel l m p ih => exact ih
  | act a f ih =>
    rintro (rfl | ⟨_, h7⟩) h8
    · exact h8.1 rfl
    · cases a with
      | has e => exact ih _ (h7 _) h8
      | attachStore t e v => exact ih _ (h7 _) h8.2
      | groupAdd j e => exact ih _ (h7 _) h8.2
      | groupRemove j e => exact ih _ (h7 _) h8.2
      | detachStore t e => exact ih _ (h7 .unit) (h8.2 _)
      | storeRead t e => exact ih _ (h7 .unit) (h8 _)
      | storeWrite t e v => exact ih _ (h7 .unit) (h8 _)
      | _ => exact h8

/-- An idle program does not detach a type of the group. -/
theorem Prog.idles_severs {k id : Nat} {g : Shape} {p : Prog V} : p.Severs g id → ¬ p.Idles k g := by
  induction p with
  | done => exact fun h => False.elim h
  | panic => exact fun h => False.elim h
  | acq l m p ih => exact ih
  | rel l m p ih => exact ih
  | act a f ih =>
    rintro (⟨t, rfl, ht⟩ | ⟨_, h7⟩) h8
    · rw [h8.1] at ht; cases ht
    · cases a with
      | has e => exact ih _ (h7 _) h8
      | attachStore t e v => exact ih _ (h7 _) h8.2
      | groupAdd j e => exact ih _ (h7 _) h8.2
      | groupRemove j e => exact ih _ (h7 _) h8.2
      | detachStore t e => exact ih _ (h7 .unit) (h8.2 _)
      | storeRead t e => exact ih _ (h7 .unit) (h8 _)
      | storeWrite t e v => exact ih _ (h7 .unit) (h8 _)
      | _ => exact h8

theorem Pact.start {s : State V} {σ : Sys V} (h : Pact cfg T s σ) (hb : Basics cfg σ)
    {i : Nat} {th : Thread V} {c : ApiCall V} (hi : σ.threads[i]? = some th) (hc : th.call = none)
    (hmay : Sys.considerate cfg σ i c) (hsp : c.spares cfg T) :
    Pact cfg T s (σ.setThread i { call := some c, prog := c.prog cfg, held := [], subject := c.subject }) := by
  have hidle := hb.idle th (List.mem_of_getElem? hi) hc
  have hr := groupsReg h.rel.core hb.mat
  have hthr : ∀ (th' : Thread V) (j : Nat), (σ.setThread i th').threads[j]? = if j = i then some th' else σ.threads[j]? :=
    fun th' j => setThread_threads σ i th' j hi
  have hold : ∀ (k : Nat) g e, T k → cfg.groups[k]? = some g → s.has g.a e = true → s.has g.b e = true →
      memAt s k e = true ∨ ∃ (j : Nat) (thj : Thread V), j ≠ i ∧ σ.threads[j]? = some thj ∧ Tends k g e thj := by
    intro k g e ht hk ha hb
    rcases h.mem_or hi ht hk ha hb with h1 | h1 | ⟨h1, _⟩
    · exact .inl h1
    · exact .inr h1
    · rw [hidle] at h1; cases h1
  have go : ∀ {th' : Thread V}, Placed cfg T s th' →
      (∀ (j : Nat) thj id, j ≠ i → σ.threads[j]? = some thj → th'.subject = some id → thj.subject = some id →
        Amicable cfg th' thj) → th'.prog.fills = none → (∀ e, th'.subject = some e → ¬ σ.Filling e) →
      Pact cfg T s (σ.setThread i th') := by
    intro th' h1 h2 h3 h4
    refine h.update hi (hthr _) h.rel h1 (fun _ _ _ _ => .of_alike fun _ _ => .refl _ _) h2 (fun j thj e hji hj => ?_) ?_
      (fun _ _ h => .inl h)
    · refine ⟨fun hc => absurd hc (Prog.claims_none h3 e), ?_⟩
      rintro hc (hm | hm)
      · exact h4 e hm ⟨thj, List.mem_of_getElem? hj, hc⟩
      · exact absurd hm (Prog.claims_none h3 e)
    intro k g e ht hk ha hb
    rcases hold k g e ht hk ha hb with h1 | h1
    · exact .inl h1
    · exact .inr (.inl h1)
  have quiet : (c.prog cfg).Waits cfg T c.chain → c.soft = false → c.subject = none →
      Pact cfg T s (σ.setThread i { call := some c, prog := c.prog cfg, held := [], subject := c.subject }) := by
    intro h1 h2 h3
    refine go ?_ (fun _ _ _ _ _ h => by rw [h3] at h; cases h) h1.fills (fun e h => by rw [h3] at h; cases h)
    unfold Placed
    simp only [h3]
    exact ⟨.inl h1, by rintro c' ⟨⟩; exact h2⟩
  cases c with
  | on id ops =>
    obtain ⟨hlive, hfl, hp⟩ := hmay
    have hch : (Prog.handle cfg id ops []).Chained cfg id ((ApiCall.on id ops).soft && (ApiCall.on id ops).proper cfg) := by
      refine Prog.chained_handle hr ops [] fun hb' => ?_
      simpa only [Bool.and_eq_true] using hb'
    refine go ⟨live_mem h.rel |>.2 hlive, _, rfl, hch, fun k g hk => ?_⟩ ?_ hch.fills (by rintro e ⟨⟩; exact hfl)
    · refine Prog.stance_handle hr hk ops [] fun hcut hfed hT h1 h2 => ?_
      rcases hold k g id hT hk h1 h2 with h3 | ⟨j, thj, hji, hj, hs, h4⟩
      · exact h3
      · exfalso
        obtain ⟨c', ops', e1, e2, hno⟩ := hp thj (List.mem_of_getElem? hj) hs
        have hmem := List.mem_of_getElem? hk
        have hok := h.ok j thj hj
        unfold Placed at hok
        rw [hs] at hok
        obtain ⟨_, c'', e3, h5⟩ := hok
        rw [e1] at e3; cases e3
        rw [e2] at h5
        have h5 := h5.2 k g hk
        have hfd : g.fedBy ops' = false := by
          cases hx : g.fedBy ops' with
          | false => rfl
          | true => exact absurd ⟨g, hmem, .inl ⟨hcut, hx⟩⟩ hno
        have hct : g.cutBy ops' = false := by
          cases hx : g.cutBy ops' with
          | false => rfl
          | true => exact absurd ⟨g, hmem, .inr ⟨hfed, hx⟩⟩ hno
        unfold Prog.Stance at h5
        rw [if_neg (by rw [hct]; simp), if_neg (by rw [hfd]; simp)] at h5
        rcases h4 with ⟨c', e4, h6⟩ | h6 | h6
        · rw [e1] at e4; cases e4
          have := (h6 ops' e2).1
          rw [hct] at this; cases this
        · exact Prog.idles_vows h6 h5
        · exact Prog.idles_severs h6 h5
    · intro j thj id' hji hj h1 h2
      cases h1
      obtain ⟨c', ops', e1, e2, hno⟩ := hp thj (List.mem_of_getElem? hj) h2
      exact ⟨_, c', ops, ops', rfl, e1, rfl, e2, hno⟩
  | remove id =>
    obtain ⟨hlive, hfl, hn, hrem⟩ := hmay
    have hal : ((ApiCall.remove id).prog cfg : Prog V).Alone cfg T id (fun t => s.has t id) (fun k => memAt s k id) := by
      refine Prog.alone_remove hr hb.mat.nodup (sane_of h.rel.core hb.mat id) ?_
      intro i j gi gj hij hgi hgj hmi hmj
      refine hrem i j gi gj hij hgi hgj ?_
      obtain ⟨gs, hgs, h1, h2⟩ := memAt_both h.rel.core hmi
      obtain ⟨gs', hgs', h3, h4⟩ := memAt_both h.rel.core hmj
      have e1 := shape_at h.rel.core hb.mat.groups hgs
      have e2 := shape_at h.rel.core hb.mat.groups hgs'
      rw [hgi] at e1; cases e1
      rw [hgj] at e2; cases e2
      rintro t (rfl | rfl | rfl | rfl) <;> rw [value_eq h.rel] <;> assumption
    refine go ⟨live_mem h.rel |>.2 hlive, _, rfl, rfl, hal⟩ ?_ hal.fills (by rintro e ⟨⟩; exact hfl)
    · intro j thj id' hji hj h1 h2
      cases h1
      exact absurd h2 (hn thj (List.mem_of_getElem? hj))
  | create ops =>
    exact quiet (Prog.waits_create hr ops) rfl rfl
  | createMany n bs =>
    exact quiet (Prog.waits_other (by simp) (by simp) (by simp) (by rintro _ _ ⟨⟩; exact hmay) (by simp) hsp) rfl rfl
  | fill x y bs =>
    obtain ⟨hxy, hnd, hmay⟩ := hmay
    have hD : ∀ b ∈ bs, b.1 ∉ cfg.order.filter (fun t => !(bs.map Prod.fst).contains t) := by
      intro b hb h1
      have := (List.mem_filter.1 h1).2
      simp only [Bool.not_eq_true', List.contains_eq_mem, decide_eq_false_iff_not] at this
      exact this (List.mem_map_of_mem hb)
    have hp := Prog.pours_fill (cfg := cfg) (T := T) hnd hD hsp
    have hcl : ∀ e, Prog.claims ((ApiCall.fill x y bs).prog cfg) e → x ≤ e ∧ e < y := by
      rintro e ⟨x', y', h1, h2, h3⟩
      obtain ⟨rfl, rfl⟩ := hp.fills h1
      exact ⟨h2, h3⟩
    refine h.update hi (hthr _) h.rel ?_ (fun _ _ _ _ => .of_alike fun _ _ => .refl _ _) (fun _ _ _ _ _ h => by cases h)
      (fun j thj e hji hj => ?_) ?_ (fun _ _ h => .inl h)
    · refine ⟨.inr ⟨x, y, _, hp, hxy, fun e he => ?_⟩, by rintro c' ⟨⟩; rfl⟩
      obtain ⟨h1, h2⟩ := hcl e he
      obtain ⟨h3, _, _, h4⟩ := hmay e h1 h2
      refine ⟨(live_mem h.rel).2 h3, fun t ht => ?_⟩
      cases hh : s.has t e with
      | false => rfl
      | true =>
        have hreg := has_registered h.rel.core hb.mat hh
        have hin : t ∈ bs.map Prod.fst := by
          rw [List.mem_filter] at ht
          have hreg : t ∈ cfg.order := by simpa [Config.registered] using hreg
          simp only [List.contains_eq_mem, Bool.not_eq_true', decide_eq_false_iff_not] at ht
          exact Classical.byContradiction fun hn => ht ⟨hreg, hn⟩
        obtain ⟨b, hbm, rfl⟩ := List.mem_map.1 hin
        have := h4 b hbm
        rw [value_eq h.rel] at this
        simp [Spec.State.has, this] at hh
    · constructor
      · intro hc hm
        obtain ⟨h1, h2⟩ := hcl e hc
        obtain ⟨_, h3, h4, _⟩ := hmay e h1 h2
        rcases hm with hm | hm
        · exact h4 thj (List.mem_of_getElem? hj) hm
        · exact h3 ⟨thj, List.mem_of_getElem? hj, hm⟩
      · rintro hc (hm | hm)
        · cases hm
        · obtain ⟨h1, h2⟩ := hcl e hm
          exact (hmay e h1 h2).2.1 ⟨thj, List.mem_of_getElem? hj, hc⟩
    · intro k g e ht hk ha hb
      rcases hold k g e ht hk ha hb with h1 | h1
      · exact .inl h1
      · exact .inr (.inl h1)
  | _ => exact quiet (Prog.waits_other (by simp) (by simp) (by simp) (by simp) (by simp) trivial) rfl rfl

end
end Xecs
