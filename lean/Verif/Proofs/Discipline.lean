import Verif.Proofs.Claims
/-
Disciplined clients keep the world consistent.
-/
set_option autoImplicit false
namespace Xecs
open Spec World
variable {V : Type}

/-- What a thread has claimed: an entity, and whether exclusively. -/
abbrev Claim := Option (Nat × Bool)

/-- A thread is where its claim lets it be. -/
def ThOk (cfg : Config) (T : Nat → Prop) (s : State V) (c : Claim) (th : Thread V) : Prop :=
  match c with
  | none => th.prog.Quiet cfg T ∧ (∀ c, th.call = some c → c.soft = false) ∧ th.subject = none
  | some (id, false) => s.live id = true ∧ th.subject = some id ∧
      ∃ c, th.call = some c ∧ c.soft = true ∧ th.prog.Gentle cfg id (c.proper cfg)
  | some (id, true) => s.live id = true ∧ th.subject = some id ∧ (∃ c, th.call = some c ∧ c.soft = false) ∧
      th.prog.Alone cfg T id (fun t => s.has t id) (fun k => memAt s k id)

/-- Thread `j` will see to it that `id` gets into group `k` if it belongs there. -/
def Minds (cl : Nat → Claim) (threads : List (Thread V)) (k id j : Nat) : Prop :=
  ∃ b th, threads[j]? = some th ∧ cl j = some (id, b) ∧ (b = true ∨ th.prog.Owes k id)

/-- The invariant of disciplined clients; `T` are the groups known to be complete. -/
structure Disc (cfg : Config) (T : Nat → Prop) (cl : Nat → Claim) (s : State V) (σ : Sys V) : Prop where
  rel : Rel σ.world s
  ok : ∀ i th, σ.threads[i]? = some th → ThOk cfg T s (cl i) th
  apart : ∀ i j id b b', i ≠ j → cl i = some (id, b) → cl j = some (id, b') → b = false ∧ b' = false
  bound : ∀ i, σ.threads[i]? = none → cl i = none
  complete : ∀ (k : Nat) g id, T k → cfg.groups[k]? = some g → s.has g.a id = true → s.has g.b id = true →
    memAt s k id = true ∨ ∃ j, Minds cl σ.threads k id j
  log : ∀ i c, (i, c, none) ∈ σ.log → ¬ (c.soft = true ∧ c.proper cfg = true)

/-- The claims after thread `i`'s change. -/
def setClaim (cl : Nat → Claim) (i : Nat) (x : Claim) : Nat → Claim := fun j => if j = i then x else cl j

section
variable {cfg : Config} {T : Nat → Prop}

theorem ThOk.alike {s s' : State V} {c : Claim} {th : Thread V} (h : ThOk cfg T s c th)
    (h1 : ∀ id, c = some (id, true) → Alike s s' id) (h2 : ∀ id, c = some (id, false) → s'.live id = true) :
    ThOk cfg T s' c th := by
  rcases c with _ | ⟨id, b⟩
  · exact h
  · cases b with
    | false => exact ⟨h2 id rfl, h.2⟩
    | true =>
      have ha := h1 id rfl
      obtain ⟨a1, a2, a3, a4⟩ := h
      refine ⟨by rw [ha.live]; exact a1, a2, a3, ?_⟩
      have e1 : (fun t => s'.has t id) = fun t => s.has t id := funext ha.has
      have e2 : (fun k => memAt s' k id) = fun k => memAt s k id := funext ha.mem
      rw [e1, e2]; exact a4

theorem Disc.update {cl : Nat → Claim} {s s' : State V} {σ σ' : Sys V} (h : Disc cfg T cl s σ) {i : Nat}
    {th' : Thread V} {x : Claim} {thi : Thread V} (hi : σ.threads[i]? = some thi)
    (hth : ∀ (j : Nat), σ'.threads[j]? = if j = i then some th' else σ.threads[j]?)
    (hrel : Rel σ'.world s') (hok : ThOk cfg T s' x th')
    (hexcl : ∀ j id, j ≠ i → cl j = some (id, true) → Alike s s' id)
    (hlive : ∀ j id, j ≠ i → cl j = some (id, false) → s.live id = true → s'.live id = true)
    (hap : ∀ j id b b', j ≠ i → x = some (id, b) → cl j = some (id, b') → b = false ∧ b' = false)
    (hcomp : ∀ (k : Nat) g e, T k → cfg.groups[k]? = some g → s'.has g.a e = true → s'.has g.b e = true →
      memAt s' k e = true ∨ (∃ j, j ≠ i ∧ Minds cl σ.threads k e j) ∨ ∃ b, x = some (e, b) ∧ (b = true ∨ th'.prog.Owes k e))
    (hlog : ∀ j c, (j, c, none) ∈ σ'.log → (j, c, none) ∈ σ.log ∨ ¬ (c.soft = true ∧ c.proper cfg = true)) :
    Disc cfg T (setClaim cl i x) s' σ' := by
  refine ⟨hrel, ?_, ?_, ?_, ?_, ?_⟩
  · intro j th hj
    rw [hth] at hj
    by_cases hji : j = i
    · simp only [hji, if_true] at hj; cases hj; simpa [setClaim, hji] using hok
    · simp only [hji, if_false] at hj
      simp only [setClaim, hji, if_false]
      have ho := h.ok j th hj
      refine ho.alike (fun id => hexcl j id hji) fun id hc => hlive j id hji hc ?_
      rw [hc] at ho; exact ho.1
  · intro j k id b b' hjk h1 h2
    by_cases hji : j = i
    · have hki : ¬ k = i := fun h => hjk (hji.trans h.symm)
      simp only [setClaim, hji, if_true] at h1
      simp only [setClaim, hki, if_false] at h2
      exact hap k id b b' hki h1 h2
    · simp only [setClaim, hji, if_false] at h1
      by_cases hki : k = i
      · simp only [setClaim, hki, if_true] at h2
        exact (hap j id b' b hji h2 h1).symm
      · simp only [setClaim, hki, if_false] at h2
        exact h.apart j k id b b' hjk h1 h2
  · intro j hj
    rw [hth] at hj
    by_cases hji : j = i
    · simp [hji] at hj
    · simp only [hji, if_false] at hj
      simp only [setClaim, hji, if_false]
      exact h.bound j hj
  · intro k g e ht hk ha hb
    rcases hcomp k g e ht hk ha hb with h1 | ⟨j, hji, b, th, h1, h2, h3⟩ | ⟨b, h1, h2⟩
    · exact .inl h1
    · exact .inr ⟨j, b, th, by rw [hth]; simp [hji, h1], by simp [setClaim, hji, h2], h3⟩
    · exact .inr ⟨i, b, th', by rw [hth]; simp, by simp [setClaim, h1], h2⟩
  · intro j c hj
    rcases hlog j c hj with h1 | h1
    · exact h.log j c h1
    · exact h1

/-- An old duty, from the point of view of thread `i`. -/
theorem Disc.mem_or {cl : Nat → Claim} {s : State V} {σ : Sys V} (h : Disc cfg T cl s σ) {i : Nat} {th : Thread V}
    (hi : σ.threads[i]? = some th) {k : Nat} {g : Shape} {e : Nat} (ht : T k) (hk : cfg.groups[k]? = some g)
    (ha : s.has g.a e = true) (hb : s.has g.b e = true) :
    memAt s k e = true ∨ (∃ j, j ≠ i ∧ Minds cl σ.threads k e j) ∨
      ∃ b, cl i = some (e, b) ∧ (b = true ∨ th.prog.Owes k e) := by
  rcases h.complete k g e ht hk ha hb with h1 | ⟨j, b, th', h1, h2, h3⟩
  · exact .inl h1
  · by_cases hji : j = i
    · subst hji
      rw [hi] at h1; cases h1
      exact .inr (.inr ⟨b, h2, h3⟩)
    · exact .inr (.inl ⟨j, hji, b, th', h1, h2, h3⟩)

/-- No entity changes, thread `i` keeps its claim and its duties. -/
theorem Disc.same {cl : Nat → Claim} {s s' : State V} {σ σ' : Sys V} (h : Disc cfg T cl s σ) {i : Nat}
    {th th' : Thread V} (hi : σ.threads[i]? = some th)
    (hth : ∀ (j : Nat), σ'.threads[j]? = if j = i then some th' else σ.threads[j]?)
    (hrel : Rel σ'.world s') (halike : ∀ e, Alike s s' e) (hok : ThOk cfg T s (cl i) th')
    (howes : ∀ k id, cl i = some (id, false) → th.prog.Owes k id → th'.prog.Owes k id)
    (hlog : σ'.log = σ.log) : Disc cfg T (setClaim cl i (cl i)) s' σ' := by
  have hlv : ∀ id, s.live id = true → s'.live id = true := fun id hl => by rw [(halike id).live]; exact hl
  refine h.update hi hth hrel ?_ (fun j id _ _ => halike id) (fun j id _ _ => hlv id) ?_ ?_ ?_
  · refine hok.alike (fun id _ => halike id) fun id hc => hlv id ?_
    rw [hc] at hok; exact hok.1
  · intro j id b b' hji h1 h2
    exact h.apart i j id b b' (fun e => hji e.symm) h1 h2
  · intro k g e ht hk ha hb
    rw [(halike e).has] at ha hb
    rw [(halike e).mem]
    rcases h.mem_or hi ht hk ha hb with h1 | h1 | ⟨b, h1, h2⟩
    · exact .inl h1
    · exact .inr (.inl h1)
    · refine .inr (.inr ⟨b, h1, ?_⟩)
      cases b with
      | true => exact .inl rfl
      | false =>
        rcases h2 with h2 | h2
        · cases h2
        · exact .inr (howes k e h1 h2)
  · rw [hlog]; exact fun _ _ h => .inl h

/-- Thread `i`, which has no duties left, is done. -/
theorem Disc.finish {cl : Nat → Claim} {s s' : State V} {σ : Sys V} {w : World V} (h : Disc cfg T cl s σ) {i : Nat}
    {th : Thread V} (hi : σ.threads[i]? = some th) {c : ApiCall V} {r : Option (List (Ret V))}
    (hrel : Rel w s') (halike : ∀ e, Alike s s' e)
    (hd : ∀ k id b, T k → cl i = some (id, b) → (b = true ∨ th.prog.Owes k id) → ∀ g, cfg.groups[k]? = some g →
      s.has g.a id = true → s.has g.b id = true → memAt s k id = true)
    (hlog : r = none → ¬ (c.soft = true ∧ c.proper cfg = true)) :
    Disc cfg T (setClaim cl i none) s' ({ σ with world := w }.finish i c r) := by
  have hlv : ∀ id, s.live id = true → s'.live id = true := fun id hl => by rw [(halike id).live]; exact hl
  refine h.update hi (σ' := { σ with world := w }.finish i c r) (th' := .idle)
    (fun j => setThread_threads { σ with world := w } i .idle j hi) hrel ?_ (fun j id _ _ => halike id)
    (fun j id _ _ => hlv id) (x := none) (fun _ _ _ _ _ h => nomatch h) ?_ ?_
  · exact ⟨trivial, by simp [Thread.idle], rfl⟩
  · intro k g e ht hk ha hb
    rw [(halike e).has] at ha hb
    rw [(halike e).mem]
    rcases h.mem_or hi ht hk ha hb with h1 | h1 | ⟨b, h1, h2⟩
    · exact .inl h1
    · exact .inr (.inl h1)
    · exact .inl (hd k e b ht h1 h2 g hk ha hb)
  · intro j c' hj
    rcases List.mem_cons.1 hj with h1 | h1
    · cases h1; exact .inr (hlog rfl)
    · exact .inl h1

theorem groupsReg {w : World V} {s : State V} (h : WRel w s) (hm : Matches cfg w) : Prog.GroupsReg cfg := by
  intro k g hk
  obtain ⟨gs, hgs, rfl⟩ := sgroup_at h hm.groups hk
  obtain ⟨g, hg⟩ := group_at h hgs
  obtain ⟨A, B, hA, hB, _⟩ := (h.grp k g gs hg hgs).ex
  constructor
  · simpa [Config.registered] using (hm.order gs.a).2 (by rw [hA]; rfl)
  · simpa [Config.registered] using (hm.order gs.b).2 (by rw [hB]; rfl)

theorem sane_of {w : World V} {s : State V} (h : WRel w s) (hm : Matches cfg w) (id : Nat) :
    Sane cfg (fun t => s.has t id) (fun k => memAt s k id) := by
  refine ⟨fun t ht => has_registered h hm ht, fun k hk => ?_⟩
  obtain ⟨gs, hgs, h1, h2⟩ := memAt_both h hk
  exact ⟨_, shape_at h hm.groups hgs, h1, h2⟩

theorem live_mem {w : World V} {s : State V} (h : Rel w s) {id : Nat} : s.live id = true ↔ id ∈ w.em.entities := by
  rw [h.em.mem_entities, live_iff, h.next]

theorem value_eq {w : World V} {s : State V} (h : Rel w s) (t id : Nat) : w.value t id = s.get t id := by
  simp [World.value, componentRead_eq h]

theorem Disc.soft_start {cl : Nat → Claim} {s : State V} {σ : Sys V} (h : Disc cfg T cl s σ) (hb : Basics cfg σ)
    {i : Nat} {th : Thread V} (hi : σ.threads[i]? = some th) (hc : th.call = none) : cl i = none := by
  have := h.ok i th hi
  rcases hcl : cl i with _ | ⟨id, b⟩
  · rfl
  · rw [hcl] at this
    cases b with
    | false => obtain ⟨_, _, c, h1, _⟩ := this; rw [hc] at h1; cases h1
    | true => obtain ⟨_, _, ⟨c, h1, _⟩, _⟩ := this; rw [hc] at h1; cases h1

theorem Disc.none_on {cl : Nat → Claim} {s : State V} {σ : Sys V} (h : Disc cfg T cl s σ) {id : Nat} (hn : σ.NoneOn id)
    (j : Nat) (b : Bool) : cl j ≠ some (id, b) := by
  intro hcl
  cases hj : σ.threads[j]? with
  | none => rw [h.bound j hj] at hcl; cases hcl
  | some th =>
    have := h.ok j th hj
    rw [hcl] at this
    refine hn th (List.mem_of_getElem? hj) ?_
    cases b with
    | false => exact this.2.1
    | true => exact this.2.1

theorem Disc.step_start {cl : Nat → Claim} {s : State V} {σ : Sys V} (h : Disc cfg T cl s σ) (hb : Basics cfg σ)
    {i : Nat} {th : Thread V} {c : ApiCall V} (hi : σ.threads[i]? = some th) (hc : th.call = none)
    (hmay : Sys.disciplined cfg σ i c) :
    ∃ cl', Disc cfg T cl' s (σ.setThread i { call := some c, prog := c.prog cfg, held := [], subject := c.subject }) := by
  have hcl := h.soft_start hb hi hc
  have hr := groupsReg h.rel.core hb.mat
  have hthr : ∀ (th' : Thread V) (j : Nat), (σ.setThread i th').threads[j]? = if j = i then some th' else σ.threads[j]? :=
    fun th' j => setThread_threads σ i th' j hi
  have hold : ∀ (k : Nat) g e, T k → cfg.groups[k]? = some g → s.has g.a e = true → s.has g.b e = true →
      memAt s k e = true ∨ ∃ j, j ≠ i ∧ Minds cl σ.threads k e j := by
    intro k g e ht hk ha hb
    rcases h.mem_or hi ht hk ha hb with h1 | h1 | ⟨b, h1, h2⟩
    · exact .inl h1
    · exact .inr h1
    · rw [hcl] at h1; cases h1
  -- the call works on no entity yet
  have quiet : (c.prog cfg).Quiet cfg T → c.soft = false → c.subject = none →
      ∃ cl', Disc cfg T cl' s (σ.setThread i { call := some c, prog := c.prog cfg, held := [], subject := c.subject }) := by
    intro hq hs hsub
    refine ⟨_, h.update (x := none) hi (hthr _) h.rel ⟨hq, ?_, hsub⟩ (fun _ _ _ _ => .refl _ _) (fun _ _ _ _ h => h) (by simp) ?_
      (fun _ _ h => .inl h)⟩
    · intro c' hc'; cases hc'; exact hs
    · intro k g e ht hk ha hb
      rcases hold k g e ht hk ha hb with h1 | h1
      · exact .inl h1
      · exact .inr (.inl h1)
  -- the call works on one entity, and no other does
  have alone : ∀ id, c.subject = some id → id ∈ σ.world.em.entities → σ.NoneOn id → c.soft = false →
      (Complete cfg T (fun t => s.has t id) (fun k => memAt s k id) →
          (c.prog cfg).Alone cfg T id (fun t => s.has t id) (fun k => memAt s k id)) →
      ∃ cl', Disc cfg T cl' s (σ.setThread i { call := some c, prog := c.prog cfg, held := [], subject := c.subject }) := by
    intro id hsub hlive hn hs ha
    have hcomp : Complete cfg T (fun t => s.has t id) (fun k => memAt s k id) := by
      intro k g ht hk h1 h2
      rcases hold k g id ht hk h1 h2 with h3 | ⟨j, _, b, th', h4, h5, _⟩
      · exact h3
      · exact absurd h5 (h.none_on hn j b)
    refine ⟨_, h.update (x := some (id, true)) hi (hthr _) h.rel ⟨live_mem h.rel |>.2 hlive, hsub, ⟨c, rfl, hs⟩, ?_⟩
      (fun _ _ _ _ => .refl _ _) (fun _ _ _ _ h => h) ?_ ?_ (fun _ _ h => .inl h)⟩
    · exact ha hcomp
    · intro j id' b b' _ h1 h2
      cases h1
      exact absurd h2 (h.none_on hn j b')
    · intro k g e ht hk ha hb
      rcases hold k g e ht hk ha hb with h1 | h1
      · exact .inl h1
      · exact .inr (.inl h1)
  cases c with
  | on id script =>
    obtain ⟨hlive, hor⟩ := hmay
    by_cases hs : (ApiCall.on id script).soft = true
    · refine ⟨_, h.update (x := some (id, false)) hi (hthr _) h.rel ⟨live_mem h.rel |>.2 hlive, rfl, _, rfl, hs,
        Prog.gentle_on hr script hs⟩ (fun _ _ _ _ => .refl _ _) (fun _ _ _ _ h => h) ?_ ?_ (fun _ _ h => .inl h)⟩
      · intro j id' b b' hji h1 h2
        cases h1
        refine ⟨rfl, ?_⟩
        rcases hor with hn | ⟨_, ho⟩
        · exact absurd h2 (h.none_on hn j b')
        · cases b' with
          | false => rfl
          | true =>
            cases hj : σ.threads[j]? with
            | none => rw [h.bound j hj] at h2; cases h2
            | some thj =>
              have hok := h.ok j thj hj
              rw [h2] at hok
              obtain ⟨_, h3, ⟨c, h4, h5⟩, _⟩ := hok
              have := ho thj (List.mem_of_getElem? hj) h3
              rw [h4] at this
              simp only [Option.map_some, Option.some.injEq] at this
              rw [h5] at this; cases this
      · intro k g e ht hk ha hb
        rcases hold k g e ht hk ha hb with h1 | h1
        · exact .inl h1
        · exact .inr (.inl h1)
    · have hn : σ.NoneOn id := by
        rcases hor with hn | ⟨hs', _⟩
        · exact hn
        · exact absurd hs' hs
      refine alone id rfl hlive hn (by simpa using hs) (fun hcomp => ?_)
      exact Prog.alone_handle hr script [] (sane_of h.rel.core hb.mat id) hcomp
  | remove id =>
    obtain ⟨hlive, hn, hrem⟩ := hmay
    refine alone id rfl hlive hn rfl (fun _ => ?_)
    refine Prog.alone_remove hr hb.mat.nodup (sane_of h.rel.core hb.mat id) ?_
    intro i j gi gj hij hgi hgj hmi hmj
    refine hrem i j gi gj hij hgi hgj ?_
    obtain ⟨gs, hgs, h1, h2⟩ := memAt_both h.rel.core hmi
    obtain ⟨gs', hgs', h3, h4⟩ := memAt_both h.rel.core hmj
    have e1 := shape_at h.rel.core hb.mat.groups hgs
    have e2 := shape_at h.rel.core hb.mat.groups hgs'
    rw [hgi] at e1; cases e1
    rw [hgj] at e2; cases e2
    rintro t (rfl | rfl | rfl | rfl) <;> rw [value_eq h.rel] <;> assumption
  | create script => exact quiet (Prog.quiet_create hr script) rfl rfl
  | createMany n bs =>
    have : bs = [] := hmay
    subst this
    exact quiet (Prog.quiet_other (by simp) (by simp) (by simp) (by simp) (by simp)) rfl rfl
  | fill a b bs => exact False.elim hmay
  | _ => exact quiet (Prog.quiet_other (by simp) (by simp) (by simp) (by simp) (by simp)) rfl rfl

/-- The only thread working on an entity did something to it. -/
theorem Disc.excl_step {cl : Nat → Claim} {s s' : State V} {σ : Sys V} {w : World V} (h : Disc cfg T cl s σ) {i : Nat}
    {th th' : Thread V} (hi : σ.threads[i]? = some th) {id : Nat} (hcl : cl i = some (id, true)) (hrel : Rel w s')
    (hot : ∀ e, e ≠ id → Alike s s' e) (hlive : s'.live id = true) (hsub : th'.subject = some id)
    (hcall : ∃ c, th'.call = some c ∧ c.soft = false)
    (ha : th'.prog.Alone cfg T id (fun t => s'.has t id) (fun k => memAt s' k id)) :
    ∃ cl' s', Disc cfg T cl' s' ({ σ with world := w }.setThread i th') := by
  have hne : ∀ j e b, j ≠ i → cl j = some (e, b) → e ≠ id := by
    rintro j e b hji hj rfl
    have := (h.apart i j e true b (fun h => hji h.symm) hcl hj).1
    cases this
  refine ⟨_, s', h.update (x := some (id, true)) hi (fun j => setThread_threads { σ with world := w } i th' j hi) hrel
    ⟨hlive, hsub, hcall, ha⟩ (fun j e hji hj => hot e (hne j e _ hji hj)) ?_ ?_ ?_ (fun _ _ h => .inl h)⟩
  · intro j e hji hj hl
    rw [(hot e (hne j e _ hji hj)).live]; exact hl
  · intro j e b b' hji h1 h2
    cases h1
    exact absurd rfl (hne j _ _ hji h2)
  · intro k g e ht hk h1 h2
    by_cases he : e = id
    · exact .inr (.inr ⟨true, by rw [he], .inl rfl⟩)
    · rw [(hot e he).has] at h1 h2
      rw [(hot e he).mem]
      rcases h.mem_or hi ht hk h1 h2 with h3 | h3 | ⟨b, h3, h4⟩
      · exact .inl h3
      · exact .inr (.inl h3)
      · rw [hcl] at h3; cases h3; exact absurd rfl he

/-- A thread did something to an entity that it may share with others. -/
theorem Disc.shared_step {cl : Nat → Claim} {s s' : State V} {σ : Sys V} {w : World V} (h : Disc cfg T cl s σ) {i : Nat}
    {th th' : Thread V} (hi : σ.threads[i]? = some th) {id : Nat} (hcl : cl i = some (id, false)) (hrel : Rel w s')
    (hot : ∀ e, e ≠ id → Alike s s' e) (hlive : s'.live id = s.live id) (hok : ThOk cfg T s' (some (id, false)) th')
    (hcomp : ∀ (k : Nat) g, T k → cfg.groups[k]? = some g → s'.has g.a id = true → s'.has g.b id = true →
      memAt s' k id = true ∨ (∃ j, j ≠ i ∧ Minds cl σ.threads k id j) ∨ th'.prog.Owes k id) :
    ∃ cl', Disc cfg T cl' s' ({ σ with world := w }.setThread i th') := by
  have hall : ∀ e, s'.live e = s.live e := by
    intro e
    by_cases he : e = id
    · rw [he]; exact hlive
    · exact (hot e he).live
  refine ⟨_, h.update (x := some (id, false)) hi (fun j => setThread_threads { σ with world := w } i th' j hi) hrel
    hok ?_ ?_ ?_ ?_ (fun _ _ h => .inl h)⟩
  · intro j e hji hj
    refine hot e fun he => ?_
    subst he
    have := (h.apart i j e false true (fun h => hji h.symm) hcl hj).2
    cases this
  · intro j e hji hj hl
    rw [hall]; exact hl
  · intro j e b b' hji h1 h2
    cases h1
    exact h.apart i j id false b' (fun h => hji h.symm) hcl h2
  · intro k g e ht hk h1 h2
    by_cases he : e = id
    · subst he
      rcases hcomp k g ht hk h1 h2 with h3 | h3 | h3
      · exact .inl h3
      · exact .inr (.inl h3)
      · exact .inr (.inr ⟨false, rfl, .inr h3⟩)
    · rw [(hot e he).has] at h1 h2
      rw [(hot e he).mem]
      rcases h.mem_or hi ht hk h1 h2 with h3 | h3 | ⟨b, h3, h4⟩
      · exact .inl h3
      · exact .inr (.inl h3)
      · rw [hcl] at h3; cases h3; exact absurd rfl he

theorem alike_funs {s s' : State V} {e : Nat} (h : Alike s s' e) :
    (fun t => s'.has t e) = (fun t => s.has t e) ∧ (fun k => memAt s' k e) = fun k => memAt s k e :=
  ⟨funext h.has, funext h.mem⟩

theorem Disc.step_excl {cl : Nat → Claim} {s : State V} {σ : Sys V} (h : Disc cfg T cl s σ) (hb : Basics cfg σ)
    {i : Nat} {th : Thread V} {a : Act V} {f : Ret V → Prog V} {w : World V} {r : Xecs.R (Ret V)}
    (hi : σ.threads[i]? = some th) (hp : th.prog = .act a f) (hrun : a.run σ.world = (w, r)) {id : Nat}
    (hcl : cl i = some (id, true)) :
    (∀ x, r = .ok x → ∃ cl' s', Disc cfg T cl' s' ({ σ with world := w }.setThread i
        { th with prog := f x, subject := a.subjectAfter x th.subject })) ∧
    (∀ e c, r = .error e → th.call = some c → ∃ cl' s', Disc cfg T cl' s' ({ σ with world := w }.finish i c none)) := by
  have hok := h.ok i th hi
  rw [hcl] at hok
  obtain ⟨hlive, hsub, hcall, halone⟩ := hok
  rw [hp] at halone
  -- the work succeeds and changes the entity as expected
  have good : ∀ (x : Ret V) w' s' has' mem', a.run σ.world = (w', .ok x) → Becomes w' s s' id has' mem' →
      a.subjectAfter x th.subject = th.subject → (f x).Alone cfg T id has' mem' →
      (∀ x, r = .ok x → ∃ cl' s', Disc cfg T cl' s' ({ σ with world := w }.setThread i
        { th with prog := f x, subject := a.subjectAfter x th.subject })) ∧
      (∀ e c, r = .error e → th.call = some c → ∃ cl' s', Disc cfg T cl' s' ({ σ with world := w }.finish i c none)) := by
    intro x w' s' has' mem' h1 h2 h3 h4
    rw [h1] at hrun; cases hrun
    refine ⟨fun y hy => ?_, fun e c he => by cases he⟩
    cases hy
    have e1 : (fun t => s'.has t id) = has' := funext h2.has
    have e2 : (fun k => memAt s' k id) = mem' := funext h2.mem
    refine h.excl_step hi hcl h2.rel h2.others (by rw [h2.live]; exact hlive) (by rw [h3]; exact hsub) hcall ?_
    rw [e1, e2]; exact h4
  have mild : a.mild = true → (∀ x, a.subjectAfter x th.subject = th.subject) →
      (∃ w' x, a.run σ.world = (w', .ok x)) →
      (∀ x, (f x).Alone cfg T id (fun t => s.has t id) (fun k => memAt s k id)) →
      (∀ x, r = .ok x → ∃ cl' s', Disc cfg T cl' s' ({ σ with world := w }.setThread i
        { th with prog := f x, subject := a.subjectAfter x th.subject })) ∧
      (∀ e c, r = .error e → th.call = some c → ∃ cl' s', Disc cfg T cl' s' ({ σ with world := w }.finish i c none)) := by
    intro h1 h2 ⟨w', x, h3⟩ h4
    obtain ⟨s', h5, h6, _⟩ := mild_run h.rel h1 h3
    exact good x w' s' _ _ h3 ⟨h5, fun e _ => h6 e, (h6 id).has, (h6 id).mem, (h6 id).live⟩ (h2 x) (h4 x)
  have refl := Becomes.refl h.rel id
  cases a with
  | has e =>
    obtain ⟨rfl, h1⟩ := halone
    exact good _ _ _ _ _ (has_run' h.rel hlive) refl rfl h1
  | attachStore t e v =>
    obtain ⟨rfl, h1, h2⟩ := halone
    obtain ⟨w', s', h3, h4, _⟩ := attachStore_run h.rel hb.mat v h1 hlive
    exact good _ _ _ _ _ h3 h4 rfl h2
  | groupAdd k e =>
    obtain ⟨rfl, g, h1, h2⟩ := halone
    obtain ⟨w', s', h3, h4, _⟩ := groupAdd_run (id := e) h.rel hb.mat h1
    exact good _ _ _ _ _ h3 h4 rfl h2
  | groupRemove k e =>
    obtain ⟨rfl, ⟨g, h1⟩, h2⟩ := halone
    obtain ⟨w', s', h3, h4⟩ := groupRemove_run (id := e) h.rel hb.mat h1
    exact good _ _ _ _ _ h3 h4 rfl h2
  | detachStore t e =>
    obtain ⟨rfl, h1, h2, h3, h4⟩ := halone
    cases hh : s.has t e with
    | true =>
      obtain ⟨w', s', v, h5, h6⟩ := detachStore_run h.rel hb.mat hh h2
      exact good _ _ _ _ _ h5 h6 rfl (h3 hh v)
    | false =>
      rcases detachStore_absent h.rel hb.mat h1 hh with h5 | ⟨e', h5⟩
      · exact good _ _ _ _ _ h5 refl rfl (h4 hh).2
      · rw [h5] at hrun; cases hrun
        refine ⟨fun x hx => (nomatch hx), fun e'' c _ hc => ⟨_, s, h.finish hi h.rel (fun _ => .refl _ _) ?_ ?_⟩⟩
        · intro k id' b ht h6 _ g hk ha hb'
          rw [hcl] at h6; cases h6
          exact (h4 hh).1 k g ht hk ha hb'
        · intro _ h6
          obtain ⟨c', h7, h8⟩ := hcall
          rw [hc] at h7; cases h7
          rw [h8] at h6; simp at h6
  | storeRead t e => exact mild rfl (fun _ => rfl) (storeAccess_ok h.rel (.inl ⟨t, e, rfl⟩)) halone
  | storeWrite t e v => exact mild rfl (fun _ => rfl) (storeAccess_ok h.rel (.inr ⟨t, e, v, rfl⟩)) halone
  | storeHas t e =>
    obtain ⟨rfl, h1, h2⟩ := halone
    exact good _ _ _ _ _ (storeHas_run h.rel hb.mat h1) refl rfl h2
  | groupHas k e =>
    obtain ⟨rfl, ⟨g, h1⟩, h2⟩ := halone
    exact good _ _ _ _ _ (groupHas_run h.rel hb.mat h1) refl rfl h2
  | groupErase k e =>
    obtain ⟨rfl, h1, g, h2, h3, h4⟩ := halone
    obtain ⟨w', s', h5, h6⟩ := groupErase_run h.rel hb.mat h2 h1 h3
    exact good _ _ _ _ _ h5 h6 rfl h4
  | storeErase t e =>
    obtain ⟨rfl, h1, h2, h3⟩ := halone
    obtain ⟨w', s', h5, h6⟩ := storeErase_run h.rel hb.mat h1 h2
    exact good _ _ _ _ _ h5 h6 rfl h3
  | emRemove e =>
    obtain ⟨rfl, h1, h2, h3⟩ := halone
    obtain ⟨w', s', h4, h5, h6, h7, h8, h9⟩ := emRemove_run h.rel hlive h1
    rw [h4] at hrun; cases hrun
    refine ⟨fun y hy => ?_, fun e c he => by cases he⟩
    cases hy
    have hne : ∀ j e' b, j ≠ i → cl j = some (e', b) → e' ≠ e := by
      rintro j e' b hji hj rfl
      have := (h.apart i j e' true b (fun h => hji h.symm) hcl hj).1
      cases this
    refine ⟨_, s', h.update (x := none) hi
      (fun j => setThread_threads { σ with world := w } i _ j hi) h5
      ⟨h3.quiet, ?_, rfl⟩
      (fun j e' hji hj => h6 e' (hne j e' _ hji hj)) ?_ (fun _ _ _ _ _ h => nomatch h) ?_ (fun _ _ h => .inl h)⟩
    · intro c hc
      obtain ⟨c', h10, h11⟩ := hcall
      have : th.call = some c := hc
      rw [h10] at this; cases this; exact h11
    · intro j e' hji hj hl
      rw [(h6 e' (hne j e' _ hji hj)).live]; exact hl
    · intro k g e' ht hk ha hb'
      by_cases he : e' = e
      · subst he; rw [h8] at ha; cases ha
      · rw [(h6 e' he).has] at ha hb'
        rw [(h6 e' he).mem]
        rcases h.mem_or hi ht hk ha hb' with h10 | h10 | ⟨b, h10, _⟩
        · exact .inl h10
        · exact .inr (.inl h10)
        · rw [hcl] at h10; cases h10; exact absurd rfl he
  | _ => exact False.elim halone

theorem Disc.step_shared {cl : Nat → Claim} {s : State V} {σ : Sys V} (h : Disc cfg T cl s σ) (hb : Basics cfg σ)
    {i : Nat} {th : Thread V} {a : Act V} {f : Ret V → Prog V} {w : World V} {r : Xecs.R (Ret V)}
    (hi : σ.threads[i]? = some th) (hp : th.prog = .act a f) (hrun : a.run σ.world = (w, r)) {id : Nat}
    (hcl : cl i = some (id, false)) :
    ∃ x, r = .ok x ∧ ∃ s', FreshKept s s' ∧ ∃ cl', Disc cfg T cl' s' ({ σ with world := w }.setThread i
        { th with prog := f x, subject := a.subjectAfter x th.subject }) := by
  have hok := h.ok i th hi
  rw [hcl] at hok
  obtain ⟨hlive, hsub, c, hcall, hsoft, hg⟩ := hok
  rw [hp] at hg
  -- duties of this thread
  have duty : ∀ (k : Nat) g, T k → cfg.groups[k]? = some g → s.has g.a id = true → s.has g.b id = true →
      memAt s k id = true ∨ (∃ j, j ≠ i ∧ Minds cl σ.threads k id j) ∨ (Prog.act a f).Owes k id := by
    intro k g ht hk ha hb'
    rcases h.mem_or hi ht hk ha hb' with h1 | h1 | ⟨b, h1, h2⟩
    · exact .inl h1
    · exact .inr (.inl h1)
    · rw [hcl] at h1; cases h1
      rcases h2 with h2 | h2
      · cases h2
      · rw [hp] at h2; exact .inr (.inr h2)
  have mild : ∀ w' x, a.mild = true → a.run σ.world = (w', .ok x) → a.subjectAfter x th.subject = th.subject →
      (f x).Gentle cfg id (c.proper cfg) → (∀ k, a ≠ .groupAdd k id) →
      ∃ x, r = .ok x ∧ ∃ s', FreshKept s s' ∧ ∃ cl', Disc cfg T cl' s' ({ σ with world := w }.setThread i
        { th with prog := f x, subject := a.subjectAfter x th.subject }) := by
    intro w' x h1 h2 h3 h4 h5
    obtain ⟨s', h6, h7, hfk⟩ := mild_run h.rel h1 h2
    rw [h2] at hrun; cases hrun
    refine ⟨x, rfl, s', hfk, h.shared_step hi hcl h6 (fun e _ => h7 e) (h7 id).live ⟨by rw [(h7 id).live]; exact hlive,
      by rw [h3]; exact hsub, c, hcall, hsoft, h4⟩ ?_⟩
    intro k g ht hk ha hb'
    rw [(h7 id).has] at ha hb'
    rw [(h7 id).mem]
    rcases duty k g ht hk ha hb' with h8 | h8 | h8
    · exact .inl h8
    · exact .inr (.inl h8)
    · rcases h8 with h8 | h8
      · exact absurd h8 (h5 k)
      · exact .inr (.inr (h8 x))
  cases a with
  | has e =>
    obtain ⟨rfl, h1⟩ := hg
    exact mild _ _ rfl (has_run' h.rel hlive) rfl h1 (by simp)
  | storeRead t e =>
    obtain ⟨w', x, h1⟩ := storeAccess_ok h.rel (.inl ⟨t, e, rfl⟩)
    exact mild _ _ rfl h1 rfl (hg x) (by simp)
  | storeWrite t e v =>
    obtain ⟨w', x, h1⟩ := storeAccess_ok h.rel (.inr ⟨t, e, v, rfl⟩)
    exact mild _ _ rfl h1 rfl (hg x) (by simp)
  | attachStore t e v =>
    obtain ⟨rfl, h1, h2, h3⟩ := hg
    obtain ⟨w', s', h4, h5, hfk⟩ := attachStore_run h.rel hb.mat v h1 hlive
    rw [h4] at hrun; cases hrun
    refine ⟨_, rfl, s', hfk, h.shared_step hi hcl h5.rel h5.others h5.live ⟨by rw [h5.live]; exact hlive, hsub, c, hcall, hsoft, h2⟩ ?_⟩
    intro k g ht hk ha hb'
    rw [h5.has] at ha hb'
    rw [h5.mem]
    by_cases htt : g.touches t = true
    · exact .inr (.inr (h3 k g hk htt))
    · simp only [Shape.touches, Bool.or_eq_true, beq_iff_eq, not_or] at htt
      simp only [Bool.or_eq_true, beq_iff_eq, htt.1, htt.2, or_false] at ha hb'
      rcases duty k g ht hk ha hb' with h8 | h8 | h8
      · exact .inl h8
      · exact .inr (.inl h8)
      · rcases h8 with h8 | h8
        · cases h8
        · exact .inr (.inr (h8 _))
  | groupAdd k' e =>
    obtain ⟨rfl, ⟨g', h1⟩, h2⟩ := hg
    obtain ⟨w', s', h4, h5, hfk⟩ := groupAdd_run (id := e) h.rel hb.mat h1
    rw [h4] at hrun; cases hrun
    refine ⟨_, rfl, s', hfk, h.shared_step hi hcl h5.rel h5.others h5.live ⟨by rw [h5.live]; exact hlive, hsub, c, hcall, hsoft, h2⟩ ?_⟩
    intro k g ht hk ha hb'
    rw [h5.has] at ha hb'
    rw [h5.mem]
    rcases duty k g ht hk ha hb' with h8 | h8 | h8
    · left; simp [h8]
    · exact .inr (.inl h8)
    · rcases h8 with h8 | h8
      · cases h8
        rw [h1] at hk; cases hk
        left; simp [ha, hb']
      · exact .inr (.inr (h8 _))
  | _ => exact False.elim hg

theorem Disc.step_none {cl : Nat → Claim} {s : State V} {σ : Sys V} (h : Disc cfg T cl s σ)
    {i : Nat} {th : Thread V} {a : Act V} {f : Ret V → Prog V} {w : World V} {r : Xecs.R (Ret V)}
    (hi : σ.threads[i]? = some th) (hp : th.prog = .act a f) (hrun : a.run σ.world = (w, r)) (hcl : cl i = none)
    (hcall : th.call ≠ none) :
    (∀ x, r = .ok x → ∃ s', FreshKept s s' ∧ ∃ cl', Disc cfg T cl' s' ({ σ with world := w }.setThread i
        { th with prog := f x, subject := a.subjectAfter x th.subject })) ∧
    (∀ e c, r = .error e → th.call = some c → ∃ s', FreshKept s s' ∧ ∃ cl', Disc cfg T cl' s' ({ σ with world := w }.finish i c none)) := by
  have hok := h.ok i th hi
  rw [hcl] at hok
  obtain ⟨hq, hsoft, hsub⟩ := hok
  rw [hp] at hq
  rcases hq with ⟨h1, h2⟩ | ⟨n, rfl, h2⟩ | ⟨rfl, h2⟩
  · obtain ⟨s', h3, h4, hfk⟩ := mild_run h.rel h1 hrun
    constructor
    · rintro x rfl
      refine ⟨s', hfk, _, h.same hi (fun j => setThread_threads { σ with world := w } i _ j hi) h3 h4 ?_ ?_ rfl⟩
      · rw [hcl]
        exact ⟨h2 x, hsoft, by cases a <;> simp_all [Act.subjectAfter, Act.mild]⟩
      · intro k id hc; rw [hcl] at hc; cases hc
    · rintro e c rfl hc
      refine ⟨s', hfk, _, h.finish hi h3 h4 ?_ ?_⟩
      · intro k id b _ hc; rw [hcl] at hc; cases hc
      · intro _ h5; rw [hsoft c hc] at h5; simp at h5
  · obtain ⟨w', s', a, h3, h4, h5, hfk⟩ := allocateN_run' h.rel n
    rw [h3] at hrun; cases hrun
    refine ⟨fun y hy => ?_, fun e c he => by cases he⟩
    cases hy
    refine ⟨s', hfk, _, h.update (x := none) hi
      (fun j => setThread_threads { σ with world := w } i _ j hi) h4 ⟨h2 _, hsoft, hsub⟩ ?_ ?_ (fun _ _ _ _ _ h => nomatch h) ?_
      (fun _ _ h => .inl h)⟩
    · intro j id hji hj
      have hl : s.live id = true := by
        cases hjt : σ.threads[j]? with
        | none => rw [h.bound j hjt] at hj; cases hj
        | some thj => have := h.ok j thj hjt; rw [hj] at this; exact this.1
      refine ⟨(h5 id).1, (h5 id).2.1, ?_⟩
      rw [hl]; exact (h5 id).2.2 hl
    · intro j id _ _ hl; exact (h5 id).2.2 hl
    · intro k g e ht hk ha hb'
      rw [(h5 e).1] at ha hb'
      rw [(h5 e).2.1]
      rcases h.mem_or hi ht hk ha hb' with h10 | h10 | ⟨b, h10, _⟩
      · exact .inl h10
      · exact .inr (.inl h10)
      · rw [hcl] at h10; cases h10
  · obtain ⟨w', s', id, h3, h4, h5, h6, h7, h8, h9, hfk⟩ := allocate_run' h.rel
    rw [h3] at hrun; cases hrun
    refine ⟨fun y hy => ?_, fun e c he => by cases he⟩
    cases hy
    have hne : ∀ j e b, cl j = some (e, b) → e ≠ id := by
      rintro j e b hj rfl
      cases hjt : σ.threads[j]? with
      | none => rw [h.bound j hjt] at hj; cases hj
      | some thj =>
        have := h.ok j thj hjt; rw [hj] at this
        cases b with
        | true => exact absurd this.1 (by rw [h6]; simp)
        | false => exact absurd this.1 (by rw [h6]; simp)
    have e1 : (fun t => s'.has t id) = fun _ => false := funext h8
    have e2 : (fun k => memAt s' k id) = fun _ => false := funext h9
    refine ⟨s', hfk, _, h.update (x := some (id, true)) hi
      (fun j => setThread_threads { σ with world := w } i _ j hi) h4 ⟨h7, rfl, ?_, ?_⟩ ?_ ?_ ?_ ?_
      (fun _ _ h => .inl h)⟩
    · cases hc : th.call with
      | none => exact absurd hc hcall
      | some c => exact ⟨c, rfl, hsoft c hc⟩
    · rw [e1, e2]; exact h2 id
    · intro j e _ hj; exact h5 e (hne j e _ hj)
    · intro j e _ hj hl; rw [(h5 e (hne j e _ hj)).live]; exact hl
    · intro j e b b' _ h10 h11
      cases h10
      exact absurd rfl (hne j _ _ h11)
    · intro k g e ht hk ha hb'
      by_cases he : e = id
      · subst he; rw [h8] at ha; cases ha
      · rw [(h5 e he).has] at ha hb'
        rw [(h5 e he).mem]
        rcases h.mem_or hi ht hk ha hb' with h10 | h10 | ⟨b, h10, _⟩
        · exact .inl h10
        · exact .inr (.inl h10)
        · rw [hcl] at h10; cases h10

theorem Disc.step {cl : Nat → Claim} {s : State V} {σ σ' : Sys V} (h : Disc cfg T cl s σ) (hb : Basics cfg σ)
    (hs : σ.Step cfg (Sys.disciplined cfg) σ') : 
    ∃ s', ((∀ i id, cl i ≠ some (id, true)) → FreshKept s s') ∧ ∃ cl', Disc cfg T cl' s' σ' := by
  cases hs with
  | start h1 h2 h3 =>
    obtain ⟨cl', h'⟩ := h.step_start hb h1 h2 h3
    exact ⟨s, fun _ => .of_eq rfl, cl', h'⟩
  | acq h1 h2 h3 =>
    rename_i i th l m p
    refine ⟨s, fun _ => .of_eq rfl, _, h.same h1 (fun j => setThread_threads σ _ _ j h1) h.rel (fun _ => .refl _ _) ?_ ?_ rfl⟩
    · have := h.ok i th h1
      rcases hcl : cl i with _ | ⟨id, _ | _⟩
      · rw [hcl] at this; unfold ThOk at this; rw [h2] at this; exact this
      · rw [hcl] at this; unfold ThOk at this; rw [h2] at this; exact this
      · rw [hcl] at this; unfold ThOk at this; rw [h2] at this; exact this
    · intro k id _ ho; rw [h2] at ho; exact ho
  | rel h1 h2 =>
    rename_i i th l m p
    refine ⟨s, fun _ => .of_eq rfl, _, h.same h1 (fun j => setThread_threads σ _ _ j h1) h.rel (fun _ => .refl _ _) ?_ ?_ rfl⟩
    · have := h.ok i th h1
      rcases hcl : cl i with _ | ⟨id, _ | _⟩
      · rw [hcl] at this; unfold ThOk at this; rw [h2] at this; exact this
      · rw [hcl] at this; unfold ThOk at this; rw [h2] at this; exact this
      · rw [hcl] at this; unfold ThOk at this; rw [h2] at this; exact this
    · intro k id _ ho; rw [h2] at ho; exact ho
  | act h1 h2 h3 =>
    rename_i i th a f w r
    rcases hcl : cl i with _ | ⟨id, _ | _⟩
    · have hcc : th.call ≠ none := by
        intro hc
        have := hb.idle th (List.mem_of_getElem? h1) hc
        subst this; simp [Thread.idle] at h2
      obtain ⟨s', hfk, h4⟩ := (h.step_none h1 h2 h3 hcl hcc).1 r rfl
      exact ⟨s', fun _ => hfk, h4⟩
    · obtain ⟨x, h4, s', hfk, h5⟩ := h.step_shared hb h1 h2 h3 hcl
      cases h4; exact ⟨s', fun _ => hfk, h5⟩
    · obtain ⟨cl', s', h5⟩ := (h.step_excl hb h1 h2 h3 hcl).1 r rfl
      exact ⟨s', fun hno => absurd hcl (hno i id), cl', h5⟩
  | fault h1 h2 h3 h4 =>
    rename_i i th a f w e c
    rcases hcl : cl i with _ | ⟨id, _ | _⟩
    · obtain ⟨s', hfk, h5⟩ := (h.step_none h1 h2 h3 hcl (by rw [h4]; simp)).2 e c rfl h4
      exact ⟨s', fun _ => hfk, h5⟩
    · obtain ⟨x, h5, h6⟩ := h.step_shared hb h1 h2 h3 hcl
      cases h5
    · obtain ⟨cl', s', h5⟩ := (h.step_excl hb h1 h2 h3 hcl).2 e c rfl h4
      exact ⟨s', fun hno => absurd hcl (hno i id), cl', h5⟩
  | panic h1 h2 h3 =>
    rename_i i th c
    have hok := h.ok i th h1
    refine ⟨s, fun _ => .of_eq rfl, _, h.finish h1 h.rel (fun _ => .refl _ _) ?_ ?_⟩
    · intro k id b ht hcl ho g hk ha hb'
      rw [hcl] at hok
      cases b with
      | true =>
        have := hok.2.2.2
        rw [h2] at this
        exact this k g ht hk ha hb'
      | false =>
        rcases ho with ho | ho
        · cases ho
        · rw [h2] at ho; exact False.elim ho
    · rintro _ ⟨h5, h6⟩
      rcases hcl : cl i with _ | ⟨id, _ | _⟩
      · rw [hcl] at hok; have := hok.2.1 c h3; rw [h5] at this; cases this
      · rw [hcl] at hok
        obtain ⟨_, _, c', h7, _, h8⟩ := hok
        rw [h3] at h7; cases h7
        rw [h2] at h8
        have : c.proper cfg = false := h8
        rw [h6] at this; cases this
      · rw [hcl] at hok
        obtain ⟨_, _, ⟨c', h7, h8⟩, _⟩ := hok
        rw [h3] at h7; cases h7; rw [h5] at h8; cases h8
  | ret h1 h2 h3 =>
    rename_i i th c rs
    have hok := h.ok i th h1
    refine ⟨s, fun _ => .of_eq rfl, _, h.finish h1 h.rel (fun _ => .refl _ _) ?_ (by simp)⟩
    intro k id b ht hcl ho g hk ha hb'
    rw [hcl] at hok
    cases b with
    | true =>
      have := hok.2.2.2
      rw [h2] at this
      exact this k g ht hk ha hb'
    | false =>
      rcases ho with ho | ho
      · cases ho
      · rw [h2] at ho; exact False.elim ho

theorem disc_sched {w : World V} {s : State V} (hrel : Rel w s) {order : List Nat} (ho : Enumerates w order)
    (hT : ∀ (k : Nat) g id, T k → (Config.of w order).groups[k]? = some g → s.has g.a id = true → s.has g.b id = true →
      memAt s k id = true)
    {n : Nat} {σ : Sys V} (h : (Sys.init w n).Sched (Config.of w order) (Sys.disciplined (Config.of w order)) σ) :
    Basics (Config.of w order) σ ∧ ∃ cl s', Disc (Config.of w order) T cl s' σ := by
  refine h.inv (P := fun σ => Basics (Config.of w order) σ ∧ ∃ cl s', Disc (Config.of w order) T cl s' σ)
    ⟨Basics.init ho n, fun _ => none, s, hrel, ?_, by simp, by simp, ?_, by simp [Sys.init]⟩ ?_
  · intro i th hi
    have := List.mem_of_getElem? hi
    rw [Sys.init, List.mem_replicate] at this
    rw [this.2]
    exact ⟨trivial, by simp [Thread.idle], rfl⟩
  · intro k g id ht hk ha hb
    exact .inl (hT k g id ht hk ha hb)
  · rintro σ σ' ⟨hb, cl, s', hd⟩ hs
    obtain ⟨s'', _, cl', hd'⟩ := hd.step hb hs
    exact ⟨hb.step hs, cl', s'', hd'⟩

end
end Xecs
