import Verif.Proofs.Deadlock
import Verif.Proofs.Considerate
import Verif.Proofs.Handles
/-
Bringing two threads to a standstill.
-/
set_option autoImplicit false
namespace Xecs
variable {V : Type}

/-- A world shared by two threads that do something, and others. -/
def duo (w : World V) (t0 t1 : Thread V) (k : List (Thread V)) : Sys V :=
  { world := w, threads := t0 :: t1 :: k, log := [] }

section
variable {cfg : Config} {may : Sys V → Nat → ApiCall V → Prop} {w : World V} {t0 t1 : Thread V} {k : List (Thread V)}
  {σ : Sys V} (hk : ∀ th ∈ k, th.held = [])

include hk in
theorem duo_free {l : Lock} {m : Mode} (h0 : ∀ g ∈ t0.held, ¬ Guard.clash (l, m) g) (h1 : ∀ g ∈ t1.held, ¬ Guard.clash (l, m) g) :
    (duo w t0 t1 k).Free l m := by
  intro th hth g hg
  simp only [duo, List.mem_cons] at hth
  rcases hth with rfl | rfl | hth
  · exact h0 g hg
  · exact h1 g hg
  · rw [hk th hth] at hg; cases hg

include hk in
theorem duo_acq1 {l : Lock} {m : Mode} {p : Prog V} (hs : σ.Sched cfg may (duo w t0 t1 k)) (hp : t1.prog = .acq l m p)
    (h0 : ∀ g ∈ t0.held, ¬ Guard.clash (l, m) g) (h1 : ∀ g ∈ t1.held, ¬ Guard.clash (l, m) g) :
    σ.Sched cfg may (duo w t0 { t1 with prog := p, held := (l, m) :: t1.held } k) :=
  .step hs (.acq (i := 1) (th := t1) rfl hp (duo_free hk h0 h1))

include hk in
theorem duo_acq0 {l : Lock} {m : Mode} {p : Prog V} (hs : σ.Sched cfg may (duo w t0 t1 k)) (hp : t0.prog = .acq l m p)
    (h0 : ∀ g ∈ t0.held, ¬ Guard.clash (l, m) g) (h1 : ∀ g ∈ t1.held, ¬ Guard.clash (l, m) g) :
    σ.Sched cfg may (duo w { t0 with prog := p, held := (l, m) :: t0.held } t1 k) :=
  .step hs (.acq (i := 0) (th := t0) rfl hp (duo_free hk h0 h1))

theorem duo_rel1 {l : Lock} {m : Mode} {p : Prog V} (hs : σ.Sched cfg may (duo w t0 t1 k)) (hp : t1.prog = .rel l m p) :
    σ.Sched cfg may (duo w t0 { t1 with prog := p, held := t1.held.erase (l, m) } k) :=
  .step hs (.rel (i := 1) (th := t1) rfl hp)

theorem duo_rel0 {l : Lock} {m : Mode} {p : Prog V} (hs : σ.Sched cfg may (duo w t0 t1 k)) (hp : t0.prog = .rel l m p) :
    σ.Sched cfg may (duo w { t0 with prog := p, held := t0.held.erase (l, m) } t1 k) :=
  .step hs (.rel (i := 0) (th := t0) rfl hp)

theorem duo_act1 {a : Act V} {f : Ret V → Prog V} {w' : World V} {r : Ret V} (hs : σ.Sched cfg may (duo w t0 t1 k))
    (hp : t1.prog = .act a f) (hr : a.run w = (w', .ok r)) :
    σ.Sched cfg may (duo w' t0 { t1 with prog := f r, subject := a.subjectAfter r t1.subject } k) :=
  .step hs (.act (i := 1) (th := t1) rfl hp hr)

theorem duo_start0 {c : ApiCall V} (hs : σ.Sched cfg may (duo w .idle t1 k)) (hm : ∀ σ, may σ 0 c) :
    σ.Sched cfg may (duo w { call := some c, prog := c.prog cfg, held := [], subject := c.subject } t1 k) :=
  .step hs (.start (i := 0) (th := .idle) rfl rfl (hm _))

theorem duo_start1 {c : ApiCall V} (hs : σ.Sched cfg may (duo w t0 .idle k)) (hm : ∀ σ, may σ 1 c) :
    σ.Sched cfg may (duo w t0 { call := some c, prog := c.prog cfg, held := [], subject := c.subject } k) :=
  .step hs (.start (i := 1) (th := .idle) rfl rfl (hm _))

include hk in
/-- Locking the groups that have the type `t`, nobody holding any. -/
theorem duo_lockGroups {t : Nat} {p : Prog V} : ∀ (gs : List (Nat × Shape)) (t1 : Thread V),
    σ.Sched cfg may (duo w .idle t1 k) → t1.prog = Prog.lockGroups t gs p → (gs.Pairwise fun x y => x.1 < y.1) →
    (∀ x ∈ gs, ∀ m, (Lock.group x.1, m) ∉ t1.held) →
    σ.Sched cfg may (duo w .idle { t1 with
      prog := p
      held := ((gs.filter fun x => x.2.touches t).map fun x => (Lock.group x.1, Mode.mut)).reverse ++ t1.held } k)
  | [], t1, hs, hp, _, _ => by
    have : t1 = { t1 with prog := p, held := t1.held } := by
      have : t1.prog = p := hp
      rw [← this]
    simpa [← this] using hs
  | (j, g) :: rest, t1, hs, hp, hpw, hh => by
    rw [List.pairwise_cons] at hpw
    have free : ∀ m, ∀ x ∈ t1.held, ¬ Guard.clash (Lock.group j, m) x := by
      rintro m ⟨l, m'⟩ hx ⟨h1, _⟩
      have h1' : Lock.group j = l := h1
      exact hh (j, g) (by simp) m' (h1' ▸ hx)
    have h1 := duo_acq1 hk hs hp (by intro x hx; cases hx) (free _)
    have h2 := duo_rel1 h1 rfl
    simp only [List.erase_cons_head] at h2
    by_cases hg : g.touches t = true
    · simp only [hg, if_true] at h2
      have h3 := duo_acq1 hk h2 rfl (by intro x hx; cases hx) (free _)
      have h4 := duo_lockGroups rest _ h3 rfl hpw.2 (by
        intro x hx m hmem
        rcases List.mem_cons.1 hmem with e | hmem
        · injection e with e1 e2
          injection e1 with e1
          have := hpw.1 x hx
          omega
        · exact hh x (List.mem_cons_of_mem _ hx) m hmem)
      simpa [List.filter_cons, hg] using h4
    · simp only [if_neg hg] at h2
      have h4 := duo_lockGroups rest _ h2 rfl hpw.2 fun x hx m hmem => hh x (List.mem_cons_of_mem _ hx) m hmem
      simpa [List.filter_cons, hg] using h4

include hk in
/-- Looking for a group, up to one that the other thread has locked. -/
theorem duo_visitGroups {q : Prog V} {j : Nat} {post : List Nat} : ∀ (pre : List Nat) (t0 : Thread V),
    σ.Sched cfg may (duo w t0 t1 k) → t0.prog = Prog.visitGroups (pre ++ j :: post) q →
    (∀ i ∈ pre, ∀ m, (Lock.group i, m) ∉ t0.held ∧ (Lock.group i, m) ∉ t1.held) →
    σ.Sched cfg may (duo w { t0 with prog := Prog.visitGroups (j :: post) q } t1 k)
  | [], t0, hs, hp, _ => by
    have : t0 = { t0 with prog := Prog.visitGroups (j :: post) q } := by
      have : t0.prog = Prog.visitGroups (j :: post) q := hp
      rw [← this]
    rw [← this]; exact hs
  | i :: pre, t0, hs, hp, hh => by
    have free : ∀ {H : List Guard}, (∀ m, (Lock.group i, m) ∉ H) → ∀ x ∈ H, ¬ Guard.clash (Lock.group i, .ref) x := by
      rintro H hH ⟨l, m'⟩ hx ⟨h1, _⟩
      have h1' : Lock.group i = l := h1
      exact hH m' (h1' ▸ hx)
    have h1 := duo_acq0 hk hs hp (free fun m => (hh i (by simp) m).1) (free fun m => (hh i (by simp) m).2)
    have h2 := duo_rel0 h1 rfl
    simp only [List.erase_cons_head] at h2
    exact duo_visitGroups pre { t0 with prog := Prog.visitGroups (pre ++ j :: post) q } h2 rfl fun i' hi' => hh i' (List.mem_cons_of_mem _ hi')

/-- Two threads that hold one another up. -/
theorem duo_deadlock {l0 l1 : Lock} {m0 m1 : Mode} {p0 p1 : Prog V} (hc : t0.call ≠ none) (hp0 : t0.prog = .acq l0 m0 p0)
    (hp1 : t1.prog = .acq l1 m1 p1) (hi : ∀ th ∈ k, th.call = none) (h0 : ¬ (duo w t0 t1 k).Free l0 m0) (h1 : ¬ (duo w t0 t1 k).Free l1 m1) :
    (duo w t0 t1 k).Deadlock := by
  refine ⟨⟨0, t0, rfl, hc⟩, ?_⟩
  rintro i ⟨th, hth, hcall⟩
  match i, hth with
  | 0, hth => cases hth; exact ⟨_, l0, m0, p0, rfl, hp0, .inl h0⟩
  | 1, hth => cases hth; exact ⟨_, l1, m1, p1, rfl, hp1, .inl h1⟩
  | i + 2, hth =>
    have hi' : k[i]? = some th := hth
    exact absurd (hi th (List.mem_of_getElem? hi')) hcall

theorem duo_not_free1 {l : Lock} {m m' : Mode} (h : (l, m') ∈ t1.held) (hm : m = .mut ∨ m' = .mut) :
    ¬ (duo w t0 t1 k).Free l m := fun hf => hf t1 (by simp [duo]) _ h ⟨rfl, hm⟩

theorem duo_not_free0 {l : Lock} {m m' : Mode} (h : (l, m') ∈ t0.held) (hm : m = .mut ∨ m' = .mut) :
    ¬ (duo w t0 t1 k).Free l m := fun hf => hf t0 (by simp [duo]) _ h ⟨rfl, hm⟩

end

/-- Neither of the two types of any earlier group is `t`. -/
theorem touching_first {cfg : Config} {t j : Nat} {g : Shape} (hj : cfg.groups[j]? = some g) (ht : g.touches t = true)
    (hf : ∀ (i : Nat) h, i < j → cfg.groups[i]? = some h → h.touches t = false) :
    ∃ rest, Prog.touching cfg t = (j, g) :: rest := by
  have hm : (j, g) ∈ Prog.touching cfg t := List.mem_filter.2 ⟨by
    rw [Config.indexed, List.mem_mapIdx]
    obtain ⟨h1, h2⟩ := List.getElem?_eq_some_iff.1 hj
    exact ⟨j, h1, by rw [h2]⟩, ht⟩
  have hp : (Prog.touching cfg t).Pairwise fun x y => x.1 < y.1 := (Prog.indexed_pairwise cfg).filter _
  cases hl : Prog.touching cfg t with
  | nil => rw [hl] at hm; cases hm
  | cons x rest =>
    refine ⟨rest, ?_⟩
    rw [hl] at hm hp
    rcases List.mem_cons.1 hm with rfl | hm
    · rfl
    · have hx : x ∈ Prog.touching cfg t := by rw [hl]; simp
      obtain ⟨h1, h2⟩ := List.mem_filter.1 hx
      have h3 := hf x.1 x.2 ((List.pairwise_cons.1 hp).1 _ hm) (Prog.indexed_mem h1)
      rw [h3] at h2; cases h2

/-- An update of a group and a query of it meet: the update has locked the groups and wants the storages, the query has
locked the two storages and wants the group. -/
theorem duo_meet {cfg : Config} {may : Sys V → Nat → ApiCall V → Prop} {σ : Sys V} {w : World V} {t1 : Thread V}
    {k : List (Thread V)} (hk : ∀ th ∈ k, th.held = [])
    {t j : Nat} {g : Shape} {p : Prog V} {a : Nat → Act V} (hj : cfg.groups[j]? = some g) (ht : g.touches t = true)
    (hf : ∀ (i : Nat) h, i < j → cfg.groups[i]? = some h → h.touches t = false)
    (hra : cfg.registered g.a = true) (hrb : cfg.registered g.b = true) (hab : g.a ≠ g.b)
    {ma mb : Mode}
    (hmay : ∀ σ, may σ 0 (.query (.group g.kind ma mb g.a g.b)))
    (hheld : ∀ x ∈ t1.held, x = (.em, .ref))
    (hp : t1.prog = Prog.lockGroups t cfg.indexed (Prog.groupLoop cfg a (Prog.touching cfg t) p))
    (hs : σ.Sched cfg may (duo w .idle t1 k)) : ∃ u0 u1 p0 p1, σ.Sched cfg may (duo w u0 u1 k) ∧ u0.call ≠ none ∧
      u0.prog = .acq (.group j) .ref p0 ∧ u0.held = [(.store g.b, mb), (.store g.a, ma)] ∧ u1.call = t1.call ∧
      u1.prog = .acq (.store g.a) g.modeA (.acq (.store g.b) g.modeB p1) ∧ (.group j, .mut) ∈ u1.held ∧
      ∀ u m, (Lock.store u, m) ∉ u1.held := by
  obtain ⟨rest, hrest⟩ := touching_first hj ht hf
  have h1 := duo_lockGroups hk cfg.indexed t1 hs hp (Prog.indexed_pairwise cfg) (by
    intro x _ m hx; have := hheld _ hx; cases this)
  -- the guards of thread 1
  generalize hH : ((cfg.indexed.filter fun x => x.2.touches t).map fun x => (Lock.group x.1, Mode.mut)).reverse ++ t1.held = H at h1
  have hmem : ∀ x ∈ H, x = (.em, .ref) ∨ ∃ y ∈ Prog.touching cfg t, x = (.group y.1, .mut) := by
    intro x hx
    rw [← hH] at hx
    rcases List.mem_append.1 hx with hx | hx
    · obtain ⟨y, hy, rfl⟩ := List.mem_map.1 (List.mem_reverse.1 hx)
      exact .inr ⟨y, hy, rfl⟩
    · exact .inl (hheld x hx)
  have hgj : (Lock.group j, Mode.mut) ∈ H := by
    rw [← hH]
    refine List.mem_append_left _ (List.mem_reverse.2 (List.mem_map.2 ⟨(j, g), ?_, rfl⟩))
    have : (j, g) ∈ Prog.touching cfg t := by rw [hrest]; simp
    exact this
  have hno : ∀ u m, (Lock.store u, m) ∉ H := by
    intro u m hx
    rcases hmem _ hx with h | ⟨_, _, h⟩ <;> cases h
  have hnb : ∀ i, i < j → ∀ m, (Lock.group i, m) ∉ H := by
    intro i hi m hx
    rcases hmem _ hx with h | ⟨y, hy, h⟩
    · cases h
    · injection h with h _
      injection h with h
      subst h
      obtain ⟨h1, h2⟩ := List.mem_filter.1 hy
      rw [hf _ _ hi (Prog.indexed_mem h1)] at h2; cases h2
  have freeS : ∀ u m, ∀ x ∈ H, ¬ Guard.clash (Lock.store u, m) x := by
    rintro u m ⟨l, m'⟩ hx ⟨e, _⟩
    have e' : Lock.store u = l := e
    exact hno u m' (e' ▸ hx)
  rw [hrest] at h1
  -- the query
  have h2 := duo_start0 h1 hmay
  have hq : ∃ q N, j < N ∧ (ApiCall.query (.group g.kind ma mb g.a g.b) : ApiCall V).prog cfg =
      .acq (.store g.a) ma (.acq (.store g.b) mb (Prog.visitGroups (List.range N) q)) := by
    simp only [ApiCall.prog, Prog.openQuery, hra, hrb, Bool.and_self, if_true, Prog.store]
    cases hpos : Prog.position cfg ⟨g.kind, g.a, g.b⟩ with
    | none => exact ⟨_, _, (List.getElem?_eq_some_iff.1 hj).1, rfl⟩
    | some pos =>
      refine ⟨_, pos + 1, ?_, rfl⟩
      obtain ⟨h1, h2, _⟩ := List.findIdx?_eq_some_iff_getElem.1 hpos
      refine Nat.lt_succ_of_le (Nat.not_lt.1 fun hlt => ?_)
      have h3 := hf pos _ hlt (List.getElem?_eq_getElem h1)
      rw [of_decide_eq_true h2] at h3
      rw [show (Shape.mk g.kind g.a g.b) = g from rfl, ht] at h3
      cases h3
  obtain ⟨q, N, hN, hq⟩ := hq
  rw [hq] at h2
  have h3 := duo_acq0 hk h2 rfl (by intro x hx; cases hx) (freeS _ _)
  have h4 := duo_acq0 hk h3 rfl (by
    intro x hx
    simp only [List.mem_singleton] at hx
    subst hx
    rintro ⟨e, _⟩
    injection e with e
    exact hab e.symm) (freeS _ _)
  obtain ⟨d, rfl⟩ : ∃ d, N = j + (d + 1) := ⟨N - j - 1, by omega⟩
  have hrange : List.range (j + (d + 1)) = List.range j ++ j :: (List.range d).map fun i => j + (i + 1) := by
    rw [List.range_add, List.range_succ_eq_map]
    simp [Function.comp_def]
  rw [hrange] at h4
  have h5 := duo_visitGroups hk (List.range j) _ h4 rfl (by
    intro i hi m
    refine ⟨by simp, hnb i (List.mem_range.1 hi) m⟩)
  simp only [Prog.groupLoop, Prog.groupStep, Prog.store, hra, hrb, if_true] at h5
  exact ⟨_, _, _, _, h5, by simp, rfl, rfl, rfl, rfl, hgj, hno⟩

/-- They hold one another up, if one of them writes. -/
theorem duo_group {cfg : Config} {may : Sys V → Nat → ApiCall V → Prop} {σ : Sys V} {w : World V} {t1 : Thread V}
    {k : List (Thread V)} (hk : ∀ th ∈ k, th.held = []) (hki : ∀ th ∈ k, th.call = none)
    {t j : Nat} {g : Shape} {p : Prog V} {a : Nat → Act V} (hj : cfg.groups[j]? = some g) (ht : g.touches t = true)
    (hf : ∀ (i : Nat) h, i < j → cfg.groups[i]? = some h → h.touches t = false)
    (hra : cfg.registered g.a = true) (hrb : cfg.registered g.b = true) (hab : g.a ≠ g.b)
    {ma mb : Mode} (hm : g.modeA = .mut ∨ ma = .mut ∨ mb = .mut)
    (hmay : ∀ σ, may σ 0 (.query (.group g.kind ma mb g.a g.b)))
    (hheld : ∀ x ∈ t1.held, x = (.em, .ref))
    (hp : t1.prog = Prog.lockGroups t cfg.indexed (Prog.groupLoop cfg a (Prog.touching cfg t) p))
    (hs : σ.Sched cfg may (duo w .idle t1 k)) : ∃ σ', σ.Sched cfg may σ' ∧ σ'.Deadlock ∧ σ'.log = [] := by
  obtain ⟨u0, u1, p0, p1, h5, hc, hp0, hh0, hc1, hp1, hgj, hno⟩ := duo_meet hk hj ht hf hra hrb hab hmay hheld hp hs
  by_cases hA : g.modeA = .mut ∨ ma = .mut
  · exact ⟨_, h5, duo_deadlock hc hp0 hp1 hki (duo_not_free1 (m' := .mut) hgj (.inr rfl))
      (duo_not_free0 (m' := ma) (by simp [hh0]) hA), rfl⟩
  · have hA' : g.modeA = .ref ∧ ma = .ref := by
      constructor
      · cases h : g.modeA with
        | ref => rfl
        | «mut» => exact absurd (.inl h) hA
      · cases h : ma with
        | ref => rfl
        | «mut» => exact absurd (.inr h) hA
    have hmb : mb = .mut := by
      rcases hm with h | h | h
      · exact absurd (.inl h) hA
      · exact absurd (.inr h) hA
      · exact h
    have h6 := duo_acq1 hk h5 hp1 (by
      intro x hx
      rw [hh0] at hx
      simp only [List.mem_cons, List.not_mem_nil, or_false] at hx
      rcases hx with rfl | rfl
      · rintro ⟨e, _⟩
        injection e with e
        exact hab e
      · rintro ⟨_, e⟩
        rw [hA'.1, hA'.2] at e
        simp at e) (by
      rintro ⟨l, m'⟩ hx ⟨e, _⟩
      have e' : Lock.store g.a = l := e
      exact hno _ m' (e' ▸ hx))
    exact ⟨_, h6, duo_deadlock hc hp0 rfl hki (duo_not_free1 (m' := .mut) (List.mem_cons_of_mem _ hgj) (.inr rfl))
      (duo_not_free0 (m' := mb) (by simp [hh0]) (.inr hmb)), rfl⟩

/-- If both only read, a third thread that wants to write the first type makes them do so. -/
theorem trio_group {cfg : Config} {may : Sys V → Nat → ApiCall V → Prop} {σ : Sys V} {w : World V} {t1 : Thread V}
    {k : List (Thread V)} (hk : ∀ th ∈ k, th = .idle)
    {t j : Nat} {g : Shape} {p : Prog V} {a : Nat → Act V} (hj : cfg.groups[j]? = some g) (ht : g.touches t = true)
    (hf : ∀ (i : Nat) h, i < j → cfg.groups[i]? = some h → h.touches t = false)
    (hra : cfg.registered g.a = true) (hrb : cfg.registered g.b = true) (hab : g.a ≠ g.b)
    {ma mb : Mode} {id : Nat} {v : V} (hm : g.modeA = .ref)
    (hmay : ∀ σ, may σ 0 (.query (.group g.kind ma mb g.a g.b)))
    (hmay2 : ∀ σ, may σ 2 (.write g.a id v))
    (hheld : ∀ x ∈ t1.held, x = (.em, .ref))
    (hp : t1.prog = Prog.lockGroups t cfg.indexed (Prog.groupLoop cfg a (Prog.touching cfg t) p))
    (hs : σ.Sched cfg may (duo w .idle t1 (.idle :: k))) : ∃ σ', σ.Sched cfg may σ' ∧ σ'.Deadlock ∧ σ'.log = [] := by
  obtain ⟨u0, u1, p0, p1, h5, hc, hp0, hh0, hc1, hp1, hgj, hno⟩ := duo_meet (by
    intro th hth
    rcases List.mem_cons.1 hth with rfl | hth
    · rfl
    · rw [hk th hth]; rfl) hj ht hf hra hrb hab hmay hheld hp hs
  have h6 : σ.Sched cfg may (duo w u0 u1 ({ call := some (.write g.a id v), prog := (ApiCall.write g.a id v).prog cfg, held := [], subject := none } :: k)) :=
    .step h5 (.start (i := 2) (th := .idle) rfl rfl (hmay2 _))
  have hp2 : ∃ p2, (ApiCall.write g.a id v).prog cfg = .acq (.store g.a) .mut p2 := by
    simp only [ApiCall.prog, Prog.write, hra, if_true]
    exact ⟨_, rfl⟩
  obtain ⟨p2, hp2⟩ := hp2
  rw [hp2] at h6
  refine ⟨_, h6, ⟨⟨0, u0, rfl, hc⟩, ?_⟩, rfl⟩
  rintro i ⟨th, hth, hcall⟩
  match i, hth with
  | 0, hth => cases hth; exact ⟨_, _, _, _, rfl, hp0, .inl (duo_not_free1 (m' := .mut) hgj (.inr rfl))⟩
  | 1, hth =>
    cases hth
    rw [hm] at hp1
    exact ⟨_, _, _, _, rfl, hp1, .inr ⟨rfl, _, by simp only [duo, List.mem_cons]; exact .inr (.inr (.inl rfl)), _, rfl⟩⟩
  | 2, hth =>
    cases hth
    exact ⟨_, _, _, _, rfl, rfl, .inl (duo_not_free0 (m' := ma) (by simp [hh0]) (.inl rfl))⟩
  | i + 3, hth =>
    have hi' : k[i]? = some th := hth
    rw [hk th (List.mem_of_getElem? hi')] at hcall
    exact absurd rfl hcall

end Xecs
