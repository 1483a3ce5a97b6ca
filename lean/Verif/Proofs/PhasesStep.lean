import Verif.Proofs.Phases
/-
One step of a shared phase of considerate clients, and the accompanying sequential history.
-/
set_option autoImplicit false
namespace Xecs
open Spec World
variable {V : Type}

section
variable {cfg : Config} {T : Nat → Prop}

/-- Nothing about entity `e` has changed. -/
def Still (s s' : State V) (e : Nat) : Prop := (∀ t, s'.has t e = s.has t e) ∧ ∀ k, memAt s' k e = memAt s k e

theorem Still.refl (s : State V) (e : Nat) : Still s s e := ⟨fun _ => rfl, fun _ => rfl⟩

theorem Alike.still {s s' : State V} {e : Nat} (h : Alike s s' e) : Still s s' e := ⟨h.has, h.mem⟩

theorem Track.still {ths : List (Thread V)} {e : Nat} {s s' g g' : State V} (hs : Still s s' e) (hg : Still g g' e)
    (h : Track cfg ths e (fun t => s.has t e) (fun k => memAt s k e) (fun t => g.has t e) (fun k => memAt g k e)) :
    Track cfg ths e (fun t => s'.has t e) (fun k => memAt s' k e) (fun t => g'.has t e) (fun k => memAt g' k e) := by
  simp only [hs.1, hs.2, hg.1, hg.2]; exact h

/-- Each non-owning group that the accompanying history holds to be usable, and whose types no group owns, is usable; or an
entity is being removed and has already lost a component of it. -/
def Crisp (s g : State V) : Prop :=
  ∀ (k : Nat) gk, g.groups[k]? = some gk → gk.kind = .non → gk.fresh = true →
    (∀ (j : Nat) gj, g.groups[j]? = some gj → gj.owns gk.a = false ∧ gj.owns gk.b = false) →
    (∃ sk, s.groups[k]? = some sk ∧ sk.fresh = true) ∨
    ∃ t e, gk.touches t = true ∧ g.has t e = true ∧ s.has t e = false

theorem shape_fields {g h : SGroup} (e : g.shape = h.shape) :
    g.kind = h.kind ∧ g.a = h.a ∧ g.b = h.b := by
  rcases g with ⟨k, a, b, m, f⟩
  rcases h with ⟨k', a', b', m', f'⟩
  cases k <;> cases k' <;> simp_all [SGroup.shape, toKind]

theorem shape_match {gs hs : List SGroup} (e : gs.map SGroup.shape = hs.map SGroup.shape) {k : Nat} {h : SGroup}
    (hk : hs[k]? = some h) : ∃ g, gs[k]? = some g ∧ g.kind = h.kind ∧ g.a = h.a ∧ g.b = h.b := by
  have h1 : (hs.map SGroup.shape)[k]? = some h.shape := by rw [List.getElem?_map, hk]; rfl
  rw [← e, List.getElem?_map, Option.map_eq_some_iff] at h1
  obtain ⟨g, h2, h3⟩ := h1
  exact ⟨g, h2, shape_fields h3⟩

theorem Crisp.hidden {s s' g : State V} (h : Crisp s g) (hsh : s.groups.map SGroup.shape = g.groups.map SGroup.shape)
    (hle : ∀ t e, s.has t e = true → g.has t e = true) (hh : Hidden s s') : Crisp s' g := by
  intro k gk hk hn hf ho
  rcases h k gk hk hn hf ho with ⟨sk, h1, h2⟩ | ⟨t, e, h1, h2, h3⟩
  · obtain ⟨sk0, f1, f2, f3, f4⟩ := shape_match hsh hk
    rw [h1] at f1; cases f1
    rcases hh.kept k sk h1 h2 (by
      intro j sj hj
      obtain ⟨gj, q1, q2, q3, q4⟩ := shape_match hsh.symm hj
      have := ho j gj q1
      simpa only [SGroup.owns, q2, q3, q4, f3, f4] using this) with h4 | ⟨t, e, h4, h5, h6⟩
    · exact .inl h4
    · refine .inr ⟨t, e, ?_, hle t e h5, h6⟩
      simpa only [SGroup.touches, f3, f4] using h4
  · refine .inr ⟨t, e, h1, h2, ?_⟩
    cases hx : s'.has t e with
    | false => rfl
    | true =>
      have := hh.get t e hx
      simp only [State.has, this] at hx h3
      rw [hx] at h3; cases h3

theorem Crisp.step {s s' g g' : State V} (h : Crisp s g) (hsh : g'.groups.map SGroup.shape = g.groups.map SGroup.shape)
    (hf : ∀ (k : Nat) gk gk', g.groups[k]? = some gk → g'.groups[k]? = some gk' → gk'.fresh = true → gk.fresh = true)
    (hs : s'.groups = s.groups)
    (hgap : ∀ (k : Nat) gk gk', g.groups[k]? = some gk → g'.groups[k]? = some gk' → gk'.fresh = true →
      ∀ t e, gk.touches t = true → g.has t e = true → s.has t e = false → g'.has t e = true ∧ s'.has t e = false) :
    Crisp s' g' := by
  intro k gk' hk' hn hfr ho
  obtain ⟨gk, h1, h2, h3, h4⟩ := shape_match hsh.symm hk'
  rw [hs]
  rcases h k gk h1 (h2.trans hn) (hf k gk gk' h1 hk' hfr) (by
    intro j gj hj
    obtain ⟨gj', q1, q2, q3, q4⟩ := shape_match hsh hj
    have := ho j gj' q1
    simpa only [SGroup.owns, q2, q3, q4, h3, h4] using this) with h5 | ⟨t, e, h5, h6, h7⟩
  · exact .inl h5
  · have := hgap k gk gk' h1 hk' hfr t e h5 h6 h7
    refine .inr ⟨t, e, ?_, this.1, this.2⟩
    simpa only [SGroup.touches, h3, h4] using h5

/-- Nothing happened to the groups or to which components there are. -/
theorem Crisp.still {s s' g g' : State V} (h : Crisp s g) (h1 : s'.groups = s.groups) (h2 : g'.groups = g.groups)
    (h3 : ∀ e, Still s s' e) (h4 : ∀ e, Still g g' e) : Crisp s' g' := by
  refine h.step (by rw [h2]) (fun k gk gk' a b c => ?_) h1 fun _ _ _ _ _ _ t e _ a b => ?_
  · rw [h2, a] at b; cases b; exact c
  · rw [(h4 e).1, (h3 e).1]; exact ⟨a, b⟩

/-- The groups as the accompanying history has them. -/
theorem Echo.shapes' {s g : State V} {σ : Sys V} (hd : Pact cfg T s σ) (hb : Basics cfg σ) (h : Echo cfg s g σ) :
    s.groups.map SGroup.shape = g.groups.map SGroup.shape := by
  rw [← h.shapes, hb.mat.groups, shapes_eq hd.rel.core]

theorem Echo.move {s g s' g' : State V} {σ σ' : Sys V} (h : Echo cfg s g σ) {i : Nat} {th th' : Thread V}
    (hi : σ.threads[i]? = some th) (hth : ∀ (j : Nat), σ'.threads[j]? = if j = i then some th' else σ.threads[j]?) {e : Nat}
    (h1 : th.subject = some e ∨ th.subject = none) (h2 : th'.subject = some e ∨ th'.subject = none)
    (hopn : th'.subject = none → th'.prog.Open cfg) (base : Base s' g') (shapes : cfg.groups = g'.groups.map SGroup.shape)
    (vals : ∀ t e, s'.has t e = true → g'.get t e = s'.get t e) (hs : ∀ x, x ≠ e → Still s s' x) (hg : ∀ x, x ≠ e → Still g g' x)
    (ht : Track cfg σ'.threads e (fun t => s'.has t e) (fun k => memAt s' k e) (fun t => g'.has t e) (fun k => memAt g' k e)) :
    Echo cfg s' g' σ' := by
  refine ⟨base, shapes, vals, fun x => ?_, fun j t hj => ?_⟩
  · by_cases hx : x = e
    · subst hx; exact ht
    · refine Track.still (hs x hx) (hg x hx) ((h.ent x).other hth hi ?_ ?_)
      · rcases h1 with h1 | h1 <;> rw [h1]
        · intro h; cases h; exact hx rfl
        · simp
      · rcases h2 with h2 | h2 <;> rw [h2]
        · intro h; cases h; exact hx rfl
        · simp
  · rw [hth] at hj
    by_cases hji : j = i
    · simp only [hji, if_true] at hj; cases hj; exact hopn
    · simp only [hji, if_false] at hj; exact h.opn j t hj

theorem Echo.calm {s g s' g' : State V} {σ σ' : Sys V} (h : Echo cfg s g σ) {i : Nat} {th th' : Thread V}
    (hi : σ.threads[i]? = some th) (hth : ∀ (j : Nat), σ'.threads[j]? = if j = i then some th' else σ.threads[j]?)
    (hsub : th'.subject = th.subject) (hcall : th'.call = th.call)
    (ho : ∀ k e, th.subject = some e → th.prog.Debts cfg k e → th'.prog.Debts cfg k e)
    (ha : ∀ e A, th.subject = some e → th.OnChain → th.prog.Adds cfg e A → th'.prog.Adds cfg e A)
    (hser : ∀ e, th.subject = some e → ¬ th.OnChain →
      th.prog.Serial cfg e (fun t => s.has t e) (fun k => memAt s k e) (fun t => g.has t e) (fun k => memAt g k e) →
      th'.prog.Serial cfg e (fun t => s.has t e) (fun k => memAt s k e) (fun t => g.has t e) (fun k => memAt g k e))
    (hopn : th.subject = none → th.prog.Open cfg → th'.prog.Open cfg) (base : Base s' g') (shapes : cfg.groups = g'.groups.map SGroup.shape)
    (vals : ∀ t e, s'.has t e = true → g'.get t e = s'.get t e) (hs : ∀ x, Still s s' x) (hg : ∀ x, Still g g' x) :
    Echo cfg s' g' σ' := by
  refine ⟨base, shapes, vals, fun x => ?_, fun j t hj => ?_⟩
  · exact Track.still (hs x) (hg x) ((h.ent x).on hth hi hsub hcall (fun k => ho k x) (fun A => ha x A) (hser x))
  · rw [hth] at hj
    by_cases hji : j = i
    · simp only [hji, if_true] at hj; cases hj
      intro hn
      have hn' : th.subject = none := by rw [← hsub]; exact hn
      exact hopn hn' (h.opn i th hi hn')
    · simp only [hji, if_false] at hj; exact h.opn j t hj

theorem Echo.idle {s g : State V} {σ σ' : Sys V} (h : Echo cfg s g σ) {i : Nat} {th th' : Thread V}
    (hi : σ.threads[i]? = some th) (hth : ∀ (j : Nat), σ'.threads[j]? = if j = i then some th' else σ.threads[j]?)
    (h1 : th.subject = none) (h2 : th'.subject = none) (hopn : th'.prog.Open cfg) : Echo cfg s g σ' :=
  h.move hi hth (e := 0) (.inr h1) (.inr h2) (fun _ => hopn) h.base h.shapes h.vals (fun x _ => .refl s x) (fun x _ => .refl g x)
    ((h.ent 0).other hth hi (by rw [h1]; simp) (by rw [h2]; simp))

/-! ### Work that changes at most values -/

theorem setComp_get {s : State V} {t id : Nat} {f : Nat → Option V} (hf : s.comp t = some f) (v : V) (u e : Nat) :
    (s.setComp t fun x => if x = id then some v else f x).get u e = if u = t ∧ e = id then some v else s.get u e := by
  simp only [State.get, State.setComp]
  by_cases hu : u = t
  · subst hu
    by_cases he : e = id <;> simp [he, hf]
  · simp [hu]

theorem setComp_has {s : State V} {t id : Nat} {f : Nat → Option V} (hf : s.comp t = some f) (v : V) (hid : (f id).isSome = true)
    (u e : Nat) : (s.setComp t fun x => if x = id then some v else f x).has u e = s.has u e := by
  simp only [State.has, setComp_get hf]
  split
  · rename_i h; obtain ⟨rfl, rfl⟩ := h
    simp [State.get, hf, hid]
  · rfl

theorem setComp_still {s : State V} {t id : Nat} {f : Nat → Option V} (hf : s.comp t = some f) (v : V) (hid : (f id).isSome = true)
    (x : Nat) : Still s (s.setComp t fun x => if x = id then some v else f x) x :=
  ⟨fun u => setComp_has hf v hid u x, fun _ => rfl⟩

theorem setComp_dom {s : State V} {t : Nat} {f f' : Nat → Option V} (hf : s.comp t = some f) (u : Nat) :
    ((s.setComp t f').comp u).isSome = (s.comp u).isSome := by
  simp only [State.setComp]
  split
  · rename_i h; rw [h, hf]; rfl
  · rfl

theorem Echo.mild {s g : State V} {σ : Sys V} (h : Echo cfg s g σ) {w' : World V} {r : Xecs.R (Ret V)} {a : Act V}
    (hrel : Rel σ.world s) (ha : a.mild = true) (hr : a.run σ.world = (w', r)) (order : List Nat) :
    ∃ s' g', Rel w' s' ∧ (∀ x, r = .ok x → Follows cfg g (a.change order x) g') ∧ (∀ e, r = .error e → s' = s ∧ g' = g) ∧
      Base s' g' ∧ cfg.groups = g'.groups.map SGroup.shape ∧ (∀ t e, s'.has t e = true → g'.get t e = s'.get t e) ∧
      (∀ x, Still s s' x) ∧ (∀ x, Still g g' x) ∧ s'.groups = s.groups ∧ g'.groups = g.groups := by
  rcases mild_eff hrel ha hr with ⟨rfl, h1, h2⟩ | ⟨t, id, v, f, rfl, rfl, h1, h2, h3⟩ | ⟨t, v, rfl, rfl, h1, h2⟩
  · refine ⟨s, g, hrel, ?_, fun _ _ => ⟨rfl, rfl⟩, h.base, h.shapes, h.vals, .refl s, .refl g, rfl, rfl⟩
    rintro x rfl
    have : a.change order x = none := by
      cases a with
      | storeWrite t id v => have := h1 t id v rfl; cases this; rfl
      | resWrite t v => have := h2 t v rfl; cases this; rfl
      | _ => first | rfl | simp [Act.mild] at ha
    rw [this]; exact rfl
  · have hhas : s.has t id = true := by simp [State.has, State.get, h1, h2]
    have hg := h.has hhas
    obtain ⟨fg, vg, hfg, hvg⟩ := has_some hg
    have hid : (fg id).isSome = true := by rw [hvg]; rfl
    refine ⟨_, g.setComp t fun x => if x = id then some v else fg x, h3, ?_, fun _ he => (by cases he), ?_, h.shapes, ?_,
      setComp_still h1 v h2, setComp_still hfg v hid, rfl, rfl⟩
    · rintro x hx; cases hx
      refine ⟨trivial, ?_⟩
      simp [State.step, hfg, hvg]
    · exact ⟨h.base.next, h.base.free, h.base.res, fun u => by rw [setComp_dom hfg, setComp_dom h1]; exact h.base.dom u, h.base.hw⟩
    · intro u e hh
      rw [setComp_has h1 v h2] at hh
      rw [setComp_get hfg, setComp_get h1, h.vals u e hh]
  · have hg : g.res t = s.res t := congrFun h.base.res t
    refine ⟨_, { g with res := fun u => if u = t then some v else g.res u }, h2, ?_, fun _ he => (by cases he), ?_, h.shapes, h.vals,
      .refl s, .refl g, rfl, rfl⟩
    · rintro x hx; cases hx
      refine ⟨trivial, ?_⟩
      rw [← hg] at h1
      obtain ⟨v0, hv0⟩ := Option.isSome_iff_exists.1 h1
      simp [State.step, hv0]
    · refine ⟨h.base.next, h.base.free, ?_, h.base.dom, h.base.hw⟩
      show (fun u => if u = t then some v else g.res u) = fun u => if u = t then some v else s.res u
      rw [h.base.res]

/-- After hidden work. -/
theorem Echo.hidden {s s' g : State V} {σ : Sys V} (h : Echo cfg s g σ) (hh : Hidden s s') :
    Base s' g ∧ ∀ t e, s'.has t e = true → g.get t e = s'.get t e := by
  refine ⟨hh.base.symm.trans h.base, fun t e ht => ?_⟩
  have h1 := hh.get t e ht
  rw [h1]
  refine h.vals t e ?_
  simp only [State.has] at ht ⊢
  rw [← h1]; exact ht

/-- After an attach. -/
theorem Echo.attach {s g : State V} {σ : Sys V} (h : Echo cfg s g σ) {t id : Nat} {f : Nat → Option V} (v : V)
    (hf : s.comp t = some f) : ∃ fg, g.comp t = some fg ∧ Base (s.put id t f v) (g.attached id t fg v) ∧
      ∀ u e, (s.put id t f v).has u e = true → (g.attached id t fg v).get u e = (s.put id t f v).get u e := by
  have hd := h.base.dom t
  rw [hf] at hd
  obtain ⟨fg, hfg⟩ := Option.isSome_iff_exists.1 hd
  refine ⟨fg, hfg, ⟨h.base.next, h.base.free, h.base.res, fun u => ?_, ?_⟩, fun u e hh => ?_⟩
  · show ((g.setComp t _).comp u).isSome = ((s.setComp t _).comp u).isSome
    rw [setComp_dom hfg, setComp_dom hf]; exact h.base.dom u
  · show (fun u => if u = t then max (g.hw t) (id + 1) else g.hw u) = fun u => if u = t then max (s.hw t) (id + 1) else s.hw u
    rw [h.base.hw]
  · rw [attached_get hfg]
    have : (s.put id t f v).get u e = if u = t ∧ e = id then some v else s.get u e := setComp_get hf v u e
    rw [this]
    split
    · rfl
    · rename_i hne
      refine h.vals u e ?_
      rw [put_has hf] at hh
      simp only [Bool.or_eq_true, Bool.and_eq_true, beq_iff_eq] at hh
      rcases hh with hh | hh
      · exact hh
      · exact absurd hh hne


theorem attached_still {g : State V} (hsh : cfg.groups = g.groups.map SGroup.shape) {t id : Nat} {f : Nat → Option V} {v : V}
    (hf : g.comp t = some f) (x : Nat) (hx : x ≠ id) : Still g (g.attached id t f v) x := by
  have : (x == id) = false := by simpa using hx
  exact ⟨fun u => by rw [attached_has hf]; simp [this], fun k => by rw [attached_mem hsh hf]; simp [this]⟩

theorem detached_still {g : State V} (hsh : cfg.groups = g.groups.map SGroup.shape) {t id : Nat} {f : Nat → Option V}
    (hf : g.comp t = some f) (x : Nat) (hx : x ≠ id) : Still g (g.detached id t f) x := by
  have : (x == id) = false := by simpa using hx
  exact ⟨fun u => by rw [detached_has hf]; simp [this], fun k => by rw [detached_mem hsh]; simp [this]⟩

theorem removed_still {g : State V} {id : Nat} (x : Nat) (hx : x ≠ id) : Still g (g.removed id) x := by
  have : (x == id) = false := by simpa using hx
  exact ⟨fun u => by rw [removed_has]; simp [this], fun k => by rw [removed_mem]; simp [this]⟩

/-- The storages listed are those registered. -/
theorem order_of {w : World V} {s : State V} (h : WRel w s) (hm : Matches cfg w) (t : Nat) :
    t ∈ cfg.order ↔ (s.comp t).isSome = true := by
  rw [hm.order]
  have := hasRegistered_eq h t
  simp only [World.hasRegistered] at this
  rw [this]

/-! ### A thread that removes its entity -/

theorem Echo.work_alone {s g : State V} {σ : Sys V} {u : World V} (hd : Pact cfg T s σ) (hb : Basics cfg σ)
    (hu : Rel u g) (h : Echo cfg s g σ) {i : Nat} {th : Thread V} {a : Act V} {f : Ret V → Prog V} {w : World V}
    {r : Xecs.R (Ret V)} (hi : σ.threads[i]? = some th) (hp : th.prog = .act a f) (hrun : a.run σ.world = (w, r)) {id : Nat}
    (hsub : th.subject = some id) (hns : ¬ th.OnChain) :
    (∀ x, r = .ok x → ∃ s' g', Rel w s' ∧ Follows cfg g (a.change cfg.order x) g' ∧ Echo cfg s' g' ({ σ with world := w }.setThread i
        { th with prog := f x, subject := a.subjectAfter x th.subject }) ∧ (Crisp s g → Crisp s' g')) ∧
    (∀ e c, r = .error e → th.call = some c → ∃ s', Rel w s' ∧ Echo cfg s' g ({ σ with world := w }.finish i c none) ∧
        (Crisp s g → Crisp s' g)) := by
  have hok := hd.ok i th hi
  unfold Placed at hok
  rw [hsub] at hok
  obtain ⟨hlive, c0, hc0, hok⟩ := hok
  have hch : c0.chain = none := by
    simpa [Thread.OnChain, hc0] using hns
  rw [hch] at hok
  have halone : th.prog.Alone cfg T id (fun t => s.has t id) (fun k => memAt s k id) := hok.2
  have hser := (h.ent id).hard i th hi hsub hns
  rw [hp] at halone hser
  have glive : g.live id = true := by rw [h.base.live]; exact hlive
  have hsole := hd.sole hi hsub hns
  have good : ∀ (x : Ret V) w' s' g' has' mem' ghas' gmem', a.run σ.world = (w', .ok x) → Becomes w' s s' id has' mem' →
      a.subjectAfter x th.subject = th.subject → Follows cfg g (a.change cfg.order x) g' →
      Base s' g' → cfg.groups = g'.groups.map SGroup.shape → (∀ t e, s'.has t e = true → g'.get t e = s'.get t e) →
      (∀ y, y ≠ id → Still g g' y) → (∀ t, g'.has t id = ghas' t) → (∀ k, memAt g' k id = gmem' k) →
      (f x).Serial cfg id has' mem' ghas' gmem' → (Crisp s g → Crisp s' g') →
      (∀ x, r = .ok x → ∃ s' g', Rel w s' ∧ Follows cfg g (a.change cfg.order x) g' ∧ Echo cfg s' g' ({ σ with world := w }.setThread i
        { th with prog := f x, subject := a.subjectAfter x th.subject }) ∧ (Crisp s g → Crisp s' g')) ∧
      (∀ e c, r = .error e → th.call = some c → ∃ s', Rel w s' ∧ Echo cfg s' g ({ σ with world := w }.finish i c none) ∧
        (Crisp s g → Crisp s' g)) := by
    intro x w' s' g' has' mem' ghas' gmem' h1 h2 h3 h4 b1 b2 b3 h5 h6 h7 h8 hcr
    rw [h1] at hrun; cases hrun
    refine ⟨fun y hy => ?_, fun e c he => by cases he⟩
    cases hy
    refine ⟨s', g', h2.rel, h4, h.move hi (fun j => setThread_threads { σ with world := w } i _ j hi) (.inl hsub) (e := id)
      (.inl (by rw [h3]; exact hsub)) (by rw [h3, hsub]; simp) b1 b2 b3 (fun y hy => (h2.others y hy).still) h5 ?_, hcr⟩
    refine Track.one (fun j => setThread_threads { σ with world := w } i _ j hi) hsole (by rw [h3]; exact hsub) hns ?_
    have e1 : (fun t => s'.has t id) = has' := funext h2.has
    have e2 : (fun k => memAt s' k id) = mem' := funext h2.mem
    have e3 : (fun t => g'.has t id) = ghas' := funext h6
    have e4 : (fun k => memAt g' k id) = gmem' := funext h7
    rw [e1, e2, e3, e4]; exact h8
  -- the sequential history does not move
  have hide : ∀ (x : Ret V) w' s' has' mem', a.run σ.world = (w', .ok x) → Becomes w' s s' id has' mem' → Hidden s s' →
      a.subjectAfter x th.subject = th.subject → a.change cfg.order x = none →
      (f x).Serial cfg id has' mem' (fun t => g.has t id) (fun k => memAt g k id) →
      (∀ x, r = .ok x → ∃ s' g', Rel w s' ∧ Follows cfg g (a.change cfg.order x) g' ∧ Echo cfg s' g' ({ σ with world := w }.setThread i
        { th with prog := f x, subject := a.subjectAfter x th.subject }) ∧ (Crisp s g → Crisp s' g')) ∧
      (∀ e c, r = .error e → th.call = some c → ∃ s', Rel w s' ∧ Echo cfg s' g ({ σ with world := w }.finish i c none) ∧
        (Crisp s g → Crisp s' g)) := by
    intro x w' s' has' mem' h1 h2 h3 h4 h5 h6
    obtain ⟨b1, b3⟩ := h.hidden h3
    exact good x w' s' g has' mem' _ _ h1 h2 h4 (by rw [h5]; exact rfl) b1 h.shapes b3 (fun y _ => .refl g y) (fun _ => rfl) (fun _ => rfl) h6
      fun hc => hc.hidden (h.shapes' hd hb) (fun _ _ => h.has) h3
  have hself : Hidden s s := ⟨.refl s, fun _ _ _ => rfl, .refl s⟩
  have refl := Becomes.refl hd.rel id
  cases a with
  | has e =>
    obtain ⟨rfl, _⟩ := halone
    exact hide _ _ _ _ _ (has_run' hd.rel hlive) refl hself rfl rfl hser
  | storeHas t e =>
    obtain ⟨rfl, h1, _⟩ := halone
    exact hide _ _ _ _ _ (storeHas_run hd.rel hb.mat h1) refl hself rfl rfl hser
  | groupHas k e =>
    obtain ⟨rfl, ⟨gs, h1⟩, _⟩ := halone
    exact hide _ _ _ _ _ (groupHas_run hd.rel hb.mat h1) refl hself rfl rfl hser
  | groupErase k e =>
    obtain ⟨rfl, h1, gs, h2, h3, _⟩ := halone
    obtain ⟨w', s', h5, h6, h7⟩ := groupErase_eff hd.rel hb.mat h2 h1 h3
    exact hide _ _ _ _ _ h5 h6 h7 rfl rfl (hser gs h2)
  | storeErase t e =>
    obtain ⟨rfl, h1, h2, _⟩ := halone
    obtain ⟨w', s', h5, h6, h7⟩ := storeErase_eff hd.rel hb.mat h1 h2
    exact hide _ _ _ _ _ h5 h6 h7 rfl rfl hser
  | emRemove e =>
    obtain ⟨rfl, h1, h2, h3⟩ := halone
    obtain ⟨w', h4, h5⟩ := emRemove_eff hd.rel hlive h1
    rw [h4] at hrun; cases hrun
    refine ⟨fun y hy => ?_, fun e c he => by cases he⟩
    cases hy
    have hsafe : cfg.Safe fun t => g.has t e := hser
    refine ⟨_, g.removed e, h5, ⟨⟨glive, ⟨hb.mat.nodup, fun t => ?_⟩, hsafe⟩, ?_⟩,
      h.move hi (fun j => setThread_threads { σ with world := w } i _ j hi) (.inl hsub) (.inr rfl) (e := e)
      (fun _ => h3.open) ?_ (by rw [removed_shapes]; exact h.shapes) ?_ (fun y _ => .refl _ y) (fun y hy => removed_still y hy) ?_,
      fun hc => hc.step removed_shapes ?_ rfl ?_⟩
    · rw [order_of hd.rel.core hb.mat, h.base.dom]
    · simp [State.step, State.needLive, glive, safe_order hu h.shapes hsafe]
    · refine ⟨h.base.next, ?_, h.base.res, fun t => ?_, h.base.hw⟩
      · show e :: g.free = e :: s.free
        rw [h.base.free]
      · rw [removed_dom]; exact h.base.dom t
    · intro t x hx
      have hx' : s.has t x = true := hx
      rw [removed_get]
      by_cases hxe : x = e
      · subst hxe; have := h1 t; dsimp only at this; rw [this] at hx'; cases hx'
      · rw [if_neg hxe]; exact h.vals t x hx'
    · refine Track.nobody (fun j => setThread_threads { σ with world := w } i _ j hi) hsole (by simp [Act.subjectAfter]) ?_ ?_
      · funext t
        rw [removed_has]
        have : s.has t e = false := h1 t
        show s.has t e = _
        simp [this]
      · funext k
        rw [removed_mem]
        have : memAt s k e = false := h2 k
        show memAt s k e = _
        simp [this]
    · intro k gk gk' q1 q2 q3
      simp only [State.removed, List.getElem?_map, q1, Option.map_some, Option.some.injEq] at q2
      subst q2
      simp only [Bool.and_eq_true] at q3
      exact q3.1.1
    · intro k gk gk' q1 q2 q3 t x q4 q5 q6
      simp only [State.removed, List.getElem?_map, q1, Option.map_some, Option.some.injEq] at q2
      subst q2
      simp only [Bool.and_eq_true, Bool.not_eq_true'] at q3
      have hxe : x ≠ e := by
        rintro rfl
        simp only [SGroup.touches, Bool.or_eq_true, beq_iff_eq] at q4
        rcases q4 with rfl | rfl
        · rw [q3.1.2] at q5; cases q5
        · rw [q3.2] at q5; cases q5
      rw [removed_has]
      exact ⟨by simp [q5, hxe], q6⟩
  | _ => exact False.elim hser

/-! ### A thread at work on a chain -/

theorem Echo.work_chain {s g : State V} {σ : Sys V} {u : World V} (hd : Pact cfg T s σ) (hb : Basics cfg σ)
    (hu : Rel u g) (h : Echo cfg s g σ) {i : Nat} {th : Thread V} {a : Act V} {f : Ret V → Prog V} {w : World V}
    {r : Xecs.R (Ret V)} (hi : σ.threads[i]? = some th) (hp : th.prog = .act a f) (hrun : a.run σ.world = (w, r)) {id : Nat}
    (hsub : th.subject = some id) (hsoft : th.OnChain) :
    (∀ x, r = .ok x → ∃ s' g', Rel w s' ∧ Follows cfg g (a.change cfg.order x) g' ∧ Echo cfg s' g' ({ σ with world := w }.setThread i
        { th with prog := f x, subject := a.subjectAfter x th.subject }) ∧ (Crisp s g → Crisp s' g')) ∧
    (∀ e c, r = .error e → th.call = some c → ∃ s', Rel w s' ∧ Echo cfg s' g ({ σ with world := w }.finish i c none) ∧
        (Crisp s g → Crisp s' g)) := by
  have hok := hd.ok i th hi
  unfold Placed at hok
  rw [hsub] at hok
  obtain ⟨hlive, c, hcall, hok⟩ := hok
  obtain ⟨ops, hch⟩ : ∃ ops, c.chain = some ops := by
    simp only [Thread.OnChain, hcall, Option.bind_some] at hsoft
    exact Option.isSome_iff_exists.1 hsoft
  rw [hch] at hok
  obtain ⟨hg, hst⟩ := hok
  have hall := hd.chains hi hsub hsoft
  obtain ⟨A, hadds, hA⟩ := (h.ent id).soft i th hi hsub hsoft
  obtain ⟨hh, _, _⟩ := (h.ent id).loose hall
  rw [hp] at hg hadds
  have hst : ∀ (k : Nat) g, cfg.groups[k]? = some g →
      (Prog.act a f).Stance (T k) k g id ops (s.has g.a id) (s.has g.b id) (memAt s k id) := by
    rw [← hp]; exact hst
  have glive : g.live id = true := by rw [h.base.live]; exact hlive
  have hthr : ∀ (th' : Thread V) (j : Nat), ({ σ with world := w }.setThread i th').threads[j]? = if j = i then some th' else σ.threads[j]? :=
    fun th' j => setThread_threads { σ with world := w } i th' j hi
  -- debts outlive work that does not pay them
  have later : ∀ k x, (∀ j, a ≠ .groupAdd j id) → (∀ t, a ≠ .detachStore t id) → th.prog.Debts cfg k id → (f x).Debts cfg k id := by
    intro k x n1 n2 ho
    rw [hp] at ho
    rcases ho with (ho | ho) | ⟨gs, q1, (⟨t, ho, _⟩ | ho)⟩
    · exact absurd ho (n1 k)
    · exact .inl (ho.2 x)
    · exact absurd ho (n2 t)
    · exact .inr ⟨gs, q1, ho.2 x⟩
  have mild : ∀ w' x, a.mild = true → a.run σ.world = (w', .ok x) → a.subjectAfter x th.subject = th.subject →
      (∀ A, (Prog.act a f).Adds cfg id A → (f x).Adds cfg id A) → (∀ k e, a ≠ .groupAdd k e) → (∀ t e, a ≠ .detachStore t e) →
      (∀ x, r = .ok x → ∃ s' g', Rel w s' ∧ Follows cfg g (a.change cfg.order x) g' ∧ Echo cfg s' g' ({ σ with world := w }.setThread i
        { th with prog := f x, subject := a.subjectAfter x th.subject }) ∧ (Crisp s g → Crisp s' g')) ∧
      (∀ e c, r = .error e → th.call = some c → ∃ s', Rel w s' ∧ Echo cfg s' g ({ σ with world := w }.finish i c none) ∧
        (Crisp s g → Crisp s' g)) := by
    intro w' x h1 h2 h3 h4 h5 h6
    obtain ⟨s', g', m1, m2, _, m4, m5, m6, m7, m8, m9, m10⟩ := h.mild hd.rel h1 h2 cfg.order
    rw [h2] at hrun; cases hrun
    refine ⟨fun y hy => ?_, fun e c he => by cases he⟩
    cases hy
    refine ⟨s', g', m1, m2 x rfl, h.calm hi (hthr _) h3 rfl ?_ ?_ ?_ ?_ m4 m5 m6 m7 m8, fun hc => hc.still m9 m10 m7 m8⟩
    · intro k e he ho
      rw [hsub] at he; cases he
      exact later k x (fun j => h5 j id) (fun t => h6 t id) ho
    · intro e A he _ ha
      rw [hsub] at he; cases he
      rw [hp] at ha; exact h4 A ha
    · intro e _ hn; exact absurd hsoft hn
    · intro hn; rw [hsub] at hn; cases hn
  -- the sequential history does not move
  have hide : ∀ x w' s' has' mem', a.run σ.world = (w', .ok x) → Becomes w' s s' id has' mem' → Hidden s s' →
      a.subjectAfter x th.subject = th.subject → a.change cfg.order x = none → (f x).Adds cfg id A →
      has' = (fun t => s.has t id) →
      ((∀ k, memAt s k id = true → memAt g k id = true) → ∀ k, mem' k = true → memAt g k id = true) →
      (∀ k, memAt g k id = true → mem' k = true ∨ (f x).Debts cfg k id ∨ ((memAt s k id = true → mem' k = true) ∧
        (th.prog.Debts cfg k id → mem' k = true ∨ (f x).Debts cfg k id))) →
      (∀ x, r = .ok x → ∃ s' g', Rel w s' ∧ Follows cfg g (a.change cfg.order x) g' ∧ Echo cfg s' g' ({ σ with world := w }.setThread i
        { th with prog := f x, subject := a.subjectAfter x th.subject }) ∧ (Crisp s g → Crisp s' g')) ∧
      (∀ e c, r = .error e → th.call = some c → ∃ s', Rel w s' ∧ Echo cfg s' g ({ σ with world := w }.finish i c none) ∧
        (Crisp s g → Crisp s' g)) := by
    intro x w' s' has' mem' h1 h2 h3 h4 h5 h6 h7 h8 h9
    obtain ⟨b1, b3⟩ := h.hidden h3
    rw [h1] at hrun; cases hrun
    refine ⟨fun y hy => ?_, fun e c he => by cases he⟩
    cases hy
    rw [h5]
    refine ⟨s', g, h2.rel, rfl, h.move hi (hthr _) (.inl hsub) (.inl (by rw [h4]; exact hsub)) (e := id)
      (by rw [h4, hsub]; simp) b1 h.shapes b3 (fun y hy => (h2.others y hy).still) (fun y _ => .refl g y) ?_,
      fun hc => hc.hidden (h.shapes' hd hb) (fun _ _ => h.has) h3⟩
    have e1 : (fun u => s'.has u id) = fun u => s.has u id := by rw [← h7]; exact funext h2.has
    have e2 : (fun k => memAt s' k id) = mem' := funext h2.mem
    rw [e1, e2]
    refine (h.ent id).shared (hthr _) hi hall (by rw [h4]; exact hsub) hsoft (fun h => h) h8 ?_ ?_ ⟨A, h6, hA⟩
    · intro k hk
      rcases h9 k hk with q | q | ⟨q1, q2⟩
      · exact .inl q
      · exact .inr (.inl q)
      · exact .inr (.inr ⟨hk, q1, q2⟩)
    · intro k gs hk ha hb'; exact .inl ⟨ha, hb', fun hm => hm⟩
  cases a with
  | has e =>
    obtain ⟨rfl, h1⟩ := hg
    exact mild _ _ rfl (has_run' hd.rel hlive) rfl (fun A h => h) (by simp) (by simp)
  | storeRead t e =>
    obtain ⟨w', x, h1⟩ := storeAccess_ok hd.rel (.inl ⟨t, e, rfl⟩)
    exact mild _ _ rfl h1 rfl (fun A h => h x) (by simp) (by simp)
  | storeWrite t e v =>
    obtain ⟨w', x, h1⟩ := storeAccess_ok hd.rel (.inr ⟨t, e, v, rfl⟩)
    exact mild _ _ rfl h1 rfl (fun A h => h x) (by simp) (by simp)
  | attachStore t e v =>
    obtain ⟨rfl, h1, _⟩ := hg
    obtain ⟨h3, hadds⟩ := hadds
    obtain ⟨w', fs, hfs, h4, h5⟩ := attachStore_eff hd.rel hb.mat v h1 hlive
    obtain ⟨fg, hfg, b1, b3⟩ := h.attach (id := e) v hfs
    rw [h4] at hrun; cases hrun
    refine ⟨fun y hy => ?_, fun e c he => by cases he⟩
    cases hy
    refine ⟨_, g.attached e t fg v, h5.rel, ⟨glive, by simp [State.step, State.needLive, glive, hfg]⟩,
      h.move hi (hthr _) (.inl hsub) (.inl hsub) (e := e) (by rw [show (Act.attachStore t e v).subjectAfter .unit th.subject = th.subject from rfl, hsub]; simp)
        b1 (by rw [attached_shapes]; exact h.shapes) b3 (fun y hy => (h5.others y hy).still) (fun y hy => attached_still h.shapes hfg y hy) ?_,
      fun hc => hc.step attached_shapes ?_ rfl ?_⟩
    rotate_left
    · intro k gk gk' q1 q2 q3
      simp only [State.attached, List.getElem?_map, q1, Option.map_some, Option.some.injEq] at q2
      subst q2
      simp only [Bool.and_eq_true] at q3
      exact q3.1
    · intro k gk gk' q1 q2 q3 t' x q4 q5 q6
      have hxe : x ≠ e := by
        rintro rfl
        have := congrFun hh t'
        rw [this, q5] at q6; cases q6
      rw [attached_has hfg, put_has hfs]
      simp [q5, q6, hxe]
    have e1 : (fun u => (s.put e t fs v).has u e) = fun u => s.has u e || u == t := funext h5.has
    have e2 : (fun k => memAt (s.put e t fs v) k e) = fun k => memAt s k e := funext h5.mem
    have e3 : (fun u => (g.attached e t fg v).has u e) = fun u => g.has u e || u == t := by
      funext u; rw [attached_has hfg]; simp
    have e4 : (fun k => memAt (g.attached e t fg v) k e) = fun k => memAt g k e || cfg.joins t (fun u => g.has u e || u == t) k := by
      funext k; rw [attached_mem h.shapes hfg]; simp
    have hjoin : ∀ (k : Nat) gs, cfg.groups[k]? = some gs → gs.touches t = true → (s.has gs.a e || gs.a == t) = true →
        (s.has gs.b e || gs.b == t) = true → cfg.joins t (fun u => g.has u e || u == t) k = true := by
      intro k gs hk ht ha hb'
      have ea := congrFun hh gs.a
      have eb := congrFun hh gs.b
      simp only [Config.joins, hk, ht, ← ea, ← eb, ha, hb', Bool.and_self]
    have hgroup : ∀ (k : Nat) gs, cfg.groups[k]? = some gs → (s.has gs.a e || gs.a == t) = true → (s.has gs.b e || gs.b == t) = true →
      (s.has gs.a e = true ∧ s.has gs.b e = true ∧
        (memAt g k e = true → (memAt g k e || cfg.joins t (fun u => g.has u e || u == t) k) = true)) ∨
        (memAt g k e || cfg.joins t (fun u => g.has u e || u == t) k) = true := by
      intro k gs hk ha hb'
      by_cases htt : gs.touches t = true
      · right; simp [hjoin k gs hk htt ha hb']
      · simp only [Shape.touches, Bool.or_eq_true, beq_iff_eq, not_or] at htt
        simp only [Bool.or_eq_true, beq_iff_eq, htt.1, htt.2, or_false] at ha hb'
        exact .inl ⟨ha, hb', fun hm => by simp [hm]⟩
    rw [e1, e2, e3, e4]
    refine (h.ent e).shared (hthr _) hi hall hsub hsoft ?_ ?_ ?_ hgroup ⟨_, hadds, ?_⟩
    · intro hx; funext u; have := congrFun hx u; simp only [this]
    · intro hx k hk; simp [hx k hk]
    · intro k hk
      simp only [Bool.or_eq_true] at hk
      rcases hk with hk | hk
      · exact .inr (.inr ⟨hk, fun hm => hm, fun ho => .inr (later k _ (by simp) (by simp) ho)⟩)
      · obtain ⟨gs, q1, q2, q3⟩ := Prog.joins_iff.1 hk
        exact .inr (.inl (.inl (h3 k (Prog.touches_of q1))))
    · rintro k gs (hAk | htk) hk ha hb'
      · rcases hgroup k gs hk ha hb' with ⟨c1, c2, c3⟩ | c1
        · exact c3 (hA k gs hAk hk c1 c2)
        · exact c1
      · simp only [Config.touches, hk] at htk
        simp [hjoin k gs hk htk ha hb']
  | groupAdd k' e =>
    obtain ⟨rfl, ⟨g', h1⟩, h2⟩ := hg
    obtain ⟨hAk, hadds'⟩ := hadds
    obtain ⟨w', s', h4, h5, h6⟩ := groupAdd_eff (id := e) hd.rel hb.mat h1
    refine hide _ _ _ _ _ h4 h5 h6 rfl rfl hadds' rfl ?_ ?_
    · intro hx k hk
      simp only [Bool.or_eq_true, Bool.and_eq_true, decide_eq_true_eq] at hk
      rcases hk with hk | ⟨⟨rfl, ha⟩, hb'⟩
      · exact hx k hk
      · exact hA k g' hAk h1 ha hb'
    · intro k hk
      refine .inr (.inr ⟨fun hm => by simp [hm], fun ho => ?_⟩)
      rw [hp] at ho
      rcases ho with (ho | ho) | ⟨gs, q1, (⟨t, ho, _⟩ | ho)⟩
      · cases ho
        left
        obtain ⟨gs, q1, q2, q3⟩ := memAt_both hu.core hk
        have q4 := shape_get h.shapes q1
        rw [h1] at q4; cases q4
        have ea := congrFun hh gs.a
        have eb := congrFun hh gs.b
        simp only [SGroup.shape, decide_true, ea, eb, q2, q3, Bool.and_self, Bool.or_true]
      · exact .inr (.inl (ho.2 _))
      · cases ho
      · exact .inr (.inr ⟨gs, q1, ho.2 _⟩)
  | groupRemove k' e =>
    obtain ⟨rfl, ⟨g', h1⟩, h2⟩ := hg
    obtain ⟨hsev, hadds'⟩ := hadds
    obtain ⟨w', s', h4, h5, h6⟩ := groupRemove_eff (id := e) hd.rel hb.mat h1
    refine hide _ _ _ _ _ h4 h5 h6 rfl rfl hadds' rfl ?_ ?_
    · intro hx k hk
      simp only [Bool.and_eq_true] at hk
      exact hx k hk.1
    · intro k hk
      by_cases hkk : k = k'
      · subst hkk
        exact .inr (.inl (.inr ⟨g', h1, hsev g' h1⟩))
      · refine .inr (.inr ⟨fun hm => by simp [hm, hkk], fun ho => .inr (later k _ (by simp) (by simp) ho)⟩)
  | detachStore t e =>
    obtain ⟨rfl, _, h1, _⟩ := hg
    -- what this thread owes
    have owes : ∀ k, th.prog.Debts cfg k e → cfg.touches t k = true := by
      intro k ho
      rw [hp] at ho
      rcases ho with (ho | ho) | ⟨gs, q1, (⟨t', ho, q2⟩ | ho)⟩
      · cases ho
      · exact absurd rfl (ho.1 t e)
      · cases ho; simp only [Config.touches, q1]; exact q2
      · exact absurd rfl (ho.1 t e)
    have hn : ∀ (k : Nat) gs, cfg.groups[k]? = some gs → gs.touches t = true → memAt s k e = false := by
      intro k gs hk htt
      have := hst k gs hk
      cases hc : gs.cutBy ops with
      | true =>
        cases hf : gs.fedBy ops with
        | true =>
          have := this.solo hc hf
          unfold Prog.Solo at this; exact this.1 htt
        | false =>
          have := this.cuts hc hf
          unfold Prog.Cuts at this; exact this.1 htt
      | false =>
        have : gs.touches t = false := by
          cases hf : gs.fedBy ops with
          | true => exact (this.offers hc hf).1
          | false => exact (this.idles hc hf).1
        rw [this] at htt; cases htt
    cases hhas : s.has t e with
    | true =>
      obtain ⟨w', s', v, h5, h6, h7, h8⟩ := detachStore_eff hd.rel hb.mat hhas hn
      have h9 : g.has t e = true := h.has hhas
      obtain ⟨b1, b3⟩ := h.hidden h8
      have hgv := h.vals t e hhas
      rw [h6] at hgv
      obtain ⟨fg, vg, hfg, hvg⟩ := has_some h9
      have hvv : fg e = some v := by simpa [State.get, hfg] using hgv
      rw [h5] at hrun; cases hrun
      refine ⟨fun y hy => ?_, fun e c he => by cases he⟩
      cases hy
      refine ⟨s', g.detached e t fg, h7.rel, ⟨glive, ?_⟩, h.move hi (hthr _) (.inl hsub) (.inl hsub) (e := e)
        (by rw [show (Act.detachStore t e : Act V).subjectAfter (.val (some v)) th.subject = th.subject from rfl, hsub]; simp)
        ?_ (by rw [detached_shapes]; exact h.shapes) ?_ (fun y hy => (h7.others y hy).still)
        (fun y hy => detached_still h.shapes hfg y hy) ?_,
        fun hc => (hc.hidden (h.shapes' hd hb) (fun _ _ => h.has) h8).step detached_shapes ?_ rfl ?_⟩
      rotate_right
      · intro k gk gk' q1 q2 q3 t' x q4 q5 q6
        simp only [State.detached, List.getElem?_map, q1, Option.map_some, Option.some.injEq] at q2
        subst q2
        simp only [Bool.and_eq_true, Bool.not_eq_true'] at q3
        have htt : t' ≠ t := by
          rintro rfl
          rw [q3.1.2] at q4; cases q4
        rw [detached_has hfg]
        exact ⟨by simp [q5, htt], q6⟩
      rotate_right
      · intro k gk gk' q1 q2 q3
        simp only [State.detached, List.getElem?_map, q1, Option.map_some, Option.some.injEq] at q2
        subst q2
        simp only [Bool.and_eq_true] at q3
        exact q3.1.1
      · simp [State.step, State.needLive, glive, hfg, hvv]
      · refine ⟨b1.next, b1.free, b1.res, fun u => ?_, b1.hw⟩
        rw [← b1.dom]
        exact setComp_dom hfg u
      · intro u x hx
        rw [detached_get hfg]
        by_cases hux : u = t ∧ x = e
        · obtain ⟨rfl, rfl⟩ := hux
          rw [h7.has] at hx; simp at hx
        · rw [if_neg hux]; exact b3 u x hx
      · have e1 : (fun u => s'.has u e) = fun u => s.has u e && !(u == t) := funext h7.has
        have e2 : (fun k => memAt s' k e) = fun k => memAt s k e := funext h7.mem
        have e3 : (fun u => (g.detached e t fg).has u e) = fun u => g.has u e && !(u == t) := by
          funext u; rw [detached_has hfg]; simp
        have e4 : (fun k => memAt (g.detached e t fg) k e) = fun k => memAt g k e && !cfg.touches t k := by
          funext k; rw [detached_mem h.shapes]; simp
        have hgroup : ∀ (k : Nat) gs, cfg.groups[k]? = some gs → (s.has gs.a e && !(gs.a == t)) = true →
            (s.has gs.b e && !(gs.b == t)) = true → s.has gs.a e = true ∧ s.has gs.b e = true ∧
            (memAt g k e = true → (memAt g k e && !cfg.touches t k) = true) := by
          intro k gs hk ha hb'
          simp only [Bool.and_eq_true, Bool.not_eq_true'] at ha hb'
          refine ⟨ha.1, hb'.1, fun hm => ?_⟩
          simp [hm, Config.touches, hk, Shape.touches, ha.2, hb'.2]
        rw [e1, e2, e3, e4]
        refine (h.ent e).shared (hthr _) hi hall hsub hsoft ?_ ?_ ?_
          (fun k gs hk ha hb' => .inl (hgroup k gs hk ha hb')) ⟨A, hadds _, ?_⟩
        · intro hx; funext u; have := congrFun hx u; simp only [this]
        · intro hx k hk
          have htt : cfg.touches t k = false := by
            cases hq : cfg.touches t k with
            | false => rfl
            | true =>
              simp only [Config.touches] at hq
              cases hgk : cfg.groups[k]? with
              | none => rw [hgk] at hq; cases hq
              | some gs =>
                rw [hgk] at hq
                have := hn k gs hgk hq
                rw [this] at hk; cases hk
          simp [hx k hk, htt]
        · intro k hk
          simp only [Bool.and_eq_true, Bool.not_eq_true'] at hk
          refine .inr (.inr ⟨hk.1, fun hm => hm, fun ho => ?_⟩)
          rw [owes k ho] at hk; cases hk.2
        · intro k gs hAk hk ha hb'
          obtain ⟨c1, c2, c3⟩ := hgroup k gs hk ha hb'
          exact c3 (hA k gs hAk hk c1 c2)
    | false =>
      have free : ∀ k, memAt g k e = true → ¬ th.prog.Debts cfg k e := by
        intro k hk ho
        have htt := owes k ho
        obtain ⟨gs, q1, q2, q3⟩ := memAt_both hu.core hk
        have q4 := shape_get h.shapes q1
        simp only [Config.touches, q4, SGroup.shape, Shape.touches, Bool.or_eq_true, beq_iff_eq] at htt
        have ht : g.has t e = false := by
          have := congrFun hh t
          rw [← this]; exact hhas
        rcases htt with rfl | rfl
        · rw [ht] at q2; cases q2
        · rw [ht] at q3; cases q3
      rcases detachStore_absent hd.rel hb.mat h1 hhas with h5 | ⟨e', h5⟩
      · refine hide _ _ _ _ _ h5 (Becomes.refl hd.rel e) ⟨.refl s, fun _ _ _ => rfl, .refl s⟩ rfl rfl (hadds _) rfl (fun h => h) ?_
        exact fun k hk => .inr (.inr ⟨fun hm => hm, fun ho => absurd ho (free k hk)⟩)
      · rw [h5] at hrun; cases hrun
        refine ⟨fun x hx => (nomatch hx), fun e'' c _ hc => ⟨s, hd.rel, ?_, fun hc => hc⟩⟩
        refine h.move hi (σ' := { σ with world := σ.world }.finish i c none) (th' := .idle)
          (fun j => setThread_threads { σ with world := σ.world } i .idle j hi) (.inl hsub) (.inr rfl)
          (fun _ => trivial) h.base h.shapes h.vals (fun y _ => .refl s y) (fun y _ => .refl g y) ?_
        exact (h.ent e).leave (th' := .idle) (fun j => setThread_threads { σ with world := σ.world } i .idle j hi) hi hall
          (by simp [Thread.idle]) free
  | _ => exact False.elim hadds

/-! ### A thread without entity -/

theorem createEntity_still {g g' : State V} {o : Out V} (h : g.step .createEntity = .ok g' o) :
    g'.comp = g.comp ∧ g'.groups = g.groups ∧ g'.res = g.res ∧ g'.hw = g.hw := by
  simp only [State.step] at h
  split at h <;> cases h <;> exact ⟨rfl, rfl, rfl, rfl⟩

theorem createEntity_follow {s s' g : State V} {id : Nat} (hb : Base s g) (h : s.step .createEntity = .ok s' (.id id)) :
    ∃ g', g.step .createEntity = .ok g' (.id id) ∧ g'.next = s'.next ∧ g'.free = s'.free := by
  cases hf : s.free with
  | nil =>
    have hf' : g.free = [] := by rw [hb.free, hf]
    simp only [State.step, hf] at h
    cases h
    refine ⟨{ g with next := g.next + 1 }, ?_, ?_, hf'⟩
    · simp [State.step, hf', hb.next]
    · show g.next + 1 = s.next + 1
      rw [hb.next]
  | cons x rest =>
    have hf' : g.free = x :: rest := by rw [hb.free, hf]
    simp only [State.step, hf] at h
    cases h
    exact ⟨{ g with free := rest }, by simp [State.step, hf'], hb.next, rfl⟩

theorem still_of {s s' : State V} (h1 : s'.comp = s.comp) (h2 : s'.groups = s.groups) (x : Nat) : Still s s' x :=
  ⟨fun t => by simp only [State.has, State.get, h1], fun k => by simp only [memAt, h2]⟩

theorem Echo.work_none {s g : State V} {σ : Sys V} (hd : Pact cfg T s σ) (hb : Basics cfg σ)
    (h : Echo cfg s g σ) {i : Nat} {th : Thread V} {a : Act V} {f : Ret V → Prog V} {w : World V}
    {r : Xecs.R (Ret V)} (hi : σ.threads[i]? = some th) (hp : th.prog = .act a f) (hrun : a.run σ.world = (w, r))
    (hsub : th.subject = none) :
    (∀ x, r = .ok x → ∃ s' g', Rel w s' ∧ Follows cfg g (a.change cfg.order x) g' ∧ Echo cfg s' g' ({ σ with world := w }.setThread i
        { th with prog := f x, subject := a.subjectAfter x th.subject }) ∧ (Crisp s g → Crisp s' g')) ∧
    (∀ e c, r = .error e → th.call = some c → ∃ s', Rel w s' ∧ Echo cfg s' g ({ σ with world := w }.finish i c none) ∧
        (Crisp s g → Crisp s' g)) := by
  have hop := h.opn i th hi hsub
  rw [hp] at hop
  have hthr : ∀ (th' : Thread V) (j : Nat), ({ σ with world := w }.setThread i th').threads[j]? = if j = i then some th' else σ.threads[j]? :=
    fun th' j => setThread_threads { σ with world := w } i th' j hi
  have calm : ∀ x s' g', a.subjectAfter x th.subject = th.subject → (f x).Open cfg → Base s' g' →
      cfg.groups = g'.groups.map SGroup.shape → (∀ t e, s'.has t e = true → g'.get t e = s'.get t e) → (∀ x, Still s s' x) →
      (∀ x, Still g g' x) → Echo cfg s' g' ({ σ with world := w }.setThread i
        { th with prog := f x, subject := a.subjectAfter x th.subject }) := by
    intro x s' g' h2 h3 m4 m5 m6 m7 m8
    refine h.calm hi (hthr _) h2 rfl ?_ ?_ ?_ ?_ m4 m5 m6 m7 m8
    · intro k e he; rw [hsub] at he; cases he
    · intro e A he; rw [hsub] at he; cases he
    · intro e he; rw [hsub] at he; cases he
    · intro _ _; exact h3
  rcases hop with ⟨h1, h2⟩ | ⟨n, rfl, h2⟩ | ⟨rfl, h2⟩ | ⟨x, y, t, vs, rfl, hopn⟩
  · obtain ⟨s', g', m1, m2, m3, m4, m5, m6, m7, m8, m9, m10⟩ := h.mild hd.rel h1 hrun cfg.order
    constructor
    · rintro x rfl
      refine ⟨s', g', m1, m2 x rfl, calm x s' g' ?_ (h2 x) m4 m5 m6 m7 m8, fun hc => hc.still m9 m10 m7 m8⟩
      · cases a <;> simp_all [Act.subjectAfter, Act.mild]
    · rintro e c rfl hc
      obtain ⟨rfl, rfl⟩ := m3 e rfl
      exact ⟨s', m1, h.idle hi (σ' := { σ with world := w }.finish i c none) (th' := .idle) (hthr .idle) hsub rfl trivial, fun hc => hc⟩
  · obtain ⟨w', h3, h4⟩ := allocateN_eff hd.rel n
    rw [h3] at hrun; cases hrun
    refine ⟨fun y hy => ?_, fun e c he => by cases he⟩
    cases hy
    refine ⟨_, { g with next := g.next + n }, h4, ⟨trivial, ?_⟩, calm _ _ _ rfl (h2 _) ?_ h.shapes h.vals (.refl s) (.refl g),
      fun hc => hc.still rfl rfl (.refl s) (.refl g)⟩
    · simp [State.step, h.base.next]
    · exact ⟨by show g.next + n = s.next + n; rw [h.base.next], h.base.free, h.base.res, h.base.dom, h.base.hw⟩
  · obtain ⟨w', s', id, h3, h4, h5⟩ := allocate_eff hd.rel
    obtain ⟨w1, s1, id1, q1, q2, _, q4, _, q6, q7, _⟩ := allocate_run' hd.rel
    rw [h3] at q1
    simp only [Prod.mk.injEq, Except.ok.injEq, Ret.id.injEq] at q1
    obtain ⟨rfl, rfl⟩ := q1
    rw [h3] at hrun; cases hrun
    refine ⟨fun y hy => ?_, fun e c he => by cases he⟩
    cases hy
    obtain ⟨g', h6, h7, h8⟩ := createEntity_follow h.base h5
    obtain ⟨c1, c2, c3, c4⟩ := createEntity_still h5
    obtain ⟨d1, d2, d3, d4⟩ := createEntity_still h6
    have hnone : ∀ (j : Nat) (t : Thread V), σ.threads[j]? = some t → t.subject ≠ some id := by
      intro j t hj hs
      have := hd.alive hj hs
      rw [q4] at this; cases this
    refine ⟨s', g', h4, ⟨trivial, h6⟩, h.move hi (hthr _) (.inr hsub) (.inl rfl) (e := id) (by simp [Act.subjectAfter]) ?_
      (by rw [d2]; exact h.shapes) ?_ (fun x _ => still_of c1 c2 x) (fun x _ => still_of d1 d2 x) ?_,
      fun hc => hc.still c2 d2 (still_of c1 c2) (still_of d1 d2)⟩
    · exact ⟨h7, h8, by rw [d3, c3]; exact h.base.res, fun t => by rw [d1, c1]; exact h.base.dom t, by rw [d4, c4]; exact h.base.hw⟩
    · intro t e hh
      have e1 : s'.get t e = s.get t e := by simp only [State.get, c1]
      have e2 : g'.get t e = g.get t e := by simp only [State.get, d1]
      rw [e1, e2]
      refine h.vals t e ?_
      simp only [State.has] at hh ⊢
      rw [← e1]; exact hh
    · refine Track.still (still_of c1 c2 id) (still_of d1 d2 id)
        ((h.ent id).enter (hthr _) hi (fun j t hj hs => absurd hs (hnone j t hj)) (by rw [hsub]; simp) ?_ (h2 id))
      have hok := hd.ok i th hi
      unfold Placed at hok
      rw [hsub] at hok
      have hq := hok.1
      rw [hp] at hq
      rcases hq with (⟨q, _⟩ | ⟨_, q, _⟩ | ⟨_, ops, q, _⟩) | ⟨_, _, _, ⟨_, _, q, _⟩, _⟩
      · simp [Act.mild] at q
      · cases q
      · show (th.call.bind ApiCall.chain).isSome = true
        rw [q]; rfl
      · cases q
  · have hok := hd.ok i th hi
    unfold Placed at hok
    rw [hsub] at hok
    have hq := hok.1
    rw [hp] at hq
    rcases hq with (⟨q, _⟩ | ⟨_, q, _⟩ | ⟨q, _⟩) | ⟨x', y', D, ⟨t', vs', q, h1, h2, h3, h4, h5⟩, hxy, h6⟩
    · simp [Act.mild] at q
    · cases q
    · cases q
    cases q
    have hcl : ∀ e, x ≤ e → e < y → (Prog.act (.batchStore x y t vs) f).claims e := fun e he1 he2 => ⟨x, y, rfl, he1, he2⟩
    obtain ⟨w', fs, hfs, h7, h8, h9, _⟩ := batchStore_run hd.rel hb.mat h2 h3 (fun e he1 he2 => (h6 e (hcl e he1 he2)).1)
      (fun e he1 he2 => (h6 e (hcl e he1 he2)).2 t h1)
    rw [h7] at hrun; cases hrun
    refine ⟨fun z hz => ?_, fun e c he => by cases he⟩
    cases hz
    -- nobody works on the new entities
    have hnone : ∀ e, x ≤ e → e < y → ∀ (j : Nat) (t : Thread V), σ.threads[j]? = some t → t.subject ≠ some e := by
      intro e he1 he2 j tj hj hs
      by_cases hji : j = i
      · subst hji; rw [hi] at hj; cases hj; rw [hsub] at hs; cases hs
      · refine hd.claim i j th tj e (fun h => hji h.symm) hi hj ?_ (.inl hs)
        rw [hp]; exact hcl e he1 he2
    have hleg : Legal cfg g (.attachBatch x y t vs) := by
      refine ⟨hxy, fun e he1 he2 => ?_⟩
      obtain ⟨q1, q2⟩ := h6 e (hcl e he1 he2)
      refine ⟨by rw [h.base.live]; exact q1, ?_⟩
      rw [(h.free (hnone e he1 he2)).1]; exact q2 t h1
    obtain ⟨fg, hfg⟩ : ∃ fg, g.comp t = some fg := by
      have := h.base.dom t
      rw [hfs] at this
      cases hc : g.comp t with
      | none => rw [hc] at this; cases this
      | some fg => exact ⟨fg, rfl⟩
    have hcase : ∀ u e, (s.batchAttached x t fs vs).has u e = (s.has u e || (u == t && decide (x ≤ e) && decide (e < y))) := h9
    have hgas : ∀ u e, (g.batchAttached x t fg vs).has u e = (g.has u e || (u == t && decide (x ≤ e) && decide (e < y))) := by
      intro u e
      simp only [State.has, batch_get h2 hxy hfg]
      by_cases hu : u = t
      · by_cases he1 : x ≤ e
        · by_cases he2 : e < y
          · have : e - x < vs.length := by omega
            simp [hu, he1, he2, List.getElem?_eq_getElem this]
          · simp [he2]
        · simp [he1]
      · simp [hu]
    have hthr' := hthr { th with prog := f .unit, subject := (Act.batchStore x y t vs).subjectAfter .unit th.subject }
    have hsub' : (Act.batchStore x y t vs).subjectAfter .unit th.subject = none := hsub
    refine ⟨_, _, h8, ⟨hleg, batch_step h2 hfg hleg⟩, ?_, fun hc => hc.step rfl ?_ rfl ?_⟩
    rotate_left
    · intro k gk gk' q1 q2 q3
      have q2' : g.groups[k]? = some gk' := q2
      rw [q1] at q2'; cases q2'; exact q3
    · intro k gk gk' q1 q2 q3 t' e' q4 q5 q6
      rw [hgas, hcase, q5, q6]
      refine ⟨rfl, ?_⟩
      by_cases he : x ≤ e' ∧ e' < y
      · rw [(h.free (hnone e' he.1 he.2)).1, q6] at q5; cases q5
      · by_cases he1 : x ≤ e'
        · have : ¬ e' < y := fun h => he ⟨he1, h⟩
          simp [this]
        · simp [he1]
    refine ⟨?_, h.shapes, ?_, fun e => ?_, fun j tj hj => ?_⟩
    · refine ⟨h.base.next, h.base.free, h.base.res, fun u => ?_, ?_⟩
      · simp only [State.batchAttached, State.setComp]
        by_cases hu : u = t
        · simp [hu]
        · simp only [hu, if_false]; exact h.base.dom u
      · simp only [State.batchAttached]
        rw [h.base.hw]
    · intro u e hh
      rw [batch_get h2 hxy hfg, batch_get h2 hxy hfs]
      split
      · rfl
      · rename_i hno
        refine h.vals u e ?_
        rw [hcase] at hh
        by_cases hu : u = t
        · by_cases he1 : x ≤ e
          · by_cases he2 : e < y
            · exact absurd ⟨hu, he1, he2⟩ hno
            · simpa [he2] using hh
          · simpa [he1] using hh
        · simpa [hu] using hh
    · by_cases he : x ≤ e ∧ e < y
      · have q1 := (h.free (hnone e he.1 he.2)).1
        have q2 := (h.free (hnone e he.1 he.2)).2
        refine Track.nobody hthr' (fun j tj _ hj => hnone e he.1 he.2 j tj hj) (by simp only [hsub']; simp) ?_ ?_
        · funext u; rw [hcase, hgas, q1]
        · funext k; exact (q2 k).symm
      · have hno : ∀ u, (u == t && decide (x ≤ e) && decide (e < y)) = false := by
          intro u
          by_cases he1 : x ≤ e
          · have : ¬ e < y := fun h => he ⟨he1, h⟩
            simp [this]
          · simp [he1]
        refine Track.still (s := s) (g := g) ⟨fun u => ?_, fun _ => rfl⟩ ⟨fun u => ?_, fun _ => rfl⟩
          ((h.ent e).other hthr' hi (by rw [hsub]; simp) (by simp only [hsub']; simp))
        · rw [hcase, hno]; simp
        · rw [hgas, hno]; simp
    · rw [hthr'] at hj
      by_cases hji : j = i
      · simp only [hji, if_true] at hj; cases hj; exact fun _ => hopn _
      · simp only [hji, if_false] at hj; exact h.opn j tj hj

end
end Xecs
