import Verif.Proofs.Firm
/-
Careful clients: no call panics.
-/
set_option autoImplicit false
namespace Xecs
open Spec World Hist
variable {V : Type}

/-! ### What a successful run alone tells -/

theorem snd_ok {α : Type} {m : M V α} {w : World V} {a : α} (h : (m w).2 = .ok a) : m w = ((m w).1, .ok a) :=
  Prod.ext rfl h

/-- The types named are registered. -/
theorem proper_of {cfg : Config} {id : Nat} (ops : List (HOp V)) : ∀ {w w' : World V} {s : State V} {rs : List (Ret V)},
    Rel w s → s.live id = true → (∀ t, cfg.registered t = (s.comp t).isSome) →
    HOp.aloneAll id ops w = (w', .ok rs) →
    ∀ o ∈ ops, (∀ t v, o = .attach t v → cfg.registered t = true) ∧ (∀ t, o = .detach t → cfg.registered t = true) := by
  induction ops with
  | nil => intro w w' s rs _ _ _ _ o ho; cases ho
  | cons o ops ih =>
    intro w w' s rs hr hl hreg h
    simp only [HOp.aloneAll, M.bind_ok, M.pure_iff] at h
    obtain ⟨w1, r, h1, w2, rs', h2, rfl, rfl⟩ := h
    have key : ∀ {w1 : World V} {s1 : State V}, Rel w1 s1 → s1.live id = true → (∀ t, (s1.comp t).isSome = (s.comp t).isSome) →
        HOp.aloneAll id ops w1 = (w', .ok rs') →
        ((∀ t v, o = .attach t v → cfg.registered t = true) ∧ (∀ t, o = .detach t → cfg.registered t = true)) →
        ∀ o' ∈ o :: ops, (∀ t v, o' = .attach t v → cfg.registered t = true) ∧ (∀ t, o' = .detach t → cfg.registered t = true) := by
      intro w1 s1 q1 q2 q3 q4 q5 o' ho'
      rcases List.mem_cons.1 ho' with rfl | ho'
      · exact q5
      · exact ih q1 q2 (fun t => by rw [hreg, q3]) q4 o' ho'
    cases o with
    | attach t v =>
      simp only [HOp.alone, M.bind_ok, M.pure_iff] at h1
      obtain ⟨w3, u, h1, rfl, rfl⟩ := h1
      cases hc : s.comp t with
      | none =>
        simp only [World.entityAttach, M.bind_ok, M.read_ok, M.assert_iff] at h1
        obtain ⟨_, b, ⟨rfl, hb⟩, _, _, ⟨rfl, hb'⟩, _⟩ := h1
        simp only [Except.ok.injEq] at hb
        rw [← hb, hasRegistered_eq hr.core, hc] at hb'
        cases hb'
      | some f =>
        obtain ⟨w4, h3, h4⟩ := entityAttach_ref hr v hl hc
        rw [h3] at h1; cases h1
        refine key h4 hl (fun u => ?_) h2 ⟨fun t v he => (by cases he; rw [hreg, hc]; rfl), fun t he => by cases he⟩
        simp only [State.attached, State.setComp]
        split
        · rename_i e; subst e; rw [hc]; rfl
        · rfl
    | detach t =>
      simp only [HOp.alone, M.bind_ok, M.pure_iff] at h1
      obtain ⟨w3, u, h1, rfl, rfl⟩ := h1
      cases hc : s.comp t with
      | none =>
        simp only [World.entityDetach, M.bind_ok, M.read_ok, M.assert_iff] at h1
        obtain ⟨_, b, ⟨rfl, hb⟩, _, _, ⟨rfl, hb'⟩, _⟩ := h1
        simp only [Except.ok.injEq] at hb
        rw [← hb, hasRegistered_eq hr.core, hc] at hb'
        cases hb'
      | some f =>
        have hq : (∀ t' v, HOp.detach t = HOp.attach (V := V) t' v → cfg.registered t' = true) ∧
            (∀ t', HOp.detach (V := V) t = .detach t' → cfg.registered t' = true) :=
          ⟨fun t v he => (by cases he), fun t he => by cases he; rw [hreg, hc]; rfl⟩
        cases hv : f id with
        | none =>
          rw [entityDetach_absent hr hc hv] at h1
          split at h1
          · cases h1
          · cases h1
            exact key hr hl (fun _ => rfl) h2 hq
        | some v =>
          obtain ⟨w4, h3, h4⟩ := entityDetach_present hr hc hv
          rw [h3] at h1; cases h1
          refine key h4 hl (fun u => ?_) h2 hq
          simp only [State.detached, State.setComp]
          split
          · rename_i e; subst e; rw [hc]; rfl
          · rfl
    | read t =>
      simp only [HOp.alone, M.bind_ok, M.pure_iff, componentRead_eq hr] at h1
      obtain ⟨w3, u, h1, rfl, rfl⟩ := h1
      cases h1
      exact key hr hl (fun _ => rfl) h2 ⟨fun t v he => (by cases he), fun t he => by cases he⟩
    | write t v =>
      simp only [HOp.alone, M.bind_ok, M.pure_iff] at h1
      obtain ⟨w3, u, h1, rfl, rfl⟩ := h1
      have hq : (∀ t' v', HOp.write t v = HOp.attach (V := V) t' v' → cfg.registered t' = true) ∧
          (∀ t', HOp.write (V := V) t v = .detach t' → cfg.registered t' = true) :=
        ⟨fun t v he => (by cases he), fun t he => by cases he⟩
      cases hh : s.has t id with
      | false =>
        rw [componentWrite_absent hr v hh] at h1
        cases h1
        exact key hr hl (fun _ => rfl) h2 hq
      | true =>
        obtain ⟨f, v0, hc, hv⟩ := has_some hh
        obtain ⟨w4, h3, h4⟩ := componentWrite_ok hr v hc (by rw [hv]; rfl)
        rw [h3] at h1; cases h1
        refine key h4 hl (fun u => ?_) h2 hq
        simp only [State.setComp]
        split
        · rename_i e; subst e; rw [hc]; rfl
        · rfl

theorem finds_of {cfg : Config} (ops : List (HOp V)) : ∀ {has : Nat → Bool},
    (∀ o ∈ ops, (∀ t v, o = .attach t v → cfg.registered t = true) ∧ (∀ t, o = .detach t → cfg.registered t = true)) →
    (∀ before t after, ops = before ++ HOp.detach t :: after → (∃ v, HOp.attach t v ∈ before) ∨ has t = true) →
    Prog.Finds cfg has ops := by
  induction ops with
  | nil => intro has _ _; trivial
  | cons o ops ih =>
    intro has hr hs
    have hr' := fun o' ho' => hr o' (List.mem_cons_of_mem _ ho')
    have skip : (∀ t v, o ≠ .attach t v) → Prog.Finds cfg has ops := by
      intro hne
      refine ih hr' fun before t after he => ?_
      rcases hs (o :: before) t after (by rw [he]; rfl) with ⟨v, hv⟩ | h1
      · rcases List.mem_cons.1 hv with h2 | h2
        · exact absurd h2.symm (hne t v)
        · exact .inl ⟨v, h2⟩
      · exact .inr h1
    cases o with
    | attach t v =>
      refine ⟨(hr _ (List.mem_cons_self ..)).1 t v rfl, ih hr' fun before u after he => ?_⟩
      rcases hs (.attach t v :: before) u after (by rw [he]; rfl) with ⟨v', hv⟩ | h1
      · rcases List.mem_cons.1 hv with h2 | h2
        · cases h2; right; simp
        · exact .inl ⟨v', h2⟩
      · right; simp [h1]
    | detach t =>
      refine ⟨?_, (hr _ (List.mem_cons_self ..)).2 t rfl, skip (by simp)⟩
      rcases hs [] t ops rfl with ⟨v, hv⟩ | h1
      · cases hv
      · exact h1
    | read t => exact skip (by simp)
    | write t v => exact skip (by simp)

/-- Components are within reach. -/
theorem has_lt {w : World V} {s : State V} (h : WRel w s) {t e : Nat} (hh : s.has t e = true) : e < s.hw t := by
  obtain ⟨f, v, hf, hv⟩ := has_some hh
  obtain ⟨st, hst, hty, hwf, hlook, hlen⟩ := h.comp_some hf
  have : e ∈ st.set.entities := by rw [← SparseSet.lookup_isSome hwf, hlook, hv]; rfl
  obtain ⟨i, hi⟩ := List.getElem?_of_mem this
  have := (hwf.idx e i).2 hi
  rw [← hlen]
  exact (List.getElem?_eq_some_iff.1 this).1

theorem detachStore_none {cfg : Config} {w : World V} {s : State V} (h : Rel w s) (hm : Matches cfg w) {t id : Nat}
    (ht : cfg.registered t = true) (hh : s.has t id = false) (hlt : id < s.hw t) :
    (Act.detachStore t id : Act V).run w = (w, .ok (.val none)) := by
  rcases detachStore_absent h hm ht hh with h1 | ⟨e, h1⟩
  · exact h1
  · exfalso
    obtain ⟨f, hf⟩ := registered_comp h.core hm ht
    have hv : f id = none := by
      simp only [State.has, State.get, hf] at hh
      simpa using hh
    obtain ⟨st, hst, hty, hwf, hlook, hlen⟩ := h.core.comp_some hf
    have hnm : id ∉ st.set.entities := by
      rw [← SparseSet.lookup_isSome hwf, hlook, hv]; simp
    have hrem := SparseSet.remove_absent hwf hnm
    rw [if_neg (by omega)] at hrem
    have hds : World.detachStore t id w = .ok (w.setSet t st.set, none) := by
      simp [World.detachStore, hst, downcast, hty, hrem]
    simp only [Act.run, M.bind_apply, M.crit_ok hds, M.pure_apply] at h1
    exact absurd (congrArg Prod.snd h1) (fun h => by cases h)

theorem reg_comp {cfg : Config} {w : World V} {s : State V} (h : WRel w s) (hm : Matches cfg w) (t : Nat) :
    cfg.registered t = (s.comp t).isSome := by
  rw [← hasRegistered_eq h t, Bool.eq_iff_iff]
  simp only [Config.registered, List.contains_iff_mem, hm.order, World.hasRegistered]

theorem proper_on {cfg : Config} {w : World V} {s : State V} (h : Rel w s) (hm : Matches cfg w) {id : Nat} {ops : List (HOp V)}
    {rs : List (Ret V)} (hl : s.live id = true) (ho : ((ApiCall.on id ops).alone cfg.order w).2 = .ok rs) :
    ∀ o ∈ ops, (∀ t v, o = .attach t v → cfg.registered t = true) ∧ (∀ t, o = .detach t → cfg.registered t = true) := by
  have h1 := snd_ok ho
  simp only [ApiCall.alone, World.entityUnwrap, World.entity, M.bind_ok, M.read_ok, exist_live h hl] at h1
  obtain ⟨w1, e, ⟨w2, o, ⟨w3, b, h2, h3⟩, rfl, h4⟩, h5⟩ := h1
  cases h2
  simp only [if_true, M.pure_iff] at h3
  obtain ⟨rfl, rfl⟩ := h3
  simp only [unwrapR, Except.ok.injEq] at h4
  subst h4
  exact proper_of ops h hl (reg_comp h.core hm) h5

theorem proper_create {cfg : Config} {w : World V} {s : State V} (h : Rel w s) (hm : Matches cfg w) {ops : List (HOp V)}
    {rs : List (Ret V)} (ho : ((ApiCall.create ops).alone cfg.order w).2 = .ok rs) :
    ∀ o ∈ ops, (∀ t v, o = .attach t v → cfg.registered t = true) ∧ (∀ t, o = .detach t → cfg.registered t = true) := by
  have h1 := snd_ok ho
  simp only [ApiCall.alone, M.bind_ok, M.pure_iff] at h1
  obtain ⟨w1, id, h2, w2, rs', h3, h4, rfl⟩ := h1
  obtain ⟨w', s', id', h5, h6, h7⟩ := createEntity_ref h
  rw [h5] at h2; cases h2
  have hcomp : s'.comp = s.comp ∧ s'.live id = true := by
    rcases step_createEntity h6 with ⟨hfr, rfl, h8⟩ | ⟨x, r, hf, rfl, h8⟩
    · cases h8
      refine ⟨rfl, ?_⟩
      have := h.em.pos; rw [h.next] at this
      rw [live_iff]
      refine ⟨this, by show s.next < s.next + 1; omega, ?_⟩
      show s.next ∉ s.free
      rw [hfr]; simp
    · cases h8
      have hr := h.em.range id (by rw [hf]; simp)
      have hnd := h.em.nodup; rw [hf, List.nodup_cons] at hnd
      rw [h.next] at hr
      refine ⟨rfl, ?_⟩
      rw [live_iff]
      exact ⟨hr.1, hr.2, hnd.1⟩
  refine proper_of ops h7 hcomp.2 (fun t => ?_) h3
  rw [hcomp.1]; exact reg_comp h.core hm t

theorem proper_batches {n : Nat} {x y : Nat} (bs : List (Nat × List V)) : ∀ {w w' : World V},
    M.forEach bs (fun b => World.attachBatch x y b.1 b.2) w = (w', .ok ()) →
    ∀ b ∈ bs, w.hasRegistered b.1 = true ∧ b.2.length = y - x := by
  induction bs with
  | nil => intro w w' _ b hb; cases hb
  | cons b bs ih =>
    intro w w' h b' hb'
    simp only [M.forEach, World.attachBatch, M.bind_ok, M.assert_iff, M.crit_iff, World.batchStore, bind_eq_ok] at h
    obtain ⟨w1, _, ⟨w2, _, ⟨rfl, hl⟩, st, h2, o, h1, s', h3, h4⟩, h5⟩ := h
    have hreg : ∀ u, w1.hasRegistered u = w2.hasRegistered u := by
      intro u
      cases h4
      simp only [World.hasRegistered, World.setSet]
      split
      · rename_i e; subst e; cases w2.comps b.1 <;> rfl
      · rfl
    rcases List.mem_cons.1 hb' with rfl | hb'
    · refine ⟨?_, by simpa using hl⟩
      simp only [World.hasRegistered]
      cases hc : w2.comps b'.1 with
      | none => rw [hc] at h2; cases h2
      | some _ => rfl
    · rw [← hreg]
      exact ih h5 b' hb'

theorem proper_many {cfg : Config} {w : World V} {s : State V} (h : Rel w s) (hm : Matches cfg w) {n : Nat}
    {bs : List (Nat × List V)} {rs : List (Ret V)} (ho : ((ApiCall.createMany n bs).alone cfg.order w).2 = .ok rs) :
    ∀ b ∈ bs, cfg.registered b.1 = true ∧ b.2.length = n := by
  have h1 := snd_ok ho
  obtain ⟨w', h2, h3⟩ := createEntities_ref h n
  simp only [ApiCall.alone, M.bind_ok, M.pure_iff, h2] at h1
  obtain ⟨w1, r, h4, w2, _, h5, _⟩ := h1
  cases h4
  intro b hb
  have h6 := proper_batches (n := n) bs h5 b hb
  refine ⟨?_, by rw [h6.2]; simp⟩
  rw [reg_comp h.core hm]
  rw [hasRegistered_eq h3.core] at h6
  exact h6.1

theorem proper_fill {cfg : Config} {w : World V} {s : State V} (h : Rel w s) (hm : Matches cfg w) {x y : Nat}
    {bs : List (Nat × List V)} {rs : List (Ret V)}
    (ho : ((ApiCall.fill x y bs).alone cfg.order w).2 = .ok rs) :
    ∀ b ∈ bs, cfg.registered b.1 = true ∧ b.2.length = y - x := by
  have h1 := snd_ok ho
  simp only [ApiCall.alone, M.bind_ok, M.pure_iff] at h1
  obtain ⟨w2, _, h5, _⟩ := h1
  intro b hb
  have h6 := proper_batches (n := 0) bs h5 b hb
  refine ⟨?_, h6.2⟩
  rw [reg_comp h.core hm, ← hasRegistered_eq h.core]
  exact h6.1

/-! ### The invariant -/

/-- The thread will not panic. -/
def Steady (cfg : Config) (s : State V) (th : Thread V) : Prop :=
  match th.subject with
  | none => th.prog.FirmQ cfg s.next
  | some id => ∃ has, (∀ t, has t = true → id < s.hw t) ∧ th.prog.Firm has

theorem steady_start {cfg : Config} {w : World V} {s : State V} (h : Rel w s) (hm : Matches cfg w) {σ : Sys V}
    (hw : σ.world = w) {i : Nat} {c : ApiCall V} (hc : σ.careful cfg i c) :
    Steady cfg s { call := some c, prog := c.prog cfg, held := [], subject := c.subject } := by
  subst hw
  have hr := groupsReg h.core hm
  obtain ⟨hd, hsec, ⟨rs, ho⟩, hq⟩ := hc
  cases c with
  | on id ops =>
    have hl := live_mem h |>.2 hd.1
    refine ⟨fun t => decide (id < s.hw t), fun t ht => by simpa using ht,
      Prog.firm_handle hr (finds_of ops (proper_on h hm hl ho) fun before t after he => ?_)⟩
    rcases hsec before t after (congrArg some he) with h1 | ⟨id', e, h1, h2, h3⟩
    · exact .inl h1
    · right
      cases h1
      rw [value_eq h] at h3
      have := has_lt h.core (t := t) (e := e) h3
      simp only [decide_eq_true_eq]
      omega
  | remove id => exact ⟨fun _ => false, by simp, Prog.firm_remove hr _⟩
  | create ops =>
    refine fun id => Prog.firm_handle hr (finds_of ops (proper_create h hm ho) fun before t after he => ?_)
    rcases hsec before t after (congrArg some he) with h1 | ⟨id', e, h1, h2, h3⟩
    · exact .inl h1
    · cases h1
  | exist id =>
    refine Prog.firmQ_other (c := .exist id) (by simp) (by simp) (by simp) (by simp) ?_ (by simp) (by simp)
    rintro _ ⟨⟩
    have h1 := snd_ok ho
    simp only [ApiCall.alone, World.exist, M.bind_ok, M.read_ok, EntityManager.has, bind_eq_ok] at h1
    obtain ⟨w1, b, ⟨rfl, f, h2, _⟩, _⟩ := h1
    rw [← h.next]
    simp only [getR] at h2
    split at h2
    · rename_i hx; exact (List.getElem?_eq_some_iff.1 hx).1
    · cases h2
  | query q =>
    refine Prog.firmQ_other (c := .query q) (by simp) (by simp) (by simp) (by simp) (by simp) ?_ (by simp)
    rintro _ ⟨⟩
    have h1 := snd_ok ho
    simp only [ApiCall.alone, M.bind_ok, M.read_ok, World.results, World.queryAll, World.query, bind_eq_ok] at h1
    obtain ⟨w1, b, ⟨rfl, l, ⟨p, h2, _⟩, _⟩, _⟩ := h1
    obtain ⟨h3, h4⟩ := prepared h.core h2
    exact ⟨(named_iff h.core hm q).2 h3, h4, hq q rfl⟩
  | createMany n bs =>
    refine Prog.firmQ_other (c := .createMany n bs) (by simp) (by simp) (by simp) ?_ (by simp) (by simp) (by simp)
    rintro _ _ ⟨⟩
    exact proper_many h hm ho
  | fill x y bs =>
    refine Prog.firmQ_other (c := .fill x y bs) (by simp) (by simp) (by simp) (by simp) (by simp) (by simp) ?_
    rintro _ _ _ ⟨⟩
    exact proper_fill h hm ho
  | read t id => exact Prog.firmQ_other (c := .read t id) (by simp) (by simp) (by simp) (by simp) (by simp) (by simp) (by simp)
  | write t id v => exact Prog.firmQ_other (c := .write t id v) (by simp) (by simp) (by simp) (by simp) (by simp) (by simp) (by simp)
  | count t => exact Prog.firmQ_other (c := .count t) (by simp) (by simp) (by simp) (by simp) (by simp) (by simp) (by simp)
  | resRead t => exact Prog.firmQ_other (c := .resRead t) (by simp) (by simp) (by simp) (by simp) (by simp) (by simp) (by simp)
  | resWrite t v => exact Prog.firmQ_other (c := .resWrite t v) (by simp) (by simp) (by simp) (by simp) (by simp) (by simp) (by simp)

theorem setR_length {α : Type} {l l' : List α} {i : Nat} {x : α} (h : setR l i x = .ok l') : l'.length = l.length := by
  simp only [setR] at h
  split at h
  · cases h; simp
  · cases h

/-- The table of ids never shrinks. -/
theorem run_flags {cfg : Config} {w w' : World V} (hm : Matches cfg w) {a : Act V} {r : Ret V}
    (h : a.run w = (w', .ok r)) : w.em.flags.length ≤ w'.em.flags.length := by
  have fr := run_frame hm.groups h
  have em : (Lock.em, Mode.mut) ∉ a.footprint cfg → w.em.flags.length ≤ w'.em.flags.length := fun hn => by
    rw [fr.em hn]; exact Nat.le_refl _
  cases a with
  | allocate =>
    simp only [Act.run, M.bind_ok, M.crit_iff, M.pure_iff, World.allocate, bind_eq_ok] at h
    obtain ⟨w1, id, ⟨⟨em, y⟩, h1, h2⟩, rfl, _⟩ := h
    cases h2
    simp only [EntityManager.allocate, bind_eq_ok] at h1
    obtain ⟨f, h1, h2⟩ := h1
    split at h2
    · simp only [bind_eq_ok, Except.ok.injEq, Prod.mk.injEq] at h2
      obtain ⟨x, _, l1, h3, l2, h4, h5, _⟩ := h2
      subst h5
      show w.em.flags.length ≤ l2.length
      rw [setR_length h4, setR_length h3]; exact Nat.le_refl _
    · simp only [Except.ok.injEq, Prod.mk.injEq] at h2
      obtain ⟨rfl, _⟩ := h2
      simp
  | allocateN n =>
    simp only [Act.run, World.createEntities, M.bind_ok, M.crit_iff, M.pure_iff, Except.ok.injEq, Prod.mk.injEq] at h
    obtain ⟨w1, x, ⟨rfl, _⟩, rfl, _⟩ := h
    simp [EntityManager.allocateN]
  | emRemove id =>
    simp only [Act.run, M.bind_ok, M.crit_iff, M.pure_iff, World.release, bind_eq_ok] at h
    obtain ⟨w1, u, ⟨em, h1, h2⟩, rfl, _⟩ := h
    cases h2
    simp only [EntityManager.remove, bind_eq_ok] at h1
    obtain ⟨f, h1, h2⟩ := h1
    split at h2
    · simp only [bind_eq_ok, Except.ok.injEq] at h2
      obtain ⟨x, _, l1, h3, ⟨y, es⟩, _, z, _, l2, h4, l3, h5, h6⟩ := h2
      subst h6
      show w.em.flags.length ≤ l3.length
      rw [setR_length h5, setR_length h4, setR_length h3]; exact Nat.le_refl _
    · cases h2; exact Nat.le_refl _
  | collect q => rw [read_world h]; exact Nat.le_refl _
  | groupAdd k id => refine em ?_; simp only [Act.footprint, Act.footprint.pair]; split <;> simp
  | groupRemove k id => refine em ?_; simp only [Act.footprint, Act.footprint.pair]; split <;> simp
  | groupErase k id => refine em ?_; simp only [Act.footprint, Act.footprint.pair]; split <;> simp
  | groupHas k id => refine em ?_; simp only [Act.footprint]; split <;> simp
  | _ => exact em (by simp [Act.footprint])

theorem mild_hw {w : World V} {s : State V} (h : Rel w s) {a : Act V} (ha : a.mild = true) {w' : World V}
    {r : Xecs.R (Ret V)} (hr : a.run w = (w', r)) : ∃ s', Rel w' s' ∧ s'.hw = s.hw := by
  rcases mild_eff h ha hr with ⟨rfl, _⟩ | ⟨t, id, v, f, _, _, _, _, h1⟩ | ⟨t, v, _, _, _, h1⟩
  · exact ⟨s, h, rfl⟩
  · exact ⟨_, h1, rfl⟩
  · exact ⟨_, h1, rfl⟩

/-- A thread's piece of work succeeds, and the reach of the storages does not shrink. -/
theorem Pact.act_ok {cfg : Config} {T : Nat → Prop} {s : State V} {σ : Sys V} (h : Pact cfg T s σ)
    (hb : Basics cfg σ) {i : Nat} {th : Thread V} {a : Act V} {f : Ret V → Prog V}
    (hi : σ.threads[i]? = some th) (hp : th.prog = .act a f) (hst : Steady cfg s th) :
    ∃ w' x s', a.run σ.world = (w', .ok x) ∧ Rel w' s' ∧ (∀ t, s.hw t ≤ s'.hw t) ∧
      Steady cfg s' { th with prog := f x, subject := a.subjectAfter x th.subject } := by
  have hok := h.ok i th hi
  unfold Placed at hok
  rw [hp] at hok
  have next : ∀ {w' : World V} {x : Ret V} {s' : State V}, a.run σ.world = (w', .ok x) → Rel w' s' → s.next ≤ s'.next :=
    fun h1 h2 => by rw [← h.rel.next, ← h2.next]; exact run_flags hb.mat h1
  cases hsub : th.subject with
  | none =>
    simp only [Steady, hsub, hp] at hst
    have mild : a.mild = true → (∃ w' x, a.run σ.world = (w', .ok x)) → (∀ x, (f x).FirmQ cfg s.next) →
        (∀ x, a.subjectAfter x none = none) →
        ∃ w' x s', a.run σ.world = (w', .ok x) ∧ Rel w' s' ∧ (∀ t, s.hw t ≤ s'.hw t) ∧
          Steady cfg s' { th with prog := f x, subject := a.subjectAfter x none } := by
      rintro h1 ⟨w', x, h2⟩ h3 h4
      obtain ⟨s', h5, h6⟩ := mild_hw h.rel h1 h2
      refine ⟨w', x, s', h2, h5, fun t => by rw [h6]; exact Nat.le_refl _, ?_⟩
      unfold Steady
      simp only [h4 x]
      exact (h3 x).mono (next h2 h5)
    cases a with
    | has e =>
      refine mild rfl ?_ hst.2 fun _ => rfl
      have hl : e < σ.world.em.flags.length := by rw [h.rel.next]; exact hst.1
      simp only [Act.run, M.bind_apply, World.exist, M.read_apply, EntityManager.has, getR_some (List.getElem?_eq_getElem hl), ok_bind]
      cases σ.world.em.flags[e] with
      | unavailable k => exact ⟨_, _, rfl⟩
      | available k => exact ⟨_, _, rfl⟩
    | collect q =>
      refine mild rfl ?_ hst.2 fun _ => rfl
      have hd := (named_iff h.rel.core hb.mat q).1 hst.1.named
      have hfr : s.FreshIn q := by
        rw [freshIn_iff]
        exact Parts.imp (fun _ h => h) (fun k a b h1 h2 => absurd h2 h1) q hst.1.non
      obtain ⟨l, h1, _⟩ := rel_lists h.rel.core hd hfr hst.1.calm
      refine ⟨σ.world, .items (l.map fun x => (x.1, some x.2)), ?_⟩
      have h1 : σ.world.results q = _ := h1
      simp only [World.results] at h1
      simp only [Act.run, M.bind_apply, M.read_apply, h1, M.pure_apply]
    | storeRead t e => exact mild rfl (storeAccess_ok h.rel (.inl ⟨t, e, rfl⟩)) hst fun _ => rfl
    | storeWrite t e v => exact mild rfl (storeAccess_ok h.rel (.inr ⟨t, e, v, rfl⟩)) hst fun _ => rfl
    | storeCount t =>
      exact mild rfl ⟨_, _, by simp only [Act.run, M.bind_apply, storageCount_eq h.rel, M.pure_apply]; rfl⟩ hst fun _ => rfl
    | resRead t =>
      exact mild rfl ⟨_, _, by simp only [Act.run, M.bind_apply, resourceRead_eq h.rel, M.pure_apply]; rfl⟩ hst fun _ => rfl
    | resWrite t v =>
      refine mild rfl ?_ hst fun _ => rfl
      cases hr : s.res t with
      | none =>
        have : σ.world.res t = none := by rw [h.rel.res, hr]; rfl
        exact ⟨σ.world, .bool false, by simp [Act.run, M.bind_apply, World.resourceWrite, M.crit, this, M.pure_apply]⟩
      | some v0 =>
        obtain ⟨w', h1, _⟩ := resourceWrite_ok h.rel v hr
        exact ⟨w', .bool true, by simp only [Act.run, M.bind_apply, h1, M.pure_apply]⟩
    | allocateN n =>
      obtain ⟨w', h3, h4⟩ := allocateN_eff h.rel n
      refine ⟨w', _, _, h3, h4, fun t => Nat.le_refl _, ?_⟩
      simp only [Steady, Act.subjectAfter]
      exact (hst _).mono (next h3 h4)
    | batchStore x y t vs =>
      rw [hsub] at hok
      obtain ⟨(⟨h1, _⟩ | ⟨_, h1, _⟩ | ⟨h1, _⟩) | ⟨x', y', D, ⟨t', vs', he, h1, h2, h3, h4, h5⟩, hxy, h6⟩, _⟩ := hok
      · cases h1
      · cases h1
      · cases h1
      cases he
      have hcl : ∀ e, x ≤ e → e < y → s.live e = true ∧ ∀ t, t ∉ D → s.has t e = false :=
        fun e he1 he2 => h6 e ⟨x, y, rfl, he1, he2⟩
      obtain ⟨w', g, hg, h7, h8, _⟩ := batchStore_run h.rel hb.mat h2 h3 (fun e a b => (hcl e a b).1)
        (fun e a b => (hcl e a b).2 t h1)
      refine ⟨w', _, _, h7, h8, fun u => ?_, ?_⟩
      · simp only [State.batchAttached]
        split
        · rename_i hu; rw [hu.1]; omega
        · exact Nat.le_refl _
      · simp only [Steady, Act.subjectAfter]
        exact hst.mono (next h7 h8)
    | allocate =>
      obtain ⟨w', s', id, h3, h4, h5⟩ := allocate_eff h.rel
      refine ⟨w', _, s', h3, h4, fun t => by rw [(createEntity_still h5).2.2.2]; exact Nat.le_refl _, ?_⟩
      simp only [Steady, Act.subjectAfter]
      exact ⟨fun _ => false, by simp, hst id⟩
    | _ => exact False.elim hst
  | some id =>
    rw [hsub] at hok
    obtain ⟨hlive, c, hc, hok⟩ := hok
    simp only [Steady, hsub, hp] at hst
    obtain ⟨has, hhas, hfirm⟩ := hst
    have good : ∀ {w' : World V} {x : Ret V} {s' : State V}, a.run σ.world = (w', .ok x) → Rel w' s' → s'.hw = s.hw →
        a.subjectAfter x (some id) = some id → (f x).Firm has →
        ∃ w' x s', a.run σ.world = (w', .ok x) ∧ Rel w' s' ∧ (∀ t, s.hw t ≤ s'.hw t) ∧
          Steady cfg s' { th with prog := f x, subject := a.subjectAfter x (some id) } := by
      intro w' x s' h1 h2 h3 h4 h5
      refine ⟨w', x, s', h1, h2, fun t => by rw [h3]; exact Nat.le_refl _, ?_⟩
      unfold Steady
      simp only [h4]
      exact ⟨has, fun t ht => by rw [h3]; exact hhas t ht, h5⟩
    have mild : a.mild = true → (∃ w' x, a.run σ.world = (w', .ok x)) → (∀ x, (f x).Firm has) →
        (∀ x, a.subjectAfter x (some id) = some id) →
        ∃ w' x s', a.run σ.world = (w', .ok x) ∧ Rel w' s' ∧ (∀ t, s.hw t ≤ s'.hw t) ∧
          Steady cfg s' { th with prog := f x, subject := a.subjectAfter x (some id) } := by
      rintro h1 ⟨w', x, h2⟩ h3 h4
      obtain ⟨s', h5, h6⟩ := mild_hw h.rel h1 h2
      exact good h2 h5 h6 (h4 x) (h3 x)
    -- attaching and detaching
    have attach : ∀ {t v}, a = .attachStore t id v → cfg.registered t = true →
        ∃ w' x s', a.run σ.world = (w', .ok x) ∧ Rel w' s' ∧ (∀ t, s.hw t ≤ s'.hw t) ∧
          Steady cfg s' { th with prog := f x, subject := a.subjectAfter x (some id) } := by
      rintro t v rfl h1
      obtain ⟨w', g, _, h3, h4⟩ := attachStore_eff h.rel hb.mat v h1 hlive
      have hx : ∀ u, (s.put id t g v).hw u = if u = t then max (s.hw t) (id + 1) else s.hw u := fun _ => rfl
      refine ⟨w', _, _, h3, h4.rel, fun u => ?_, ?_⟩
      · rw [hx]
        split
        · rename_i e; subst e; omega
        · exact Nat.le_refl _
      · refine ⟨fun u => has u || u == t, fun u hu => ?_, hfirm⟩
        rw [hx]
        simp only [Bool.or_eq_true, beq_iff_eq] at hu
        split
        · omega
        · rename_i hne
          rcases hu with hu | hu
          · exact hhas u hu
          · exact absurd hu hne
    have detach : ∀ {t}, a = .detachStore t id → cfg.registered t = true →
        (∀ (k : Nat) gs, cfg.groups[k]? = some gs → gs.touches t = true → memAt s k id = false) →
        ∃ w' x s', a.run σ.world = (w', .ok x) ∧ Rel w' s' ∧ (∀ t, s.hw t ≤ s'.hw t) ∧
          Steady cfg s' { th with prog := f x, subject := a.subjectAfter x (some id) } := by
      rintro t rfl h1 h2
      cases hh : s.has t id with
      | true =>
        obtain ⟨w', s', v, h5, _, h6, h7⟩ := detachStore_eff h.rel hb.mat hh h2
        exact good h5 h6.rel h7.base.hw rfl (hfirm.2 _)
      | false => exact good (detachStore_none h.rel hb.mat h1 hh (hhas t hfirm.1)) h.rel rfl rfl (hfirm.2 _)
    cases hch : c.chain with
    | some ops =>
      -- a chain
      rw [hch] at hok
      obtain ⟨hg, hstance⟩ := hok
      cases a with
      | has e =>
        obtain ⟨rfl, h1⟩ := hg
        exact good (has_run' h.rel hlive) h.rel rfl rfl hfirm
      | storeRead t e => exact mild rfl (storeAccess_ok h.rel (.inl ⟨t, e, rfl⟩)) hfirm fun _ => rfl
      | storeWrite t e v => exact mild rfl (storeAccess_ok h.rel (.inr ⟨t, e, v, rfl⟩)) hfirm fun _ => rfl
      | attachStore t e v =>
        obtain ⟨rfl, h1, _⟩ := hg
        exact attach rfl h1
      | groupAdd k e =>
        obtain ⟨rfl, ⟨g, h1⟩, h2⟩ := hg
        obtain ⟨w', s', h3, h4, h5⟩ := groupAdd_eff (id := e) h.rel hb.mat h1
        exact good h3 h4.rel h5.base.hw rfl (hfirm _)
      | groupRemove k e =>
        obtain ⟨rfl, ⟨g, h1⟩, h2⟩ := hg
        obtain ⟨w', s', h3, h4, h5⟩ := groupRemove_eff (id := e) h.rel hb.mat h1
        exact good h3 h4.rel h5.base.hw rfl (hfirm _)
      | detachStore t e =>
        obtain ⟨rfl, _, h1, _⟩ := hg
        refine detach rfl h1 fun k gs hk htt => ?_
        have := hstance k gs hk
        cases hc : gs.cutBy ops with
        | true =>
          cases hf : gs.fedBy ops with
          | true =>
            have := this.solo hc hf
            unfold Prog.Solo at this; exact this.1 htt
          | false =>
            have := this.cuts hc hf
            unfold Prog.Cuts at this; exact this.1 htt
        | false =>
          have : gs.touches t = false := by
            cases hf : gs.fedBy ops with
            | true => exact (this.offers hc hf).1
            | false => exact (this.idles hc hf).1
          rw [this] at htt; cases htt
      | _ => exact False.elim hg
    | none =>
      -- an entity of its own
      rw [hch] at hok
      obtain ⟨_, halone⟩ := hok
      cases a with
      | has e =>
        obtain ⟨rfl, h1⟩ := halone
        exact good (has_run' h.rel hlive) h.rel rfl rfl hfirm
      | attachStore t e v =>
        obtain ⟨rfl, h1, h2⟩ := halone
        exact attach rfl h1
      | groupAdd k e =>
        obtain ⟨rfl, g, h1, h2⟩ := halone
        obtain ⟨w', s', h3, h4, h5⟩ := groupAdd_eff (id := e) h.rel hb.mat h1
        exact good h3 h4.rel h5.base.hw rfl (hfirm _)
      | groupRemove k e =>
        obtain ⟨rfl, ⟨g, h1⟩, h2⟩ := halone
        obtain ⟨w', s', h3, h4, h5⟩ := groupRemove_eff (id := e) h.rel hb.mat h1
        exact good h3 h4.rel h5.base.hw rfl (hfirm _)
      | detachStore t e =>
        obtain ⟨rfl, h1, h2, h3, h4⟩ := halone
        exact detach rfl h1 h2
      | storeRead t e => exact mild rfl (storeAccess_ok h.rel (.inl ⟨t, e, rfl⟩)) hfirm fun _ => rfl
      | storeWrite t e v => exact mild rfl (storeAccess_ok h.rel (.inr ⟨t, e, v, rfl⟩)) hfirm fun _ => rfl
      | storeHas t e =>
        obtain ⟨rfl, h1, h2⟩ := halone
        exact good (storeHas_run h.rel hb.mat h1) h.rel rfl rfl (hfirm _)
      | groupHas k e =>
        obtain ⟨rfl, ⟨g, h1⟩, h2⟩ := halone
        exact good (groupHas_run h.rel hb.mat h1) h.rel rfl rfl (hfirm _)
      | groupErase k e =>
        obtain ⟨rfl, h1, g, h2, h3, h4⟩ := halone
        obtain ⟨w', s', h5, h6, h7⟩ := groupErase_eff h.rel hb.mat h2 h1 h3
        exact good h5 h6.rel h7.base.hw rfl (hfirm _)
      | storeErase t e =>
        obtain ⟨rfl, h1, h2, h3⟩ := halone
        obtain ⟨w', s', h5, h6, h7⟩ := storeErase_eff h.rel hb.mat h1 h2
        exact good h5 h6.rel h7.base.hw rfl (hfirm _)
      | emRemove e =>
        obtain ⟨rfl, h1, h2, h3⟩ := halone
        obtain ⟨w', h4, h5⟩ := emRemove_eff h.rel hlive h1
        refine ⟨w', _, _, h4, h5, fun t => Nat.le_refl _, ?_⟩
        simp only [Steady, Act.subjectAfter]
        exact Prog.Ended.firmQ hfirm
      | _ => exact False.elim halone

theorem Steady.congr {cfg : Config} {s s' : State V} {th : Thread V} (h : Steady cfg s th) (hn : s.next ≤ s'.next)
    (hh : ∀ t, s.hw t ≤ s'.hw t) : Steady cfg s' th := by
  unfold Steady at h ⊢
  cases hs : th.subject with
  | none => rw [hs] at h; exact h.mono hn
  | some id =>
    rw [hs] at h
    obtain ⟨has, h1, h2⟩ := h
    exact ⟨has, fun t ht => Nat.lt_of_lt_of_le (h1 t ht) (hh t), h2⟩

theorem Sys.Step.mono {cfg : Config} {may may' : Sys V → Nat → ApiCall V → Prop} (hm : ∀ σ i c, may σ i c → may' σ i c)
    {σ σ' : Sys V} (h : σ.Step cfg may σ') : σ.Step cfg may' σ' := by
  cases h with
  | start h1 h2 h3 => exact .start h1 h2 (hm _ _ _ h3)
  | acq h1 h2 h3 => exact .acq h1 h2 h3
  | rel h1 h2 => exact .rel h1 h2
  | act h1 h2 h3 => exact .act h1 h2 h3
  | fault h1 h2 h3 h4 => exact .fault h1 h2 h3 h4
  | panic h1 h2 h3 => exact .panic h1 h2 h3
  | ret h1 h2 h3 => exact .ret h1 h2 h3

/-- Careful clients never see a panic. -/
theorem careful_sched {w : World V} {s : State V} (hrel : Rel w s) {order : List Nat} (ho : Enumerates w order)
    {n : Nat} {σ : Sys V} (h : (Sys.init w n).Sched (Config.of w order) (Sys.careful (Config.of w order)) σ) :
    ∀ i c, (i, c, none) ∉ σ.log := by
  refine (h.inv (P := fun σ => Basics (Config.of w order) σ ∧ ∃ s', Pact (Config.of w order) (fun _ => False) s' σ ∧
    (∀ (i : Nat) th, σ.threads[i]? = some th → Steady (Config.of w order) s' th) ∧ ∀ i c, (i, c, none) ∉ σ.log)
    ⟨Basics.init ho n, s, .init hrel ho (fun k g id ht => ht.elim) n, ?_, by simp [Sys.init]⟩ ?_).2.elim
    fun s' h => h.2.2
  · intro i th hi
    have := List.mem_of_getElem? hi
    rw [Sys.init, List.mem_replicate] at this
    rw [this.2]
    exact trivial
  · rintro σ σ' ⟨hb, s', hd, hst, hlog⟩ hs
    have hs' := hs.mono (may' := Sys.considerate (Config.of w order)) fun _ _ _ h => h.1
    obtain ⟨s'', hd'⟩ := hd.step hb hs' fun _ _ _ _ => ApiCall.spares_nothing
    refine ⟨hb.step hs, s'', hd', ?_⟩
    -- the thread that moved, and the others
    have key : ∀ {i : Nat} {th' : Thread V} {s1 : State V},
        (∀ (j : Nat), σ'.threads[j]? = if j = i then some th' else σ.threads[j]?) → Rel σ'.world s1 → s'.next ≤ s1.next →
        (∀ t, s'.hw t ≤ s1.hw t) → Steady (Config.of w order) s1 th' →
        ∀ (j : Nat) th, σ'.threads[j]? = some th → Steady (Config.of w order) s'' th := by
      intro i th' s1 hth h1 h2 h3 h4 j thj hj
      have hu := unfresh_fields (h1.unique hd'.rel)
      rw [hth] at hj
      split at hj
      · cases hj
        exact h4.congr (Nat.le_of_eq hu.1) fun t => by rw [hu.2.2.2.1]; exact Nat.le_refl _
      · exact (hst j thj hj).congr (by rw [← hu.1]; exact h2) fun t => by rw [← hu.2.2.2.1]; exact h3 t
    have same : ∀ {i : Nat} {th' : Thread V},
        (∀ (j : Nat), σ'.threads[j]? = if j = i then some th' else σ.threads[j]?) → σ'.world = σ.world →
        Steady (Config.of w order) s' th' →
        ∀ (j : Nat) th, σ'.threads[j]? = some th → Steady (Config.of w order) s'' th := by
      intro i th' hth hw h4
      exact key hth (by rw [hw]; exact hd.rel) (Nat.le_refl _) (fun _ => Nat.le_refl _) h4
    cases hs with
    | start h1 h2 h3 =>
      exact ⟨same (fun j => setThread_threads σ _ _ j h1) rfl (steady_start hd.rel hb.mat rfl h3), hlog⟩
    | acq h1 h2 h3 =>
      rename_i i th l m p
      refine ⟨same (fun j => setThread_threads σ _ _ j h1) rfl ?_, hlog⟩
      have := hst i th h1
      unfold Steady at this ⊢
      rw [h2] at this; exact this
    | rel h1 h2 =>
      rename_i i th l m p
      refine ⟨same (fun j => setThread_threads σ _ _ j h1) rfl ?_, hlog⟩
      have := hst i th h1
      unfold Steady at this ⊢
      rw [h2] at this; exact this
    | act h1 h2 h3 =>
      rename_i i th a f w' r
      obtain ⟨w1, x, s1, h4, h5, h6, h7⟩ := hd.act_ok hb h1 h2 (hst i th h1)
      rw [h3] at h4; cases h4
      refine ⟨key (fun j => setThread_threads { σ with world := w' } _ _ j h1) h5 ?_ h6 h7, hlog⟩
      rw [← hd.rel.next, ← h5.next]; exact run_flags hb.mat h3
    | fault h1 h2 h3 h4 =>
      rename_i i th a f w' e c
      obtain ⟨w1, x, s1, h5, _⟩ := hd.act_ok hb h1 h2 (hst i th h1)
      rw [h3] at h5; cases h5
    | panic h1 h2 h3 =>
      rename_i i th c
      exfalso
      have := hst i th h1
      unfold Steady at this
      rw [h2] at this
      cases hs : th.subject with
      | none => rw [hs] at this; exact this
      | some id =>
        rw [hs] at this
        obtain ⟨has, _, this⟩ := this
        exact this
    | ret h1 h2 h3 =>
      rename_i i th c rs
      refine ⟨same (fun j => setThread_threads σ i .idle j h1) rfl trivial, ?_⟩
      intro j c' hj
      rcases List.mem_cons.1 hj with h4 | h4
      · cases h4
      · exact hlog j c' h4

end Xecs
