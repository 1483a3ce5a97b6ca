import Verif.Proofs.AloneRemove
import Verif.Proofs.AloneQuery
/-
One call, everybody else idle: from runs of programs to schedules.
-/
set_option autoImplicit false
namespace Xecs
open World
variable {V : Type} {cfg : Config} {w : World V} {H : List Guard}

/-! ### The remaining calls -/

theorem calm_downcastRes {r : ResBox V} {t : Nat} : Calm (downcastRes r t) := by
  unfold downcastRes; repeat calm_step

theorem calm_storageCount (t : Nat) : Calm (storageCount (V := V) t w).2 := by
  simp only [storageCount, M.read_apply]
  repeat (first | exact calm_downcast | calm_step)

theorem calm_resourceRead (t : Nat) : Calm (resourceRead (V := V) t w).2 := by
  simp only [resourceRead, M.read_apply]
  repeat (first | exact calm_downcastRes | calm_step)

theorem calm_resourceWrite (t : Nat) (v : V) : Calm (resourceWrite t v w).2 := by
  refine calm_critW ?_
  repeat (first | exact calm_downcastRes | calm_step)

theorem res_none (hm : Matches cfg w) {t : Nat} (h : cfg.res t = false) : w.res t = none := by
  have := hm.res t
  rw [h] at this
  simpa using this.symm

/-- Every call, run alone, does what the sequential operations do. For `remove_entity` the guards taken are only
listed for worlds with well-formed storages. -/
theorem does_call (hm : Matches cfg w) (ht : ∀ t st, w.comps t = some st → st.ty = t)
    (c : ApiCall V) :
    ∃ T, Does (c.prog cfg) [] w (c.alone cfg.order) [] T (fun rs => .done rs) ∧
      ((∀ t st, w.comps t = some st → st.set.WF) → ∀ w' rs, c.alone cfg.order w = (w', .ok rs) →
        ∀ g, T g ↔ g ∈ c.needs cfg w) := by
  have hs : NoStore ([] : List Guard) := .nil
  have hg : NoGroup ([] : List Guard) := .nil
  have he : NoEm ([] : List Guard) := by simp [NoEm]
  have hr : NoRes ([] : List Guard) := by simp [NoRes]
  have plain : ∀ {c : ApiCall V}, Does (c.prog cfg) [] w (c.alone cfg.order) [] (· ∈ c.needs cfg w) (fun rs => .done rs) →
    ∃ T, Does (c.prog cfg) [] w (c.alone cfg.order) [] T (fun rs => .done rs) ∧
      ((∀ t st, w.comps t = some st → st.set.WF) → ∀ w' rs, c.alone cfg.order w = (w', .ok rs) →
        ∀ g, T g ↔ g ∈ c.needs cfg w) := fun h => ⟨_, h, fun _ _ _ _ _ => Iff.rfl⟩
  cases c with
  | create script => exact plain (does_create hm hs hg he cfg.order script)
  | on id script =>
    refine plain ?_
    have := does_handle hm hs hg he id script []
    simp only [List.nil_append] at this
    exact this
  | createMany n bs => exact plain (does_createMany hm hs he cfg.order n bs)
  | fill start stop bs => exact plain (does_fill hm hs he cfg.order start stop bs)
  | remove id =>
    exact ⟨_, does_remove hm hs hg he id, fun hwf w' rs hok g => remove_needs hm hwf hok g⟩
  | exist id =>
    refine plain ?_
    refine Does.congr (T := fun x => x = (.em, .ref)) (Does.map (does_locked (f := fun r => .done [r]) (he.fits .ref)
      (show (Act.has id).run w = _ from rfl) ?_) (fun _ => rfl)) rfl (fun _ _ _ g => by simp [ApiCall.needs])
    simp only [World.exist, M.read_apply]
    unfold EntityManager.has
    repeat calm_step
  | read t id =>
    exact plain (Does.map (does_read hm hs t id fun r => .done [r]) (fun _ => rfl))
  | write t id v =>
    exact plain (Does.map (does_write hm hs t id v fun r => .done [r]) (fun _ => rfl))
  | count t =>
    refine plain ?_
    simp only [ApiCall.prog, ApiCall.alone, ApiCall.needs]
    cases hr : cfg.registered t with
    | false =>
      have : storageCount t w = (w, .ok none) := by
        simp only [storageCount, M.read_apply, comps_none hm hr]
      simp only [Bool.false_eq_true, if_false]
      refine Does.map (k := fun x => .done [.count x]) (.ok this .refl (by simp)) (fun _ => rfl)
    | true =>
      simp only [if_true]
      exact Does.congr (Does.map (does_locked (f := fun r => .done [r]) (hs.fits t .ref)
        (show (Act.storeCount t).run w = _ from rfl) (calm_storageCount t)) (fun _ => rfl)) rfl (by simp)
  | resRead t =>
    refine plain ?_
    simp only [ApiCall.prog, ApiCall.alone, ApiCall.needs]
    cases h : cfg.res t with
    | false =>
      have : resourceRead t w = (w, .ok none) := by
        simp only [resourceRead, M.read_apply, res_none hm h]
      simp only [Bool.false_eq_true, if_false]
      refine Does.map (k := fun x => .done [.val x]) (.ok this .refl (by simp)) (fun _ => rfl)
    | true =>
      simp only [if_true]
      exact Does.congr (Does.map (does_locked (f := fun r => .done [r]) (hr.fits t .ref)
        (show (Act.resRead t).run w = _ from rfl) (calm_resourceRead t)) (fun _ => rfl)) rfl (by simp)
  | resWrite t v =>
    refine plain ?_
    simp only [ApiCall.prog, ApiCall.alone, ApiCall.needs]
    cases h : cfg.res t with
    | false =>
      have : resourceWrite t v w = (w, .ok false) := by
        simp only [resourceWrite, M.crit, res_none hm h]
      simp only [Bool.false_eq_true, if_false]
      refine Does.map (k := fun x => .done [.bool x]) (.ok this .refl (by simp)) (fun _ => rfl)
    | true =>
      simp only [if_true]
      exact Does.congr (Does.map (does_locked (f := fun r => .done [r]) (hr.fits t .mut)
        (show (Act.resWrite t v).run w = _ from rfl) (calm_resourceWrite t v)) (fun _ => rfl)) rfl (by simp)
  | query q =>
    exact plain (does_query hm ht ⟨fun t m => by simp [Guard.fits], fun k => by simp [Guard.fits]⟩ cfg.order q)

/-! ### Schedules -/

namespace Sys

/-- Thread `i` has `p` to do and holds `H`, the others are idle. -/
def lone (w : World V) (n i : Nat) (c : ApiCall V) (p : Prog V) (H : List Guard) (s : Option EntityId) : Sys V :=
  (Sys.init w n).setThread i { call := some c, prog := p, held := H, subject := s }

variable {n i : Nat} {c : ApiCall V} {p : Prog V} {s : Option EntityId} {σ σ1 σ2 : Sys V}

theorem lone_get (hi : i < n) :
    (lone w n i c p H s).threads[i]? = some { call := some c, prog := p, held := H, subject := s } := by
  simp [lone, setThread, init, hi]

theorem lone_other {j : Nat} {th : Thread V} (h : (lone w n i c p H s).threads[j]? = some th) (hj : j ≠ i) : th = .idle := by
  simp only [lone, setThread, init, List.getElem?_set, if_neg (Ne.symm hj), List.getElem?_replicate] at h
  split at h
  · exact (Option.some.inj h).symm
  · cases h

theorem lone_set (th : Thread V) (w' : World V) :
    ({ lone w n i c p H s with world := w' } : Sys V).setThread i th = (Sys.init w' n).setThread i th := by
  simp [lone, setThread, init, List.set_set]

theorem lone_free (hi : i < n) {l : Lock} {m : Mode} : (lone w n i c p H s).Free l m ↔ Guard.fits (l, m) H := by
  constructor
  · intro h g hg
    exact h _ (List.mem_of_getElem? (lone_get hi)) g hg
  · intro h th hth g hg
    obtain ⟨j, hj⟩ := List.mem_iff_getElem?.1 hth
    by_cases hji : j = i
    · subst hji
      rw [lone_get hi] at hj
      cases hj
      exact h g hg
    · rw [lone_other hj hji] at hg
      simp [Thread.idle] at hg

/-- What thread `i` may do next. -/
theorem lone_step (h : (lone w n i c p H s).Step cfg nothing σ) :
    match p with
    | .acq l m p' => Guard.fits (l, m) H ∧ σ = lone w n i c p' ((l, m) :: H) s
    | .rel l m p' => σ = lone w n i c p' (H.erase (l, m)) s
    | .act a f => match a.run w with
      | (w', .ok r) => σ = lone w' n i c (f r) H (a.subjectAfter r s)
      | (w', .error _) => σ = over w' n i c none
    | .panic => σ = over w n i c none
    | .done rs => σ = over w n i c (some rs) := by
  have hfin : ∀ (w' : World V) r, ({ lone w n i c p H s with world := w' } : Sys V).finish i c r = over w' n i c r := by
    intro w' r
    simp only [finish, over, lone, setThread, init, List.set_set, Sys.mk.injEq, and_true, true_and]
    apply List.ext_getElem?
    intro k
    simp only [List.getElem?_set, List.getElem?_replicate, List.length_replicate]
    split
    · rename_i h; subst h; simp
    · rfl
  have key : ∀ {j : Nat} {th : Thread V}, (lone w n i c p H s).threads[j]? = some th → (th.prog ≠ .done [] ∨ th.call ≠ none) →
      j = i ∧ th = { call := some c, prog := p, held := H, subject := s } ∧ i < n := by
    intro j th hth hne
    by_cases hj : j = i
    · subst hj
      have hi : j < n := by
        have := (List.getElem?_eq_some_iff.1 hth).1
        simpa [lone, setThread, init] using this
      rw [lone_get hi] at hth
      exact ⟨rfl, (Option.some.inj hth).symm, hi⟩
    · have := lone_other hth hj
      subst this
      simp [Thread.idle] at hne
  cases h with
  | start _ _ hm => exact hm.elim
  | acq hth hp hf =>
    obtain ⟨rfl, rfl, hi⟩ := key hth (.inl (by rw [hp]; simp))
    simp only at hp
    subst hp
    exact ⟨(lone_free hi).1 hf, lone_set _ _⟩
  | rel hth hp =>
    obtain ⟨rfl, rfl, hi⟩ := key hth (.inl (by rw [hp]; simp))
    simp only at hp
    subst hp
    exact lone_set _ _
  | act hth hp hr =>
    obtain ⟨rfl, rfl, hi⟩ := key hth (.inl (by rw [hp]; simp))
    simp only at hp
    subst hp
    have hr' : _ = _ := hr
    simp only [lone, setThread, init] at hr'
    simp only [hr']
    exact lone_set _ _
  | fault hth hp hr hc =>
    obtain ⟨rfl, rfl, hi⟩ := key hth (.inl (by rw [hp]; simp))
    simp only at hp
    subst hp
    simp only [lone, setThread, init] at hr
    simp only [hr]
    cases hc
    exact hfin _ _
  | panic hth hp hc =>
    obtain ⟨rfl, rfl, hi⟩ := key hth (.inl (by rw [hp]; simp))
    simp only at hp
    subst hp
    cases hc
    exact hfin w _
  | ret hth hp hc =>
    obtain ⟨rfl, rfl, hi⟩ := key hth (.inr (by rw [hc]; simp))
    simp only at hp
    subst hp
    cases hc
    exact hfin w _

theorem over_stays {r : Option (List (Ret V))} : ¬ (over w n i c r).Step cfg nothing σ := by
  have key : ∀ {j : Nat} {th : Thread V}, (over w n i c r).threads[j]? = some th → th = .idle := by
    intro j th h
    simp only [over, List.getElem?_replicate] at h
    split at h
    · exact (Option.some.inj h).symm
    · cases h
  intro h
  cases h with
  | start _ _ hm => exact hm.elim
  | acq hth hp _ => rw [key hth] at hp; cases hp
  | rel hth hp => rw [key hth] at hp; cases hp
  | act hth hp _ => rw [key hth] at hp; cases hp
  | fault hth hp _ _ => rw [key hth] at hp; cases hp
  | panic hth hp _ => rw [key hth] at hp; cases hp
  | ret hth _ hc => rw [key hth] at hc; cases hc

/-- The states of a run of one call. -/
def Only (n i : Nat) (c : ApiCall V) (σ : Sys V) : Prop :=
  (∃ w p H s, σ = lone w n i c p H s) ∨ ∃ w r, σ = over w n i c r

theorem Only.step (h : Only n i c σ) (hs : σ.Step cfg nothing σ1) : Only n i c σ1 := by
  rcases h with ⟨w, p, H, s, rfl⟩ | ⟨w, r, rfl⟩
  · have := lone_step hs
    cases p with
    | acq l m p => exact .inl ⟨_, _, _, _, this.2⟩
    | rel l m p => exact .inl ⟨_, _, _, _, this⟩
    | panic => exact .inr ⟨_, _, this⟩
    | done rs => exact .inr ⟨_, _, this⟩
    | act a f =>
      simp only at this
      split at this
      · exact .inl ⟨_, _, _, _, this⟩
      · exact .inr ⟨_, _, this⟩
  · exact absurd hs over_stays

theorem Only.unique (h : Only n i c σ) (h1 : σ.Step cfg nothing σ1) (h2 : σ.Step cfg nothing σ2) : σ1 = σ2 := by
  rcases h with ⟨w, p, H, s, rfl⟩ | ⟨w, r, rfl⟩
  · have h1 := lone_step h1
    have h2 := lone_step h2
    cases p with
    | acq l m p => exact h1.2.trans h2.2.symm
    | rel l m p => exact h1.trans h2.symm
    | panic => exact h1.trans h2.symm
    | done rs => exact h1.trans h2.symm
    | act a f =>
      simp only at h1 h2
      split at h1 <;> rename_i hx <;> rw [hx] at h2 <;> exact h1.trans h2.symm
  · exact absurd h1 over_stays

theorem Sched.head {may : Sys V → Nat → ApiCall V → Prop} (h : σ.Sched cfg may σ2) :
    σ = σ2 ∨ ∃ σ1, σ.Step cfg may σ1 ∧ σ1.Sched cfg may σ2 := by
  induction h with
  | refl => exact .inl rfl
  | step _ hs ih =>
    rcases ih with rfl | ⟨σ1, h1, h2⟩
    · exact .inr ⟨_, hs, .refl⟩
    · exact .inr ⟨σ1, h1, .step h2 hs⟩

theorem Only.inevitably (h : Only n i c σ) (hs : σ.Sched cfg nothing σ2) (ht : ∀ τ, ¬ σ2.Step cfg nothing τ) :
    σ.Inevitably cfg σ2 := by
  refine ⟨fun σ1 h1 => ?_, ht⟩
  suffices Only n i c σ1 ∧ σ1.Sched cfg nothing σ2 from this.2
  induction h1 with
  | refl => exact ⟨h, hs⟩
  | step _ hstep ih =>
    refine ⟨ih.1.step hstep, ?_⟩
    rcases ih.2.head with rfl | ⟨τ, h3, h4⟩
    · exact absurd hstep (ht _)
    · rw [ih.1.unique hstep h3]; exact h4

/-- A run of a program is a schedule. -/
theorem lone_flows (hi : i < n) {p' : Prog V} {H' T : List Guard} {w' : World V} (h : Flows p H w T p' H' w') :
    ∀ {H1 : List Guard} {s : Option EntityId}, H1.Perm H →
      ∃ H2 s', H2.Perm H' ∧ (lone w n i c p H1 s).Sched cfg nothing (lone w' n i c p' H2 s') := by
  induction h with
  | refl => exact fun {H1 s} hp => ⟨H1, s, hp, .refl⟩
  | perm hq _ ih => exact fun {H1 s} hp => ih (hp.trans hq)
  | @acq p p' H H' T w w' l m hf _ ih =>
    intro H1 s hp
    obtain ⟨H2, s', h2, h3⟩ := ih (s := s) (hp.cons (l, m))
    refine ⟨H2, s', h2, .trans (.step .refl (.acq (lone_get hi) rfl ((lone_free hi).2
      fun g hg => hf g (hp.mem_iff.1 hg)))) ?_⟩
    rw [show (lone w n i c (.acq l m p) H1 s).setThread i _ = lone w n i c p ((l, m) :: H1) s from lone_set _ w]
    exact h3
  | @rel p p' H H' T w w' l m _ ih =>
    intro H1 s hp
    obtain ⟨H2, s', h2, h3⟩ := ih (s := s) (show (H1.erase (l, m)).Perm _ by
      have := hp.erase (l, m)
      rwa [List.erase_cons_head] at this)
    refine ⟨H2, s', h2, .trans (.step .refl (.rel (lone_get hi) rfl)) ?_⟩
    rw [show (lone w n i c (.rel l m p) H1 s).setThread i _ = lone w n i c p (H1.erase (l, m)) s from lone_set _ w]
    exact h3
  | @act a f p' H H' T w w1 w' r hr _ ih =>
    intro H1 s hp
    obtain ⟨H2, s', h2, h3⟩ := ih (s := a.subjectAfter r s) hp
    refine ⟨H2, s', h2, .trans (.step .refl (.act (lone_get hi) rfl (w := w1) (r := r) hr)) ?_⟩
    rw [show (Sys.setThread _ i _ : Sys V) = lone w1 n i c (f r) H1 (a.subjectAfter r s) from lone_set _ w1]
    exact h3

theorem _root_.Xecs.Flows.returns (hi : i < n) {rs : List (Ret V)} {H' T : List Guard} {w' : World V}
    (h : Flows p H w T (.done rs) H' w') : (lone w n i c p H s).Inevitably cfg (over w' n i c (some rs)) := by
  obtain ⟨H2, s', -, h3⟩ := lone_flows (cfg := cfg) (n := n) (i := i) (c := c) (s := s) hi h (.refl _)
  refine Only.inevitably (.inl ⟨_, _, _, _, rfl⟩) (.step h3 ?_) fun _ => over_stays
  have := Step.ret (cfg := cfg) (may := nothing) (lone_get (w := w') (p := .done rs) (n := n) (c := c) (H := H2) (s := s') hi) rfl rfl
  have e := lone_step this
  exact e ▸ this

theorem _root_.Xecs.Fails.over (hi : i < n) {w' : World V} (h : Fails p H w w') :
    (lone w n i c p H s).Inevitably cfg (over w' n i c none) := by
  obtain ⟨T, p1, H1, w1, h1, h2⟩ := h
  obtain ⟨H2, s', -, h3⟩ := lone_flows (cfg := cfg) (n := n) (i := i) (c := c) (s := s) hi h1 (.refl _)
  refine Only.inevitably (.inl ⟨_, _, _, _, rfl⟩) (.step h3 ?_) fun _ => over_stays
  rcases h2 with ⟨rfl, rfl⟩ | ⟨a, f, e, rfl, he⟩
  · have := Step.panic (cfg := cfg) (may := nothing) (lone_get (w := w') (p := .panic) (n := n) (c := c) (H := H2) (s := s') hi) rfl rfl
    have e := lone_step this
    exact e ▸ this
  · have := Step.fault (cfg := cfg) (may := nothing) (lone_get (w := w1) (p := .act a f) (n := n) (c := c) (H := H2) (s := s') hi) rfl he rfl
    have e := lone_step this
    simp only [he] at e
    exact e ▸ this

theorem _root_.Xecs.Stuck.hangs (hi : i < n) {w' : World V} (h : Stuck p H w w') :
    (lone w n i c p H s).Hangs cfg i c w' := by
  obtain ⟨T, l, m, p1, H1, h1, h2⟩ := h
  obtain ⟨H2, s', hp, h3⟩ := lone_flows (cfg := cfg) (n := n) (i := i) (c := c) (s := s) hi h1 (.refl _)
  have h2' : ¬ Guard.fits (l, m) H2 := fun hh => h2 fun g hg => hh g (hp.mem_iff.2 hg)
  refine ⟨_, Only.inevitably (.inl ⟨_, _, _, _, rfl⟩) h3 fun τ hτ => h2' (lone_step hτ).1, rfl,
    ⟨_, lone_get hi, rfl⟩, _, l, m, p1, lone_get hi, rfl, .inl fun hf => h2' ((lone_free hi).1 hf)⟩

end Sys

end Xecs
