import Verif.Spec.FineKeeping
import Verif.Proofs.FineBack
import Verif.Proofs.KeepingMay
import Verif.Proofs.KeepingGuards
/-
As Proofs/Fine and Proofs/FineBack, for clients that keep handles, guards and iterators.
-/
set_option autoImplicit false
namespace Xecs
variable {V : Type}

/-- What the proofs need of a shared world. -/
structure KBase (cfg : Config) (τ : KSys V) : Prop where
  clash : ∀ {i j : Nat}, i ≠ j → ∀ {a b : Act V}, τ.AboutTo i a → τ.AboutTo j b →
    ∀ g ∈ a.footprint cfg, ∀ g' ∈ b.footprint cfg, ¬ g.clash g'
  mat : cfg.groups = τ.world.groups.map Group.shape
  idle : ∀ (i : Nat) (th : KThread V), τ.threads[i]? = some th → th.call = none → th.prog = .done []

theorem KBase.of {w : World V} {order : List Nat} {n : Nat} (ho : Enumerates w order) {may : KSys V → Nat → KCall V → Prop}
    {τ : KSys V} (hs : (KSys.init w n).Sched (Config.of w order) may τ) : KBase (Config.of w order) τ := by
  obtain ⟨σ, _, hk, hba, hg⟩ := kreach ho hs
  refine ⟨fun {i j} hij {a b} ha hb g hg1 g' hg2 hc => ?_, (hk.mat hba).groups, fun i th hi hc => ?_⟩
  · obtain ⟨thi, fi, hi, pi⟩ := ha.thread
    obtain ⟨thj, fj, hj, pj⟩ := hb.thread
    have key : ∀ (h1 h2 : Guard), h1 ∈ thi.held → h2 ∈ thj.held → h1.1 = h2.1 → (h1.2 = .mut ∨ h2.2 = .mut) → False :=
      fun h1 h2 m1 m2 e o => hg.excl.cross i j thi thj hi hj hij h1 m1 h2 m2 ⟨e, o⟩
    rcases hk.covers hba hi pi hg1 with c1 | c1 <;> rcases hk.covers hba hj pj hg2 with c2 | c2
    · exact key g g' c1 c2 hc.1 hc.2
    · exact key g _ c1 c2 hc.1 (.inr rfl)
    · exact key _ g' c1 c2 hc.1 (.inl rfl)
    · exact key _ _ c1 c2 hc.1 (.inl rfl)
  · obtain ⟨b, _, hsim⟩ := hk.partner hi
    cases hsim with
    | idle _ _ h _ _ => exact h
    | off h => rw [hc] at h; cases h
    | on h => rw [hc] at h; cases h

namespace KFSys
variable {cfg : Config} {impl : Act V → Stm (World V) (Ret V)} {may : KSys V → Nat → KCall V → Prop}

theorem about {σ : KSys V} {i : Nat} {th : KThread V} {a : Act V} {f : Ret V → Prog V} (hi : σ.threads[i]? = some th)
    (hp : th.prog = .act a f) : σ.AboutTo i a := by
  simp [KSys.AboutTo, hi, hp, Prog.work]

theorem about_inj {σ : KSys V} {i : Nat} {a b : Act V} (h : σ.AboutTo i a) (h' : σ.AboutTo i b) : a = b :=
  Option.some.inj (h.symm.trans h')

/-- How the world as it is and the bookkeeping are related. -/
structure Keyed (cfg : Config) (φ : KFSys V) : Prop where
  shape : cfg.groups = φ.mem.groups.map Group.shape
  same : ∀ l, φ.Untouched cfg l → Sys.SameAt φ.mem φ.sys.world l
  rest : ∀ i m, φ.rest i = some m → ∃ a, φ.sys.AboutTo i a ∧ m.Within (a.footprint cfg) φ.mem ∧
    (m.run φ.mem).2 = (a.run φ.sys.world).2 ∧ AgreeOn (a.footprint cfg) (m.run φ.mem).1 (a.run φ.sys.world).1

theorem Keyed.init {w : World V} (h : cfg.groups = w.groups.map Group.shape) (n : Nat) : Keyed cfg (KFSys.init w n) :=
  ⟨h, fun l _ => by cases l <;> rfl, fun _ _ h => by cases h⟩

/-- A step of a thread that does not work. -/
theorem Keyed.other {φ : KFSys V} (hk : Keyed cfg φ) {i : Nat} (hi : φ.rest i = none) {σ : KSys V} (hw : σ.world = φ.sys.world)
    (ht : ∀ j, j ≠ i → σ.threads[j]? = φ.sys.threads[j]?) : Keyed cfg { φ with sys := σ } := by
  have hne : ∀ j m, φ.rest j = some m → j ≠ i := by
    rintro j m hm rfl
    rw [hi] at hm
    cases hm
  have hab : ∀ j a, j ≠ i → (σ.AboutTo j a ↔ φ.sys.AboutTo j a) := fun j a hj => by
    unfold KSys.AboutTo
    rw [ht j hj]
  refine ⟨hk.shape, fun l hl => ?_, fun j m hm => ?_⟩
  · show Sys.SameAt φ.mem σ.world l
    rw [hw]
    refine hk.same l fun j a hj => ?_
    obtain ⟨m, hm⟩ := Option.isSome_iff_exists.1 hj.2
    exact hl j a ⟨(hab j a (hne j m hm)).2 hj.1, hj.2⟩
  · obtain ⟨a, h1, h2⟩ := hk.rest j m hm
    refine ⟨a, (hab j a (hne j m hm)).2 h1, ?_⟩
    show _ ∧ (m.run φ.mem).2 = (a.run σ.world).2 ∧ AgreeOn _ (m.run φ.mem).1 (a.run σ.world).1
    rw [hw]
    exact h2

/-- A piece of work is over. -/
theorem Keyed.over {φ : KFSys V} (hb : KBase cfg φ.sys) (hk : Keyed cfg φ) {i : Nat} {a : Act V} {r : R (Ret V)}
    (hr : φ.rest i = some (.ret r)) (ha : φ.sys.AboutTo i a) {σ : KSys V} (hw : σ.world = (a.run φ.sys.world).1)
    (ht : ∀ j, j ≠ i → σ.threads[j]? = φ.sys.threads[j]?) : Keyed cfg { φ.setRest i none with sys := σ } := by
  obtain ⟨b, b1, -, b3, b4⟩ := hk.rest i _ hr
  cases about_inj b1 ha
  have b4 : AgreeOn (a.footprint cfg) φ.mem (a.run φ.sys.world).1 := b4
  have hab : ∀ j a, j ≠ i → (σ.AboutTo j a ↔ φ.sys.AboutTo j a) := fun j a hj => by
    unfold KSys.AboutTo
    rw [ht j hj]
  have hf : Frame φ.sys.world (a.run φ.sys.world).1 (a.footprint cfg) :=
    run_frame hb.mat (r := (a.run φ.sys.world).2) rfl
  refine ⟨hk.shape, fun l hl => ?_, fun j m hm => ?_⟩
  · show Sys.SameAt φ.mem σ.world l
    rw [hw]
    by_cases hm : (l, Mode.mut) ∈ a.footprint cfg
    · exact b4.2 _ hm
    · refine SameAt.trans' (hk.same l fun j c hj => ?_) (hf.sameAt hm)
      by_cases hji : j = i
      · subst hji
        cases about_inj hj.1 ha
        exact hm
      · exact hl j c ⟨(hab j c hji).2 hj.1, by simpa [KFSys.setRest, hji] using hj.2⟩
  · have hji : j ≠ i := by
      rintro rfl
      simp [KFSys.setRest] at hm
    have hm : φ.rest j = some m := by simpa [KFSys.setRest, hji] using hm
    obtain ⟨c, h1, h2, h3, h4⟩ := hk.rest j m hm
    refine ⟨c, (hab j c hji).2 h1, h2, ?_⟩
    have hnc := hb.clash hji h1 ha
    have ht : Twin φ.sys.world (a.run φ.sys.world).1 (c.footprint cfg) :=
      ⟨hf.shape.symm, fun g hg => hf.sameAt fun hm => hnc g hg _ hm ⟨rfl, .inr rfl⟩⟩
    obtain ⟨l1, l2⟩ := run_local hb.mat ht
    show (m.run φ.mem).2 = (c.run σ.world).2 ∧ AgreeOn _ (m.run φ.mem).1 (c.run σ.world).1
    rw [hw]
    exact ⟨h3.trans l1, h4.trans l2.agree⟩

/-- One step: the bookkeeping makes at most one step, and stays right. -/
theorem Keyed.step (hi : Splits cfg impl) {φ φ' : KFSys V} (hb : KBase cfg φ.sys) (hk : Keyed cfg φ)
    (hs : φ.Step cfg impl may φ') : (φ'.sys = φ.sys ∨ φ.sys.Step cfg may φ'.sys) ∧ Keyed cfg φ' := by
  have notat : ∀ {i : Nat} {th : KThread V}, φ.sys.threads[i]? = some th → (∀ a f, th.prog ≠ .act a f) →
      φ.rest i = none := by
    intro i th h1 h2
    cases hr : φ.rest i with
    | none => rfl
    | some m =>
      obtain ⟨a, h3, -⟩ := hk.rest i m hr
      obtain ⟨th', f, h4, h5⟩ := h3.thread
      rw [h1] at h4
      cases h4
      exact absurd h5 (h2 a f)
  cases hs with
  | @start i th c h1 h2 h3 h4 =>
    refine ⟨.inr (.start h1 h2 h3 h4), hk.other (i := i) (notat h1 fun a f h => ?_) rfl fun j hj => ?_⟩
    · rw [hb.idle i th h1 h2] at h
      cases h
    · simp [KSys.setThread, List.getElem?_set_ne (Ne.symm hj)]
  | @acq i th l m p h1 h2 h3 =>
    refine ⟨.inr (.acq h1 h2 h3), hk.other (i := i) (notat h1 fun a f h => ?_) rfl fun j hj => ?_⟩
    · rw [h2] at h; cases h
    · simp [KSys.setThread, List.getElem?_set_ne (Ne.symm hj)]
  | @rel i th l m p h1 h2 =>
    refine ⟨.inr (.rel h1 h2), hk.other (i := i) (notat h1 fun a f h => ?_) rfl fun j hj => ?_⟩
    · rw [h2] at h; cases h
    · simp [KSys.setThread, List.getElem?_set_ne (Ne.symm hj)]
  | @panic i th c h1 h2 h3 =>
    refine ⟨.inr (.panic h1 h2 h3), hk.other (i := i) (notat h1 fun a f h => ?_) rfl fun j hj => ?_⟩
    · rw [h2] at h; cases h
    · simp [KSys.finish, KSys.setThread, List.getElem?_set_ne (Ne.symm hj)]
  | @ret i th c rs h1 h2 h3 =>
    refine ⟨.inr (.ret h1 h2 h3), hk.other (i := i) (notat h1 fun a f h => ?_) rfl fun j hj => ?_⟩
    · rw [h2] at h; cases h
    · simp [KSys.finish, KSys.setThread, List.getElem?_set_ne (Ne.symm hj)]
  | @begin i th a f h1 h2 h3 =>
    refine ⟨.inl rfl, hk.shape, fun l hl => hk.same l fun j b hj => ?_, fun j m hm => ?_⟩
    · refine hl j b ⟨hj.1, ?_⟩
      have : (φ.rest j).isSome = true := hj.2
      by_cases hji : j = i <;> simp [KFSys.setRest, hji, this]
    · by_cases hji : j = i
      · subst hji
        have hm : impl a = m := by simpa [KFSys.setRest] using hm
        subst hm
        obtain ⟨e1, e2⟩ := hi a φ.mem hk.shape
        have ha : φ.sys.AboutTo j a := about h1 h2
        have hag : AgreeOn (a.footprint cfg) φ.mem φ.sys.world := by
          refine ⟨hk.shape.symm.trans hb.mat, fun g hg => hk.same _ fun i' b hib hm => ?_⟩
          have hne : j ≠ i' := by
            rintro rfl
            have := hib.2
            rw [h3] at this
            cases this
          exact hb.clash hne ha hib.1 g hg _ hm ⟨rfl, .inr rfl⟩
        obtain ⟨l1, l2⟩ := run_local hk.shape hag.twin
        refine ⟨a, ha, e2, ?_⟩
        show ((impl a).run φ.mem).2 = _ ∧ AgreeOn _ ((impl a).run φ.mem).1 _
        rw [e1]
        exact ⟨l1, l2.agree⟩
      · exact hk.rest j m (by simpa [KFSys.setRest, hji] using hm)
  | @work i u k h1 =>
    obtain ⟨a, a1, a2, a3, a4⟩ := hk.rest i _ h1
    obtain ⟨-, a5, a6, a7⟩ := a2.1 φ.mem (.refl _ _)
    refine ⟨.inl rfl, hk.shape.trans a6, fun l hl => ?_, fun j m hm => ?_⟩
    · have hli : (l, Mode.mut) ∉ a.footprint cfg := hl i a ⟨a1, by simp [KFSys.setRest]⟩
      refine SameAt.trans' (SameAt.symm' (a7 l hli)) (hk.same l fun j b hj => hl j b ⟨hj.1, ?_⟩)
      have : (φ.rest j).isSome = true := hj.2
      by_cases hji : j = i <;> simp [KFSys.setRest, hji, this]
    · by_cases hji : j = i
      · subst hji
        have hm : k φ.mem = m := by simpa [KFSys.setRest] using hm
        subst hm
        exact ⟨a, a1, a2.2, a3, a4⟩
      · have hm : φ.rest j = some m := by simpa [KFSys.setRest, hji] using hm
        obtain ⟨b, b1, b2, b3, b4⟩ := hk.rest j m hm
        have hag : AgreeOn (b.footprint cfg) φ.mem (u φ.mem) :=
          ⟨a6, fun g hg => a7 _ fun hm => hb.clash hji b1 a1 g hg _ hm ⟨rfl, .inr rfl⟩⟩
        obtain ⟨c1, c2, c3⟩ := b2.agree hag
        exact ⟨b, b1, c1, c2.symm.trans b3, c3.symm.trans b4⟩
  | @done i th a f r h1 h2 h3 =>
    obtain ⟨b, b1, -, b3, -⟩ := hk.rest i _ h1
    cases about_inj b1 (about h2 h3)
    refine ⟨.inr (.act h2 h3 (Prod.ext rfl b3.symm)), hk.over hb h1 (about h2 h3) rfl fun j hj => ?_⟩
    simp [KSys.setThread, List.getElem?_set_ne (Ne.symm hj)]
  | @fault i th a f e c h1 h2 h3 h4 =>
    obtain ⟨b, b1, -, b3, -⟩ := hk.rest i _ h1
    cases about_inj b1 (about h2 h3)
    refine ⟨.inr (.fault h2 h3 (Prod.ext rfl b3.symm) h4), hk.over hb h1 (about h2 h3) rfl fun j hj => ?_⟩
    simp [KSys.finish, KSys.setThread, List.getElem?_set_ne (Ne.symm hj)]

/-- Any number of steps. -/
theorem reduced {w : World V} {order : List Nat} {n : Nat} (ho : Enumerates w order) (hi : Splits (Config.of w order) impl)
    {φ : KFSys V} (hs : (KFSys.init w n).Sched (Config.of w order) impl may φ) :
    (KSys.init w n).Sched (Config.of w order) may φ.sys ∧ Keyed (Config.of w order) φ := by
  induction hs with
  | refl => exact ⟨.refl, .init rfl n⟩
  | step _ hs ih =>
    obtain ⟨h1, h2⟩ := ih
    obtain ⟨h3, h4⟩ := h2.step hi (KBase.of ho h1) hs
    refine ⟨?_, h4⟩
    rcases h3 with h3 | h3
    · rw [h3]
      exact h1
    · exact .step h1 h3

theorem Sched.trans {φ φ' φ'' : KFSys V} (h : φ.Sched cfg impl may φ') (h' : φ'.Sched cfg impl may φ'') :
    φ.Sched cfg impl may φ'' := by
  induction h' with
  | refl => exact h
  | step _ hs ih => exact .step ih hs

/-- A working thread can do the rest of its work without interruption. -/
theorem sched_rest {i : Nat} (m : Stm (World V) (Ret V)) : ∀ (φ : KFSys V), φ.rest i = some m →
    ∃ φ', φ.Sched cfg impl may φ' ∧ φ'.sys = φ.sys ∧ φ'.mem = (m.run φ.mem).1 ∧ φ'.rest i = some (.ret (m.run φ.mem).2) ∧
      ∀ j, j ≠ i → φ'.rest j = φ.rest j := by
  induction m with
  | ret r => exact fun φ h => ⟨φ, .refl, rfl, rfl, h, fun _ _ => rfl⟩
  | step u k ih =>
    intro φ h
    obtain ⟨φ', h1, h2, h3, h4, h5⟩ := ih φ.mem { φ.setRest i (some (k φ.mem)) with mem := u φ.mem } (by simp [setRest])
    exact ⟨φ', (Sched.step .refl (.work h)).trans h1, h2, h3, h4, fun j hj => (h5 j hj).trans (by simp [setRest, hj])⟩

/-- A step of pieces of work, as steps of statements. -/
theorem of_step (hi : Splits cfg impl) {σ σ' : KSys V} (hb : KBase cfg σ) (hs : σ.Step cfg may σ') {φ : KFSys V} (h1 : φ.sys = σ)
    (h2 : φ.mem = σ.world) (h3 : φ.AtRest) : ∃ φ', φ.Sched cfg impl may φ' ∧ φ'.sys = σ' ∧ φ'.mem = σ'.world ∧ φ'.AtRest := by
  subst h1
  cases hs with
  | start a b c d => exact ⟨_, .step .refl (.start a b c d), rfl, h2, h3⟩
  | acq a b c => exact ⟨_, .step .refl (.acq a b c), rfl, h2, h3⟩
  | rel a b => exact ⟨_, .step .refl (.rel a b), rfl, h2, h3⟩
  | panic a b c => exact ⟨_, .step .refl (.panic a b c), rfl, h2, h3⟩
  | ret a b c => exact ⟨_, .step .refl (.ret a b c), rfl, h2, h3⟩
  | @act i th a f w r hti hp hr =>
    obtain ⟨φ', e1, e2, e3, e4, e5⟩ := sched_rest (cfg := cfg) (impl := impl) (may := may) (i := i) (impl a) (φ.setRest i (some (impl a)))
      (by simp [setRest])
    have hrun : (impl a).run φ.mem = (w, .ok r) := by
      rw [(hi a φ.mem (by rw [h2]; exact hb.mat)).1, h2, hr]
    change φ'.sys = φ.sys at e2
    change φ'.mem = ((impl a).run φ.mem).1 at e3
    change φ'.rest i = some (.ret ((impl a).run φ.mem).2) at e4
    rw [hrun] at e3 e4
    refine ⟨_, .step ((Sched.step .refl (.begin hti hp (h3 i))).trans e1)
      (.done e4 (by rw [e2]; exact hti) hp), ?_, ?_, fun j => ?_⟩
    · show KSys.setThread _ _ _ = _
      rw [e2, hr]
    · exact e3
    · show (if j = i then none else φ'.rest j) = none
      split
      · rfl
      · next hj => rw [e5 j hj]; simp [setRest, hj, h3 j]
  | @fault i th a f w e c hti hp hr hc =>
    obtain ⟨φ', e1, e2, e3, e4, e5⟩ := sched_rest (cfg := cfg) (impl := impl) (may := may) (i := i) (impl a) (φ.setRest i (some (impl a)))
      (by simp [setRest])
    have hrun : (impl a).run φ.mem = (w, .error e) := by
      rw [(hi a φ.mem (by rw [h2]; exact hb.mat)).1, h2, hr]
    change φ'.sys = φ.sys at e2
    change φ'.mem = ((impl a).run φ.mem).1 at e3
    change φ'.rest i = some (.ret ((impl a).run φ.mem).2) at e4
    rw [hrun] at e3 e4
    refine ⟨_, .step ((Sched.step .refl (.begin hti hp (h3 i))).trans e1)
      (.fault e4 (by rw [e2]; exact hti) hp hc), ?_, ?_, fun j => ?_⟩
    · show KSys.finish _ _ _ _ _ = _
      rw [e2, hr]
    · exact e3
    · show (if j = i then none else φ'.rest j) = none
      split
      · rfl
      · next hj => rw [e5 j hj]; simp [setRest, hj, h3 j]

theorem of_sched {w : World V} {order : List Nat} {n : Nat} (ho : Enumerates w order) (hi : Splits (Config.of w order) impl)
    {σ : KSys V} (hs : (KSys.init w n).Sched (Config.of w order) may σ) :
    ∃ φ, (KFSys.init w n).Sched (Config.of w order) impl may φ ∧ φ.sys = σ ∧ φ.mem = σ.world ∧ φ.AtRest := by
  induction hs with
  | refl => exact ⟨KFSys.init w n, .refl, rfl, rfl, fun _ => rfl⟩
  | step hs' hs ih =>
    obtain ⟨φ1, e1, e2, e3, e4⟩ := ih
    obtain ⟨φ2, f1, f2⟩ := of_step hi (KBase.of ho hs') hs e2 e3 e4
    exact ⟨φ2, e1.trans f1, f2⟩

/-- A working thread can go on. -/
theorem working_goes {φ : KFSys V} (hb : KBase cfg φ.sys) (hk : Keyed cfg φ) {i : Nat} (h : (φ.rest i).isSome = true) :
    ∃ φ', φ.Step cfg impl may φ' := by
  obtain ⟨m, hm⟩ := Option.isSome_iff_exists.1 h
  cases m with
  | step u k => exact ⟨_, .work hm⟩
  | ret r =>
    obtain ⟨a, ha, -⟩ := hk.rest i _ hm
    obtain ⟨th, f, h1, h2⟩ := ha.thread
    cases r with
    | ok r => exact ⟨_, .done hm h1 h2⟩
    | error e =>
      cases hc : th.call with
      | some c => exact ⟨_, .fault hm h1 h2 hc⟩
      | none =>
        rw [hb.idle i th h1 hc] at h2
        cases h2

end KFSys
end Xecs
