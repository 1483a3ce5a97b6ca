import Verif.Spec.Fine
import Verif.Proofs.Handles
/-
Interleavings of single statements are as good as interleavings of pieces of work.
-/
set_option autoImplicit false
namespace Xecs
variable {V : Type}

namespace AgreeOn
variable {foot : List Guard} {w w' w'' : World V}

theorem refl (foot : List Guard) (w : World V) : AgreeOn foot w w := ⟨rfl, fun g _ => by cases g.1 <;> rfl⟩
theorem symm (h : AgreeOn foot w w') : AgreeOn foot w' w := ⟨h.1.symm, fun g hg => SameAt.symm' (h.2 g hg)⟩
theorem trans (h : AgreeOn foot w w') (h' : AgreeOn foot w' w'') : AgreeOn foot w w'' :=
  ⟨h.1.trans h'.1, fun g hg => SameAt.trans' (h.2 g hg) (h'.2 g hg)⟩
theorem twin (h : AgreeOn foot w w') : Twin w w' foot := ⟨h.1, h.2⟩
theorem _root_.Xecs.Twin.agree (h : Twin w w' foot) : AgreeOn foot w w' := ⟨h.1, h.2⟩

end AgreeOn

namespace Stm
variable {α : Type} {foot : List Guard}

/-- Worlds that agree on the footprint are all the same to a piece of work. -/
theorem Within.agree {m : Stm (World V) α} : ∀ {w w' : World V}, m.Within foot w → AgreeOn foot w w' →
    m.Within foot w' ∧ (m.run w).2 = (m.run w').2 ∧ AgreeOn foot (m.run w).1 (m.run w').1 := by
  induction m with
  | ret r => exact fun _ h => ⟨trivial, rfl, h⟩
  | step u k ih =>
    intro w w' hm ha
    obtain ⟨h1, h2⟩ := hm
    obtain ⟨e1, e2, -⟩ := h1 w' ha
    obtain ⟨i1, i2, i3⟩ := ih w h2 e2
    refine ⟨⟨fun w2 ha2 => ?_, ?_⟩, ?_⟩
    · obtain ⟨f1, f2, f3⟩ := h1 w2 (ha.trans ha2)
      exact ⟨e1.symm.trans f1, e2.symm.trans f2, f3⟩
    · rw [← e1]
      exact i1
    · show ((k w).run (u w)).2 = ((k w').run (u w')).2 ∧ AgreeOn foot ((k w).run (u w)).1 ((k w').run (u w')).1
      rw [← e1]
      exact ⟨i2, i3⟩

end Stm

namespace FSys
variable {cfg : Config} {impl : Act V → Stm (World V) (Ret V)} {may : Sys V → Nat → ApiCall V → Prop}

/-- Threads at work do not get in each other's way. -/
theorem no_clash {σ : Sys V} (hb : Basics cfg σ) {i j : Nat} (hij : i ≠ j) {a b : Act V} (ha : σ.AboutTo i a)
    (hj : σ.AboutTo j b) : ∀ g ∈ a.footprint cfg, ∀ g' ∈ b.footprint cfg, ¬ g.clash g' := by
  obtain ⟨thi, fi, hi, pi⟩ := ha.thread
  obtain ⟨thj, fj, hj, pj⟩ := hj.thread
  intro g hg g' hg' hc
  have key : ∀ (h1 h2 : Guard), h1 ∈ thi.held → h2 ∈ thj.held → h1.1 = h2.1 → (h1.2 = .mut ∨ h2.2 = .mut) → False :=
    fun h1 h2 m1 m2 e o => hb.excl.cross i j thi thj hi hj hij h1 m1 h2 m2 ⟨e, o⟩
  rcases hb.covers hi pi hg with c1 | c1 <;> rcases hb.covers hj pj hg' with c2 | c2
  · exact key g g' c1 c2 hc.1 hc.2
  · exact key g _ c1 c2 hc.1 (.inr rfl)
  · exact key _ g' c1 c2 hc.1 (.inl rfl)
  · exact key _ _ c1 c2 hc.1 (.inl rfl)

theorem about {σ : Sys V} {i : Nat} {th : Thread V} {a : Act V} {f : Ret V → Prog V} (hi : σ.threads[i]? = some th)
    (hp : th.prog = .act a f) : σ.AboutTo i a := by
  simp [Sys.AboutTo, hi, hp, Prog.work]

theorem about_inj {σ : Sys V} {i : Nat} {a b : Act V} (h : σ.AboutTo i a) (h' : σ.AboutTo i b) : a = b :=
  Option.some.inj (h.symm.trans h')

/-- How the world as it is and the bookkeeping are related. -/
structure Keyed (cfg : Config) (φ : FSys V) : Prop where
  shape : cfg.groups = φ.mem.groups.map Group.shape
  same : ∀ l, φ.Untouched cfg l → Sys.SameAt φ.mem φ.sys.world l
  rest : ∀ i m, φ.rest i = some m → ∃ a, φ.sys.AboutTo i a ∧ m.Within (a.footprint cfg) φ.mem ∧
    (m.run φ.mem).2 = (a.run φ.sys.world).2 ∧ AgreeOn (a.footprint cfg) (m.run φ.mem).1 (a.run φ.sys.world).1

theorem Keyed.init {w : World V} (h : cfg.groups = w.groups.map Group.shape) (n : Nat) : Keyed cfg (FSys.init w n) :=
  ⟨h, fun l _ => by cases l <;> rfl, fun _ _ h => by cases h⟩

/-- A step of a thread that does not work. -/
theorem Keyed.other {φ : FSys V} (hk : Keyed cfg φ) {i : Nat} (hi : φ.rest i = none) {σ : Sys V} (hw : σ.world = φ.sys.world)
    (ht : ∀ j, j ≠ i → σ.threads[j]? = φ.sys.threads[j]?) : Keyed cfg { φ with sys := σ } := by
  have hne : ∀ j m, φ.rest j = some m → j ≠ i := by
    rintro j m hm rfl
    rw [hi] at hm
    cases hm
  have hab : ∀ j a, j ≠ i → (σ.AboutTo j a ↔ φ.sys.AboutTo j a) := fun j a hj => by
    unfold Sys.AboutTo
    rw [ht j hj]
  refine ⟨hk.shape, fun l hl => ?_, fun j m hm => ?_⟩
  · show Sys.SameAt φ.mem σ.world l
    rw [hw]
    refine hk.same l fun j a hj => ?_
    obtain ⟨m, hm⟩ := Option.isSome_iff_exists.1 hj.2
    exact hl j a ⟨(hab j a (hne j m hm)).2 hj.1, hj.2⟩
  · obtain ⟨a, h1, h2⟩ := hk.rest j m hm
    refine ⟨a, (hab j a (hne j m hm)).2 h1, ?_⟩
    show _ ∧ (m.run φ.mem).2 = (a.run σ.world).2 ∧ AgreeOn _ (m.run φ.mem).1 (a.run σ.world).1
    rw [hw]
    exact h2

/-- A piece of work is over. -/
theorem Keyed.over {φ : FSys V} (hb : Basics cfg φ.sys) (hk : Keyed cfg φ) {i : Nat} {a : Act V} {r : R (Ret V)}
    (hr : φ.rest i = some (.ret r)) (ha : φ.sys.AboutTo i a) {σ : Sys V} (hw : σ.world = (a.run φ.sys.world).1)
    (ht : ∀ j, j ≠ i → σ.threads[j]? = φ.sys.threads[j]?) : Keyed cfg { φ.setRest i none with sys := σ } := by
  obtain ⟨b, b1, -, b3, b4⟩ := hk.rest i _ hr
  cases about_inj b1 ha
  have b4 : AgreeOn (a.footprint cfg) φ.mem (a.run φ.sys.world).1 := b4
  have hab : ∀ j a, j ≠ i → (σ.AboutTo j a ↔ φ.sys.AboutTo j a) := fun j a hj => by
    unfold Sys.AboutTo
    rw [ht j hj]
  have hf : Frame φ.sys.world (a.run φ.sys.world).1 (a.footprint cfg) :=
    run_frame hb.mat.groups (r := (a.run φ.sys.world).2) rfl
  refine ⟨hk.shape, fun l hl => ?_, fun j m hm => ?_⟩
  · show Sys.SameAt φ.mem σ.world l
    rw [hw]
    by_cases hm : (l, Mode.mut) ∈ a.footprint cfg
    · exact b4.2 _ hm
    · refine SameAt.trans' (hk.same l fun j c hj => ?_) (hf.sameAt hm)
      by_cases hji : j = i
      · subst hji
        cases about_inj hj.1 ha
        exact hm
      · exact hl j c ⟨(hab j c hji).2 hj.1, by simpa [FSys.setRest, hji] using hj.2⟩
  · have hji : j ≠ i := by
      rintro rfl
      simp [FSys.setRest] at hm
    have hm : φ.rest j = some m := by simpa [FSys.setRest, hji] using hm
    obtain ⟨c, h1, h2, h3, h4⟩ := hk.rest j m hm
    refine ⟨c, (hab j c hji).2 h1, h2, ?_⟩
    have hnc := no_clash hb hji h1 ha
    have ht : Twin φ.sys.world (a.run φ.sys.world).1 (c.footprint cfg) :=
      ⟨hf.shape.symm, fun g hg => hf.sameAt fun hm => hnc g hg _ hm ⟨rfl, .inr rfl⟩⟩
    obtain ⟨l1, l2⟩ := run_local hb.mat.groups ht
    show (m.run φ.mem).2 = (c.run σ.world).2 ∧ AgreeOn _ (m.run φ.mem).1 (c.run σ.world).1
    rw [hw]
    exact ⟨h3.trans l1, h4.trans l2.agree⟩

/-- One step: the bookkeeping makes at most one step, and stays right. -/
theorem Keyed.step (hi : Splits cfg impl) {φ φ' : FSys V} (hb : Basics cfg φ.sys) (hk : Keyed cfg φ)
    (hs : φ.Step cfg impl may φ') : (φ'.sys = φ.sys ∨ φ.sys.Step cfg may φ'.sys) ∧ Keyed cfg φ' := by
  have notat : ∀ {i : Nat} {th : Thread V}, φ.sys.threads[i]? = some th → (∀ a f, th.prog ≠ .act a f) →
      φ.rest i = none := by
    intro i th h1 h2
    cases hr : φ.rest i with
    | none => rfl
    | some m =>
      obtain ⟨a, h3, -⟩ := hk.rest i m hr
      obtain ⟨th', f, h4, h5⟩ := h3.thread
      rw [h1] at h4
      cases h4
      exact absurd h5 (h2 a f)
  cases hs with
  | @start i th c h1 h2 h3 =>
    refine ⟨.inr (.start h1 h2 h3), hk.other (i := i) (notat h1 fun a f h => ?_) rfl fun j hj => ?_⟩
    · rw [hb.idle th (List.mem_of_getElem? h1) h2] at h
      cases h
    · simp [Sys.setThread, List.getElem?_set_ne (Ne.symm hj)]
  | @acq i th l m p h1 h2 h3 =>
    refine ⟨.inr (.acq h1 h2 h3), hk.other (i := i) (notat h1 fun a f h => ?_) rfl fun j hj => ?_⟩
    · rw [h2] at h; cases h
    · simp [Sys.setThread, List.getElem?_set_ne (Ne.symm hj)]
  | @rel i th l m p h1 h2 =>
    refine ⟨.inr (.rel h1 h2), hk.other (i := i) (notat h1 fun a f h => ?_) rfl fun j hj => ?_⟩
    · rw [h2] at h; cases h
    · simp [Sys.setThread, List.getElem?_set_ne (Ne.symm hj)]
  | @panic i th c h1 h2 h3 =>
    refine ⟨.inr (.panic h1 h2 h3), hk.other (i := i) (notat h1 fun a f h => ?_) rfl fun j hj => ?_⟩
    · rw [h2] at h; cases h
    · simp [Sys.finish, Sys.setThread, List.getElem?_set_ne (Ne.symm hj)]
  | @ret i th c rs h1 h2 h3 =>
    refine ⟨.inr (.ret h1 h2 h3), hk.other (i := i) (notat h1 fun a f h => ?_) rfl fun j hj => ?_⟩
    · rw [h2] at h; cases h
    · simp [Sys.finish, Sys.setThread, List.getElem?_set_ne (Ne.symm hj)]
  | @begin i th a f h1 h2 h3 =>
    refine ⟨.inl rfl, hk.shape, fun l hl => hk.same l fun j b hj => ?_, fun j m hm => ?_⟩
    · refine hl j b ⟨hj.1, ?_⟩
      have : (φ.rest j).isSome = true := hj.2
      by_cases hji : j = i <;> simp [FSys.setRest, hji, this]
    · by_cases hji : j = i
      · subst hji
        have hm : impl a = m := by simpa [FSys.setRest] using hm
        subst hm
        obtain ⟨e1, e2⟩ := hi a φ.mem hk.shape
        have ha : φ.sys.AboutTo j a := about h1 h2
        have hag : AgreeOn (a.footprint cfg) φ.mem φ.sys.world := by
          refine ⟨hk.shape.symm.trans hb.mat.groups, fun g hg => hk.same _ fun i' b hib hm => ?_⟩
          have hne : j ≠ i' := by
            rintro rfl
            have := hib.2
            rw [h3] at this
            cases this
          exact no_clash hb hne ha hib.1 g hg _ hm ⟨rfl, .inr rfl⟩
        obtain ⟨l1, l2⟩ := run_local hk.shape hag.twin
        refine ⟨a, ha, e2, ?_⟩
        show ((impl a).run φ.mem).2 = _ ∧ AgreeOn _ ((impl a).run φ.mem).1 _
        rw [e1]
        exact ⟨l1, l2.agree⟩
      · exact hk.rest j m (by simpa [FSys.setRest, hji] using hm)
  | @work i u k h1 =>
    obtain ⟨a, a1, a2, a3, a4⟩ := hk.rest i _ h1
    obtain ⟨-, a5, a6, a7⟩ := a2.1 φ.mem (.refl _ _)
    refine ⟨.inl rfl, hk.shape.trans a6, fun l hl => ?_, fun j m hm => ?_⟩
    · have hli : (l, Mode.mut) ∉ a.footprint cfg := hl i a ⟨a1, by simp [FSys.setRest]⟩
      refine SameAt.trans' (SameAt.symm' (a7 l hli)) (hk.same l fun j b hj => hl j b ⟨hj.1, ?_⟩)
      have : (φ.rest j).isSome = true := hj.2
      by_cases hji : j = i <;> simp [FSys.setRest, hji, this]
    · by_cases hji : j = i
      · subst hji
        have hm : k φ.mem = m := by simpa [FSys.setRest] using hm
        subst hm
        exact ⟨a, a1, a2.2, a3, a4⟩
      · have hm : φ.rest j = some m := by simpa [FSys.setRest, hji] using hm
        obtain ⟨b, b1, b2, b3, b4⟩ := hk.rest j m hm
        have hag : AgreeOn (b.footprint cfg) φ.mem (u φ.mem) :=
          ⟨a6, fun g hg => a7 _ fun hm => no_clash hb hji b1 a1 g hg _ hm ⟨rfl, .inr rfl⟩⟩
        obtain ⟨c1, c2, c3⟩ := b2.agree hag
        exact ⟨b, b1, c1, c2.symm.trans b3, c3.symm.trans b4⟩
  | @done i th a f r h1 h2 h3 =>
    obtain ⟨b, b1, -, b3, -⟩ := hk.rest i _ h1
    cases about_inj b1 (about h2 h3)
    refine ⟨.inr (.act h2 h3 (Prod.ext rfl b3.symm)), hk.over hb h1 (about h2 h3) rfl fun j hj => ?_⟩
    simp [Sys.setThread, List.getElem?_set_ne (Ne.symm hj)]
  | @fault i th a f e c h1 h2 h3 h4 =>
    obtain ⟨b, b1, -, b3, -⟩ := hk.rest i _ h1
    cases about_inj b1 (about h2 h3)
    refine ⟨.inr (.fault h2 h3 (Prod.ext rfl b3.symm) h4), hk.over hb h1 (about h2 h3) rfl fun j hj => ?_⟩
    simp [Sys.finish, Sys.setThread, List.getElem?_set_ne (Ne.symm hj)]

/-- Any number of steps. -/
theorem reduction (hi : Splits cfg impl) {φ φ' : FSys V} (hb : Basics cfg φ.sys) (hk : Keyed cfg φ)
    (hs : φ.Sched cfg impl may φ') : φ.sys.Sched cfg may φ'.sys ∧ Keyed cfg φ' := by
  induction hs with
  | refl => exact ⟨.refl, hk⟩
  | step _ hs ih =>
    obtain ⟨h1, h2⟩ := ih
    obtain ⟨h3, h4⟩ := h2.step hi (hb.sched h1) hs
    refine ⟨?_, h4⟩
    rcases h3 with h3 | h3
    · rw [h3]
      exact h1
    · exact .step h1 h3

end FSys
end Xecs
