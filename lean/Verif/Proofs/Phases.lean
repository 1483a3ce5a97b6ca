import Verif.Proofs.Ghost
import Verif.Proofs.Told
import Verif.Proofs.ConsiderateStep
/-
A finished shared phase of considerate clients is as if the changes had been made one after the other: a sequential
history accompanies the phase, change by change; each entity nobody works on is in both in the same state.
-/
set_option autoImplicit false
namespace Xecs
open Spec World
variable {V : Type}

/-- The thread's call is a chain of operations on one entity. -/
def Thread.OnChain (th : Thread V) : Prop := (th.call.bind ApiCall.chain).isSome = true

/-- Entity `e` has the components `has` and is in the groups `mem`; after the accompanying sequential history it has
`ghas` and is in `gmem`. -/
structure Track (cfg : Config) (ths : List (Thread V)) (e : Nat) (has mem ghas gmem : Nat → Bool) : Prop where
  loose : (∀ (j : Nat) (th : Thread V), ths[j]? = some th → th.subject = some e → th.OnChain) → has = ghas ∧
    (∀ k, mem k = true → gmem k = true) ∧
    ∀ k, gmem k = true → mem k = true ∨ ∃ (j : Nat) (th : Thread V), ths[j]? = some th ∧ th.subject = some e ∧ th.prog.Debts cfg k e
  soft : ∀ (j : Nat) (th : Thread V), ths[j]? = some th → th.subject = some e → th.OnChain → ∃ A, th.prog.Adds cfg e A ∧
    ∀ (k : Nat) g, A k → cfg.groups[k]? = some g → has g.a = true → has g.b = true → gmem k = true
  hard : ∀ (j : Nat) (th : Thread V), ths[j]? = some th → th.subject = some e → ¬ th.OnChain →
    th.prog.Serial cfg e has mem ghas gmem

section
variable {cfg : Config} {ths ths' : List (Thread V)} {i e : Nat} {th th' : Thread V} {has mem ghas gmem : Nat → Bool}

/-- A thread that does not work on `e` moved. -/
theorem Track.other (h : Track cfg ths e has mem ghas gmem)
    (hth : ∀ (j : Nat), ths'[j]? = if j = i then some th' else ths[j]?) (hi : ths[i]? = some th)
    (h1 : th.subject ≠ some e) (h2 : th'.subject ≠ some e) : Track cfg ths' e has mem ghas gmem := by
  have back : ∀ (j : Nat) (t : Thread V), ths'[j]? = some t → t.subject = some e → ths[j]? = some t := by
    intro j t hj hs
    rw [hth] at hj
    by_cases hji : j = i
    · simp only [hji, if_true] at hj; cases hj; exact absurd hs h2
    · simpa only [hji, if_false] using hj
  have forth : ∀ (j : Nat) (t : Thread V), ths[j]? = some t → t.subject = some e → ths'[j]? = some t := by
    intro j t hj hs
    rw [hth]
    by_cases hji : j = i
    · subst hji; rw [hi] at hj; cases hj; exact absurd hs h1
    · simpa only [hji, if_false] using hj
  refine ⟨fun hall => ?_, fun j t hj hs => h.soft j t (back j t hj hs) hs, fun j t hj hs => h.hard j t (back j t hj hs) hs⟩
  obtain ⟨a1, a2, a3⟩ := h.loose fun j t hj hs => hall j t (forth j t hj hs) hs
  refine ⟨a1, a2, fun k hk => ?_⟩
  rcases a3 k hk with h4 | ⟨j, t, h4, h5, h6⟩
  · exact .inl h4
  · exact .inr ⟨j, t, forth j t h4 h5, h5, h6⟩

/-- Only a thread that may do anything with `e` works on it. -/
theorem Track.one (hth : ∀ (j : Nat), ths'[j]? = if j = i then some th' else ths[j]?)
    (hno : ∀ (j : Nat) (t : Thread V), j ≠ i → ths[j]? = some t → t.subject ≠ some e)
    (hsub : th'.subject = some e) (hns : ¬ th'.OnChain) (hs : th'.prog.Serial cfg e has mem ghas gmem) :
    Track cfg ths' e has mem ghas gmem := by
  have only : ∀ (j : Nat) (t : Thread V), ths'[j]? = some t → t.subject = some e → t = th' := by
    intro j t hj hs
    rw [hth] at hj
    by_cases hji : j = i
    · simp only [hji, if_true] at hj; cases hj; rfl
    · simp only [hji, if_false] at hj; exact absurd hs (hno j t hji hj)
  refine ⟨fun hall => ?_, ?_, ?_⟩
  · exact absurd (hall i th' (by rw [hth]; simp) hsub) hns
  · intro j t hj hs hsoft
    rw [only j t hj hs] at hsoft; exact absurd hsoft hns
  · intro j t hj hs' _
    rw [only j t hj hs']; exact hs

/-- Nobody works on `e` any more. -/
theorem Track.nobody (hth : ∀ (j : Nat), ths'[j]? = if j = i then some th' else ths[j]?)
    (hno : ∀ (j : Nat) (t : Thread V), j ≠ i → ths[j]? = some t → t.subject ≠ some e)
    (hsub : th'.subject ≠ some e) (h1 : has = ghas) (h2 : mem = gmem) : Track cfg ths' e has mem ghas gmem := by
  have nobody : ∀ (j : Nat) (t : Thread V), ths'[j]? = some t → t.subject ≠ some e := by
    intro j t hj
    rw [hth] at hj
    by_cases hji : j = i
    · simp only [hji, if_true] at hj; cases hj; exact hsub
    · simp only [hji, if_false] at hj; exact hno j t hji hj
  refine ⟨fun _ => ⟨h1, fun k hk => h2 ▸ hk, fun k hk => .inl (h2 ▸ hk)⟩, ?_, ?_⟩
  · intro j t hj hs; exact absurd hs (nobody j t hj)
  · intro j t hj hs; exact absurd hs (nobody j t hj)

/-- Only chains work on `e`; one of them did something. -/
theorem Track.shared {has' mem' ghas' gmem' : Nat → Bool} (h : Track cfg ths e has mem ghas gmem)
    (hth : ∀ (j : Nat), ths'[j]? = if j = i then some th' else ths[j]?) (hi : ths[i]? = some th)
    (hsoft : ∀ (j : Nat) (t : Thread V), ths[j]? = some t → t.subject = some e → t.OnChain)
    (hsub : th'.subject = some e) (hs' : th'.OnChain)
    (hhas : has = ghas → has' = ghas')
    (hin : (∀ k, mem k = true → gmem k = true) → ∀ k, mem' k = true → gmem' k = true)
    (hout : ∀ k, gmem' k = true → mem' k = true ∨ th'.prog.Debts cfg k e ∨
      (gmem k = true ∧ (mem k = true → mem' k = true) ∧ (th.prog.Debts cfg k e → mem' k = true ∨ th'.prog.Debts cfg k e)))
    (hgroup : ∀ (k : Nat) g, cfg.groups[k]? = some g → has' g.a = true → has' g.b = true →
      (has g.a = true ∧ has g.b = true ∧ (gmem k = true → gmem' k = true)) ∨ gmem' k = true)
    (hadds : ∃ A, th'.prog.Adds cfg e A ∧
      ∀ (k : Nat) g, A k → cfg.groups[k]? = some g → has' g.a = true → has' g.b = true → gmem' k = true) :
    Track cfg ths' e has' mem' ghas' gmem' := by
  have hnew : ths'[i]? = some th' := by rw [hth]; simp
  have keep : ∀ (j : Nat) (t : Thread V), j ≠ i → ths[j]? = some t → ths'[j]? = some t := by
    intro j t hji hj; rw [hth]; simp [hji, hj]
  have hall' : ∀ (j : Nat) (t : Thread V), ths'[j]? = some t → t.subject = some e → t.OnChain := by
    intro j t hj hs
    rw [hth] at hj
    by_cases hji : j = i
    · simp only [hji, if_true] at hj; cases hj; exact hs'
    · simp only [hji, if_false] at hj; exact hsoft j t hj hs
  obtain ⟨a1, a2, a3⟩ := h.loose hsoft
  refine ⟨fun _ => ⟨hhas a1, hin a2, fun k hk => ?_⟩, ?_, ?_⟩
  · rcases hout k hk with h4 | h4 | ⟨h4, h5, h6⟩
    · exact .inl h4
    · exact .inr ⟨i, th', hnew, hsub, h4⟩
    · rcases a3 k h4 with h7 | ⟨j, t, h7, h8, h9⟩
      · exact .inl (h5 h7)
      · by_cases hji : j = i
        · subst hji; rw [hi] at h7; cases h7
          rcases h6 h9 with h10 | h10
          · exact .inl h10
          · exact .inr ⟨j, th', hnew, hsub, h10⟩
        · exact .inr ⟨j, t, keep j t hji h7, h8, h9⟩
  · intro j t hj hs hsf
    by_cases hji : j = i
    · subst hji; rw [hnew] at hj; cases hj; exact hadds
    · rw [hth] at hj
      simp only [hji, if_false] at hj
      obtain ⟨A, b1, b2⟩ := h.soft j t hj hs hsf
      refine ⟨A, b1, fun k g hA hk ha hb => ?_⟩
      rcases hgroup k g hk ha hb with ⟨c1, c2, c3⟩ | c1
      · exact c3 (b2 k g hA hk c1 c2)
      · exact c1
  · intro j t hj hs hns; exact absurd (hall' j t hj hs) hns

/-- A chain on `e` has finished. -/
theorem Track.leave (h : Track cfg ths e has mem ghas gmem)
    (hth : ∀ (j : Nat), ths'[j]? = if j = i then some th' else ths[j]?) (hi : ths[i]? = some th)
    (hsoft : ∀ (j : Nat) (t : Thread V), ths[j]? = some t → t.subject = some e → t.OnChain)
    (hsub : th'.subject ≠ .some e) (ho : ∀ k, gmem k = true → ¬ th.prog.Debts cfg k e) : Track cfg ths' e has mem ghas gmem := by
  have old : ∀ (j : Nat) (t : Thread V), ths'[j]? = some t → t.subject = some e → ths[j]? = some t := by
    intro j t hj hs
    rw [hth] at hj
    by_cases hji : j = i
    · simp only [hji, if_true] at hj; cases hj; exact absurd hs hsub
    · simpa only [hji, if_false] using hj
  obtain ⟨a1, a2, a3⟩ := h.loose hsoft
  refine ⟨fun _ => ⟨a1, a2, fun k hk => ?_⟩, fun j t hj hs => h.soft j t (old j t hj hs) hs,
    fun j t hj hs => h.hard j t (old j t hj hs) hs⟩
  rcases a3 k hk with h4 | ⟨j, t, h4, h5, h6⟩
  · exact .inl h4
  · by_cases hji : j = i
    · subst hji; rw [hi] at h4; cases h4; exact absurd h6 (ho k hk)
    · exact .inr ⟨j, t, by rw [hth]; simp [hji, h4], h5, h6⟩

/-- A chain joins those that work on `e`. -/
theorem Track.enter (h : Track cfg ths e has mem ghas gmem)
    (hth : ∀ (j : Nat), ths'[j]? = if j = i then some th' else ths[j]?) (hi : ths[i]? = some th)
    (hsoft : ∀ (j : Nat) (t : Thread V), ths[j]? = some t → t.subject = some e → t.OnChain)
    (h1 : th.subject ≠ .some e) (hs' : th'.OnChain)
    (hadds : th'.prog.Adds cfg e fun _ => False) : Track cfg ths' e has mem ghas gmem := by
  have old : ∀ (j : Nat) (t : Thread V), ths'[j]? = some t → t = th' ∨ ths[j]? = some t := by
    intro j t hj
    rw [hth] at hj
    by_cases hji : j = i
    · simp only [hji, if_true] at hj; cases hj; exact .inl rfl
    · exact .inr (by simpa only [hji, if_false] using hj)
  obtain ⟨a1, a2, a3⟩ := h.loose hsoft
  refine ⟨fun _ => ⟨a1, a2, fun k hk => ?_⟩, fun j t hj hs hsf => ?_, fun j t hj hs hns => ?_⟩
  · rcases a3 k hk with h4 | ⟨j, t, h4, h5, h6⟩
    · exact .inl h4
    · have hji : j ≠ i := by rintro rfl; rw [hi] at h4; cases h4; exact h1 h5
      exact .inr ⟨j, t, by rw [hth]; simp [hji, h4], h5, h6⟩
  · rcases old j t hj with rfl | h4
    · exact ⟨_, hadds, fun k g hA => False.elim hA⟩
    · exact h.soft j t h4 hs hsf
  · rcases old j t hj with rfl | h4
    · exact absurd hs' hns
    · exact h.hard j t h4 hs hns

/-- A thread moved on, without consequences for `e`. -/
theorem Track.on (h : Track cfg ths e has mem ghas gmem)
    (hth : ∀ (j : Nat), ths'[j]? = if j = i then some th' else ths[j]?) (hi : ths[i]? = some th)
    (hsub : th'.subject = th.subject) (hcall : th'.call = th.call)
    (ho : ∀ k, th.subject = some e → th.prog.Debts cfg k e → th'.prog.Debts cfg k e)
    (ha : ∀ A, th.subject = some e → th.OnChain → th.prog.Adds cfg e A → th'.prog.Adds cfg e A)
    (hs : th.subject = some e → ¬ th.OnChain → th.prog.Serial cfg e has mem ghas gmem → th'.prog.Serial cfg e has mem ghas gmem) :
    Track cfg ths' e has mem ghas gmem := by
  have hsf : th'.OnChain ↔ th.OnChain := by simp only [Thread.OnChain, hcall]
  have old : ∀ (j : Nat) (t : Thread V), ths'[j]? = some t → (j = i ∧ t = th') ∨ ths[j]? = some t := by
    intro j t hj
    rw [hth] at hj
    by_cases hji : j = i
    · simp only [hji, if_true] at hj; cases hj; exact .inl ⟨hji, rfl⟩
    · exact .inr (by simpa only [hji, if_false] using hj)
  have hnew : ths'[i]? = some th' := by rw [hth]; simp
  refine ⟨fun hall => ?_, fun j t hj h1 h2 => ?_, fun j t hj h1 h2 => ?_⟩
  · obtain ⟨a1, a2, a3⟩ := h.loose (by
      intro j t hj h1
      by_cases hji : j = i
      · subst hji; rw [hi] at hj; cases hj
        exact hsf.1 (hall j th' hnew (by rw [hsub]; exact h1))
      · exact hall j t (by rw [hth]; simp [hji, hj]) h1)
    refine ⟨a1, a2, fun k hk => ?_⟩
    rcases a3 k hk with h4 | ⟨j, t, h4, h5, h6⟩
    · exact .inl h4
    · by_cases hji : j = i
      · subst hji; rw [hi] at h4; cases h4
        exact .inr ⟨j, th', hnew, by rw [hsub]; exact h5, ho k h5 h6⟩
      · exact .inr ⟨j, t, by rw [hth]; simp [hji, h4], h5, h6⟩
  · rcases old j t hj with ⟨rfl, rfl⟩ | h4
    · rw [hsub] at h1
      obtain ⟨A, b1, b2⟩ := h.soft j th hi h1 (hsf.1 h2)
      exact ⟨A, ha A h1 (hsf.1 h2) b1, b2⟩
    · exact h.soft j t h4 h1 h2
  · rcases old j t hj with ⟨rfl, rfl⟩ | h4
    · rw [hsub] at h1
      have h3 : ¬ th.OnChain := fun h => h2 (hsf.2 h)
      exact hs h1 h3 (h.hard j th hi h1 h3)
    · exact h.hard j t h4 h1 h2

end

/-- The world is in the state `s`; the accompanying sequential history has led to `g`. -/
structure Echo (cfg : Config) (s g : State V) (σ : Sys V) : Prop where
  base : Base s g
  shapes : cfg.groups = g.groups.map SGroup.shape
  vals : ∀ t e, s.has t e = true → g.get t e = s.get t e
  ent : ∀ e, Track cfg σ.threads e (fun t => s.has t e) (fun k => memAt s k e) (fun t => g.has t e) (fun k => memAt g k e)
  opn : ∀ (i : Nat) th, σ.threads[i]? = some th → th.subject = none → th.prog.Open cfg

/-- The sequential history follows a change. -/
def Follows (cfg : Config) (g : State V) : Option (Op V × Out V) → State V → Prop
  | none, g' => g' = g
  | some (op, o), g' => Legal cfg g op ∧ g.step op = .ok g' o

section
variable {cfg : Config} {T : Nat → Prop}

theorem Echo.has {s g : State V} {σ : Sys V} (h : Echo cfg s g σ) {t e : Nat} (hh : s.has t e = true) : g.has t e = true := by
  simp only [State.has, h.vals t e hh]; exact hh

theorem Echo.congr {s s' g : State V} {σ : Sys V} (h : Echo cfg s g σ) (hs : s.unfresh = s'.unfresh) : Echo cfg s' g σ := by
  obtain ⟨h1, h2, h3, h4, h5, _⟩ := unfresh_fields hs
  have hget : ∀ t e, s'.get t e = s.get t e := by intro t e; simp only [State.get, h3]
  have hhas : ∀ t e, s'.has t e = s.has t e := by intro t e; simp only [State.has, hget]
  have hmem : ∀ k e, memAt s' k e = memAt s k e := by intro k e; rw [← unfresh_mem, ← hs, unfresh_mem]
  refine ⟨⟨h.base.next.trans h1, h.base.free.trans h2, h.base.res.trans h5, fun t => by rw [h.base.dom, h3], h.base.hw.trans h4⟩,
    h.shapes, fun t e hh => ?_, fun e => ?_, h.opn⟩
  · rw [hget]; exact h.vals t e (by rw [← hhas]; exact hh)
  · have := h.ent e
    simp only [hhas, hmem]; exact this

/-- Nobody works on an entity that is not alive. -/
theorem Pact.alive {s : State V} {σ : Sys V} (h : Pact cfg T s σ) {e j : Nat} {t : Thread V}
    (hj : σ.threads[j]? = some t) (hs : t.subject = some e) : s.live e = true := by
  have := h.ok j t hj
  unfold Placed at this
  rw [hs] at this; exact this.1

theorem Pact.call_of {s : State V} {σ : Sys V} (h : Pact cfg T s σ) {e j : Nat} {t : Thread V}
    (hj : σ.threads[j]? = some t) (hs : t.subject = some e) : ∃ c, t.call = some c := by
  have := h.ok j t hj
  unfold Placed at this
  rw [hs] at this
  obtain ⟨_, c, h1, _⟩ := this
  exact ⟨c, h1⟩

/-- The threads working on the same entity as a chain perform chains, too. -/
theorem Pact.chains {s : State V} {σ : Sys V} (h : Pact cfg T s σ) {i e : Nat} {th : Thread V}
    (hi : σ.threads[i]? = some th) (hs : th.subject = some e) (hc : th.OnChain) (j : Nat) (t : Thread V)
    (hj : σ.threads[j]? = some t) (ht : t.subject = some e) : t.OnChain := by
  by_cases hji : j = i
  · subst hji; rw [hi] at hj; cases hj; exact hc
  · obtain ⟨c, c', ops, ops', _, h2, _, h4, _⟩ := h.apart i j th t e (fun h => hji h.symm) hi hj hs ht
    simp [Thread.OnChain, h2, h4]

/-- A thread that does anything else with an entity is the only one working on it. -/
theorem Pact.sole {s : State V} {σ : Sys V} (h : Pact cfg T s σ) {i e : Nat} {th : Thread V}
    (hi : σ.threads[i]? = some th) (hs : th.subject = some e) (hc : ¬ th.OnChain) (j : Nat) (t : Thread V) (hji : j ≠ i)
    (hj : σ.threads[j]? = some t) : t.subject ≠ some e := by
  intro ht
  obtain ⟨c, c', ops, ops', h1, _, h3, _, _⟩ := h.apart i j th t e (fun h => hji h.symm) hi hj hs ht
  exact hc (by simp [Thread.OnChain, h1, h3])

theorem Echo.free {s g : State V} {σ : Sys V} (h : Echo cfg s g σ) {e : Nat}
    (hno : ∀ (j : Nat) (t : Thread V), σ.threads[j]? = some t → t.subject ≠ some e) :
    (∀ t, g.has t e = s.has t e) ∧ ∀ k, memAt g k e = memAt s k e := by
  obtain ⟨h1, h2, h3⟩ := (h.ent e).loose fun j t hj hs => absurd hs (hno j t hj)
  refine ⟨fun t => (congrFun h1 t).symm, fun k => ?_⟩
  rw [Bool.eq_iff_iff]
  refine ⟨fun hk => ?_, h2 k⟩
  rcases h3 k hk with h4 | ⟨j, t, h4, h5, _⟩
  · exact h4
  · exact absurd h5 (hno j t h4)

end
end Xecs
