import Verif.Proofs.Trace
import Verif.Spec.Panics
/-
The specification panics exactly for the listed reasons.
-/
set_option autoImplicit false
namespace Xecs
open Spec World Hist
variable {V : Type}

theorem tag_owns (g : SGroup) (t : Nat) : groupOwns (tag g) t = g.owns t := by
  cases hk : g.kind <;> simp [groupOwns, tag, SGroup.owns, hk]

theorem step_panics_iff {tr : List (Op V × Out V)} {w : World V} {s : State V} (h : Run tr w s) {op : Op V}
    (ha : Allowed tr op) : s.step op = .panics ↔ Documented tr op ∨ Undocumented tr op := by
  obtain ⟨e1, e2, e3, e4, e5, e6⟩ := run_em h
  have hz : ∀ id, Usable id tr → ¬ (id = 0 ∨ s.zombie id = true) := by
    rintro id ⟨h0, h1⟩ (h | h)
    · exact h0 h
    · rw [State.zombie, e1, beq_iff_eq] at h; exact h1 h
  cases op with
  | register t =>
    simp only [State.step, Documented, Undocumented, or_false, ← run_registered h]
    cases s.comp t <;> simp
  | createEntity => simp only [State.step, Documented, Undocumented]; split <;> simp
  | createEntities n => simp [State.step, Documented, Undocumented]
  | removeEntity order x =>
    obtain ⟨hu, _, hsafe⟩ := ha
    simp only [State.step, Documented, Undocumented, or_false, State.needLive, e4]
    by_cases hl : s.live x = true
    · rw [if_pos hl, run_orderSafe h (hsafe (by rw [e4]; exact hl))]; simp [hl]
    · rw [if_neg hl, if_neg (hz x hu)]; simp [hl]
  | exist x =>
    simp only [State.step, Documented, Undocumented, false_or]
    rw [if_neg (hz x ha)]
    have hout := e3 x
    by_cases hl : s.live x = true
    · rw [if_pos hl]
      simp only [State.live, Bool.and_eq_true, decide_eq_true_eq] at hl
      simp [hout.2 hl.1]
    · rw [if_neg hl]
      by_cases hx : x < s.next
      · rw [if_pos hx]; simp [hout.2 ⟨Nat.pos_of_ne_zero ha.1, hx⟩]
      · rw [if_neg hx]
        have : ¬ handedOut x tr = true := fun hh => hx (hout.1 hh).2
        simpa using this
  | attach x u v =>
    simp only [State.step, Documented, Undocumented, or_false, State.needLive, e4, ← run_registered h]
    rw [if_neg (hz x ha)]
    cases hl : s.live x <;> cases hc : s.comp u <;> simp
  | detach x u =>
    simp only [State.step, Documented, Undocumented, State.needLive, e4, ← run_registered h, ← run_get h, ← run_hw h]
    rw [if_neg (hz x ha)]
    cases hl : s.live x
    · simp
    · cases hc : s.comp u with
      | none => simp
      | some f =>
        simp only [if_true, State.get, hc, Option.isSome_some]
        cases hf : f x with
        | some v => simp
        | none =>
          by_cases hx : x = s.hw u
          · simp [hx]
          · simp [hx]
  | attachBatch a b u vs =>
    obtain ⟨hab, hlive, hnone⟩ := ha
    simp only [State.step, Documented, Undocumented, or_false, ← run_registered h]
    have hall : (List.range' a (b - a)).all (fun x => s.live x) = true := by
      rw [List.all_eq_true]
      intro x hx
      rw [List.mem_range'_1] at hx
      have := hlive x hx.1 (by omega)
      rwa [e4] at this
    rw [if_pos ⟨hab, hall⟩]
    by_cases hlen : vs.length = b - a
    · rw [if_pos hlen]
      cases hf : s.comp u with
      | none => simp
      | some f =>
        have hn : (List.range' a (b - a)).all (fun x => (f x).isNone) = true := by
          rw [List.all_eq_true]
          intro x hx
          rw [List.mem_range'_1] at hx
          have := hnone hlen x hx.1 (by omega)
          rw [← run_get h] at this
          simpa [State.get, hf] using this
        simp only [if_pos hn]; simp [hlen]
    · rw [if_neg hlen]; simp [hlen]
  | makeGroup k a b =>
    obtain ⟨ra, rb, hk⟩ := ha
    rw [← run_registered h] at ra rb
    simp only [State.step, Documented, Undocumented, or_false]
    have hn : ∀ t, groupOwns (k, a, b) t = (SGroup.mk k a b (fun _ => false) false).owns t := by
      intro t; cases k <;> rfl
    have key : s.groups.any (fun g => (g.kind == k && g.a == a && g.b == b) ||
        (g.owns a && (SGroup.mk k a b (fun _ => false) false).owns a) ||
        (g.owns b && (SGroup.mk k a b (fun _ => false) false).owns b)) = true ↔
        ∃ g ∈ groupsMade tr, g = (k, a, b) ∨ ∃ t, groupOwns g t = true ∧ groupOwns (k, a, b) t = true := by
      rw [List.any_eq_true, ← run_tags h]
      constructor
      · rintro ⟨g, hg, hx⟩
        refine ⟨tag g, List.mem_map.2 ⟨g, hg, rfl⟩, ?_⟩
        simp only [Bool.or_eq_true, Bool.and_eq_true, beq_iff_eq] at hx
        rcases hx with (⟨⟨rfl, rfl⟩, rfl⟩ | ⟨h1, h2⟩) | ⟨h1, h2⟩
        · exact .inl rfl
        · exact .inr ⟨a, by rw [tag_owns]; exact h1, by rw [hn]; exact h2⟩
        · exact .inr ⟨b, by rw [tag_owns]; exact h1, by rw [hn]; exact h2⟩
      · rintro ⟨g', hg', hx⟩
        obtain ⟨g, hg, rfl⟩ := List.mem_map.1 hg'
        refine ⟨g, hg, ?_⟩
        simp only [Bool.or_eq_true, Bool.and_eq_true, beq_iff_eq]
        rcases hx with hx | ⟨t, h1, h2⟩
        · simp only [tag, Prod.mk.injEq] at hx; exact .inl (.inl ⟨⟨hx.1, hx.2.1⟩, hx.2.2⟩)
        · rw [tag_owns] at h1
          have ht : t = a ∨ t = b := by
            cases k <;> simp only [groupOwns, Bool.or_eq_true, beq_iff_eq] at h2
            · exact h2
            · exact .inl h2
            · cases h2
          rw [hn] at h2
          rcases ht with rfl | rfl
          · exact .inl (.inr ⟨h1, h2⟩)
          · exact .inr ⟨h1, h2⟩
    rw [← key]
    by_cases hany : s.groups.any (fun g => (g.kind == k && g.a == a && g.b == b) ||
        (g.owns a && (SGroup.mk k a b (fun _ => false) false).owns a) ||
        (g.owns b && (SGroup.mk k a b (fun _ => false) false).owns b)) = true
    · rw [if_pos hany]; simp [hany]
    · rw [if_neg hany, if_neg]
      · simp [hany]
      · rintro (h | h | ⟨h1, h2⟩)
        · simp [Option.isNone_iff_eq_none.1 h] at ra
        · simp [Option.isNone_iff_eq_none.1 h] at rb
        · exact hk h1 h2
  | read u x => simp [State.step, Documented, Undocumented]
  | write u x v =>
    simp only [State.step, Documented, Undocumented]
    repeat' split
    all_goals simp
  | count u => simp only [State.step, Documented, Undocumented]; split <;> simp
  | registerResource u v => simp [State.step, Documented, Undocumented]
  | resourceRead u => simp [State.step, Documented, Undocumented]
  | resourceWrite u v => simp only [State.step, Documented, Undocumented]; split <;> simp

end Xecs
