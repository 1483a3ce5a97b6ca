import Verif.Proofs.Calm
import Verif.Proofs.Frame
import Verif.Proofs.Session
/-
The loops of the query iterators terminate, in every world.
-/
set_option autoImplicit false
namespace Xecs
namespace Plan
variable {V : Type} {w : World V}

theorem calm_setOf (t : Nat) : Calm (setOf w t) := calm_bind calm_unwrapR fun _ _ => calm_ok _

theorem calm_groupSetOf (pos : Nat) : Calm (groupSetOf w pos) := by
  unfold groupSetOf
  refine calm_bind calm_getR fun g _ => ?_
  cases g with
  | non => exact calm_ok _
  | full => exact calm_panic
  | part => exact calm_panic

theorem calm_refOf {s : SparseSet V} {t : Nat} {m : Mode} {id : Nat} : Calm (refOf s t m id) := by
  unfold refOf
  split
  · exact calm_bind calm_getR fun _ _ => calm_ok _
  · exact calm_ok _

theorem calm_refAt {s : SparseSet V} {t : Nat} {m : Mode} {i : Nat} : Calm (refAt s t m i) :=
  calm_bind calm_getU fun _ _ => calm_ok _

theorem calm_refBoth {ma mb : Mode} {a b id : Nat} : Calm (refBoth w ma mb a b id) := by
  unfold refBoth
  refine calm_bind (calm_setOf a) fun A _ => calm_bind (calm_setOf b) fun B _ => calm_bind calm_refOf fun x _ => ?_
  split
  · refine calm_bind calm_refOf fun y _ => ?_
    split <;> exact calm_ok _
  · exact calm_ok _

theorem calm_fromId (p : Plan) : ∀ id, Calm (p.fromId w id) := by
  induction p with
  | comp m t => exact fun id => calm_bind (calm_setOf t) fun _ _ => calm_refOf
  | with2 a b iha ihb =>
    intro id
    simp only [fromId]
    refine calm_bind (iha id) fun x _ => ?_
    cases x with
    | none => exact calm_ok _
    | some x =>
      refine calm_bind (ihb id) fun y _ => ?_
      cases y <;> exact calm_ok _
  | with3 a b c iha ihb ihc =>
    intro id
    simp only [fromId]
    refine calm_bind (iha id) fun x _ => ?_
    cases x with
    | none => exact calm_ok _
    | some x =>
      refine calm_bind (ihb id) fun y _ => ?_
      cases y with
      | none => exact calm_ok _
      | some y =>
        refine calm_bind (ihc id) fun y _ => ?_
        cases y <;> exact calm_ok _
  | with4 a b c d iha ihb ihc ihd =>
    intro id
    simp only [fromId]
    refine calm_bind (iha id) fun x _ => ?_
    cases x with
    | none => exact calm_ok _
    | some x =>
      refine calm_bind (ihb id) fun y _ => ?_
      cases y with
      | none => exact calm_ok _
      | some y =>
        refine calm_bind (ihc id) fun y _ => ?_
        cases y with
        | none => exact calm_ok _
        | some y =>
          refine calm_bind (ihd id) fun y _ => ?_
          cases y <;> exact calm_ok _
  | with5 a b c d e iha ihb ihc ihd ihe =>
    intro id
    simp only [fromId]
    refine calm_bind (iha id) fun x _ => ?_
    cases x with
    | none => exact calm_ok _
    | some x =>
      refine calm_bind (ihb id) fun y _ => ?_
      cases y with
      | none => exact calm_ok _
      | some y =>
        refine calm_bind (ihc id) fun y _ => ?_
        cases y with
        | none => exact calm_ok _
        | some y =>
          refine calm_bind (ihd id) fun y _ => ?_
          cases y with
          | none => exact calm_ok _
          | some y =>
            refine calm_bind (ihe id) fun y _ => ?_
            cases y <;> exact calm_ok _
  | withoutL a b iha ihb =>
    intro id
    simp only [fromId]
    refine calm_bind (iha id) fun x _ => ?_
    cases x with
    | none => exact ihb id
    | some x => exact calm_ok _
  | withoutR a b iha ihb =>
    intro id
    simp only [fromId]
    refine calm_bind (ihb id) fun x _ => ?_
    cases x with
    | none => exact iha id
    | some x => exact calm_ok _
  | full l ma mb a b => exact fun id => calm_refBoth
  | part l ma mb a b => exact fun id => calm_refBoth
  | non pos ma mb a b =>
    intro id
    simp only [fromId]
    refine calm_bind (calm_groupSetOf pos) fun G _ => calm_bind (calm_setOf a) fun A _ => calm_bind (calm_setOf b) fun B _ =>
      calm_bind SparseSet.calm_get fun x _ => ?_
    cases x with
    | none => exact calm_ok _
    | some x => exact calm_bind calm_refAt fun _ _ => calm_bind calm_refAt fun _ _ => calm_ok _

/-- A step of an iterator: it does not hang, and after an item fewer are left. -/
def Advances (rem : Nat → Nat) (next : Nat → R (Option (EntityId × Item Loc) × Nat)) : Prop :=
  ∀ i, Calm (next i) ∧ (∀ x i', next i = .ok (some x, i') → rem i' < rem i) ∧ ∀ i', next i = .ok (none, i') → rem i' ≤ rem i

theorem drive_advances {rem : Nat → Nat} {next : Nat → R (Option (EntityId × Item Loc) × Nat)}
    {keep : EntityId → Item Loc → R (Option (Item Loc))} (h : Advances rem next) (hk : ∀ id x, Calm (keep id x)) :
    ∀ fuel i, rem i < fuel → Calm (drive next keep fuel i) ∧
      (∀ x i', drive next keep fuel i = .ok (some x, i') → rem i' < rem i) ∧
      ∀ i', drive next keep fuel i = .ok (none, i') → rem i' ≤ rem i := by
  intro fuel
  induction fuel with
  | zero => intro i hi; omega
  | succ fuel ih =>
    intro i hi
    obtain ⟨h1, h2, h2'⟩ := h i
    unfold drive
    cases hn : next i with
    | error e =>
      rw [hn] at h1
      refine ⟨fun h => h1 ?_, fun x i' h => (by cases h), fun i' h => by cases h⟩
      have : e = .deadlock := by simpa using h
      rw [this]
    | ok r =>
      obtain ⟨o, i1⟩ := r
      simp only [ok_bind]
      cases o with
      | none => exact ⟨calm_ok _, fun x i' h => (by cases h), fun i' h => by cases h; exact h2' _ hn⟩
      | some y =>
        obtain ⟨id, x⟩ := y
        have hlt := h2 (id, x) i1 hn
        have hk' := hk id x
        dsimp only
        cases hkx : keep id x with
        | error e =>
          rw [hkx] at hk'
          refine ⟨fun h => hk' ?_, fun x i' h => (by cases h), fun i' h => by cases h⟩
          have : e = .deadlock := by simpa using h
          rw [this]
        | ok o =>
          simp only [ok_bind]
          cases o with
          | some z =>
            refine ⟨calm_ok _, fun x' i' h => ?_, fun i' h => by cases h⟩
            simp only [Except.ok.injEq, Prod.mk.injEq] at h
            rw [← h.2]
            exact hlt
          | none =>
            obtain ⟨h3, h4, h5⟩ := ih i1 (by omega)
            exact ⟨h3, fun x' i' h => Nat.lt_trans (h4 x' i' h) hlt, fun i' h => by have := h5 i' h; omega⟩

/-- The bound in the model's loops is never hit: in every world, from every position, `next_with_id` of every
iterator ends, and after each item fewer are left. -/
theorem nextWithId_fuel (p : Plan) : Advances (p.remaining w) (p.nextWithId w) := by
  induction p with
  | comp m t =>
    intro i
    simp only [nextWithId]
    refine ⟨?_, ?_, ?_⟩
    · refine calm_bind (calm_setOf t) fun s _ => ?_
      split
      · exact calm_bind calm_getU fun _ _ => calm_bind calm_refAt fun _ _ => calm_ok _
      · exact calm_ok _
    · intro x i' h
      simp only [bind_eq_ok] at h
      obtain ⟨s, hs, h⟩ := h
      split at h
      · simp only [bind_eq_ok] at h
        obtain ⟨_, _, _, _, h⟩ := h
        simp only [Except.ok.injEq, Prod.mk.injEq] at h
        simp only [setOf, bind_eq_ok] at hs
        obtain ⟨st, hst, hs⟩ := hs
        cases hc : w.comps t with
        | none => rw [hc] at hst; cases hst
        | some st' =>
          rw [hc, unwrapR_some] at hst
          simp only [Except.ok.injEq] at hst hs
          subst hst hs
          rw [← h.2]
          simp only [remaining, hc]
          omega
      · cases h
    · intro i' h
      simp only [bind_eq_ok] at h
      obtain ⟨_, _, h⟩ := h
      split at h
      · simp only [bind_eq_ok] at h
        repeat (obtain ⟨_, _, h⟩ := h)
      · cases h; exact Nat.le_refl _
  | with2 a b iha ihb =>
    intro i
    simp only [nextWithId]
    refine drive_advances iha (fun id x => ?_) _ i (by omega)
    refine calm_bind (calm_fromId b id) fun y _ => ?_
    cases y <;> exact calm_ok _
  | with3 a b c iha ihb ihc =>
    intro i
    simp only [nextWithId]
    refine drive_advances iha (fun id x => ?_) _ i (by omega)
    refine calm_bind (calm_fromId b id) fun y _ => ?_
    cases y with
    | none => exact calm_ok _
    | some y =>
      refine calm_bind (calm_fromId c id) fun y _ => ?_
      cases y <;> exact calm_ok _
  | with4 a b c d iha ihb ihc ihd =>
    intro i
    simp only [nextWithId]
    refine drive_advances iha (fun id x => ?_) _ i (by omega)
    refine calm_bind (calm_fromId b id) fun y _ => ?_
    cases y with
    | none => exact calm_ok _
    | some y =>
      refine calm_bind (calm_fromId c id) fun y _ => ?_
      cases y with
      | none => exact calm_ok _
      | some y =>
        refine calm_bind (calm_fromId d id) fun y _ => ?_
        cases y <;> exact calm_ok _
  | with5 a b c d e iha ihb ihc ihd ihe =>
    intro i
    simp only [nextWithId]
    refine drive_advances iha (fun id x => ?_) _ i (by omega)
    refine calm_bind (calm_fromId b id) fun y _ => ?_
    cases y with
    | none => exact calm_ok _
    | some y =>
      refine calm_bind (calm_fromId c id) fun y _ => ?_
      cases y with
      | none => exact calm_ok _
      | some y =>
        refine calm_bind (calm_fromId d id) fun y _ => ?_
        cases y with
        | none => exact calm_ok _
        | some y =>
          refine calm_bind (calm_fromId e id) fun y _ => ?_
          cases y <;> exact calm_ok _
  | withoutL a b iha ihb =>
    intro i
    simp only [nextWithId]
    refine drive_advances ihb (fun id x => ?_) _ i (by omega)
    refine calm_bind (calm_fromId a id) fun y _ => ?_
    cases y <;> exact calm_ok _
  | withoutR a b iha ihb =>
    intro i
    simp only [nextWithId]
    refine drive_advances iha (fun id x => ?_) _ i (by omega)
    refine calm_bind (calm_fromId b id) fun y _ => ?_
    cases y <;> exact calm_ok _
  | full l ma mb a b =>
    intro i
    simp only [nextWithId]
    split
    · refine ⟨?_, ?_, ?_⟩
      · exact calm_bind (calm_setOf a) fun _ _ => calm_bind (calm_setOf b) fun _ _ => calm_bind calm_getU fun _ _ =>
          calm_bind calm_refAt fun _ _ => calm_bind calm_refAt fun _ _ => calm_ok _
      · intro x i' h
        simp only [bind_eq_ok] at h
        obtain ⟨_, _, _, _, _, _, _, _, _, _, h⟩ := h
        simp only [Except.ok.injEq, Prod.mk.injEq] at h
        rw [← h.2]
        simp only [remaining]
        omega
      · intro i' h
        simp only [bind_eq_ok] at h
        repeat (obtain ⟨_, _, h⟩ := h)
    · exact ⟨calm_ok _, fun x i' h => (by cases h), fun i' h => by cases h; exact Nat.le_refl _⟩
  | part l ma mb a b =>
    intro i
    simp only [nextWithId]
    split
    · refine ⟨?_, ?_, ?_⟩
      · exact calm_bind (calm_setOf a) fun _ _ => calm_bind (calm_setOf b) fun _ _ => calm_bind calm_getU fun _ _ =>
          calm_bind calm_refAt fun _ _ => calm_bind calm_refOf fun _ _ => calm_bind calm_unwrapR fun _ _ => calm_ok _
      · intro x i' h
        simp only [bind_eq_ok] at h
        obtain ⟨_, _, _, _, _, _, _, _, _, _, _, _, h⟩ := h
        simp only [Except.ok.injEq, Prod.mk.injEq] at h
        rw [← h.2]
        simp only [remaining]
        omega
      · intro i' h
        simp only [bind_eq_ok] at h
        repeat (obtain ⟨_, _, h⟩ := h)
    · exact ⟨calm_ok _, fun x i' h => (by cases h), fun i' h => by cases h; exact Nat.le_refl _⟩
  | non pos ma mb a b =>
    intro i
    simp only [nextWithId]
    refine ⟨?_, ?_, ?_⟩
    · refine calm_bind (calm_groupSetOf pos) fun G _ => ?_
      split
      · exact calm_bind calm_getU fun _ _ => calm_bind calm_getU fun _ _ => calm_bind (calm_setOf a) fun _ _ =>
          calm_bind (calm_setOf b) fun _ _ => calm_bind calm_refAt fun _ _ => calm_bind calm_refAt fun _ _ => calm_ok _
      · exact calm_ok _
    · intro x i' h
      simp only [bind_eq_ok] at h
      obtain ⟨G, hG, h⟩ := h
      split at h
      · simp only [bind_eq_ok] at h
        obtain ⟨_, _, _, _, _, _, _, _, _, _, _, _, h⟩ := h
        simp only [Except.ok.injEq, Prod.mk.injEq] at h
        rw [← h.2]
        simp only [groupSetOf, bind_eq_ok] at hG
        obtain ⟨g, hg, hG⟩ := hG
        have hg : w.groups[pos]? = some g := by
          unfold getR at hg
          cases hl : w.groups[pos]? with
          | none => simp [hl] at hg
          | some b => simp [hl] at hg; rw [hg]
        cases g with
        | non s a b =>
          simp only [Except.ok.injEq] at hG
          subst hG
          simp only [remaining, hg]
          omega
        | full => cases hG
        | part => cases hG
      · cases h
    · intro i' h
      simp only [bind_eq_ok] at h
      obtain ⟨_, _, h⟩ := h
      split at h
      · simp only [bind_eq_ok] at h
        repeat (obtain ⟨_, _, h⟩ := h)
      · cases h; exact Nat.le_refl _

theorem calm_collectFrom (p : Plan) : ∀ fuel i, p.remaining w i < fuel → Calm (p.collectFrom w fuel i) := by
  intro fuel
  induction fuel with
  | zero => intro i hi; omega
  | succ fuel ih =>
    intro i hi
    obtain ⟨h1, h2, -⟩ := nextWithId_fuel (w := w) p i
    unfold collectFrom
    refine calm_bind h1 fun r hr => ?_
    obtain ⟨o, i'⟩ := r
    cases o with
    | none => exact calm_ok _
    | some x =>
      have := h2 x i' hr
      exact calm_bind (ih i' (by omega)) fun _ _ => calm_ok _

/-- `next` of every iterator ends as well. -/
theorem next_fuel (p : Plan) (i : Nat) : Calm (p.next w i) ∧ (∀ x i', p.next w i = .ok (some x, i') → p.remaining w i' < p.remaining w i) ∧
    ∀ i', p.next w i = .ok (none, i') → p.remaining w i' ≤ p.remaining w i := by
  have comp : p.next w i = dropId (p.nextWithId w i) → Calm (p.next w i) ∧
      (∀ x i', p.next w i = .ok (some x, i') → p.remaining w i' < p.remaining w i) ∧
      ∀ i', p.next w i = .ok (none, i') → p.remaining w i' ≤ p.remaining w i := by
    intro e
    obtain ⟨h1, h2, h3⟩ := nextWithId_fuel (w := w) p i
    rw [e, dropId]
    refine ⟨calm_bind h1 fun _ _ => calm_ok _, fun x i' h => ?_, fun i' h => ?_⟩
    · obtain ⟨⟨o, j⟩, hr, h⟩ := bindR_ok h
      cases o with
      | none => cases h
      | some y => cases h; exact h2 _ _ hr
    · obtain ⟨⟨o, j⟩, hr, h⟩ := bindR_ok h
      cases o with
      | none => cases h; exact h3 _ hr
      | some y => cases h
  cases p with
  | with2 => exact comp rfl
  | with3 => exact comp rfl
  | with4 => exact comp rfl
  | with5 => exact comp rfl
  | withoutL => exact comp rfl
  | withoutR => exact comp rfl
  | comp m t =>
    simp only [next]
    refine ⟨calm_bind (calm_setOf t) fun s _ => ?_, fun x i' h => ?_, fun i' h => ?_⟩
    · split
      · exact calm_bind calm_refAt fun _ _ => calm_ok _
      · exact calm_ok _
    · simp only [bind_eq_ok] at h
      obtain ⟨s, hs, h⟩ := h
      split at h
      · simp only [bind_eq_ok] at h
        obtain ⟨_, _, h⟩ := h
        simp only [Except.ok.injEq, Prod.mk.injEq] at h
        simp only [setOf, bind_eq_ok] at hs
        obtain ⟨st, hst, hs⟩ := hs
        cases hc : w.comps t with
        | none => rw [hc] at hst; cases hst
        | some st' =>
          rw [hc, unwrapR_some] at hst
          simp only [Except.ok.injEq] at hst hs
          subst hst hs
          rw [← h.2]
          simp only [remaining, hc]
          omega
      · cases h
    · simp only [bind_eq_ok] at h
      obtain ⟨_, _, h⟩ := h
      split at h
      · simp only [bind_eq_ok] at h
        repeat (obtain ⟨_, _, h⟩ := h)
      · cases h; exact Nat.le_refl _
  | full l ma mb a b =>
    simp only [next]
    split
    · refine ⟨?_, ?_, ?_⟩
      · exact calm_bind (calm_setOf a) fun _ _ => calm_bind (calm_setOf b) fun _ _ =>
          calm_bind calm_refAt fun _ _ => calm_bind calm_refAt fun _ _ => calm_ok _
      · intro x i' h
        simp only [bind_eq_ok] at h
        repeat (obtain ⟨_, _, h⟩ := h)
        simp only [remaining]
        omega
      · intro i' h
        simp only [bind_eq_ok] at h
        repeat (obtain ⟨_, _, h⟩ := h)
    · exact ⟨calm_ok _, fun x i' h => (by cases h), fun i' h => by cases h; exact Nat.le_refl _⟩
  | part l ma mb a b =>
    simp only [next]
    split
    · refine ⟨?_, ?_, ?_⟩
      · exact calm_bind (calm_setOf a) fun _ _ => calm_bind (calm_setOf b) fun _ _ => calm_bind calm_getU fun _ _ =>
          calm_bind calm_refAt fun _ _ => calm_bind calm_refOf fun _ _ => calm_bind calm_unwrapR fun _ _ => calm_ok _
      · intro x i' h
        simp only [bind_eq_ok] at h
        repeat (obtain ⟨_, _, h⟩ := h)
        simp only [remaining]
        omega
      · intro i' h
        simp only [bind_eq_ok] at h
        repeat (obtain ⟨_, _, h⟩ := h)
    · exact ⟨calm_ok _, fun x i' h => (by cases h), fun i' h => by cases h; exact Nat.le_refl _⟩
  | non pos ma mb a b =>
    simp only [next]
    refine ⟨calm_bind (calm_groupSetOf pos) fun G _ => ?_, fun x i' h => ?_, fun i' h => ?_⟩
    · split
      · exact calm_bind calm_getU fun _ _ => calm_bind (calm_setOf a) fun _ _ =>
          calm_bind (calm_setOf b) fun _ _ => calm_bind calm_refAt fun _ _ => calm_bind calm_refAt fun _ _ => calm_ok _
      · exact calm_ok _
    · simp only [bind_eq_ok] at h
      obtain ⟨G, hG, h⟩ := h
      split at h
      · simp only [bind_eq_ok] at h
        repeat (obtain ⟨_, _, h⟩ := h)
        simp only [groupSetOf, bind_eq_ok] at hG
        obtain ⟨g, hg, hG⟩ := hG
        have hg : w.groups[pos]? = some g := by
          unfold getR at hg
          cases hl : w.groups[pos]? with
          | none => simp [hl] at hg
          | some b => simp [hl] at hg; rw [hg]
        cases g with
        | non s a b =>
          simp only [Except.ok.injEq] at hG
          subst hG
          simp only [remaining, hg]
          omega
        | full => cases hG
        | part => cases hG
      · cases h
    · simp only [bind_eq_ok] at h
      obtain ⟨_, _, h⟩ := h
      split at h
      · simp only [bind_eq_ok] at h
        repeat (obtain ⟨_, _, h⟩ := h)
      · cases h; exact Nat.le_refl _

/-- However an iterator is used, no call hangs, and it yields no more items than were left. -/
theorem session_fuel (p : Plan) : ∀ (cs : List Call) (i : Nat), Calm (p.session w cs i) ∧
    ∀ rs j, p.session w cs i = .ok (rs, j) → (rs.filter Reply.yields).length + p.remaining w j ≤ p.remaining w i := by
  intro cs
  induction cs with
  | nil =>
    intro i
    refine ⟨calm_ok _, fun rs j h => ?_⟩
    cases h
    simp
  | cons c cs ih =>
    intro i
    have step : ∀ (x : R (Reply × Nat)), p.call w i c = x → Calm x → (∀ r j, x = .ok (r, j) →
        ([r].filter Reply.yields).length + p.remaining w j ≤ p.remaining w i) → Calm (p.session w (c :: cs) i) ∧
        ∀ rs j, p.session w (c :: cs) i = .ok (rs, j) →
          (rs.filter Reply.yields).length + p.remaining w j ≤ p.remaining w i := by
      intro x hx hc hr
      simp only [Plan.session, hx]
      refine ⟨calm_bind hc fun a _ => calm_bind (ih a.2).1 fun _ _ => calm_ok _, fun rs j h => ?_⟩
      obtain ⟨⟨r, k⟩, h1, h⟩ := bindR_ok h
      obtain ⟨⟨rs', k'⟩, h2, h⟩ := bindR_ok h
      cases h
      have h3 := hr r k h1
      have h4 := (ih k).2 _ _ h2
      have : (r :: rs') = [r] ++ rs' := rfl
      rw [this, List.filter_append, List.length_append]
      dsimp only at h4 ⊢
      omega
    cases c with
    | next =>
      obtain ⟨h1, h2, h3⟩ := next_fuel (w := w) p i
      refine step _ rfl (calm_bind h1 fun _ _ => calm_ok _) fun r j h => ?_
      obtain ⟨⟨o, k⟩, h4, h⟩ := bindR_ok h
      cases h
      cases o with
      | none => simpa [Reply.yields] using h3 _ h4
      | some x => have := h2 _ _ h4; rw [List.filter_cons_of_pos rfl]; simp; omega
    | nextWithId =>
      obtain ⟨h1, h2, h3⟩ := nextWithId_fuel (w := w) p i
      refine step _ rfl (calm_bind h1 fun _ _ => calm_ok _) fun r j h => ?_
      obtain ⟨⟨o, k⟩, h4, h⟩ := bindR_ok h
      cases h
      cases o with
      | none => simpa [Reply.yields] using h3 _ h4
      | some x => have := h2 _ _ h4; rw [List.filter_cons_of_pos rfl]; simp; omega
    | fromId id =>
      refine step _ rfl (calm_bind (calm_fromId p id) fun _ _ => calm_ok _) fun r j h => ?_
      obtain ⟨o, h4, h⟩ := bindR_ok h
      cases h
      simp [Reply.yields]

/-- More calls change nothing. -/
theorem collectFrom_more (p : Plan) : ∀ fuel i, p.remaining w i < fuel → ∀ fuel', p.remaining w i < fuel' →
    p.collectFrom w fuel i = p.collectFrom w fuel' i := by
  intro fuel
  induction fuel with
  | zero => intro i hi; omega
  | succ fuel ih =>
    intro i hi fuel' hf'
    cases fuel' with
    | zero => omega
    | succ fuel' =>
      have h2 := (nextWithId_fuel (w := w) p i).2.1
      simp only [collectFrom]
      cases hr : p.nextWithId w i with
      | error e => rfl
      | ok r =>
        obtain ⟨o, i'⟩ := r
        simp only [ok_bind]
        cases o with
        | none => rfl
        | some x =>
          have := h2 x i' hr
          rw [ih i' (by omega) fuel' (by omega)]

end Plan
end Xecs
