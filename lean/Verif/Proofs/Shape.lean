import Verif.Proofs.Session
/-
Iterators look at the shape of the storages (which entity sits where), never at the component values.
-/
set_option autoImplicit false
namespace Xecs
open Spec World Hist
variable {V : Type}

/-- Same entities at the same places, possibly other values. -/
structure SetShape (S S' : SparseSet V) : Prop where
  ents : S'.entities = S.entities
  index : ∀ e, S'.getIndex e = S.getIndex e
  len : S'.data.length = S.data.length

theorem SetShape.refl (S : SparseSet V) : SetShape S S := ⟨rfl, fun _ => rfl, rfl⟩
theorem SetShape.trans {S S' S'' : SparseSet V} (h : SetShape S S') (h' : SetShape S' S'') : SetShape S S'' :=
  ⟨h'.ents.trans h.ents, fun e => (h'.index e).trans (h.index e), h'.len.trans h.len⟩

/-- Worlds that differ at most in component values, entities and resources. -/
structure SameShape (w w' : World V) : Prop where
  groups : w'.groups = w.groups
  comps : ∀ t, match w.comps t, w'.comps t with
    | none, none => True
    | some st, some st' => st'.ty = st.ty ∧ SetShape st.set st'.set
    | _, _ => False

theorem SameShape.refl (w : World V) : SameShape w w := by
  refine ⟨rfl, fun t => ?_⟩
  cases w.comps t with
  | none => trivial
  | some st => exact ⟨rfl, .refl _⟩

theorem SameShape.get {w w' : World V} (h : SameShape w w') (t : Nat) :
    (w.comps t = none ∧ w'.comps t = none) ∨ ∃ st st', w.comps t = some st ∧ w'.comps t = some st' ∧
      st'.ty = st.ty ∧ SetShape st.set st'.set := by
  have := h.comps t
  cases h1 : w.comps t <;> cases h2 : w'.comps t <;> rw [h1, h2] at this
  · exact .inl ⟨rfl, rfl⟩
  · exact this.elim
  · exact this.elim
  · exact .inr ⟨_, _, rfl, rfl, this⟩

theorem SameShape.trans {w w' w'' : World V} (h : SameShape w w') (h' : SameShape w' w'') : SameShape w w'' := by
  refine ⟨h'.groups.trans h.groups, fun t => ?_⟩
  rcases h.get t with ⟨e1, e2⟩ | ⟨s1, s2, e1, e2, e3, e4⟩
  · rcases h'.get t with ⟨f1, f2⟩ | ⟨_, _, f1, _⟩
    · rw [e1, f2]; trivial
    · rw [e2] at f1; cases f1
  · rcases h'.get t with ⟨f1, f2⟩ | ⟨s3, s4, f1, f2, f3, f4⟩
    · rw [e2] at f1; cases f1
    · rw [e1, f2]
      rw [e2] at f1; cases f1
      exact ⟨f3.trans e3, e4.trans f4⟩

theorem getR_shape {S S' : SparseSet V} (h : SetShape S S') (i : Nat) (α : Type) (k : R α) :
    (getR S'.data i >>= fun _ => k) = (getR S.data i >>= fun _ => k) := by
  unfold getR
  by_cases hi : i < S.data.length
  · rw [List.getElem?_eq_getElem hi, List.getElem?_eq_getElem (by rw [h.len]; exact hi)]; rfl
  · have := h.len
    rw [List.getElem?_eq_none (by omega), List.getElem?_eq_none (by omega)]

theorem getU_shape {S S' : SparseSet V} (h : SetShape S S') (i : Nat) (α : Type) (k : R α) :
    (getU S'.data i >>= fun _ => k) = (getU S.data i >>= fun _ => k) := by
  unfold getU
  by_cases hi : i < S.data.length
  · rw [List.getElem?_eq_getElem hi, List.getElem?_eq_getElem (by rw [h.len]; exact hi)]; rfl
  · have := h.len
    rw [List.getElem?_eq_none (by omega), List.getElem?_eq_none (by omega)]

theorem refOf_shape {S S' : SparseSet V} (h : SetShape S S') (t : Nat) (m : Mode) (id : Nat) :
    Plan.refOf S' t m id = Plan.refOf S t m id := by
  unfold Plan.refOf
  rw [h.index]
  cases S.getIndex id with
  | none => rfl
  | some i => exact getR_shape h i _ _

theorem refAt_shape {S S' : SparseSet V} (h : SetShape S S') (t : Nat) (m : Mode) (i : Nat) :
    Plan.refAt S' t m i = Plan.refAt S t m i := getU_shape h i _ _

theorem len_shape {S S' : SparseSet V} (h : SetShape S S') : S'.len = S.len := by
  rw [SparseSet.len, SparseSet.len, h.ents]

section
variable {w w' : World V} (h : SameShape w w')
include h

theorem setOf_shape {α : Type} (t : Nat) {f f' : SparseSet V → R α} (hf : ∀ S S', SetShape S S' → f' S' = f S) :
    (Plan.setOf w' t >>= f') = (Plan.setOf w t >>= f) := by
  unfold Plan.setOf
  rcases h.get t with ⟨e1, e2⟩ | ⟨st, st', e1, e2, _, e4⟩
  · rw [e1, e2]; rfl
  · rw [e1, e2]; exact hf _ _ e4

theorem groupSetOf_shape (pos : Nat) : Plan.groupSetOf w' pos = Plan.groupSetOf w pos := by
  unfold Plan.groupSetOf; rw [h.groups]

theorem refBoth_shape (ma mb : Mode) (a b id : Nat) : Plan.refBoth w' ma mb a b id = Plan.refBoth w ma mb a b id := by
  unfold Plan.refBoth
  refine setOf_shape h a fun A A' hA => setOf_shape h b fun B B' hB => ?_
  rw [refOf_shape hA, refOf_shape hB]

theorem fromId_shape (p : Plan) (id : Nat) : p.fromId w' id = p.fromId w id := by
  induction p with
  | comp m t => exact setOf_shape h t fun S S' hS => refOf_shape hS t m id
  | with2 a b iha ihb => simp only [Plan.fromId, iha, ihb]
  | with3 a b c iha ihb ihc => simp only [Plan.fromId, iha, ihb, ihc]
  | with4 a b c d iha ihb ihc ihd => simp only [Plan.fromId, iha, ihb, ihc, ihd]
  | with5 a b c d e iha ihb ihc ihd ihe => simp only [Plan.fromId, iha, ihb, ihc, ihd, ihe]
  | withoutL a b iha ihb => simp only [Plan.fromId, iha, ihb]
  | withoutR a b iha ihb => simp only [Plan.fromId, iha, ihb]
  | full l ma mb a b => exact refBoth_shape h ma mb a b id
  | part l ma mb a b => exact refBoth_shape h ma mb a b id
  | non pos ma mb a b =>
    simp only [Plan.fromId, groupSetOf_shape h]
    congr 1; funext G
    refine setOf_shape h a fun A A' hA => setOf_shape h b fun B B' hB => ?_
    congr 1; funext o
    cases o with
    | none => rfl
    | some p => simp only [refAt_shape hA, refAt_shape hB]

theorem remaining_shape (p : Plan) (i : Nat) : p.remaining w' i = p.remaining w i := by
  induction p with
  | comp m t =>
    simp only [Plan.remaining]
    rcases h.get t with ⟨e1, e2⟩ | ⟨st, st', e1, e2, _, e4⟩
    · rw [e1, e2]
    · rw [e1, e2]; simp only [len_shape e4]
  | with2 a b iha ihb => exact iha
  | with3 a b c iha ihb ihc => exact iha
  | with4 a b c d iha ihb ihc ihd => exact iha
  | with5 a b c d e iha ihb ihc ihd ihe => exact iha
  | withoutL a b iha ihb => exact ihb
  | withoutR a b iha ihb => exact iha
  | full l ma mb a b => rfl
  | part l ma mb a b => rfl
  | non pos ma mb a b => simp only [Plan.remaining, h.groups]

theorem nextWithId_shape (p : Plan) : p.nextWithId w' = p.nextWithId w := by
  induction p with
  | comp m t =>
    funext i
    refine setOf_shape h t fun S S' hS => ?_
    simp only [len_shape hS, hS.ents, refAt_shape hS]
  | with2 a b iha ihb => funext i; simp only [Plan.nextWithId, iha, fromId_shape h b, remaining_shape h a]
  | with3 a b c iha ihb ihc =>
    funext i; simp only [Plan.nextWithId, iha, fromId_shape h b, fromId_shape h c, remaining_shape h a]
  | with4 a b c d iha ihb ihc ihd =>
    funext i; simp only [Plan.nextWithId, iha, fromId_shape h b, fromId_shape h c, fromId_shape h d, remaining_shape h a]
  | with5 a b c d e iha ihb ihc ihd ihe =>
    funext i
    simp only [Plan.nextWithId, iha, fromId_shape h b, fromId_shape h c, fromId_shape h d, fromId_shape h e,
      remaining_shape h a]
  | withoutL a b iha ihb => funext i; simp only [Plan.nextWithId, ihb, fromId_shape h a, remaining_shape h b]
  | withoutR a b iha ihb => funext i; simp only [Plan.nextWithId, iha, fromId_shape h b, remaining_shape h a]
  | full l ma mb a b =>
    funext i
    simp only [Plan.nextWithId]
    split
    · refine setOf_shape h a fun A A' hA => setOf_shape h b fun B B' hB => ?_
      simp only [hA.ents, refAt_shape hA, refAt_shape hB]
    · rfl
  | part l ma mb a b =>
    funext i
    simp only [Plan.nextWithId]
    split
    · refine setOf_shape h a fun A A' hA => setOf_shape h b fun B B' hB => ?_
      simp only [hA.ents, refAt_shape hA, refOf_shape hB]
    · rfl
  | non pos ma mb a b =>
    funext i
    simp only [Plan.nextWithId, groupSetOf_shape h]
    congr 1; funext G
    split
    · congr 1; funext id; congr 1; funext p
      obtain ⟨ia, ib⟩ := p
      refine setOf_shape h a fun A A' hA => setOf_shape h b fun B B' hB => ?_
      simp only [refAt_shape hA, refAt_shape hB]
    · rfl

theorem lock_shape (held : Query.Held) (m : Mode) (t : Nat) : Query.lock w' held m t = Query.lock w held m t := by
  unfold Query.lock
  rcases h.get t with ⟨e1, e2⟩ | ⟨st, st', e1, e2, e3, e4⟩
  · rw [e1, e2]
  · rw [e1, e2]
    simp only [unwrapR_some, ok_bind, World.downcast, e3]
    split
    · rfl
    · split <;> rfl

theorem hasRegistered_shape (t : Nat) : w'.hasRegistered t = w.hasRegistered t := by
  unfold World.hasRegistered
  rcases h.get t with ⟨e1, e2⟩ | ⟨st, st', e1, e2, e3, e4⟩
  · rw [e1, e2]
  · rw [e1, e2]; rfl

theorem prepare_shape (q : Query) : ∀ held, q.prepare w' held = q.prepare w held := by
  induction q with
  | comp m t => intro held; simp only [Query.prepare, lock_shape h, hasRegistered_shape h]
  | with2 a b iha ihb => intro held; simp only [Query.prepare, iha, ihb]
  | with3 a b c iha ihb ihc => intro held; simp only [Query.prepare, iha, ihb, ihc]
  | with4 a b c d iha ihb ihc ihd => intro held; simp only [Query.prepare, iha, ihb, ihc, ihd]
  | with5 a b c d e iha ihb ihc ihd ihe => intro held; simp only [Query.prepare, iha, ihb, ihc, ihd, ihe]
  | withoutL a b iha ihb => intro held; simp only [Query.prepare, iha, ihb]
  | withoutR a b iha ihb => intro held; simp only [Query.prepare, iha, ihb]
  | group k ma mb a b =>
    intro held
    simp only [Query.prepare, lock_shape h, hasRegistered_shape h, World.hasGroup, Query.findGroup, h.groups]

theorem collectFrom_shape (p : Plan) : ∀ (fuel i : Nat), p.collectFrom w' fuel i = p.collectFrom w fuel i := by
  intro fuel
  induction fuel with
  | zero => intro i; rfl
  | succ n ih => intro i; simp only [Plan.collectFrom, nextWithId_shape h p, ih]

/-- The references a query yields, and their order, do not depend on component values. -/
theorem queryAll_shape (q : Query) : w'.queryAll q = w.queryAll q := by
  simp only [World.queryAll, World.query, prepare_shape h, collectFrom_shape h, remaining_shape h]

end

/-- Replacing a storage by one of the same shape. -/
theorem setSet_shape {w : World V} {t : Nat} {st : Storage V} (hst : w.comps t = some st) {S : SparseSet V}
    (hS : SetShape st.set S) : SameShape w (w.setSet t S) := by
  refine ⟨rfl, fun u => ?_⟩
  rw [setSet_comps]
  by_cases hu : u = t
  · subst hu; rw [if_pos rfl, hst]; exact ⟨rfl, hS⟩
  · rw [if_neg hu]
    cases w.comps u with
    | none => trivial
    | some st => exact ⟨rfl, .refl _⟩

end Xecs
