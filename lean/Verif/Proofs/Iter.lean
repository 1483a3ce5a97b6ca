import Verif.Proofs.Query
/-
Query iterators: `from_id`, `next`, `next_with_id`, collecting.
-/
set_option autoImplicit false
namespace Xecs
open Spec World
variable {V : Type}

/-- The slot of entity `id` in the storage of `t`. -/
def World.idx (w : World V) (t id : Nat) : Nat :=
  match w.comps t with
  | some st => (st.set.getIndex id).getD 0
  | none => 0

/-- The item a query yields for `id`: references to the slots of `id`. -/
def place (w : World V) (id : Nat) : Query → Item Loc
  | .comp m t => .leaf ⟨t, w.idx t id, m⟩
  | .with2 a b => .pair (place w id a) (place w id b)
  | .with3 a b c => .pair (place w id a) (.pair (place w id b) (place w id c))
  | .with4 a b c d => .pair (place w id a) (.pair (place w id b) (.pair (place w id c) (place w id d)))
  | .with5 a b c d e =>
    .pair (place w id a) (.pair (place w id b) (.pair (place w id c) (.pair (place w id d) (place w id e))))
  | .withoutL _ b => place w id b
  | .withoutR a _ => place w id a
  | .group _ ma mb a b => .pair (.leaf ⟨a, w.idx a id, ma⟩) (.leaf ⟨b, w.idx b id, mb⟩)

/-- The ids the driving iterator goes through. -/
def drv (w : World V) : Query → List Nat
  | .comp _ t => match w.comps t with | some st => st.set.entities | none => []
  | .with2 a _ => drv w a
  | .with3 a _ _ => drv w a
  | .with4 a _ _ _ => drv w a
  | .with5 a _ _ _ _ => drv w a
  | .withoutL _ b => drv w b
  | .withoutR a _ => drv w a
  | .group k _ _ a b =>
    match w.groups[(Query.findGroup w k a b).getD 0]? with
    | some (.non set _ _) => set.entities
    | some g => match w.comps a with | some st => st.set.entities.take g.len | none => []
    | none => []

/-! ### Storages -/

/-- What the relation says about one registered storage. -/
theorem storage_at {w : World V} {s : State V} (h : WRel w s) {t : Nat} (ht : (s.comp t).isSome = true) :
    ∃ st, w.comps t = some st ∧ st.set.WF ∧ (∀ e, st.set.lookup e = s.get t e) ∧
      (∀ e, e ∈ st.set.entities ↔ s.has t e = true) := by
  obtain ⟨f, hf⟩ := Option.isSome_iff_exists.1 ht
  obtain ⟨st, hst, -⟩ := h.comp_some hf
  obtain ⟨_, hw, hl, _⟩ := h.st_some hst
  exact ⟨st, hst, hw, hl, fun e => h.mem_iff hst e⟩

theorem get_deref {w : World V} {s : State V} (h : WRel w s) {t id : Nat} {v : V} (hv : s.get t id = some v)
    (m : Mode) : w.deref ⟨t, w.idx t id, m⟩ = some v := by
  have ht : (s.comp t).isSome = true := by
    cases hc : s.comp t with
    | none => simp [State.get, hc] at hv
    | some f => rfl
  obtain ⟨st, hst, hw, hl, -⟩ := storage_at h ht
  have := hl id
  rw [hv] at this
  simp only [SparseSet.lookup, Option.bind_eq_some_iff] at this
  obtain ⟨i, hi, hd⟩ := this
  simp [World.deref, World.idx, hst, hi, hd]

theorem refOf_eq {w : World V} {s : State V} (h : WRel w s) {t : Nat} {st : Storage V}
    (hst : w.comps t = some st) (m : Mode) (id : Nat) :
    Plan.refOf st.set t m id = .ok ((s.get t id).map fun _ => .leaf ⟨t, w.idx t id, m⟩) := by
  obtain ⟨_, hw, hl, _⟩ := h.st_some hst
  rw [← hl]
  unfold Plan.refOf SparseSet.lookup
  cases hi : st.set.getIndex id with
  | none => simp
  | some i =>
    have hlt := SparseSet.getIndex_lt hw hi
    rw [hw.len] at hlt
    have hd := List.getElem?_eq_getElem hlt
    simp [getR_some hd, hd, World.idx, hst, hi]

theorem refAt_eq {w : World V} {t : Nat} {st : Storage V} (hw : st.set.WF)
    (hst : w.comps t = some st) (m : Mode) {i id : Nat} (hi : st.set.entities[i]? = some id) :
    Plan.refAt st.set t m i = .ok (.leaf ⟨t, w.idx t id, m⟩) := by
  have hlt := (List.getElem?_eq_some_iff.1 hi).1
  rw [hw.len] at hlt
  simp [Plan.refAt, getU_some (List.getElem?_eq_getElem hlt), World.idx, hst, (SparseSet.getIndex_iff hw).2 hi]

theorem refBoth_eq {w : World V} {s : State V} (h : WRel w s) {a b : Nat}
    (ha : (s.comp a).isSome = true) (hb : (s.comp b).isSome = true) (ma mb : Mode) (id : Nat) :
    Plan.refBoth w ma mb a b id = .ok ((s.pairOf a b id).map fun _ =>
      .pair (.leaf ⟨a, w.idx a id, ma⟩) (.leaf ⟨b, w.idx b id, mb⟩)) := by
  obtain ⟨A, hA, -⟩ := storage_at h ha
  obtain ⟨B, hB, -⟩ := storage_at h hb
  simp only [Plan.refBoth, Plan.setOf, hA, hB, unwrapR_some, ok_bind, refOf_eq h hA, refOf_eq h hB,
    State.pairOf]
  cases s.get a id with
  | none => simp
  | some x => cases s.get b id <;> simp

theorem member_pair {w : World V} {s : State V} (h : WRel w s) {k : Kind} {a b id : Nat}
    (hm : s.member k a b id = true) : (s.pairOf a b id).isSome = true := by
  unfold State.member at hm
  cases hg : s.group? k a b with
  | none => simp [hg] at hm
  | some gs =>
    simp only [hg] at hm
    obtain ⟨pos, g, e1, e2, e3, e4, e5, rfl, rfl⟩ := group?_some h hg
    have := Rel.mem_both h e2 hm
    simp only [State.both, State.has, Bool.and_eq_true, Option.isSome_iff_exists] at this
    obtain ⟨⟨x, hx⟩, ⟨y, hy⟩⟩ := this
    simp [State.pairOf, hx, hy]

/-! ### from_id -/

/-- The cached pair of a fresh non-owning group. -/
theorem non_get {w : World V} {s : State V} (h : WRel w s) {gs : SGroup} {a b : Nat}
    (hg : s.group? .non a b = some gs) (hf : gs.fresh = true) :
    ∃ pos set A B, Query.findGroup w .non a b = some pos ∧ w.groups[pos]? = some (.non set a b) ∧
      w.comps a = some A ∧ w.comps b = some B ∧ A.set.WF ∧ B.set.WF ∧ set.WF ∧
      (∀ e, e ∈ set.entities ↔ gs.mem e = true) ∧
      (∀ e ia ib, set.lookup e = some (ia, ib) → A.set.entities[ia]? = some e ∧ B.set.entities[ib]? = some e) := by
  obtain ⟨pos, g, e1, e2, e3, e4, e5, rfl, rfl⟩ := group?_some h hg
  obtain ⟨A, B, hA, hB, hs, hm, hfr⟩ := e4.ex
  have hfr' := hfr hf
  have e6 := e4.tyA
  have e7 := e4.tyB
  cases g with
  | full => simp [Group.kind] at e5
  | part => simp [Group.kind] at e5
  | non set a' b' =>
    simp only [Group.tyA, Group.tyB] at e6 e7
    subst e6 e7
    have wA := (h.st_some hA).2.1
    have wB := (h.st_some hB).2.1
    refine ⟨pos, set, A, B, e1, e3, hA, hB, wA, wB, hs.1, fun e => (hm e).symm, ?_⟩
    intro e ia ib hl
    obtain ⟨x, y⟩ := hfr' e ia ib hl
    exact ⟨(SparseSet.getIndex_iff wA).1 x, (SparseSet.getIndex_iff wB).1 y⟩

theorem fromId_spec {w : World V} {s : State V} (h : WRel w s) (q : Query) (id : Nat) :
    s.Defined q → s.FreshIn q →
    (planOf w q).fromId w id = .ok ((s.point q id).map fun _ => place w id q) := by
  induction q with
  | comp m t =>
    intro hd _
    obtain ⟨st, hst, -⟩ := storage_at h hd
    simp only [planOf, Plan.fromId, Plan.setOf, hst, unwrapR_some, ok_bind, refOf_eq h hst, State.point,
      Option.map_map, place]
    rfl
  | with2 a b iha ihb =>
    intro hd hf
    simp only [planOf, Plan.fromId, iha hd.1 hf.1, ihb hd.2 hf.2, ok_bind, State.point, place]
    cases s.point a id with
    | none => rfl
    | some x => cases s.point b id <;> rfl
  | with3 a b c iha ihb ihc =>
    intro hd hf
    simp only [planOf, Plan.fromId, iha hd.1 hf.1, ihb hd.2.1 hf.2.1, ihc hd.2.2 hf.2.2, ok_bind,
      State.point, place]
    cases s.point a id with
    | none => rfl
    | some x =>
      cases s.point b id with
      | none => rfl
      | some y => cases s.point c id <;> rfl
  | with4 a b c d iha ihb ihc ihd =>
    intro hd hf
    simp only [planOf, Plan.fromId, iha hd.1 hf.1, ihb hd.2.1 hf.2.1, ihc hd.2.2.1 hf.2.2.1,
      ihd hd.2.2.2 hf.2.2.2, ok_bind, State.point, place]
    cases s.point a id with
    | none => rfl
    | some x =>
      cases s.point b id with
      | none => rfl
      | some y =>
        cases s.point c id with
        | none => rfl
        | some z => cases s.point d id <;> rfl
  | with5 a b c d e iha ihb ihc ihd ihe =>
    intro hd hf
    simp only [planOf, Plan.fromId, iha hd.1 hf.1, ihb hd.2.1 hf.2.1, ihc hd.2.2.1 hf.2.2.1,
      ihd hd.2.2.2.1 hf.2.2.2.1, ihe hd.2.2.2.2 hf.2.2.2.2, ok_bind, State.point, place]
    cases s.point a id with
    | none => rfl
    | some x =>
      cases s.point b id with
      | none => rfl
      | some y =>
        cases s.point c id with
        | none => rfl
        | some z =>
          cases s.point d id with
          | none => rfl
          | some u => cases s.point e id <;> rfl
  | withoutL a b iha ihb =>
    intro hd hf
    simp only [planOf, Plan.fromId, iha hd.1 hf.1, ihb hd.2 hf.2, ok_bind, State.point, place]
    cases s.point a id <;> rfl
  | withoutR a b iha ihb =>
    intro hd hf
    simp only [planOf, Plan.fromId, iha hd.1 hf.1, ihb hd.2 hf.2, ok_bind, State.point, place]
    cases s.point b id <;> rfl
  | group k ma mb a b =>
    intro hd hf
    obtain ⟨da, db, dg⟩ := hd
    cases k with
    | full => simp only [planOf, Plan.fromId, refBoth_eq h da db, State.point, place]
    | part => simp only [planOf, Plan.fromId, refBoth_eq h da db, State.point, place]
    | non =>
      obtain ⟨gs, hgs⟩ := Option.isSome_iff_exists.1 dg
      obtain ⟨pos, set, A, B, e1, e2, hA, hB, wA, wB, wS, hm, hl⟩ := non_get h hgs (hf rfl gs hgs)
      have hmem : s.member .non a b id = gs.mem id := by simp [State.member, hgs]
      simp only [planOf, Plan.fromId, e1, Option.getD_some, Plan.groupSetOf, getR_some e2, ok_bind, Plan.setOf,
        hA, hB, unwrapR_some, SparseSet.get_eq wS, State.point, place, hmem]
      cases hx : gs.mem id with
      | false =>
        have : set.lookup id = none := by
          rw [SparseSet.lookup_none wS, hm, hx]; simp
        simp [this]
      | true =>
        have : (set.lookup id).isSome = true := by rw [SparseSet.lookup_isSome wS, hm, hx]
        obtain ⟨⟨ia, ib⟩, hlk⟩ := Option.isSome_iff_exists.1 this
        obtain ⟨ea, eb⟩ := hl id ia ib hlk
        obtain ⟨v, hv⟩ := Option.isSome_iff_exists.1 (member_pair h (by rw [hmem, hx]) : (s.pairOf a b id).isSome = true)
        simp [hlk, refAt_eq wA hA ma ea, refAt_eq wB hB mb eb, hv]

theorem yields_point {s : State V} (q : Query) {id : Nat} : ∀ {v : Item V},
    s.yields q id = some v → s.point q id = some v := by
  induction q with
  | comp m t => intro v hv; exact hv
  | with2 a b iha ihb =>
    intro v hv
    simp only [State.yields, State.point] at hv ⊢
    cases ha : s.yields a id with
    | none => simp [ha] at hv
    | some x => rw [ha] at hv; rw [iha ha]; exact hv
  | with3 a b c iha ihb ihc =>
    intro v hv
    simp only [State.yields, State.point] at hv ⊢
    cases ha : s.yields a id with
    | none => simp [ha] at hv
    | some x => rw [ha] at hv; rw [iha ha]; exact hv
  | with4 a b c d iha ihb ihc ihd =>
    intro v hv
    simp only [State.yields, State.point] at hv ⊢
    cases ha : s.yields a id with
    | none => simp [ha] at hv
    | some x => rw [ha] at hv; rw [iha ha]; exact hv
  | with5 a b c d e iha ihb ihc ihd ihe =>
    intro v hv
    simp only [State.yields, State.point] at hv ⊢
    cases ha : s.yields a id with
    | none => simp [ha] at hv
    | some x => rw [ha] at hv; rw [iha ha]; exact hv
  | withoutL a b iha ihb =>
    intro v hv
    simp only [State.yields, State.point] at hv ⊢
    split at hv
    · simp at hv
    · rename_i hn
      simp only [hn]
      exact ihb hv
  | withoutR a b iha ihb =>
    intro v hv
    simp only [State.yields, State.point] at hv ⊢
    split at hv
    · simp at hv
    · rename_i hn
      simp only [hn]
      exact iha hv
  | group k ma mb a b =>
    intro v hv
    simp only [State.yields] at hv
    split at hv
    · rename_i hm
      cases k with
      | full => exact hv
      | part => exact hv
      | non => simp only [State.point, hm, if_true]; exact hv
    · simp at hv

theorem pairOf_deref {w : World V} {s : State V} (h : WRel w s) {a b id : Nat} {v : Item V}
    (hv : s.pairOf a b id = some v) (ma mb : Mode) :
    w.derefItem (.pair (.leaf ⟨a, w.idx a id, ma⟩) (.leaf ⟨b, w.idx b id, mb⟩)) = some v := by
  simp only [State.pairOf] at hv
  cases ha : s.get a id with
  | none => simp [ha] at hv
  | some x =>
    cases hb : s.get b id with
    | none => simp [ha, hb] at hv
    | some y =>
      simp only [ha, hb, Option.some.injEq] at hv
      simp [World.derefItem, get_deref h ha, get_deref h hb, hv]

/-- The references of an item point to the values the specification gives. -/
theorem place_deref {w : World V} {s : State V} (h : WRel w s) (q : Query) {id : Nat} : ∀ {v : Item V},
    s.point q id = some v → w.derefItem (place w id q) = some v := by
  induction q with
  | comp m t =>
    intro v hv
    simp only [State.point, Option.map_eq_some_iff] at hv
    obtain ⟨x, hx, rfl⟩ := hv
    simp [place, World.derefItem, get_deref h hx]
  | with2 a b iha ihb =>
    intro v hv
    simp only [State.point] at hv
    split at hv
    · rename_i x y hx hy
      simp only [Option.some.injEq] at hv
      simp [place, World.derefItem, iha hx, ihb hy, hv]
    · simp at hv
  | with3 a b c iha ihb ihc =>
    intro v hv
    simp only [State.point] at hv
    split at hv
    · rename_i x y z hx hy hz
      simp only [Option.some.injEq] at hv
      simp [place, World.derefItem, iha hx, ihb hy, ihc hz, hv]
    · simp at hv
  | with4 a b c d iha ihb ihc ihd =>
    intro v hv
    simp only [State.point] at hv
    split at hv
    · rename_i x y z u hx hy hz hu
      simp only [Option.some.injEq] at hv
      simp [place, World.derefItem, iha hx, ihb hy, ihc hz, ihd hu, hv]
    · simp at hv
  | with5 a b c d e iha ihb ihc ihd ihe =>
    intro v hv
    simp only [State.point] at hv
    split at hv
    · rename_i x y z u t hx hy hz hu ht
      simp only [Option.some.injEq] at hv
      simp [place, World.derefItem, iha hx, ihb hy, ihc hz, ihd hu, ihe ht, hv]
    · simp at hv
  | withoutL a b iha ihb =>
    intro v hv
    simp only [State.point] at hv
    split at hv
    · simp at hv
    · exact ihb hv
  | withoutR a b iha ihb =>
    intro v hv
    simp only [State.point] at hv
    split at hv
    · simp at hv
    · exact iha hv
  | group k ma mb a b =>
    intro v hv
    have : s.pairOf a b id = some v := by
      cases k with
      | full => exact hv
      | part => exact hv
      | non =>
        simp only [State.point] at hv
        split at hv
        · exact hv
        · simp at hv
    exact pairOf_deref h this ma mb

/-! ### Iteration -/

/-- The next match at or after position `i`, where `l` is the rest of the driving list from `i` on. -/
def findFrom (Y : Nat → Bool) : List Nat → Nat → Option Nat × Nat
  | [], i => (none, i)
  | x :: xs, i => if Y x then (some x, i + 1) else findFrom Y xs (i + 1)

theorem findFrom_and (Y K : Nat → Bool) (L : List Nat) : ∀ (n i : Nat), n = L.length - i → i ≤ L.length →
    (∀ x j, findFrom Y (L.drop i) i = (some x, j) → i < j ∧ j ≤ L.length ∧ L[j - 1]? = some x ∧ Y x = true ∧
      findFrom (fun x => Y x && K x) (L.drop i) i =
        if K x then (some x, j) else findFrom (fun x => Y x && K x) (L.drop j) j) ∧
    (∀ j, findFrom Y (L.drop i) i = (none, j) → j = L.length ∧
      findFrom (fun x => Y x && K x) (L.drop i) i = (none, j)) := by
  intro n
  induction n with
  | zero =>
    intro i hn hi
    have : L.drop i = [] := List.drop_eq_nil_of_le (by omega)
    rw [this]
    simp [findFrom]; omega
  | succ n ih =>
    intro i hn hi
    have hlt : i < L.length := by omega
    rw [List.drop_eq_getElem_cons hlt]
    simp only [findFrom]
    by_cases hY : Y L[i] = true
    · simp only [hY, if_true, Bool.true_and, Prod.mk.injEq, Option.some.injEq, reduceCtorEq, false_and,
        false_implies, implies_true, and_true]
      rintro x j ⟨rfl, rfl⟩
      exact ⟨by omega, hlt, by simp [hlt], hY, rfl⟩
    · simp only [hY, Bool.false_eq_true, if_false, Bool.false_and]
      obtain ⟨h1, h2⟩ := ih (i + 1) (by omega) hlt
      refine ⟨fun x j hx => ?_, h2⟩
      obtain ⟨a, b, c, d, e⟩ := h1 x j hx
      exact ⟨by omega, b, c, d, e⟩

/-- The outcome of a call to `next_with_id`, given the driving list and what is kept. -/
def stepOut (pl : Nat → Item Loc) (r : Option Nat × Nat) : Option (Nat × Item Loc) × Nat :=
  (r.1.map fun id => (id, pl id), r.2)

theorem drive_spec {next : Nat → R (Option (Nat × Item Loc) × Nat)}
    {keep : Nat → Item Loc → R (Option (Item Loc))} {L : List Nat} {Y K : Nat → Bool} {pl pl' : Nat → Item Loc}
    (hnext : ∀ i, i ≤ L.length → next i = .ok (stepOut pl (findFrom Y (L.drop i) i)))
    (hkeep : ∀ id, keep id (pl id) = .ok (if K id then some (pl' id) else none)) :
    ∀ (n i fuel : Nat), L.length - i = n → i ≤ L.length → n < fuel →
    Plan.drive next keep fuel i = .ok (stepOut pl' (findFrom (fun x => Y x && K x) (L.drop i) i)) := by
  intro n
  induction n using Nat.strongRecOn with
  | ind n ih =>
    intro i fuel hn hi hf
    obtain ⟨fuel, rfl⟩ : ∃ f, fuel = f + 1 := ⟨fuel - 1, by omega⟩
    obtain ⟨h1, h2⟩ := findFrom_and Y K L n i hn.symm hi
    rw [Plan.drive, hnext i hi]
    cases hr : findFrom Y (L.drop i) i with
    | mk o j =>
      cases o with
      | none =>
        obtain ⟨_, e⟩ := h2 j hr
        simp [stepOut, e]
      | some x =>
        obtain ⟨a, b, c, d, e⟩ := h1 x j hr
        simp only [stepOut, ok_bind, Option.map_some, hkeep]
        rw [e]
        by_cases hK : K x = true
        · simp [hK]
        · simp only [hK]
          exact ih (L.length - j) (by omega) j fuel rfl b (by omega)

/-- Full and partial groups: the driving list. -/
theorem owning_drv {w : World V} {s : State V} (h : WRel w s) {k : Kind} {gs : SGroup} {a b : Nat}
    (hg : s.group? k a b = some gs) (hk : k ≠ .non) :
    ∃ pos g A B, Query.findGroup w k a b = some pos ∧ w.groups[pos]? = some g ∧ g.kind = k ∧
      w.comps a = some A ∧ w.comps b = some B ∧ A.set.WF ∧ B.set.WF ∧ g.len ≤ A.set.entities.length ∧
      (∀ (i : Nat), i < g.len → ∃ e, A.set.entities[i]? = some e ∧ e ∈ B.set.entities ∧ gs.mem e = true ∧
        (k = .full → B.set.entities[i]? = some e)) ∧
      (∀ e, gs.mem e = true → ∃ i, i < g.len ∧ A.set.entities[i]? = some e) := by
  obtain ⟨pos, g, e1, e2, e3, e4, e5, rfl, rfl⟩ := group?_some h hg
  obtain ⟨A, B, hA, hB, hs, hm, hfr⟩ := e4.ex
  have wA := (h.st_some hA).2.1
  have wB := (h.st_some hB).2.1
  refine ⟨pos, g, A, B, e1, e3, e5, hA, hB, wA, wB, ?_⟩
  cases g with
  | full l a' b' =>
    have hs' : ∀ i, i < l → ∃ e, A.set.entities[i]? = some e ∧ B.set.entities[i]? = some e := hs
    refine ⟨?_, ?_, fun e he => (hm e).1 he⟩
    · cases l with
      | zero => exact Nat.zero_le _
      | succ l =>
        obtain ⟨e, he, _⟩ := hs' l (by omega)
        exact (List.getElem?_eq_some_iff.1 he).1
    · intro i hi
      obtain ⟨e, he, he'⟩ := hs' i hi
      exact ⟨e, he, List.mem_of_getElem? he', (hm e).2 ⟨i, hi, he⟩, fun _ => he'⟩
  | part l a' b' =>
    have hs' : ∀ i, i < l → ∃ e, A.set.entities[i]? = some e ∧ e ∈ B.set.entities := hs
    refine ⟨?_, ?_, fun e he => (hm e).1 he⟩
    · cases l with
      | zero => exact Nat.zero_le _
      | succ l =>
        obtain ⟨e, he, _⟩ := hs' l (by omega)
        exact (List.getElem?_eq_some_iff.1 he).1
    · intro i hi
      obtain ⟨e, he, he'⟩ := hs' i hi
      refine ⟨e, he, he', (hm e).2 ⟨i, hi, he⟩, fun hk' => ?_⟩
      simp [Group.kind] at e5; rw [← e5] at hk'; simp at hk'
  | non set a' b' => simp [Group.kind] at e5; exact absurd e5.symm hk

/-- Everything in the driving list of a base query is yielded. -/
theorem stepOut_head {pl : Nat → Item Loc} {Y : Nat → Bool} {L : List Nat} {i e : Nat}
    (hi : L[i]? = some e) (hY : Y e = true) :
    stepOut pl (findFrom Y (L.drop i) i) = (some (e, pl e), i + 1) := by
  obtain ⟨hlt, he⟩ := List.getElem?_eq_some_iff.1 hi
  rw [List.drop_eq_getElem_cons hlt, he]
  simp [findFrom, hY, stepOut]

theorem stepOut_end {pl : Nat → Item Loc} {Y : Nat → Bool} {L : List Nat} {i : Nat} (hi : L.length ≤ i) :
    stepOut pl (findFrom Y (L.drop i) i) = (none, i) := by
  rw [List.drop_eq_nil_of_le hi]; rfl

theorem drv_owning {w : World V} {k : Kind} {pos : Nat} {g : Group} {A : Storage V} {a b : Nat}
    (ma mb : Mode) (e1 : Query.findGroup w k a b = some pos) (e2 : w.groups[pos]? = some g)
    (e3 : g.kind = k) (hk : k ≠ .non) (hA : w.comps a = some A) :
    drv w (.group k ma mb a b) = A.set.entities.take g.len := by
  simp only [drv, e1, Option.getD_some, e2, hA]
  cases g with
  | full => rfl
  | part => rfl
  | non => simp [Group.kind] at e3; exact absurd e3.symm hk

theorem drv_non {w : World V} {pos : Nat} {a b a' b' : Nat} {set : SparseSet (Nat × Nat)}
    (ma mb : Mode) (e1 : Query.findGroup w .non a b = some pos)
    (e2 : w.groups[pos]? = some (.non set a' b')) :
    drv w (.group .non ma mb a b) = set.entities := by
  simp only [drv, e1, Option.getD_some, e2]

theorem remaining_eq {w : World V} {s : State V} (h : WRel w s) (q : Query) (i : Nat) :
    s.Defined q → (planOf w q).remaining w i = (drv w q).length - i := by
  induction q with
  | comp m t =>
    intro hd
    obtain ⟨st, hst, -⟩ := storage_at h hd
    simp [planOf, Plan.remaining, drv, hst, SparseSet.len]
  | with2 a b iha ihb => intro hd; exact iha hd.1
  | with3 a b c iha ihb ihc => intro hd; exact iha hd.1
  | with4 a b c d iha ihb ihc ihd => intro hd; exact iha hd.1
  | with5 a b c d e iha ihb ihc ihd ihe => intro hd; exact iha hd.1
  | withoutL a b iha ihb => intro hd; exact ihb hd.2
  | withoutR a b iha ihb => intro hd; exact iha hd.1
  | group k ma mb a b =>
    intro hd
    obtain ⟨gs, hgs⟩ := Option.isSome_iff_exists.1 hd.2.2
    by_cases hk : k = .non
    · subst hk
      obtain ⟨pos, g, e1, e2, e3, e4, e5, -⟩ := group?_some h hgs
      cases g with
      | full => simp [Group.kind] at e5
      | part => simp [Group.kind] at e5
      | non set a' b' =>
        rw [drv_non ma mb e1 e3]
        simp [planOf, Plan.remaining, e1, e3, SparseSet.len]
    · obtain ⟨pos, g, A, B, e1, e2, e3, hA, hB, wA, wB, hlen, h1, h2⟩ := owning_drv h hgs hk
      rw [drv_owning ma mb e1 e2 e3 hk hA, List.length_take, Nat.min_eq_left hlen]
      cases k with
      | full => simp [planOf, Plan.remaining, e1, e2]
      | part => simp [planOf, Plan.remaining, e1, e2]
      | non => exact absurd rfl hk

/-- One call of `next_with_id`. -/
theorem nextWithId_spec {w : World V} {s : State V} (h : WRel w s) (q : Query) :
    s.Defined q → s.FreshIn q → ∀ i, i ≤ (drv w q).length →
    (planOf w q).nextWithId w i =
      .ok (stepOut (fun id => place w id q) (findFrom (fun id => (s.yields q id).isSome) ((drv w q).drop i) i)) := by
  induction q with
  | comp m t =>
    intro hd _ i hi
    obtain ⟨st, hst, hw, hl, hm⟩ := storage_at h hd
    have hdrv : drv w (.comp m t) = st.set.entities := by simp [drv, hst]
    rw [hdrv] at hi ⊢
    simp only [planOf, Plan.nextWithId, Plan.setOf, hst, unwrapR_some, ok_bind, SparseSet.len]
    by_cases hlt : i < st.set.entities.length
    · have he := List.getElem?_eq_getElem hlt
      rw [stepOut_head he (by
        have := (hm _).1 (List.mem_of_getElem? he)
        simpa [State.yields, State.has] using this)]
      simp only [hlt, if_true, getU_some he, ok_bind, refAt_eq hw hst m he, place]
    · rw [stepOut_end (by omega)]
      simp [hlt]
  | with2 a b iha ihb =>
    intro hd hf i hi
    have hdrv : drv w (.with2 a b) = drv w a := rfl
    rw [hdrv] at hi ⊢
    have hfr := fun id => fromId_spec h b id hd.2 hf.2
    simp only [planOf, Plan.nextWithId]
    rw [drive_spec (K := fun id => (s.point b id).isSome) (pl' := fun id => place w id (.with2 a b))
      (iha hd.1 hf.1) (fun id => by
        rw [hfr]
        cases s.point b id <;> simp [place]) _ i _ rfl hi (by rw [remaining_eq h a i hd.1]; omega)]
    congr 4
    funext id
    simp only [State.yields]
    cases s.yields a id <;> cases s.point b id <;> rfl
  | with3 a b c iha ihb ihc =>
    intro hd hf i hi
    have hdrv : drv w (.with3 a b c) = drv w a := rfl
    rw [hdrv] at hi ⊢
    have hfb := fun id => fromId_spec h b id hd.2.1 hf.2.1
    have hfc := fun id => fromId_spec h c id hd.2.2 hf.2.2
    simp only [planOf, Plan.nextWithId]
    rw [drive_spec (K := fun id => (s.point b id).isSome && (s.point c id).isSome)
      (pl' := fun id => place w id (.with3 a b c))
      (iha hd.1 hf.1) (fun id => by
        simp only [hfb, hfc]
        cases s.point b id <;> cases s.point c id <;> simp [place]) _ i _ rfl hi
      (by rw [remaining_eq h a i hd.1]; omega)]
    congr 4
    funext id
    simp only [State.yields]
    cases s.yields a id <;> cases s.point b id <;> cases s.point c id <;> rfl
  | with4 a b c d iha ihb ihc ihd =>
    intro hd hf i hi
    have hdrv : drv w (.with4 a b c d) = drv w a := rfl
    rw [hdrv] at hi ⊢
    have hfb := fun id => fromId_spec h b id hd.2.1 hf.2.1
    have hfc := fun id => fromId_spec h c id hd.2.2.1 hf.2.2.1
    have hfd := fun id => fromId_spec h d id hd.2.2.2 hf.2.2.2
    simp only [planOf, Plan.nextWithId]
    rw [drive_spec (K := fun id => (s.point b id).isSome && (s.point c id).isSome && (s.point d id).isSome)
      (pl' := fun id => place w id (.with4 a b c d))
      (iha hd.1 hf.1) (fun id => by
        simp only [hfb, hfc, hfd]
        cases s.point b id <;> cases s.point c id <;> cases s.point d id <;> simp [place]) _ i _ rfl hi
      (by rw [remaining_eq h a i hd.1]; omega)]
    congr 4
    funext id
    simp only [State.yields]
    cases s.yields a id <;> cases s.point b id <;> cases s.point c id <;> cases s.point d id <;> rfl
  | with5 a b c d e iha ihb ihc ihd ihe =>
    intro hd hf i hi
    have hdrv : drv w (.with5 a b c d e) = drv w a := rfl
    rw [hdrv] at hi ⊢
    have hfb := fun id => fromId_spec h b id hd.2.1 hf.2.1
    have hfc := fun id => fromId_spec h c id hd.2.2.1 hf.2.2.1
    have hfd := fun id => fromId_spec h d id hd.2.2.2.1 hf.2.2.2.1
    have hfe := fun id => fromId_spec h e id hd.2.2.2.2 hf.2.2.2.2
    simp only [planOf, Plan.nextWithId]
    rw [drive_spec (K := fun id => (s.point b id).isSome && (s.point c id).isSome && (s.point d id).isSome &&
        (s.point e id).isSome)
      (pl' := fun id => place w id (.with5 a b c d e))
      (iha hd.1 hf.1) (fun id => by
        simp only [hfb, hfc, hfd, hfe]
        cases s.point b id <;> cases s.point c id <;> cases s.point d id <;> cases s.point e id <;>
          simp [place]) _ i _ rfl hi
      (by rw [remaining_eq h a i hd.1]; omega)]
    congr 4
    funext id
    simp only [State.yields]
    cases s.yields a id <;> cases s.point b id <;> cases s.point c id <;> cases s.point d id <;>
      cases s.point e id <;> rfl
  | withoutL a b iha ihb =>
    intro hd hf i hi
    have hdrv : drv w (.withoutL a b) = drv w b := rfl
    rw [hdrv] at hi ⊢
    have hfr := fun id => fromId_spec h a id hd.1 hf.1
    simp only [planOf, Plan.nextWithId]
    rw [drive_spec (K := fun id => (s.point a id).isNone) (pl' := fun id => place w id (.withoutL a b))
      (ihb hd.2 hf.2) (fun id => by
        rw [hfr]
        cases s.point a id <;> simp [place]) _ i _ rfl hi (by rw [remaining_eq h b i hd.2]; omega)]
    congr 4
    funext id
    simp only [State.yields]
    cases s.yields b id <;> cases s.point a id <;> rfl
  | withoutR a b iha ihb =>
    intro hd hf i hi
    have hdrv : drv w (.withoutR a b) = drv w a := rfl
    rw [hdrv] at hi ⊢
    have hfr := fun id => fromId_spec h b id hd.2 hf.2
    simp only [planOf, Plan.nextWithId]
    rw [drive_spec (K := fun id => (s.point b id).isNone) (pl' := fun id => place w id (.withoutR a b))
      (iha hd.1 hf.1) (fun id => by
        rw [hfr]
        cases s.point b id <;> simp [place]) _ i _ rfl hi (by rw [remaining_eq h a i hd.1]; omega)]
    congr 4
    funext id
    simp only [State.yields]
    cases s.yields a id <;> cases s.point b id <;> rfl
  | group k ma mb a b =>
    intro hd hf i hi
    obtain ⟨gs, hgs⟩ := Option.isSome_iff_exists.1 hd.2.2
    have hmem : ∀ e, s.member k a b e = gs.mem e := fun e => by simp [State.member, hgs]
    have hY : ∀ e, gs.mem e = true → (s.yields (.group k ma mb a b) e).isSome = true := by
      intro e he
      have := member_pair h (k := k) (a := a) (b := b) (id := e) (by rw [hmem, he])
      simp only [State.yields, hmem, he, if_true]
      exact this
    by_cases hk : k = .non
    · subst hk
      obtain ⟨pos, set, A, B, e1, e2, hA, hB, wA, wB, wS, hm, hl⟩ := non_get h hgs (hf rfl gs hgs)
      rw [drv_non ma mb e1 e2] at hi ⊢
      simp only [planOf, Plan.nextWithId, e1, Option.getD_some, Plan.groupSetOf, getR_some e2, ok_bind,
        SparseSet.len]
      by_cases hlt : i < set.entities.length
      · have he := List.getElem?_eq_getElem hlt
        rw [stepOut_head he (hY _ ((hm _).1 (List.mem_of_getElem? he)))]
        have hlt' : i < set.data.length := by rw [← wS.len]; exact hlt
        have hdt := List.getElem?_eq_getElem hlt'
        have hlk := SparseSet.lookup_of_index wS he
        rw [hdt] at hlk
        obtain ⟨ea, eb⟩ := hl _ set.data[i].1 set.data[i].2 hlk
        simp only [hlt, if_true, getU_some he, getU_some hdt, ok_bind, Plan.setOf, hA, hB, unwrapR_some,
          refAt_eq wA hA ma ea, refAt_eq wB hB mb eb, place]
      · rw [stepOut_end (by omega)]
        simp [hlt]
    · obtain ⟨pos, g, A, B, e1, e2, e3, hA, hB, wA, wB, hlen, h1, h2⟩ := owning_drv h hgs hk
      rw [drv_owning ma mb e1 e2 e3 hk hA] at hi ⊢
      rw [List.length_take, Nat.min_eq_left hlen] at hi
      by_cases hlt : i < g.len
      · obtain ⟨e, he, heB, heM, heF⟩ := h1 i hlt
        have he' : (A.set.entities.take g.len)[i]? = some e := by rw [List.getElem?_take, if_pos hlt, he]
        rw [stepOut_head he' (hY e heM)]
        have hbe : ∃ y, s.get b e = some y := by
          have := member_pair h (k := k) (a := a) (b := b) (id := e) (by rw [hmem, heM])
          simp only [State.pairOf] at this
          cases hx : s.get b e with
          | none => simp [hx] at this
          | some y => exact ⟨y, rfl⟩
        obtain ⟨y, hy⟩ := hbe
        cases k with
        | full =>
          simp only [planOf, Plan.nextWithId, e1, Option.getD_some, e2, hlt, if_true, Plan.setOf, hA, hB,
            unwrapR_some, ok_bind, getU_some he, refAt_eq wA hA ma he, refAt_eq wB hB mb (heF rfl), place]
        | part =>
          simp only [planOf, Plan.nextWithId, e1, Option.getD_some, e2, hlt, if_true, Plan.setOf, hA, hB,
            unwrapR_some, ok_bind, getU_some he, refAt_eq wA hA ma he, refOf_eq h hB, hy, Option.map_some, place]
        | non => exact absurd rfl hk
      · have : (A.set.entities.take g.len).length ≤ i := by
          rw [List.length_take, Nat.min_eq_left hlen]; omega
        rw [stepOut_end this]
        cases k with
        | full => simp [planOf, Plan.nextWithId, e1, e2, hlt]
        | part => simp [planOf, Plan.nextWithId, e1, e2, hlt]
        | non => exact absurd rfl hk

/-- `next` is `next_with_id` without the id, for every iterator and at every position. -/
theorem next_eq {w : World V} {s : State V} (h : WRel w s) (q : Query) (hd : s.Defined q) (hf : s.FreshIn q)
    (i : Nat) (hi : i ≤ (drv w q).length) :
    (planOf w q).next w i = Plan.dropId ((planOf w q).nextWithId w i) := by
  have hn := nextWithId_spec h q hd hf i hi
  cases q with
  | comp m t =>
    obtain ⟨st, hst, hw, hl, hm⟩ := storage_at h hd
    have hdrv : drv w (.comp m t) = st.set.entities := by simp [drv, hst]
    rw [hdrv] at hi hn
    by_cases hlt : i < st.set.entities.length
    · have he := List.getElem?_eq_getElem hlt
      simp only [planOf, Plan.next, Plan.nextWithId, Plan.setOf, hst, unwrapR_some, ok_bind, SparseSet.len, hlt,
        if_true, getU_some he, refAt_eq hw hst m he, Plan.dropId, Option.map_some]
    · simp [planOf, Plan.next, Plan.nextWithId, Plan.setOf, hst, SparseSet.len, hlt, Plan.dropId]
  | with2 a b => rfl
  | with3 a b c => rfl
  | with4 a b c d => rfl
  | with5 a b c d e => rfl
  | withoutL a b => rfl
  | withoutR a b => rfl
  | group k ma mb a b =>
    obtain ⟨gs, hgs⟩ := Option.isSome_iff_exists.1 hd.2.2
    by_cases hk : k = .non
    · subst hk
      obtain ⟨pos, set, A, B, e1, e2, hA, hB, wA, wB, wS, hm, hl⟩ := non_get h hgs (hf rfl gs hgs)
      by_cases hlt : i < set.entities.length
      · have he := List.getElem?_eq_getElem hlt
        have hlt' : i < set.data.length := by rw [← wS.len]; exact hlt
        have hdt := List.getElem?_eq_getElem hlt'
        have hlk := SparseSet.lookup_of_index wS he
        rw [hdt] at hlk
        obtain ⟨ea, eb⟩ := hl _ set.data[i].1 set.data[i].2 hlk
        simp only [planOf, Plan.next, Plan.nextWithId, e1, Option.getD_some, Plan.groupSetOf, getR_some e2,
          ok_bind, SparseSet.len, hlt, if_true, getU_some he, getU_some hdt, Plan.setOf, hA, hB, unwrapR_some,
          refAt_eq wA hA ma ea, refAt_eq wB hB mb eb, Plan.dropId, Option.map_some]
      · simp [planOf, Plan.next, Plan.nextWithId, e1, Plan.groupSetOf, getR_some e2, SparseSet.len, hlt,
          Plan.dropId]
    · obtain ⟨pos, g, A, B, e1, e2, e3, hA, hB, wA, wB, hlen, h1, h2⟩ := owning_drv h hgs hk
      by_cases hlt : i < g.len
      · obtain ⟨e, he, heB, heM, heF⟩ := h1 i hlt
        cases k with
        | full =>
          simp only [planOf, Plan.next, Plan.nextWithId, e1, Option.getD_some, e2, hlt, if_true, Plan.setOf, hA,
            hB, unwrapR_some, ok_bind, getU_some he, refAt_eq wA hA ma he, refAt_eq wB hB mb (heF rfl),
            Plan.dropId, Option.map_some]
        | part =>
          simp only [planOf, Plan.next, Plan.nextWithId, e1, Option.getD_some, e2, hlt, if_true, Plan.setOf, hA,
            hB, unwrapR_some, ok_bind, getU_some he, refAt_eq wA hA ma he, refOf_eq h hB, Plan.dropId]
          cases s.get b e <;> simp
        | non => exact absurd rfl hk
      · cases k with
        | full => simp [planOf, Plan.next, Plan.nextWithId, e1, e2, hlt, Plan.dropId]
        | part => simp [planOf, Plan.next, Plan.nextWithId, e1, e2, hlt, Plan.dropId]
        | non => exact absurd rfl hk

/-- What is still to come from position `i` on. -/
def rest (w : World V) (s : State V) (q : Query) (i : Nat) : List Nat :=
  ((drv w q).drop i).filter fun id => (s.yields q id).isSome

theorem findFrom_rest (Y : Nat → Bool) (L : List Nat) : ∀ (n i : Nat), n = L.length - i → i ≤ L.length →
    match findFrom Y (L.drop i) i with
    | (some x, j) => i < j ∧ j ≤ L.length ∧ (L.drop i).filter Y = x :: (L.drop j).filter Y
    | (none, j) => j = L.length ∧ (L.drop i).filter Y = [] := by
  intro n
  induction n with
  | zero =>
    intro i hn hi
    have : L.drop i = [] := List.drop_eq_nil_of_le (by omega)
    rw [this]
    simp [findFrom]; omega
  | succ n ih =>
    intro i hn hi
    have hlt : i < L.length := by omega
    rw [List.drop_eq_getElem_cons hlt]
    simp only [findFrom]
    by_cases hY : Y L[i] = true
    · simp only [hY, if_true]
      exact ⟨by omega, hlt, by rw [List.filter_cons_of_pos hY]⟩
    · simp only [hY, Bool.false_eq_true, if_false]
      have := ih (i + 1) (by omega) hlt
      split at this
      · rename_i x j hx
        exact ⟨by omega, this.2.1, by rw [List.filter_cons_of_neg hY, this.2.2]⟩
      · rename_i j hx
        exact ⟨this.1, by rw [List.filter_cons_of_neg hY, this.2]⟩

/-- One call of `next_with_id`: the head of what is still to come. -/
theorem nextWithId_rest {w : World V} {s : State V} (h : WRel w s) (q : Query) (hd : s.Defined q)
    (hf : s.FreshIn q) {i : Nat} (hi : i ≤ (drv w q).length) :
    (∃ id j, (planOf w q).nextWithId w i = .ok (some (id, place w id q), j) ∧ i < j ∧ j ≤ (drv w q).length ∧
      rest w s q i = id :: rest w s q j) ∨
    ((planOf w q).nextWithId w i = .ok (none, (drv w q).length) ∧ rest w s q i = []) := by
  rw [nextWithId_spec h q hd hf i hi]
  have := findFrom_rest (fun id => (s.yields q id).isSome) (drv w q) _ i rfl hi
  cases hr : findFrom (fun id => (s.yields q id).isSome) ((drv w q).drop i) i with
  | mk o j =>
    rw [hr] at this
    cases o with
    | some x => exact .inl ⟨x, j, rfl, this⟩
    | none => simp only at this; exact .inr ⟨by simp [stepOut, this.1], this.2⟩

/-- Collecting an iterator from position `i`. -/
theorem collectFrom_spec {w : World V} {s : State V} (h : WRel w s) (q : Query) (hd : s.Defined q)
    (hf : s.FreshIn q) : ∀ (fuel i : Nat), i ≤ (drv w q).length → (drv w q).length - i < fuel →
    (planOf w q).collectFrom w fuel i = .ok ((rest w s q i).map fun id => (id, place w id q)) := by
  intro fuel
  induction fuel with
  | zero => intro i hi hlt; omega
  | succ fuel ih =>
    intro i hi hlt
    rcases nextWithId_rest h q hd hf hi with ⟨id, j, h1, h2, h3, h4⟩ | ⟨h1, h2⟩
    · simp [Plan.collectFrom, h1, ih j h3 (by omega), h4]
    · simp [Plan.collectFrom, h1, h2]

theorem queryAll_eq {w : World V} {s : State V} (h : WRel w s) (q : Query) (hd : s.Defined q)
    (hf : s.FreshIn q) (hc : q.Conflictless) :
    w.queryAll q = .ok ((rest w s q 0).map fun id => (id, place w id q)) := by
  have hp := prepare_ok h q [] hd (by simpa [Query.Conflictless] using hc)
  simp only [World.queryAll, World.query, hp, ok_bind]
  apply collectFrom_spec h q hd hf _ 0 (by omega)
  rw [remaining_eq h q 0 hd]; omega

/-- Every id a query yields is in the driving list, which has no duplicates. -/
theorem drv_spec {w : World V} {s : State V} (h : WRel w s) (q : Query) : s.Defined q →
    (drv w q).Nodup ∧ ∀ id, (s.yields q id).isSome = true → id ∈ drv w q := by
  induction q with
  | comp m t =>
    intro hd
    obtain ⟨st, hst, hw, hl, hm⟩ := storage_at h hd
    have hdrv : drv w (.comp m t) = st.set.entities := by simp [drv, hst]
    rw [hdrv]
    refine ⟨SparseSet.nodup hw, fun id hy => (hm id).2 ?_⟩
    simpa [State.yields, State.has] using hy
  | with2 a b iha ihb =>
    intro hd
    refine ⟨(iha hd.1).1, fun id hy => (iha hd.1).2 id ?_⟩
    simp only [State.yields] at hy
    cases ha : s.yields a id with
    | none => simp [ha] at hy
    | some x => rfl
  | with3 a b c iha ihb ihc =>
    intro hd
    refine ⟨(iha hd.1).1, fun id hy => (iha hd.1).2 id ?_⟩
    simp only [State.yields] at hy
    cases ha : s.yields a id with
    | none => simp [ha] at hy
    | some x => rfl
  | with4 a b c d iha ihb ihc ihd =>
    intro hd
    refine ⟨(iha hd.1).1, fun id hy => (iha hd.1).2 id ?_⟩
    simp only [State.yields] at hy
    cases ha : s.yields a id with
    | none => simp [ha] at hy
    | some x => rfl
  | with5 a b c d e iha ihb ihc ihd ihe =>
    intro hd
    refine ⟨(iha hd.1).1, fun id hy => (iha hd.1).2 id ?_⟩
    simp only [State.yields] at hy
    cases ha : s.yields a id with
    | none => simp [ha] at hy
    | some x => rfl
  | withoutL a b iha ihb =>
    intro hd
    refine ⟨(ihb hd.2).1, fun id hy => (ihb hd.2).2 id ?_⟩
    simp only [State.yields] at hy
    split at hy
    · simp at hy
    · exact hy
  | withoutR a b iha ihb =>
    intro hd
    refine ⟨(iha hd.1).1, fun id hy => (iha hd.1).2 id ?_⟩
    simp only [State.yields] at hy
    split at hy
    · simp at hy
    · exact hy
  | group k ma mb a b =>
    intro hd
    obtain ⟨gs, hgs⟩ := Option.isSome_iff_exists.1 hd.2.2
    have hmem : ∀ e, s.member k a b e = gs.mem e := fun e => by simp [State.member, hgs]
    have hY : ∀ e, (s.yields (.group k ma mb a b) e).isSome = true → gs.mem e = true := by
      intro e he
      simp only [State.yields, hmem] at he
      split at he
      · assumption
      · simp at he
    by_cases hk : k = .non
    · subst hk
      obtain ⟨pos, g, e1, e2, e3, e4, e5, -⟩ := group?_some h hgs
      obtain ⟨A, B, hA, hB, hs, hm, hfr⟩ := e4.ex
      cases g with
      | full => simp [Group.kind] at e5
      | part => simp [Group.kind] at e5
      | non set a' b' =>
        rw [drv_non ma mb e1 e3]
        exact ⟨SparseSet.nodup hs.1, fun id hy => (hm id).1 (hY id hy)⟩
    · obtain ⟨pos, g, A, B, e1, e2, e3, hA, hB, wA, wB, hlen, h1, h2⟩ := owning_drv h hgs hk
      rw [drv_owning ma mb e1 e2 e3 hk hA]
      refine ⟨(SparseSet.nodup wA).sublist (List.take_sublist _ _), fun id hy => ?_⟩
      obtain ⟨i, hi, he⟩ := h2 id (hY id hy)
      apply List.mem_of_getElem? (i := i)
      rw [List.getElem?_take, if_pos hi, he]

theorem rest_spec {w : World V} {s : State V} (h : WRel w s) (q : Query) (hd : s.Defined q) :
    (rest w s q 0).Nodup ∧ ∀ id, id ∈ rest w s q 0 ↔ (s.yields q id).isSome = true := by
  obtain ⟨h1, h2⟩ := drv_spec h q hd
  refine ⟨by simpa [rest] using h1.sublist List.filter_sublist, fun id => ?_⟩
  simp only [rest, List.drop_zero, List.mem_filter]
  exact ⟨fun h => h.2, fun h => ⟨h2 id h, h⟩⟩

/-- Everything in the driving list of a single-component or group query is yielded. -/
theorem base_rest {w : World V} {s : State V} (h : WRel w s) (q : Query) (hd : s.Defined q)
    (hb : (∃ m t, q = .comp m t) ∨ (∃ k ma mb a b, q = .group k ma mb a b)) (i : Nat) :
    rest w s q i = (drv w q).drop i := by
  apply List.filter_eq_self.2
  intro id hid
  have hid := List.mem_of_mem_drop hid
  rcases hb with ⟨m, t, rfl⟩ | ⟨k, ma, mb, a, b, rfl⟩
  · obtain ⟨st, hst, hw, hl, hm⟩ := storage_at h hd
    simp only [drv, hst] at hid
    simpa [State.yields, State.has] using (hm id).1 hid
  · obtain ⟨gs, hgs⟩ := Option.isSome_iff_exists.1 hd.2.2
    have hmem : ∀ e, s.member k a b e = gs.mem e := fun e => by simp [State.member, hgs]
    have hY : ∀ e, gs.mem e = true → (s.yields (.group k ma mb a b) e).isSome = true := by
      intro e he
      have := member_pair h (k := k) (a := a) (b := b) (id := e) (by rw [hmem, he])
      simp only [State.yields, hmem, he, if_true]
      exact this
    by_cases hk : k = .non
    · subst hk
      obtain ⟨pos, g, e1, e2, e3, e4, e5, -⟩ := group?_some h hgs
      obtain ⟨A, B, hA, hB, hs, hm, hfr⟩ := e4.ex
      cases g with
      | full => simp [Group.kind] at e5
      | part => simp [Group.kind] at e5
      | non set a' b' =>
        rw [drv_non ma mb e1 e3] at hid
        exact hY id ((hm id).2 hid)
    · obtain ⟨pos, g, A, B, e1, e2, e3, hA, hB, wA, wB, hlen, h1, h2⟩ := owning_drv h hgs hk
      rw [drv_owning ma mb e1 e2 e3 hk hA, List.mem_take_iff_getElem] at hid
      obtain ⟨j, hj, rfl⟩ := hid
      obtain ⟨e, he, -, hm, -⟩ := h1 j (by omega)
      rw [List.getElem?_eq_getElem (by omega)] at he
      simp only [Option.some.injEq] at he
      rw [he]; exact hY e hm

theorem sizeHint_base {w : World V} {s : State V} (h : WRel w s) (q : Query) (hd : s.Defined q)
    (hb : (∃ m t, q = .comp m t) ∨ (∃ k ma mb a b, q = .group k ma mb a b)) {i : Nat}
    (hi : i ≤ (drv w q).length) :
    (planOf w q).sizeHint w i = .ok ((rest w s q i).length, some (rest w s q i).length) := by
  rw [base_rest h q hd hb, List.length_drop]
  rcases hb with ⟨m, t, rfl⟩ | ⟨k, ma, mb, a, b, rfl⟩
  · obtain ⟨st, hst, hw, hl, hm⟩ := storage_at h hd
    simp only [drv, hst] at hi ⊢
    simp [planOf, Plan.sizeHint, Plan.setOf, hst, SparseSet.len, Plan.subR, hi]
  · obtain ⟨gs, hgs⟩ := Option.isSome_iff_exists.1 hd.2.2
    by_cases hk : k = .non
    · subst hk
      obtain ⟨pos, g, e1, e2, e3, e4, e5, -⟩ := group?_some h hgs
      cases g with
      | full => simp [Group.kind] at e5
      | part => simp [Group.kind] at e5
      | non set a' b' =>
        rw [drv_non ma mb e1 e3] at hi ⊢
        simp [planOf, Plan.sizeHint, Plan.groupSetOf, e1, getR_some e3, SparseSet.len, Plan.subR, hi]
    · obtain ⟨pos, g, A, B, e1, e2, e3, hA, hB, wA, wB, hlen, h1, h2⟩ := owning_drv h hgs hk
      rw [drv_owning ma mb e1 e2 e3 hk hA, List.length_take, Nat.min_eq_left hlen] at hi ⊢
      cases k with
      | full => simp [planOf, Plan.sizeHint, e1, e2, Plan.subR, hi]
      | part => simp [planOf, Plan.sizeHint, e1, e2, Plan.subR, hi]
      | non => exact absurd rfl hk

end Xecs
