import Verif.Proofs.Shape
/-
Iterators with one index per leaf behave like the single-index iterators of Model/Query.
-/
set_option autoImplicit false
namespace Xecs
open Spec World Hist
variable {V : Type}

namespace Plan

/-- Put the leading index. -/
def put : Plan → Ix → Nat → Ix
  | with2 a _, .pair x y, i => .pair (put a x i) y
  | with3 a _ _, .pair x y, i => .pair (put a x i) y
  | with4 a _ _ _, .pair x y, i => .pair (put a x i) y
  | with5 a _ _ _ _, .pair x y, i => .pair (put a x i) y
  | withoutL _ b, .pair x y, i => .pair x (put b y i)
  | withoutR a _, .pair x y, i => .pair (put a x i) y
  | _, .leaf _, i => .leaf i
  | _, .pair x y, _ => .pair x y

/-- The indices have the shape of the iterator. -/
def Fits : Plan → Ix → Prop
  | comp _ _, .leaf _ => True
  | with2 a b, .pair x y => Fits a x ∧ Fits b y
  | with3 a b c, .pair x (.pair y z) => Fits a x ∧ Fits b y ∧ Fits c z
  | with4 a b c d, .pair x (.pair y (.pair z u)) => Fits a x ∧ Fits b y ∧ Fits c z ∧ Fits d u
  | with5 a b c d e, .pair x (.pair y (.pair z (.pair u v))) => Fits a x ∧ Fits b y ∧ Fits c z ∧ Fits d u ∧ Fits e v
  | withoutL a b, .pair x y => Fits a x ∧ Fits b y
  | withoutR a b, .pair x y => Fits a x ∧ Fits b y
  | full _ _ _ _ _, .leaf _ => True
  | part _ _ _ _ _, .leaf _ => True
  | non _ _ _ _ _, .leaf _ => True
  | _, _ => False

theorem start_fits (p : Plan) : p.Fits p.start := by
  induction p with
  | comp => trivial
  | full => trivial
  | part => trivial
  | non => trivial
  | with2 a b iha ihb => exact ⟨iha, ihb⟩
  | with3 a b c iha ihb ihc => exact ⟨iha, ihb, ihc⟩
  | with4 a b c d iha ihb ihc ihd => exact ⟨iha, ihb, ihc, ihd⟩
  | with5 a b c d e iha ihb ihc ihd ihe => exact ⟨iha, ihb, ihc, ihd, ihe⟩
  | withoutL a b iha ihb => exact ⟨iha, ihb⟩
  | withoutR a b iha ihb => exact ⟨iha, ihb⟩

theorem lead_start (p : Plan) : p.lead p.start = 0 := by
  induction p with
  | with2 a b iha ihb => exact iha
  | with3 a b c iha ihb ihc => exact iha
  | with4 a b c d iha ihb ihc ihd => exact iha
  | with5 a b c d e iha ihb ihc ihd ihe => exact iha
  | withoutL a b iha ihb => exact ihb
  | withoutR a b iha ihb => exact iha
  | _ => rfl

theorem fits_cases {p : Plan} {x : Ix} (h : p.Fits x) : (∃ i, x = .leaf i) ∨ ∃ y z, x = .pair y z := by
  cases x with
  | leaf i => exact .inl ⟨i, rfl⟩
  | pair y z => exact .inr ⟨y, z, rfl⟩

/-- Reading back, overwriting and keeping the shape. -/
theorem put_spec (p : Plan) : ∀ (x : Ix), p.Fits x → ∀ (i : Nat), p.Fits (p.put x i) ∧ p.lead (p.put x i) = i ∧
    ∀ j, p.put (p.put x i) j = p.put x j := by
  induction p with
  | comp m t => intro x hx i; cases x with
    | leaf k => exact ⟨trivial, rfl, fun _ => rfl⟩
    | pair => exact hx.elim
  | full l m n a b => intro x hx i; cases x with
    | leaf k => exact ⟨trivial, rfl, fun _ => rfl⟩
    | pair => exact hx.elim
  | part l m n a b => intro x hx i; cases x with
    | leaf k => exact ⟨trivial, rfl, fun _ => rfl⟩
    | pair => exact hx.elim
  | non l m n a b => intro x hx i; cases x with
    | leaf k => exact ⟨trivial, rfl, fun _ => rfl⟩
    | pair => exact hx.elim
  | with2 a b iha ihb => intro x hx i; cases x with
    | leaf k => exact hx.elim
    | pair y z =>
      obtain ⟨h1, h2, h3⟩ := iha y hx.1 i
      exact ⟨⟨h1, hx.2⟩, h2, fun j => by simp only [put, h3]⟩
  | with3 a b c iha ihb ihc => intro x hx i; match x, hx with
    | .pair y (.pair z u), hx =>
      obtain ⟨h1, h2, h3⟩ := iha y hx.1 i
      exact ⟨⟨h1, hx.2⟩, h2, fun j => by simp only [put, h3]⟩
  | with4 a b c d iha ihb ihc ihd => intro x hx i; match x, hx with
    | .pair y (.pair z (.pair u v)), hx =>
      obtain ⟨h1, h2, h3⟩ := iha y hx.1 i
      exact ⟨⟨h1, hx.2⟩, h2, fun j => by simp only [put, h3]⟩
  | with5 a b c d e iha ihb ihc ihd ihe => intro x hx i; match x, hx with
    | .pair y (.pair z (.pair u (.pair v k))), hx =>
      obtain ⟨h1, h2, h3⟩ := iha y hx.1 i
      exact ⟨⟨h1, hx.2⟩, h2, fun j => by simp only [put, h3]⟩
  | withoutR a b iha ihb => intro x hx i; cases x with
    | leaf k => exact hx.elim
    | pair y z =>
      obtain ⟨h1, h2, h3⟩ := iha y hx.1 i
      exact ⟨⟨h1, hx.2⟩, h2, fun j => by simp only [put, h3]⟩
  | withoutL a b iha ihb => intro x hx i; cases x with
    | leaf k => exact hx.elim
    | pair y z =>
      obtain ⟨h1, h2, h3⟩ := ihb z hx.2 i
      exact ⟨⟨hx.1, h1⟩, h2, fun j => by simp only [put, h3]⟩

/-- `from_id` leaves the iterator as it is. -/
theorem fromIdMut_eq (w : World V) (id : Nat) (p : Plan) : ∀ (x : Ix), p.Fits x →
    p.fromIdMut w x id = (do let r ← p.fromId w id; .ok (r, x)) := by
  induction p with
  | comp m t => intro x hx; cases x with
    | leaf k => rfl
    | pair => exact hx.elim
  | full l m n a b => intro x hx; cases x with
    | leaf k => rfl
    | pair => exact hx.elim
  | part l m n a b => intro x hx; cases x with
    | leaf k => rfl
    | pair => exact hx.elim
  | non l m n a b => intro x hx; cases x with
    | leaf k => rfl
    | pair => exact hx.elim
  | with2 a b iha ihb => intro x hx; match x, hx with
    | .pair y z, hx =>
      simp only [fromIdMut, fromId, iha y hx.1, ihb z hx.2]
      rcases fromId w a id with e | (_ | u)
      · rfl
      · rfl
      · rcases fromId w b id with e | (_ | v) <;> rfl
  | withoutL a b iha ihb => intro x hx; match x, hx with
    | .pair y z, hx =>
      simp only [fromIdMut, fromId, iha y hx.1, ihb z hx.2]
      rcases fromId w a id with e | (_ | u)
      · rfl
      · rcases fromId w b id with e | (_ | v) <;> rfl
      · rfl
  | withoutR a b iha ihb => intro x hx; match x, hx with
    | .pair y z, hx =>
      simp only [fromIdMut, fromId, iha y hx.1, ihb z hx.2]
      rcases fromId w b id with e | (_ | u)
      · rfl
      · rcases fromId w a id with e | (_ | v) <;> rfl
      · rfl
  | with3 a b c iha ihb ihc => intro x hx; match x, hx with
    | .pair y (.pair z u), hx =>
      simp only [fromIdMut, fromId, iha y hx.1, ihb z hx.2.1, ihc u hx.2.2]
      rcases fromId w a id with e | (_ | u)
      · rfl
      · rfl
      · rcases fromId w b id with e | (_ | v)
        · rfl
        · rfl
        · rcases fromId w c id with e | (_ | v) <;> rfl
  | with4 a b c d iha ihb ihc ihd => intro x hx; match x, hx with
    | .pair y (.pair z (.pair u v)), hx =>
      simp only [fromIdMut, fromId, iha y hx.1, ihb z hx.2.1, ihc u hx.2.2.1, ihd v hx.2.2.2]
      rcases fromId w a id with e | (_ | u)
      · rfl
      · rfl
      · rcases fromId w b id with e | (_ | v)
        · rfl
        · rfl
        · rcases fromId w c id with e | (_ | v)
          · rfl
          · rfl
          · rcases fromId w d id with e | (_ | v) <;> rfl
  | with5 a b c d e iha ihb ihc ihd ihe => intro x hx; match x, hx with
    | .pair y (.pair z (.pair u (.pair v k))), hx =>
      simp only [fromIdMut, fromId, iha y hx.1, ihb z hx.2.1, ihc u hx.2.2.1, ihd v hx.2.2.2.1, ihe k hx.2.2.2.2]
      rcases fromId w a id with e | (_ | u)
      · rfl
      · rfl
      · rcases fromId w b id with e | (_ | v)
        · rfl
        · rfl
        · rcases fromId w c id with e | (_ | v)
          · rfl
          · rfl
          · rcases fromId w d id with e | (_ | v)
            · rfl
            · rfl
            · rcases fromId w e id with e | (_ | v) <;> rfl

theorem driveMut_eq {τ : Type} {p : Plan} {next : Ix → R (Option (Nat × Item Loc) × Ix)}
    {n : Nat → R (Option (Nat × Item Loc) × Nat)} {keep : Nat → Item Loc → τ → R (Option (Item Loc) × τ)}
    {k : Nat → Item Loc → R (Option (Item Loc))} {y : τ}
    (hn : ∀ x, p.Fits x → next x = (do let (r, j) ← n (p.lead x); .ok (r, p.put x j)))
    (hk : ∀ id u, keep id u y = (do let r ← k id u; .ok (r, y))) :
    ∀ (fuel : Nat) (x : Ix), p.Fits x → driveMut next keep fuel x y =
      (do let (r, j) ← drive n k fuel (p.lead x); .ok (r, p.put x j, y)) := by
  intro fuel
  induction fuel with
  | zero => intro x _; rfl
  | succ f ih =>
    intro x hx
    simp only [driveMut, drive, hn x hx]
    rcases n (p.lead x) with e | ⟨_ | ⟨id, u⟩, j⟩
    · rfl
    · rfl
    · simp only [ok_bind, hk]
      obtain ⟨h1, h2, h3⟩ := put_spec p x hx j
      rcases k id u with e | (_ | v)
      · rfl
      · simp only [ok_bind, ih _ h1, h2, h3]
      · rfl

theorem nextWithIdMut_eq (w : World V) (p : Plan) : ∀ (x : Ix), p.Fits x →
    p.nextWithIdMut w x = (do let (r, j) ← p.nextWithId w (p.lead x); .ok (r, p.put x j)) := by
  induction p with
  | comp m t => intro x hx; cases x with
    | leaf k => rfl
    | pair => exact hx.elim
  | full l m n a b => intro x hx; cases x with
    | leaf k => rfl
    | pair => exact hx.elim
  | part l m n a b => intro x hx; cases x with
    | leaf k => rfl
    | pair => exact hx.elim
  | non l m n a b => intro x hx; cases x with
    | leaf k => rfl
    | pair => exact hx.elim
  | with2 a b iha ihb => intro x hx; match x, hx with
    | .pair y z, hx =>
      simp only [nextWithIdMut, nextWithId]
      rw [driveMut_eq (n := nextWithId w a) (k := fun id u => (do
        match ← fromId w b id with
        | some v => .ok (some (.pair u v))
        | none => .ok none)) iha (fun id u => ?_) _ _ hx.1]
      · simp only [lead]
        rcases drive (nextWithId w a) _ _ _ with e | ⟨r, j⟩ <;> rfl
      · rw [fromIdMut_eq w id b z hx.2]
        rcases fromId w b id with e | (_ | v) <;> rfl
  | withoutL a b iha ihb => intro x hx; match x, hx with
    | .pair y z, hx =>
      simp only [nextWithIdMut, nextWithId]
      rw [driveMut_eq (n := nextWithId w b) (k := fun id u => (do
        match ← fromId w a id with
        | none => .ok (some u)
        | some _ => .ok none)) ihb (fun id u => ?_) _ _ hx.2]
      · simp only [lead]
        rcases drive (nextWithId w b) _ _ _ with e | ⟨r, j⟩ <;> rfl
      · rw [fromIdMut_eq w id a y hx.1]
        rcases fromId w a id with e | (_ | v) <;> rfl
  | withoutR a b iha ihb => intro x hx; match x, hx with
    | .pair y z, hx =>
      simp only [nextWithIdMut, nextWithId]
      rw [driveMut_eq (n := nextWithId w a) (k := fun id u => (do
        match ← fromId w b id with
        | none => .ok (some u)
        | some _ => .ok none)) iha (fun id u => ?_) _ _ hx.1]
      · simp only [lead]
        rcases drive (nextWithId w a) _ _ _ with e | ⟨r, j⟩ <;> rfl
      · rw [fromIdMut_eq w id b z hx.2]
        rcases fromId w b id with e | (_ | v) <;> rfl
  | with3 a b c iha ihb ihc => intro x hx; match x, hx with
    | .pair y (.pair z u), hx =>
      simp only [nextWithIdMut, nextWithId]
      rw [driveMut_eq (n := nextWithId w a) (k := fun id x => (do
        match ← fromId w b id with
        | some y =>
          match ← fromId w c id with
          | some z => .ok (some (.pair x (.pair y z)))
          | none => .ok none
        | none => .ok none)) iha (fun id x => ?_) _ _ hx.1]
      · simp only [lead]
        rcases drive (nextWithId w a) _ _ _ with e | ⟨r, j⟩ <;> rfl
      · simp only [fromIdMut_eq w id b z hx.2.1, fromIdMut_eq w id c u hx.2.2]
        rcases fromId w b id with e | (_ | v)
        · rfl
        · rfl
        · rcases fromId w c id with e | (_ | v) <;> rfl
  | with4 a b c d iha ihb ihc ihd => intro x hx; match x, hx with
    | .pair y (.pair z (.pair u v)), hx =>
      simp only [nextWithIdMut, nextWithId]
      rw [driveMut_eq (n := nextWithId w a) (k := fun id x => (do
        match ← fromId w b id with
        | some y =>
          match ← fromId w c id with
          | some z =>
            match ← fromId w d id with
            | some u => .ok (some (.pair x (.pair y (.pair z u))))
            | none => .ok none
          | none => .ok none
        | none => .ok none)) iha (fun id x => ?_) _ _ hx.1]
      · simp only [lead]
        rcases drive (nextWithId w a) _ _ _ with e | ⟨r, j⟩ <;> rfl
      · simp only [fromIdMut_eq w id b z hx.2.1, fromIdMut_eq w id c u hx.2.2.1, fromIdMut_eq w id d v hx.2.2.2]
        rcases fromId w b id with e | (_ | v)
        · rfl
        · rfl
        · rcases fromId w c id with e | (_ | v)
          · rfl
          · rfl
          · rcases fromId w d id with e | (_ | v) <;> rfl
  | with5 a b c d e iha ihb ihc ihd ihe => intro x hx; match x, hx with
    | .pair y (.pair z (.pair u (.pair v k))), hx =>
      simp only [nextWithIdMut, nextWithId]
      rw [driveMut_eq (n := nextWithId w a) (k := fun id x => (do
        match ← fromId w b id with
        | some y =>
          match ← fromId w c id with
          | some z =>
            match ← fromId w d id with
            | some u =>
              match ← fromId w e id with
              | some v => .ok (some (.pair x (.pair y (.pair z (.pair u v)))))
              | none => .ok none
            | none => .ok none
          | none => .ok none
        | none => .ok none)) iha (fun id x => ?_) _ _ hx.1]
      · simp only [lead]
        rcases drive (nextWithId w a) _ _ _ with e | ⟨r, j⟩ <;> rfl
      · simp only [fromIdMut_eq w id b z hx.2.1, fromIdMut_eq w id c u hx.2.2.1, fromIdMut_eq w id d v hx.2.2.2.1,
          fromIdMut_eq w id e k hx.2.2.2.2]
        rcases fromId w b id with e | (_ | v)
        · rfl
        · rfl
        · rcases fromId w c id with e | (_ | v)
          · rfl
          · rfl
          · rcases fromId w d id with e | (_ | v)
            · rfl
            · rfl
            · rcases fromId w e id with e | (_ | v) <;> rfl

theorem nextMut_eq (w : World V) (p : Plan) (x : Ix) (hx : p.Fits x) :
    p.nextMut w x = (do let (r, j) ← p.next w (p.lead x); .ok (r, p.put x j)) := by
  cases x with
  | leaf i => cases p <;> first | rfl | exact hx.elim
  | pair y z =>
    simp only [nextMut, nextWithIdMut_eq w p _ hx]
    cases p <;> first | exact hx.elim | skip
    all_goals
      simp only [nextWithId, next, dropId, lead]
      rcases drive _ _ _ _ with e | ⟨r, j⟩ <;> rfl

end Plan

theorem Plan.put_lead (p : Plan) : ∀ (x : Ix), p.Fits x → p.put x (p.lead x) = x := by
  induction p with
  | with2 a b iha ihb => intro x hx; match x, hx with
    | .pair y z, hx => simp only [put, lead, iha y hx.1]
  | with3 a b c iha ihb ihc => intro x hx; match x, hx with
    | .pair y (.pair z u), hx => simp only [put, lead, iha y hx.1]
  | with4 a b c d iha ihb ihc ihd => intro x hx; match x, hx with
    | .pair y (.pair z (.pair u v)), hx => simp only [put, lead, iha y hx.1]
  | with5 a b c d e iha ihb ihc ihd ihe => intro x hx; match x, hx with
    | .pair y (.pair z (.pair u (.pair v k))), hx => simp only [put, lead, iha y hx.1]
  | withoutL a b iha ihb => intro x hx; match x, hx with
    | .pair y z, hx => simp only [put, lead, ihb z hx.2]
  | withoutR a b iha ihb => intro x hx; match x, hx with
    | .pair y z, hx => simp only [put, lead, iha y hx.1]
  | _ => intro x hx; cases x with
    | leaf k => rfl
    | pair => exact hx.elim

theorem Iter.session_eq (w : World V) (p : Plan) : ∀ (cs : List Call) (x : Ix), p.Fits x →
    Iter.session w ⟨p, x⟩ cs = (do let (rs, j) ← p.session w cs (p.lead x); .ok (rs, ⟨p, p.put x j⟩)) := by
  intro cs
  induction cs with
  | nil => intro x hx; simp only [Iter.session, Plan.session, ok_bind, Plan.put_lead p x hx]
  | cons c cs ih =>
    intro x hx
    cases c with
    | fromId id =>
      simp only [Iter.session, Iter.call, Iter.fromId, Plan.fromIdMut_eq w id p x hx, Plan.session, Plan.call]
      rcases p.fromId w id with e | r
      · rfl
      · simp only [ok_bind, ih x hx]
        rcases p.session w cs (p.lead x) with e | ⟨rs, k⟩ <;> rfl
    | next =>
      simp only [Iter.session, Iter.call, Iter.next, Plan.nextMut_eq w p x hx, Plan.session, Plan.call]
      rcases p.next w (p.lead x) with e | ⟨r, j⟩
      · rfl
      · obtain ⟨h1, h2, h3⟩ := Plan.put_spec p x hx j
        simp only [ok_bind, ih _ h1, h2, h3]
        rcases hs : p.session w cs j with e | ⟨rs, k⟩ <;> rfl
    | nextWithId =>
      simp only [Iter.session, Iter.call, Iter.nextWithId, Plan.nextWithIdMut_eq w p x hx, Plan.session, Plan.call]
      rcases p.nextWithId w (p.lead x) with e | ⟨r, j⟩
      · rfl
      · obtain ⟨h1, h2, h3⟩ := Plan.put_spec p x hx j
        simp only [ok_bind, ih _ h1, h2, h3]
        rcases hs : p.session w cs j with e | ⟨rs, k⟩ <;> rfl

/-- A new iterator, used in any way. -/
theorem Setup.iter {tr : List (Op V × Out V)} {w w0 : World V} {s : State V} {pc : Nat → Prop}
    {pg : Kind → Nat → Nat → Prop} (h : Setup tr w w0 s pc pg) {q : Query} (hq : Parts pc pg q) (hc : q.Conflictless) :
    ∃ it, w.iter q = .ok it ∧ ∀ cs, ∃ x j, it.session w cs =
      .ok (expected ((ids w0 s q).map fun x => (x, place w0 x q)) cs ((ids w0 s q).map fun x => (x, place w0 x q)),
        ⟨planOf w0 q, x⟩) ∧ (planOf w0 q).Fits x ∧ (planOf w0 q).lead x = j ∧
      j ≤ (drv w0 q).length ∧ rest w0 s q j = (ids w0 s q).drop (advances cs) := by
  refine ⟨⟨planOf w0 q, (planOf w0 q).start⟩, by simp only [World.iter, h.query hq hc, ok_bind], fun cs => ?_⟩
  obtain ⟨j, e1, e2, e3⟩ := h.session hq cs 0 (Nat.zero_le _)
  have hf := (planOf w0 q).start_fits
  obtain ⟨h1, h2, h3⟩ := Plan.put_spec (planOf w0 q) _ hf j
  refine ⟨(planOf w0 q).put (planOf w0 q).start j, j, ?_, h1, h2, e2, e3⟩
  rw [Iter.session_eq w _ cs _ hf, Plan.lead_start, e1]
  simp only [ok_bind, ids]

end Xecs
