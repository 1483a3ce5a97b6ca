import Verif.Proofs.PhasesMixed
/-
Bringing all kinds of `Ready` queries to the abstract state on which Proofs/Iter works.
-/
set_option autoImplicit false
namespace Xecs
open Spec World Hist
variable {V : Type}

/-! ### Queries without groups only look at the storages -/

/-- The iterator involves no group. -/
def Plan.Plain : Plan → Prop
  | .comp _ _ => True
  | .with2 a b => a.Plain ∧ b.Plain
  | .with3 a b c => a.Plain ∧ b.Plain ∧ c.Plain
  | .with4 a b c d => a.Plain ∧ b.Plain ∧ c.Plain ∧ d.Plain
  | .with5 a b c d e => a.Plain ∧ b.Plain ∧ c.Plain ∧ d.Plain ∧ e.Plain
  | .withoutL a b => a.Plain ∧ b.Plain
  | .withoutR a b => a.Plain ∧ b.Plain
  | _ => False

theorem planOf_plain (w : World V) (q : Query) : q.Groupless → (planOf w q).Plain := by
  induction q with
  | comp m t => exact fun _ => trivial
  | with2 a b iha ihb => exact fun h => ⟨iha h.1, ihb h.2⟩
  | with3 a b c iha ihb ihc => exact fun h => ⟨iha h.1, ihb h.2.1, ihc h.2.2⟩
  | with4 a b c d iha ihb ihc ihd => exact fun h => ⟨iha h.1, ihb h.2.1, ihc h.2.2.1, ihd h.2.2.2⟩
  | with5 a b c d e iha ihb ihc ihd ihe =>
    exact fun h => ⟨iha h.1, ihb h.2.1, ihc h.2.2.1, ihd h.2.2.2.1, ihe h.2.2.2.2⟩
  | withoutL a b iha ihb => exact fun h => ⟨iha h.1, ihb h.2⟩
  | withoutR a b iha ihb => exact fun h => ⟨iha h.1, ihb h.2⟩
  | group k ma mb a b => exact fun h => h.elim

section
variable {w w' : World V} (hc : w'.comps = w.comps)
include hc

theorem fromId_congr (p : Plan) (id : Nat) : p.Plain → p.fromId w' id = p.fromId w id := by
  induction p with
  | comp m t => intro _; simp only [Plan.fromId, Plan.setOf, hc]
  | with2 a b iha ihb => intro h; simp only [Plan.fromId, iha h.1, ihb h.2]
  | with3 a b c iha ihb ihc => intro h; simp only [Plan.fromId, iha h.1, ihb h.2.1, ihc h.2.2]
  | with4 a b c d iha ihb ihc ihd => intro h; simp only [Plan.fromId, iha h.1, ihb h.2.1, ihc h.2.2.1, ihd h.2.2.2]
  | with5 a b c d e iha ihb ihc ihd ihe =>
    intro h; simp only [Plan.fromId, iha h.1, ihb h.2.1, ihc h.2.2.1, ihd h.2.2.2.1, ihe h.2.2.2.2]
  | withoutL a b iha ihb => intro h; simp only [Plan.fromId, iha h.1, ihb h.2]
  | withoutR a b iha ihb => intro h; simp only [Plan.fromId, iha h.1, ihb h.2]
  | full => exact fun h => h.elim
  | part => exact fun h => h.elim
  | non => exact fun h => h.elim

theorem remaining_congr (p : Plan) (i : Nat) : p.Plain → p.remaining w' i = p.remaining w i := by
  induction p with
  | comp m t => intro _; simp only [Plan.remaining, hc]
  | with2 a b iha ihb => exact fun h => iha h.1
  | with3 a b c iha ihb ihc => exact fun h => iha h.1
  | with4 a b c d iha ihb ihc ihd => exact fun h => iha h.1
  | with5 a b c d e iha ihb ihc ihd ihe => exact fun h => iha h.1
  | withoutL a b iha ihb => exact fun h => ihb h.2
  | withoutR a b iha ihb => exact fun h => iha h.1
  | full => exact fun h => h.elim
  | part => exact fun h => h.elim
  | non => exact fun h => h.elim

theorem nextWithId_congr (p : Plan) : p.Plain → p.nextWithId w' = p.nextWithId w := by
  induction p with
  | comp m t => intro _; funext i; simp only [Plan.nextWithId, Plan.setOf, hc]
  | with2 a b iha ihb =>
    intro h; funext i
    simp only [Plan.nextWithId, iha h.1, fromId_congr hc b _ h.2, remaining_congr hc a _ h.1]
  | with3 a b c iha ihb ihc =>
    intro h; funext i
    simp only [Plan.nextWithId, iha h.1, fromId_congr hc b _ h.2.1, fromId_congr hc c _ h.2.2,
      remaining_congr hc a _ h.1]
  | with4 a b c d iha ihb ihc ihd =>
    intro h; funext i
    simp only [Plan.nextWithId, iha h.1, fromId_congr hc b _ h.2.1, fromId_congr hc c _ h.2.2.1,
      fromId_congr hc d _ h.2.2.2, remaining_congr hc a _ h.1]
  | with5 a b c d e iha ihb ihc ihd ihe =>
    intro h; funext i
    simp only [Plan.nextWithId, iha h.1, fromId_congr hc b _ h.2.1, fromId_congr hc c _ h.2.2.1,
      fromId_congr hc d _ h.2.2.2.1, fromId_congr hc e _ h.2.2.2.2, remaining_congr hc a _ h.1]
  | withoutL a b iha ihb =>
    intro h; funext i
    simp only [Plan.nextWithId, ihb h.2, fromId_congr hc a _ h.1, remaining_congr hc b _ h.2]
  | withoutR a b iha ihb =>
    intro h; funext i
    simp only [Plan.nextWithId, iha h.1, fromId_congr hc b _ h.2, remaining_congr hc a _ h.1]
  | full => exact fun h => h.elim
  | part => exact fun h => h.elim
  | non => exact fun h => h.elim

theorem next_congr (p : Plan) (i : Nat) : p.Plain → p.next w' i = p.next w i := by
  cases p with
  | comp m t => intro _; simp only [Plan.next, Plan.setOf, hc]
  | with2 a b =>
    intro h
    simp only [Plan.next, nextWithId_congr hc a h.1, fromId_congr hc b _ h.2, remaining_congr hc a _ h.1]
  | with3 a b c =>
    intro h
    simp only [Plan.next, nextWithId_congr hc a h.1, fromId_congr hc b _ h.2.1, fromId_congr hc c _ h.2.2,
      remaining_congr hc a _ h.1]
  | with4 a b c d =>
    intro h
    simp only [Plan.next, nextWithId_congr hc a h.1, fromId_congr hc b _ h.2.1, fromId_congr hc c _ h.2.2.1,
      fromId_congr hc d _ h.2.2.2, remaining_congr hc a _ h.1]
  | with5 a b c d e =>
    intro h
    simp only [Plan.next, nextWithId_congr hc a h.1, fromId_congr hc b _ h.2.1, fromId_congr hc c _ h.2.2.1,
      fromId_congr hc d _ h.2.2.2.1, fromId_congr hc e _ h.2.2.2.2, remaining_congr hc a _ h.1]
  | withoutL a b =>
    intro h
    simp only [Plan.next, nextWithId_congr hc b h.2, fromId_congr hc a _ h.1, remaining_congr hc b _ h.2]
  | withoutR a b =>
    intro h
    simp only [Plan.next, nextWithId_congr hc a h.1, fromId_congr hc b _ h.2, remaining_congr hc a _ h.1]
  | full => exact fun h => h.elim
  | part => exact fun h => h.elim
  | non => exact fun h => h.elim

theorem sizeHint_congr (p : Plan) (i : Nat) : p.Plain → p.sizeHint w' i = p.sizeHint w i := by
  cases p with
  | comp m t => intro _; simp only [Plan.sizeHint, Plan.setOf, hc]
  | full => exact fun h => h.elim
  | part => exact fun h => h.elim
  | non => exact fun h => h.elim
  | _ => intro _; rfl

theorem prepare_congr (q : Query) : q.Groupless → ∀ held, q.prepare w' held = q.prepare w held := by
  have hl : ∀ held m t, Query.lock w' held m t = Query.lock w held m t := by
    intro held m t; simp only [Query.lock, hc]
  induction q with
  | comp m t => intro _ held; simp only [Query.prepare, hl, World.hasRegistered, hc]
  | with2 a b iha ihb => intro h held; simp only [Query.prepare, iha h.1, ihb h.2]
  | with3 a b c iha ihb ihc => intro h held; simp only [Query.prepare, iha h.1, ihb h.2.1, ihc h.2.2]
  | with4 a b c d iha ihb ihc ihd =>
    intro h held; simp only [Query.prepare, iha h.1, ihb h.2.1, ihc h.2.2.1, ihd h.2.2.2]
  | with5 a b c d e iha ihb ihc ihd ihe =>
    intro h held; simp only [Query.prepare, iha h.1, ihb h.2.1, ihc h.2.2.1, ihd h.2.2.2.1, ihe h.2.2.2.2]
  | withoutL a b iha ihb => intro h held; simp only [Query.prepare, iha h.1, ihb h.2]
  | withoutR a b iha ihb => intro h held; simp only [Query.prepare, iha h.1, ihb h.2]
  | group k ma mb a b => exact fun h => h.elim

theorem planOf_congr (q : Query) : q.Groupless → planOf w' q = planOf w q := by
  induction q with
  | comp m t => intro _; rfl
  | with2 a b iha ihb => intro h; simp only [planOf, iha h.1, ihb h.2]
  | with3 a b c iha ihb ihc => intro h; simp only [planOf, iha h.1, ihb h.2.1, ihc h.2.2]
  | with4 a b c d iha ihb ihc ihd => intro h; simp only [planOf, iha h.1, ihb h.2.1, ihc h.2.2.1, ihd h.2.2.2]
  | with5 a b c d e iha ihb ihc ihd ihe =>
    intro h; simp only [planOf, iha h.1, ihb h.2.1, ihc h.2.2.1, ihd h.2.2.2.1, ihe h.2.2.2.2]
  | withoutL a b iha ihb => intro h; simp only [planOf, iha h.1, ihb h.2]
  | withoutR a b iha ihb => intro h; simp only [planOf, iha h.1, ihb h.2]
  | group k ma mb a b => exact fun h => h.elim

theorem collectFrom_congr (p : Plan) (hp : p.Plain) : ∀ (fuel i : Nat), p.collectFrom w' fuel i = p.collectFrom w fuel i := by
  intro fuel
  induction fuel with
  | zero => intro i; rfl
  | succ n ih => intro i; simp only [Plan.collectFrom, nextWithId_congr hc p hp, ih]

theorem derefItem_congr (x : Item Loc) : w'.derefItem x = w.derefItem x := by
  induction x with
  | leaf l => simp only [World.derefItem, World.deref, hc]
  | pair a b iha ihb => simp only [World.derefItem, iha, ihb]

end

/-! ### The abstract state behind a ready query -/

/-- The abstract state made of the storages alone. -/
def storeState (w : World V) (tr : List (Op V × Out V)) : State V :=
  { next := 1, free := [], comp := fun t => (w.comps t).map fun _ => fun e => lastValue t e tr
    hw := fun t => match w.comps t with | some st => st.set.indices.length | none => 0
    groups := [], res := fun _ => none }

theorem store_rel {w : World V} {tr : List (Op V × Out V)} (h : Look w tr) :
    WRel { w with groups := [] } (storeState w tr) := by
  refine ⟨fun t => ?_, rfl, fun k g gs hk => by simp at hk, fun i j gi gj hi => by simp [storeState] at hi⟩
  simp only [storeState]
  cases hc : w.comps t with
  | none => simp [StRel]
  | some st =>
    obtain ⟨_, h2, h3, h4⟩ := h.at_some hc
    exact ⟨h2, h3, h4, rfl⟩

theorem store_get {w : World V} {tr : List (Op V × Out V)} (h : Look w tr) (t e : Nat) :
    (storeState w tr).get t e = lastValue t e tr := by
  simp only [State.get, storeState]
  cases hc : w.comps t with
  | none => simp [(h.at_none hc).2 e]
  | some st => rfl

theorem Hist.Parts.and {pc pc' : Nat → Prop} {pg pg' : Kind → Nat → Nat → Prop} (q : Query) :
    Parts pc pg q → Parts pc' pg' q → Parts (fun t => pc t ∧ pc' t) (fun k a b => pg k a b ∧ pg' k a b) q := by
  induction q with
  | comp m t => exact fun x y => ⟨x, y⟩
  | with2 a b iha ihb => exact fun x y => ⟨iha x.1 y.1, ihb x.2 y.2⟩
  | with3 a b c iha ihb ihc => exact fun x y => ⟨iha x.1 y.1, ihb x.2.1 y.2.1, ihc x.2.2 y.2.2⟩
  | with4 a b c d iha ihb ihc ihd =>
    exact fun x y => ⟨iha x.1 y.1, ihb x.2.1 y.2.1, ihc x.2.2.1 y.2.2.1, ihd x.2.2.2 y.2.2.2⟩
  | with5 a b c d e iha ihb ihc ihd ihe =>
    exact fun x y => ⟨iha x.1 y.1, ihb x.2.1 y.2.1, ihc x.2.2.1 y.2.2.1, ihd x.2.2.2.1 y.2.2.2.1, ihe x.2.2.2.2 y.2.2.2.2⟩
  | withoutL a b iha ihb => exact fun x y => ⟨iha x.1 y.1, ihb x.2 y.2⟩
  | withoutR a b iha ihb => exact fun x y => ⟨iha x.1 y.1, ihb x.2 y.2⟩
  | group k ma mb a b => exact fun x y => ⟨x, y⟩

/-- With no groups, both meanings of a query are the plain one. -/
theorem plain_answer {s : State V} {c : Nat → Nat → Option V} (hg : ∀ t e, s.get t e = c t e) (q : Query) (id : Nat) :
    q.Groupless → s.point q id = q.answer c id ∧ s.yields q id = q.answer c id := by
  induction q with
  | comp m t => intro _; simp only [State.point, State.yields, Query.answer, hg, and_self]
  | with2 a b iha ihb =>
    intro h
    have ⟨a1, a2⟩ := iha h.1; have ⟨b1, b2⟩ := ihb h.2
    simp only [State.point, State.yields, Query.answer, a1, a2, b1, and_self]; rfl
  | with3 a b d iha ihb ihc =>
    intro h
    have ⟨a1, a2⟩ := iha h.1; have ⟨b1, b2⟩ := ihb h.2.1; have ⟨c1, c2⟩ := ihc h.2.2
    simp only [State.point, State.yields, Query.answer, a1, a2, b1, c1, and_self]; rfl
  | with4 a b d e iha ihb ihc ihd =>
    intro h
    have ⟨a1, a2⟩ := iha h.1; have ⟨b1, b2⟩ := ihb h.2.1
    have ⟨c1, c2⟩ := ihc h.2.2.1; have ⟨d1, d2⟩ := ihd h.2.2.2
    simp only [State.point, State.yields, Query.answer, a1, a2, b1, c1, d1, and_self]; rfl
  | with5 a b d e f iha ihb ihc ihd ihe =>
    intro h
    have ⟨a1, a2⟩ := iha h.1; have ⟨b1, b2⟩ := ihb h.2.1
    have ⟨c1, c2⟩ := ihc h.2.2.1; have ⟨d1, d2⟩ := ihd h.2.2.2.1
    have ⟨e1, e2⟩ := ihe h.2.2.2.2
    simp only [State.point, State.yields, Query.answer, a1, a2, b1, c1, d1, e1, and_self]; rfl
  | withoutL a b iha ihb =>
    intro h
    have ⟨a1, a2⟩ := iha h.1; have ⟨b1, b2⟩ := ihb h.2
    simp only [State.point, State.yields, Query.answer, a1, b1, b2, and_self]
  | withoutR a b iha ihb =>
    intro h
    have ⟨a1, a2⟩ := iha h.1; have ⟨b1, b2⟩ := ihb h.2
    simp only [State.point, State.yields, Query.answer, a1, a2, b1, and_self]
  | group k ma mb a b => exact fun h => h.elim

/-- `w0` and `s` explain the queries with parts `pc`, `pg`. -/
structure Setup (tr : List (Op V × Out V)) (w w0 : World V) (s : State V) (pc : Nat → Prop)
    (pg : Kind → Nat → Nat → Prop) : Prop where
  rel : WRel w0 s
  comps : w0.comps = w.comps
  ok : ∀ q, Parts pc pg q → s.Defined q ∧ s.FreshIn q ∧
    ∀ id, s.point q id = q.answer (values tr) id ∧ s.yields q id = q.answer (values tr) id
  link : w0 = w ∨ ∀ k a b, ¬ pg k a b

theorem Hist.Ready.setup {tr : List (Op V × Out V)} {w : World V} {q : Query} (h : Ready tr w q) :
    ∃ w0 s pc pg, Setup tr w w0 s pc pg ∧ Parts pc pg q := by
  cases h with
  | plain ht hn hg hd =>
    have hl := any_look ht hn
    refine ⟨{ w with groups := [] }, storeState w tr, fun t => registered t tr = true, fun _ _ _ => False,
      ⟨store_rel hl, rfl, fun q hq => ⟨?_, ?_, fun id => ?_⟩, .inr (fun _ _ _ h => h)⟩, ?_⟩
    · rw [defined_iff]
      refine Parts.imp (fun t ht => ?_) (fun _ _ _ h => h.elim) q hq
      simp only [storeState, Option.isSome_map]
      cases hc : w.comps t with
      | none => rw [(hl.at_none hc).1] at ht; simp at ht
      | some st => rfl
    · rw [freshIn_iff]; exact Parts.imp (fun _ _ => trivial) (fun _ _ _ h => h.elim) q hq
    · exact plain_answer (store_get hl) q id (Parts.imp (fun _ _ => trivial) (fun _ _ _ h => h) q hq)
    · exact Parts.imp (fun _ h => h.2) (fun _ _ _ h => h.1) q (Parts.and q hg hd)
  | grouped ht hd hu hb =>
    obtain ⟨s, hr⟩ := ht.run
    refine ⟨w, s, _, _, ⟨hr.rel.core, rfl, fun q hq => ?_, .inl rfl⟩, Parts.and q (Parts.and q hd hu) hb⟩
    have h1 : Exists tr q := Parts.imp (fun _ h => h.1.1) (fun _ _ _ h => h.1.1) q hq
    have h2 : Undisturbed tr q := Parts.imp (fun _ h => h.1.2) (fun _ _ _ h => h.1.2) q hq
    have h3 : Unbatched tr q := Parts.imp (fun _ h => h.2) (fun _ _ _ h => h.2) q hq
    exact ⟨(run_defined hr q).2 h1, run_fresh hr h2, fun id => run_answer hr q id h1 h3⟩
  | shared ht hd hu hb =>
    obtain ⟨u, g, s, hu', hr, hw, ha⟩ := ht.kin
    refine ⟨w, s, _, _, ⟨hw.core, rfl, fun q hq => ?_, .inl rfl⟩, Parts.and q (Parts.and q hd hu) hb⟩
    have h1 : Exists tr q := Parts.imp (fun _ h => h.1.1) (fun _ _ _ h => h.1.1) q hq
    have h2 : Unmoved tr q := Parts.imp (fun _ h => h.1.2) (fun _ _ _ h => h.1.2) q hq
    have h3 : Unbatched tr q := Parts.imp (fun _ h => h.2) (fun _ _ _ h => h.2) q hq
    refine ⟨?_, apt_fresh hr ha h2, fun id => ?_⟩
    · rw [← defined_unfresh, ha.same, defined_unfresh]
      exact (run_defined hr q).2 h1
    · rw [← point_unfresh s, ← yields_unfresh s, ha.same, point_unfresh, yields_unfresh]
      exact run_answer hr q id h1 h3

section
variable {tr : List (Op V × Out V)} {w w0 : World V} {s : State V} {pc : Nat → Prop}
  {pg : Kind → Nat → Nat → Prop} (h : Setup tr w w0 s pc pg)
include h

theorem Setup.groupless {q : Query} (hq : Parts pc pg q) : w0 = w ∨ q.Groupless := by
  rcases h.link with e | e
  · exact .inl e
  · exact .inr (Parts.imp (fun _ _ => trivial) (fun k a b hx => e k a b hx) q hq)

theorem Setup.plan {q : Query} (hq : Parts pc pg q) : planOf w q = planOf w0 q := by
  rcases h.groupless hq with rfl | e
  · rfl
  · exact (planOf_congr h.comps q e).symm

theorem Setup.prepare {q : Query} (hq : Parts pc pg q) (held : Query.Held) : q.prepare w held = q.prepare w0 held := by
  rcases h.groupless hq with rfl | e
  · rfl
  · exact (prepare_congr h.comps q e held).symm

theorem Setup.nextWithId {q : Query} (hq : Parts pc pg q) : (planOf w0 q).nextWithId w = (planOf w0 q).nextWithId w0 := by
  rcases h.groupless hq with rfl | e
  · rfl
  · exact (nextWithId_congr h.comps _ (planOf_plain _ q e)).symm

theorem Setup.next {q : Query} (hq : Parts pc pg q) (i : Nat) : (planOf w0 q).next w i = (planOf w0 q).next w0 i := by
  rcases h.groupless hq with rfl | e
  · rfl
  · exact (next_congr h.comps _ i (planOf_plain _ q e)).symm

theorem Setup.fromId {q : Query} (hq : Parts pc pg q) (id : Nat) :
    (planOf w0 q).fromId w id = (planOf w0 q).fromId w0 id := by
  rcases h.groupless hq with rfl | e
  · rfl
  · exact (fromId_congr h.comps _ id (planOf_plain _ q e)).symm

theorem Setup.sizeHint {q : Query} (hq : Parts pc pg q) (i : Nat) :
    (planOf w0 q).sizeHint w i = (planOf w0 q).sizeHint w0 i := by
  rcases h.groupless hq with rfl | e
  · rfl
  · exact (sizeHint_congr h.comps _ i (planOf_plain _ q e)).symm

theorem Setup.remaining {q : Query} (hq : Parts pc pg q) (i : Nat) :
    (planOf w0 q).remaining w i = (planOf w0 q).remaining w0 i := by
  rcases h.groupless hq with rfl | e
  · rfl
  · exact (remaining_congr h.comps _ i (planOf_plain _ q e)).symm

theorem Setup.query {q : Query} (hq : Parts pc pg q) (hc : q.Conflictless) :
    w.query q = .ok (planOf w0 q, q.accesses) := by
  rw [World.query, h.prepare hq, prepare_ok h.rel q [] (h.ok q hq).1 (by simpa [Query.Conflictless] using hc)]
  simp

/-- The ids a query yields, in order. -/
def ids (w0 : World V) (s : State V) (q : Query) : List Nat := rest w0 s q 0

theorem Setup.queryAll {q : Query} (hq : Parts pc pg q) (hc : q.Conflictless) :
    w.queryAll q = .ok ((ids w0 s q).map fun id => (id, place w0 id q)) := by
  obtain ⟨hd, hf, _⟩ := h.ok q hq
  have := queryAll_eq h.rel q hd hf hc
  rcases h.groupless hq with rfl | e
  · exact this
  · rw [← ids] at this
    rw [← this]
    simp only [World.queryAll, World.query, h.prepare hq,
      prepare_ok h.rel q [] hd (by simpa [Query.Conflictless] using hc), ok_bind,
      ← collectFrom_congr h.comps _ (planOf_plain w0 q e), ← remaining_congr h.comps _ _ (planOf_plain w0 q e)]

theorem Setup.ids_spec {q : Query} (hq : Parts pc pg q) :
    (ids w0 s q).Nodup ∧ ∀ id, id ∈ ids w0 s q ↔ (q.answer (values tr) id).isSome = true := by
  obtain ⟨hd, hf, ha⟩ := h.ok q hq
  obtain ⟨h1, h2⟩ := rest_spec h.rel q hd
  exact ⟨h1, fun id => by rw [ids, h2, (ha id).2]⟩

theorem Setup.deref {q : Query} (hq : Parts pc pg q) {id : Nat} {v : Item V} (hv : q.answer (values tr) id = some v) :
    w.derefItem (place w0 id q) = some v := by
  obtain ⟨hd, hf, ha⟩ := h.ok q hq
  rw [← derefItem_congr h.comps]
  exact place_deref h.rel q (by rw [(ha id).1]; exact hv)

/-- The list a query yields. -/
theorem Setup.yieldsList {q : Query} (hq : Parts pc pg q) (hc : q.Conflictless) :
    ∃ l, Yields w q l ∧ Lists l (q.answer (values tr)) ∧ l.map Prod.fst = ids w0 s q := by
  obtain ⟨hn, hm⟩ := h.ids_spec hq
  let g : Nat → Option (Nat × Item V) := fun id => (q.answer (values tr) id).map fun x => (id, x)
  have hg : ∀ l : List Nat, (∀ id ∈ l, (q.answer (values tr) id).isSome = true) →
      (l.filterMap g).map Prod.fst = l ∧
      l.map (fun id => (id, w.derefItem (place w0 id q))) = (l.filterMap g).map fun x => (x.1, some x.2) := by
    intro l
    induction l with
    | nil => intro _; exact ⟨rfl, rfl⟩
    | cons id l ih =>
      intro hl
      obtain ⟨v, hv⟩ := Option.isSome_iff_exists.1 (hl id (by simp))
      obtain ⟨i1, i2⟩ := ih (fun x hx => hl x (by simp [hx]))
      have : g id = some (id, v) := by simp [g, hv]
      simp only [List.filterMap_cons, this, List.map_cons, i1, i2, h.deref hq hv, and_self]
  obtain ⟨g1, g2⟩ := hg (ids w0 s q) (fun id hid => (hm id).1 hid)
  refine ⟨(ids w0 s q).filterMap g, ?_, ⟨by rw [g1]; exact hn, fun id x => ?_⟩, g1⟩
  · simp only [Yields, World.results, h.queryAll hq hc, ok_bind, List.map_map, ← g2]; rfl
  · rw [List.mem_filterMap]
    constructor
    · rintro ⟨id', _, hx⟩
      simp only [g, Option.map_eq_some_iff, Prod.mk.injEq] at hx
      obtain ⟨v, hv, rfl, rfl⟩ := hx; exact hv
    · intro hx
      exact ⟨id, (hm id).2 (by simp [hx]), by simp [g, hx]⟩

end

end Xecs
