import Verif.Proofs.Phases
import Verif.Proofs.LinearRun
import Verif.Proofs.AloneQuery
import Verif.Spec.Careful
/-
Programs that do not panic.
-/
set_option autoImplicit false
namespace Xecs
open Spec World Hist
variable {V : Type}

/-- Everything the query names is in the world, its accesses do not clash, and it names no non-owning group. -/
structure Good (cfg : Config) (q : Query) : Prop where
  named : Parts (fun t => cfg.registered t = true)
    (fun k a b => cfg.registered a = true ∧ cfg.registered b = true ∧ (Prog.position cfg ⟨k, a, b⟩).isSome = true) q
  calm : q.Conflictless
  non : NoNon q

namespace Prog

/-- Only drops guards. -/
def Ended : Prog V → Prop
  | .done _ => True
  | .panic => False
  | .acq _ _ p => Ended p
  | .rel _ _ p => Ended p
  | .act _ _ => False

/-- Does not panic if components of the types `has` have been attached to its entity or to one with a higher id. -/
def Firm : (Nat → Bool) → Prog V → Prop
  | _, .done _ => True
  | _, .panic => False
  | has, .acq _ _ p => Firm has p
  | has, .rel _ _ p => Firm has p
  | has, .act a f =>
    match a with
    | .has _ => Firm has (f (.bool true))
    | .attachStore t _ _ => Firm (fun u => has u || u == t) (f .unit)
    | .detachStore t _ => has t = true ∧ ∀ r, Firm has (f r)
    | .emRemove _ => Ended (f .unit)
    | _ => ∀ r, Firm has (f r)

/-- Does not panic while it works on no entity and ids below `n` have been handed out. -/
def FirmQ (cfg : Config) (n : Nat) : Prog V → Prop
  | .done _ => True
  | .panic => False
  | .acq _ _ p => FirmQ cfg n p
  | .rel _ _ p => FirmQ cfg n p
  | .act a f =>
    match a with
    | .has e => e < n ∧ ∀ r, FirmQ cfg n (f r)
    | .collect q => Good cfg q ∧ ∀ r, FirmQ cfg n (f r)
    | .allocateN k => ∀ a, FirmQ cfg n (f (.range a (a + k)))
    | .batchStore _ _ _ _ => FirmQ cfg n (f .unit)
    | .allocate => ∀ id, Firm (fun _ => false) (f (.id id))
    | .storeRead _ _ => ∀ r, FirmQ cfg n (f r)
    | .storeWrite _ _ _ => ∀ r, FirmQ cfg n (f r)
    | .storeCount _ => ∀ r, FirmQ cfg n (f r)
    | .resRead _ => ∀ r, FirmQ cfg n (f r)
    | .resWrite _ _ => ∀ r, FirmQ cfg n (f r)
    | _ => False

theorem Ended.firmQ {cfg : Config} {n : Nat} : ∀ {p : Prog V}, Ended p → FirmQ cfg n p
  | .done _, _ => trivial
  | .panic, h => h
  | .acq _ _ p, h => Ended.firmQ (p := p) h
  | .rel _ _ p, h => Ended.firmQ (p := p) h
  | .act _ _, h => False.elim h

theorem FirmQ.mono {cfg : Config} {n m : Nat} (hnm : n ≤ m) : ∀ {p : Prog V}, FirmQ cfg n p → FirmQ cfg m p
  | .done _, _ => trivial
  | .panic, h => h
  | .acq _ _ p, h => FirmQ.mono hnm (p := p) h
  | .rel _ _ p, h => FirmQ.mono hnm (p := p) h
  | .act a f, h => by
    cases a with
    | has e => exact ⟨Nat.lt_of_lt_of_le h.1 hnm, fun r => FirmQ.mono hnm (h.2 r)⟩
    | collect q => exact ⟨h.1, fun r => FirmQ.mono hnm (h.2 r)⟩
    | allocateN k => exact fun a => FirmQ.mono hnm (h a)
    | batchStore x y t vs => exact FirmQ.mono hnm (p := f .unit) h
    | allocate => exact h
    | storeRead t e => exact fun r => FirmQ.mono hnm (h r)
    | storeWrite t e v => exact fun r => FirmQ.mono hnm (h r)
    | storeCount t => exact fun r => FirmQ.mono hnm (h r)
    | resRead t => exact fun r => FirmQ.mono hnm (h r)
    | resWrite t v => exact fun r => FirmQ.mono hnm (h r)
    | _ => exact False.elim h

/-! ### Handles -/

section
variable {cfg : Config} {id : Nat}

theorem firm_store {has : Nat → Bool} {t : Nat} {m : Mode} {p : Prog V} (h : Firm has p)
    (ht : cfg.registered t = true) : Firm has (store cfg t m p) := by
  unfold store
  rw [if_pos ht]; exact h

theorem firm_lockGroups {has : Nat → Bool} (t : Nat) (gs : List (Nat × Shape)) {p : Prog V} (h : Firm has p) :
    Firm has (lockGroups t gs p) := by
  induction gs with
  | nil => exact h
  | cons x rest ih =>
    obtain ⟨k, g⟩ := x
    simp only [lockGroups, Firm]
    split
    · exact ih
    · exact ih

theorem firm_addLoop (hr : GroupsReg cfg) {has : Nat → Bool} (gs : List (Nat × Shape))
    (hgs : ∀ x ∈ gs, cfg.groups[x.1]? = some x.2) {p : Prog V} (h : Firm has p) :
    Firm has (groupLoop cfg (fun k => .groupAdd k id) gs p) := by
  induction gs with
  | nil => exact h
  | cons x rest ih =>
    obtain ⟨k, g⟩ := x
    have := hr k g (hgs (k, g) (by simp))
    exact firm_store (firm_store (fun _ => ih fun x hx => hgs x (List.mem_cons_of_mem _ hx)) this.2) this.1

theorem firm_removeLoop (hr : GroupsReg cfg) {has : Nat → Bool} (gs : List (Nat × Shape))
    (hgs : ∀ x ∈ gs, cfg.groups[x.1]? = some x.2) {p : Prog V} (h : Firm has p) :
    Firm has (groupLoop cfg (fun k => .groupRemove k id) gs p) := by
  induction gs with
  | nil => exact h
  | cons x rest ih =>
    obtain ⟨k, g⟩ := x
    have := hr k g (hgs (k, g) (by simp))
    exact firm_store (firm_store (fun _ => ih fun x hx => hgs x (List.mem_cons_of_mem _ hx)) this.2) this.1

/-- The types of a chain are registered, and each `detach` is secure, if components of the types `has` have been attached
to the entity or to one with a higher id. -/
def Finds (cfg : Config) : (Nat → Bool) → List (HOp V) → Prop
  | _, [] => True
  | has, .attach t _ :: os => cfg.registered t = true ∧ Finds cfg (fun u => has u || u == t) os
  | has, .detach t :: os => has t = true ∧ cfg.registered t = true ∧ Finds cfg has os
  | has, _ :: os => Finds cfg has os

theorem firm_script (hr : GroupsReg cfg) (ops : List (HOp V)) :
    ∀ {has : Nat → Bool} {acc : List (Ret V)} {p : List (Ret V) → Prog V}, Finds cfg has ops →
      (∀ rs has, Firm has (p rs)) → Firm has (script cfg id ops acc p) := by
  induction ops with
  | nil => intro has acc p _ h; exact h _ _
  | cons o ops ih =>
    intro has acc p hf h
    cases o with
    | attach t v =>
      simp only [script, attach, hf.1, if_true]
      exact firm_lockGroups _ _ (firm_addLoop hr _ touching_indexed (ih hf.2 h))
    | detach t =>
      simp only [script, detach, hf.2.1, if_true]
      exact firm_lockGroups _ _ (firm_removeLoop hr _ touching_indexed ⟨hf.1, fun r => ih hf.2.2 h⟩)
    | read t =>
      simp only [script, read]
      split
      · exact fun r => ih hf h
      · exact ih hf h
    | write t v =>
      simp only [script, write]
      split
      · exact fun r => ih hf h
      · exact ih hf h

theorem firm_handle (hr : GroupsReg cfg) {ops : List (HOp V)} {acc : List (Ret V)} {has : Nat → Bool}
    (h : Finds cfg has ops) : Firm has (handle cfg id ops acc) :=
  firm_script hr ops h fun _ _ => trivial

/-! ### Removal -/

theorem firm_scanGroups (hr : GroupsReg cfg) {has : Nat → Bool} (gs : List (Nat × Shape))
    (hgs : ∀ x ∈ gs, cfg.groups[x.1]? = some x.2) :
    ∀ {acc : List (Nat × Shape)} {p : List (Nat × Shape) → Prog V}, (∀ x ∈ acc, cfg.groups[x.1]? = some x.2) →
    (∀ l, (∀ x ∈ l, cfg.groups[x.1]? = some x.2) → Firm has (p l)) → Firm has (scanGroups cfg id gs acc p) := by
  induction gs with
  | nil => intro acc p ha h; exact h _ ha
  | cons x rest ih =>
    intro acc p ha h
    obtain ⟨k, g⟩ := x
    have hk := hgs (k, g) (by simp)
    have := hr k g hk
    have hrest : ∀ x ∈ rest, cfg.groups[x.1]? = some x.2 := fun x hx => hgs x (List.mem_cons_of_mem _ hx)
    simp only [scanGroups, Firm]
    refine firm_store (firm_store ?_ this.2) this.1
    intro r
    show Firm has (match r with | .bool true => _ | _ => _)
    split
    · refine ih hrest ?_ h
      intro x hx
      rcases List.mem_append.1 hx with hx | hx
      · exact ha x hx
      · rw [List.mem_singleton.1 hx]; exact hk
    · exact ih hrest ha h

theorem firm_eraseLoop (hr : GroupsReg cfg) (gs : List (Nat × Shape)) (hgs : ∀ x ∈ gs, cfg.groups[x.1]? = some x.2)
    {p : Prog V} {has : Nat → Bool} (h : Firm has p) : Firm has (groupLoop cfg (fun k => .groupErase k id) gs p) := by
  induction gs with
  | nil => exact h
  | cons x rest ih =>
    obtain ⟨k, g⟩ := x
    have := hr k g (hgs (k, g) (by simp))
    exact firm_store (firm_store (fun _ => ih (fun x hx => hgs x (List.mem_cons_of_mem _ hx))) this.2) this.1

theorem firm_scanStores (ts : List Nat) {has : Nat → Bool} : ∀ {acc : List Nat} {p : List Nat → Prog V},
    (∀ l, Firm has (p l)) → Firm has (scanStores id ts acc p) := by
  induction ts with
  | nil => intro acc p h; exact h _
  | cons t rest ih =>
    intro acc p h
    simp only [scanStores, Firm]
    intro r
    show Firm has (match r with | .bool true => _ | _ => _)
    split
    · exact ih h
    · exact ih h

theorem firm_eraseStores (ts : List Nat) {p : Prog V} {has : Nat → Bool} (h : Firm has p) :
    Firm has (eraseStores id ts p) := by
  induction ts with
  | nil => exact h
  | cons t rest ih => intro _; exact ih

theorem firm_remove (hr : GroupsReg cfg) (has : Nat → Bool) : Firm has (remove cfg id : Prog V) := by
  refine firm_scanGroups hr _ (fun x hx => mem_indexed hx) (by simp) fun l hl => ?_
  refine firm_eraseLoop hr l hl ?_
  refine firm_scanStores _ fun ts => ?_
  refine firm_eraseStores ts ?_
  exact trivial

/-! ### Other calls -/

theorem firmQ_store {n t : Nat} {m : Mode} {p : Prog V} (h : FirmQ cfg n p)
    (ht : cfg.registered t = true) : FirmQ cfg n (store cfg t m p) := by
  unfold store
  rw [if_pos ht]; exact h

theorem firmQ_visitGroups {n : Nat} (ks : List Nat) {p : Prog V} (h : FirmQ cfg n p) :
    FirmQ cfg n (visitGroups ks p) := by
  induction ks with
  | nil => exact h
  | cons k ks ih => exact ih

theorem firmQ_releaseAll {n : Nat} (gs : List Guard) {p : Prog V} (h : FirmQ cfg n p) :
    FirmQ cfg n (releaseAll gs p) := by
  induction gs with
  | nil => exact h
  | cons g gs ih => exact ih

theorem firmQ_openQuery {n : Nat} (q : Query)
    (hq : Parts (fun t => cfg.registered t = true)
      (fun k a b => cfg.registered a = true ∧ cfg.registered b = true ∧ (position cfg ⟨k, a, b⟩).isSome = true) q) :
    ∀ {p : Prog V}, FirmQ cfg n p → FirmQ cfg n (openQuery cfg q p) := by
  induction q with
  | comp m t => intro p h; exact firmQ_store h hq
  | with2 a b iha ihb => intro p h; exact iha hq.1 (ihb hq.2 h)
  | withoutL a b iha ihb => intro p h; exact iha hq.1 (ihb hq.2 h)
  | withoutR a b iha ihb => intro p h; exact iha hq.1 (ihb hq.2 h)
  | with3 a b c iha ihb ihc => intro p h; exact iha hq.1 (ihb hq.2.1 (ihc hq.2.2 h))
  | with4 a b c d iha ihb ihc ihd => intro p h; exact iha hq.1 (ihb hq.2.1 (ihc hq.2.2.1 (ihd hq.2.2.2 h)))
  | with5 a b c d e iha ihb ihc ihd ihe =>
    intro p h; exact iha hq.1 (ihb hq.2.1 (ihc hq.2.2.1 (ihd hq.2.2.2.1 (ihe hq.2.2.2.2 h))))
  | group k ma mb a b =>
    intro p h
    obtain ⟨h1, h2, h3⟩ := hq
    obtain ⟨pos, hp⟩ := Option.isSome_iff_exists.1 h3
    simp only [openQuery, h1, h2, hp, Bool.and_self, if_true]
    refine firmQ_store (firmQ_store ?_ h2) h1
    exact firmQ_visitGroups _ (firmQ_visitGroups _ h)

theorem firmQ_batches {n x y : Nat} (bs : List (Nat × List V)) {p : Prog V}
    (hb : ∀ b ∈ bs, cfg.registered b.1 = true ∧ b.2.length = y - x) (h : FirmQ cfg n p) :
    FirmQ cfg n (batches cfg x y bs p) := by
  induction bs with
  | nil => exact h
  | cons b bs ih =>
    obtain ⟨t, vs⟩ := b
    have h1 := hb (t, vs) (List.mem_cons_self ..)
    simp only [batches, h1.2, BEq.rfl, if_true]
    exact firmQ_store (ih fun b hb' => hb b (List.mem_cons_of_mem _ hb')) h1.1

theorem firmQ_fill {n x y : Nat} {bs : List (Nat × List V)}
    (hb : ∀ b ∈ bs, cfg.registered b.1 = true ∧ b.2.length = y - x) :
    FirmQ cfg n ((ApiCall.fill x y bs).prog cfg) := by
  exact firmQ_batches (cfg := cfg) (n := n) (x := x) (y := y) bs
    (p := .rel .em .ref (.done [.range x y])) hb trivial

/-- Calls that work on no entity. -/
theorem firmQ_other {n : Nat} {c : ApiCall V} (h1 : ∀ s, c ≠ .create s) (h2 : ∀ id s, c ≠ .on id s) (h3 : ∀ id, c ≠ .remove id)
    (h4 : ∀ n bs, c = .createMany n bs → ∀ b ∈ bs, cfg.registered b.1 = true ∧ b.2.length = n) (h5 : ∀ id, c = .exist id → id < n) (h6 : ∀ q, c = .query q → Good cfg q)
    (h7 : ∀ x y bs, c = .fill x y bs → ∀ b ∈ bs, cfg.registered b.1 = true ∧ b.2.length = y - x) :
    FirmQ cfg n (c.prog cfg) := by
  cases c with
  | create s => exact absurd rfl (h1 s)
  | on id s => exact absurd rfl (h2 id s)
  | remove id => exact absurd rfl (h3 id)
  | fill x y bs => exact firmQ_fill (h7 x y bs rfl)
  | createMany n bs =>
    exact fun a => firmQ_batches bs (fun b hb => ⟨(h4 n bs rfl b hb).1, by rw [(h4 n bs rfl b hb).2]; omega⟩) trivial
  | exist id => exact ⟨h5 id rfl, fun _ => trivial⟩
  | read t id =>
    simp only [ApiCall.prog, read]
    split
    · exact fun _ => trivial
    · trivial
  | write t id v =>
    simp only [ApiCall.prog, write]
    split
    · exact fun _ => trivial
    · trivial
  | count t =>
    simp only [ApiCall.prog]
    split
    · exact fun _ => trivial
    · trivial
  | resRead t =>
    simp only [ApiCall.prog]
    split
    · exact fun _ => trivial
    · trivial
  | resWrite t v =>
    simp only [ApiCall.prog]
    split
    · exact fun _ => trivial
    · trivial
  | query q =>
    refine firmQ_openQuery q (h6 q rfl).named ?_
    exact ⟨h6 q rfl, fun _ => firmQ_releaseAll _ trivial⟩

end
end Prog

/-! ### Queries -/

theorem named_iff {cfg : Config} {w : World V} {s : State V} (h : WRel w s) (hm : Matches cfg w) (q : Query) :
    Parts (fun t => cfg.registered t = true)
      (fun k a b => cfg.registered a = true ∧ cfg.registered b = true ∧ (Prog.position cfg ⟨k, a, b⟩).isSome = true) q ↔
    s.Defined q := by
  have e1 : ∀ t, cfg.registered t = (s.comp t).isSome := by
    intro t
    rw [← hasRegistered_eq h t, Bool.eq_iff_iff]
    simp only [Config.registered, List.contains_iff_mem, hm.order, World.hasRegistered]
  have e2 : ∀ k a b, (Prog.position cfg ⟨k, a, b⟩).isSome = (s.group? k a b).isSome := by
    intro k a b
    rw [← hasGroup_position hm, hasGroup_of_group? h]
  simp only [defined_iff, e1, e2]

end Xecs
