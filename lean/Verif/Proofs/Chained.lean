import Verif.Proofs.Discipline
import Verif.Spec.Considerate
/-
Programs of considerate clients: what the rest of a chain may rely on and has to do, group by group.
-/
set_option autoImplicit false
namespace Xecs
open Spec World
variable {V : Type}

/-- The call attaches no batches of types of the groups `T`. -/
def ApiCall.spares (cfg : Config) (T : Nat → Prop) : ApiCall V → Prop
  | .createMany _ bs => ∀ b ∈ bs, ∀ (k : Nat) g, T k → cfg.groups[k]? = some g → g.touches b.1 = false
  | .fill _ _ bs => ∀ b ∈ bs, ∀ (k : Nat) g, T k → cfg.groups[k]? = some g → g.touches b.1 = false
  | _ => True

namespace Prog

/-- Works through the handle of entity `id`. Panics only if `b` is false. -/
def Chained (cfg : Config) (id : Nat) (b : Bool) : Prog V → Prop
  | .done _ => True
  | .panic => b = false
  | .acq _ _ p => Chained cfg id b p
  | .rel _ _ p => Chained cfg id b p
  | .act a f =>
    match a with
    | .has e => e = id ∧ Chained cfg id b (f (.bool true))
    | .attachStore t e _ => e = id ∧ cfg.registered t = true ∧ Chained cfg id b (f .unit)
    | .groupAdd j e => e = id ∧ (∃ g, cfg.groups[j]? = some g) ∧ Chained cfg id b (f .unit)
    | .groupRemove j e => e = id ∧ (∃ g, cfg.groups[j]? = some g) ∧ Chained cfg id b (f .unit)
    | .detachStore t e => e = id ∧ b = false ∧ cfg.registered t = true ∧ ∀ r, Chained cfg id b (f r)
    | .storeRead _ _ => ∀ r, Chained cfg id b (f r)
    | .storeWrite _ _ _ => ∀ r, Chained cfg id b (f r)
    | _ => False

/-- Will offer entity `id` to group `k`, and cannot panic before. -/
def Vows (k id : Nat) : Prog V → Prop
  | .done _ => False
  | .panic => False
  | .acq _ _ p => Vows k id p
  | .rel _ _ p => Vows k id p
  | .act a f => a = .groupAdd k id ∨ ((∀ t e, a ≠ .detachStore t e) ∧ ∀ r, Vows k id (f r))

/-- Changes no type of group `k`, and not the group. -/
def Idles (k : Nat) (g : Shape) : Prog V → Prop
  | .done _ => True
  | .panic => True
  | .acq _ _ p => Idles k g p
  | .rel _ _ p => Idles k g p
  | .act a f =>
    match a with
    | .has _ => Idles k g (f (.bool true))
    | .attachStore t _ _ => g.touches t = false ∧ Idles k g (f .unit)
    | .groupAdd j _ => j ≠ k ∧ Idles k g (f .unit)
    | .groupRemove j _ => j ≠ k ∧ Idles k g (f .unit)
    | .detachStore t _ => g.touches t = false ∧ ∀ r, Idles k g (f r)
    | .storeRead _ _ => ∀ r, Idles k g (f r)
    | .storeWrite _ _ _ => ∀ r, Idles k g (f r)
    | _ => False

/-- Detaches no type of group `k`; offers `id` to it after attaching one of its types. -/
def Offers (k : Nat) (g : Shape) (id : Nat) : Prog V → Prop
  | .done _ => True
  | .panic => True
  | .acq _ _ p => Offers k g id p
  | .rel _ _ p => Offers k g id p
  | .act a f =>
    match a with
    | .has _ => Offers k g id (f (.bool true))
    | .attachStore t _ _ => (g.touches t = true → Vows k id (f .unit)) ∧ Offers k g id (f .unit)
    | .groupAdd _ _ => Offers k g id (f .unit)
    | .groupRemove j _ => j ≠ k ∧ Offers k g id (f .unit)
    | .detachStore t _ => g.touches t = false ∧ ∀ r, Offers k g id (f r)
    | .storeRead _ _ => ∀ r, Offers k g id (f r)
    | .storeWrite _ _ _ => ∀ r, Offers k g id (f r)
    | _ => False

/-- The only thread that changes group `k` and its types for an entity which has its first type (`ha`), its second
(`hb`), and is in it (`m`). -/
def Solo (T : Prop) (k : Nat) (g : Shape) : Bool → Bool → Bool → Prog V → Prop
  | ha, hb, m, .done _ => T → ha = true → hb = true → m = true
  | ha, hb, m, .panic => T → ha = true → hb = true → m = true
  | ha, hb, m, .acq _ _ p => Solo T k g ha hb m p
  | ha, hb, m, .rel _ _ p => Solo T k g ha hb m p
  | ha, hb, m, .act a f =>
    match a with
    | .has _ => Solo T k g ha hb m (f (.bool true))
    | .attachStore t _ _ => Solo T k g (ha || g.a == t) (hb || g.b == t) m (f .unit)
    | .groupAdd j _ => Solo T k g ha hb (m || (decide (k = j) && ha && hb)) (f .unit)
    | .groupRemove j _ => Solo T k g ha hb (m && !decide (k = j)) (f .unit)
    | .detachStore t _ => (g.touches t = true → m = false) ∧
        (∀ v, Solo T k g (ha && !(g.a == t)) (hb && !(g.b == t)) m (f (.val (some v)))) ∧
        ((g.a = t → ha = false) → (g.b = t → hb = false) →
          (T → ha = true → hb = true → m = true) ∧ Solo T k g ha hb m (f (.val none)))
    | .storeRead _ _ => ∀ r, Solo T k g ha hb m (f r)
    | .storeWrite _ _ _ => ∀ r, Solo T k g ha hb m (f r)
    | _ => False

/-- Will detach a type of group `g` from entity `id`, and cannot panic before. -/
def Severs (g : Shape) (id : Nat) : Prog V → Prop
  | .done _ => False
  | .panic => False
  | .acq _ _ p => Severs g id p
  | .rel _ _ p => Severs g id p
  | .act a f => (∃ t, a = .detachStore t id ∧ g.touches t = true) ∨ ((∀ t e, a ≠ .detachStore t e) ∧ ∀ r, Severs g id (f r))

/-- Attaches no type of group `k`; detaches one only after taking `id`, which may be in the group (`m`), out of the
group, and does so once it has. -/
def Cuts (k : Nat) (g : Shape) (id : Nat) : Bool → Prog V → Prop
  | _, .done _ => True
  | _, .panic => True
  | m, .acq _ _ p => Cuts k g id m p
  | m, .rel _ _ p => Cuts k g id m p
  | m, .act a f =>
    match a with
    | .has _ => Cuts k g id m (f (.bool true))
    | .attachStore t _ _ => g.touches t = false ∧ Cuts k g id m (f .unit)
    | .groupAdd j _ => j ≠ k ∧ Cuts k g id m (f .unit)
    | .groupRemove j _ => (j = k → Severs g id (f .unit)) ∧ Cuts k g id (m && !decide (k = j)) (f .unit)
    | .detachStore t _ => (g.touches t = true → m = false) ∧ ∀ r, Cuts k g id m (f r)
    | .storeRead _ _ => ∀ r, Cuts k g id m (f r)
    | .storeWrite _ _ _ => ∀ r, Cuts k g id m (f r)
    | _ => False

/-- What the rest of the chain `ops` on entity `id` does about group `k`. -/
def Stance (T : Prop) (k : Nat) (g : Shape) (id : Nat) (ops : List (HOp V)) (ha hb m : Bool) (p : Prog V) : Prop :=
  if g.cutBy ops = true then
    if g.fedBy ops = true then Solo T k g ha hb m p else Cuts k g id m p
  else if g.fedBy ops = true then Offers k g id p
  else Idles k g p

/-- Attaches batches of components to the entities from `x` up to `y`, each type once and none that was attached before,
and no types of the groups `T`. -/
def Pours (cfg : Config) (T : Nat → Prop) (x y : Nat) : List Nat → Prog V → Prop
  | _, .done _ => True
  | _, .panic => True
  | D, .acq _ _ p => Pours cfg T x y D p
  | D, .rel _ _ p => Pours cfg T x y D p
  | D, .act a f => ∃ t vs, a = .batchStore x y t vs ∧ t ∉ D ∧ vs.length = y - x ∧ cfg.registered t = true ∧
      (∀ (k : Nat) g, T k → cfg.groups[k]? = some g → g.touches t = false) ∧ Pours cfg T x y (t :: D) (f .unit)

/-- Works on no entity yet; the chain it will perform is `chain`. -/
def Waits (cfg : Config) (T : Nat → Prop) (chain : Option (List (HOp V))) : Prog V → Prop
  | .done _ => True
  | .panic => True
  | .acq _ _ p => Waits cfg T chain p
  | .rel _ _ p => Waits cfg T chain p
  | .act a f => (a.mild = true ∧ ∀ r, Waits cfg T chain (f r)) ∨ (∃ n, a = .allocateN n ∧ ∀ x y, x ≤ y → Pours cfg T x y [] (f (.range x y))) ∨
      (a = .allocate ∧ ∃ ops, chain = some ops ∧ ∀ id, Chained cfg id false (f (.id id)) ∧
        ∀ (k : Nat) g, cfg.groups[k]? = some g → Stance (T k) k g id ops false false false (f (.id id)))

theorem Calm.waits {cfg : Config} {T : Nat → Prop} {ch : Option (List (HOp V))} : ∀ {p : Prog V}, Calm p → Waits cfg T ch p
  | .done _, _ => trivial
  | .panic, _ => trivial
  | .acq _ _ p, h => Calm.waits (p := p) h
  | .rel _ _ p, h => Calm.waits (p := p) h
  | .act _ _, h => .inl ⟨h.1, fun r => Calm.waits (h.2 r)⟩

theorem Pours.fills {cfg : Config} {T : Nat → Prop} {x y : Nat} : ∀ {D : List Nat} {p : Prog V}, Pours cfg T x y D p →
    ∀ {c d : Nat}, p.fills = some (c, d) → c = x ∧ d = y
  | _, .done _, _, _, _, h => by cases h
  | _, .panic, _, _, _, h => by cases h
  | _, .acq _ _ p, h, _, _, h' => Pours.fills (p := p) h h'
  | _, .rel _ _ p, h, _, _, h' => Pours.fills (p := p) h h'
  | _, .act a f, h, c, d, h' => by
    obtain ⟨t, vs, rfl, _⟩ := h
    simp only [Prog.fills, Option.some.injEq, Prod.mk.injEq] at h'
    exact ⟨h'.1.symm, h'.2.symm⟩

theorem Waits.fills {cfg : Config} {T : Nat → Prop} {ch : Option (List (HOp V))} : ∀ {p : Prog V}, Waits cfg T ch p → p.fills = none
  | .done _, _ => rfl
  | .panic, _ => rfl
  | .acq _ _ p, h => Waits.fills (p := p) h
  | .rel _ _ p, h => Waits.fills (p := p) h
  | .act a f, h => by
    rcases h with ⟨h, _⟩ | ⟨n, rfl, _⟩ | ⟨rfl, _⟩
    · cases a <;> first | rfl | cases h
    · rfl
    · rfl

theorem Chained.fills {cfg : Config} {id : Nat} {b : Bool} : ∀ {p : Prog V}, Chained cfg id b p → p.fills = none
  | .done _, _ => rfl
  | .panic, _ => rfl
  | .acq _ _ p, h => Chained.fills (p := p) h
  | .rel _ _ p, h => Chained.fills (p := p) h
  | .act a f, h => by cases a <;> first | rfl | exact False.elim h

theorem Alone.fills {cfg : Config} {T : Nat → Prop} {id : Nat} {has mem : Nat → Bool} : ∀ {p : Prog V},
    Alone cfg T id has mem p → p.fills = none
  | .done _, _ => rfl
  | .panic, _ => rfl
  | .acq _ _ p, h => Alone.fills (p := p) h
  | .rel _ _ p, h => Alone.fills (p := p) h
  | .act a f, h => by cases a <;> first | rfl | exact False.elim h

/-! ### Building blocks -/

/-- Predicates that do not look at guards. -/
structure Through (P : Prog V → Prop) : Prop where
  acq : ∀ {l m p}, P p → P (.acq l m p)
  rel : ∀ {l m p}, P p → P (.rel l m p)

section
variable {cfg : Config} {k : Nat} {g : Shape} {id : Nat} {b : Bool} {T : Prop}

theorem through_chained : Through (V := V) (Chained cfg id b) := ⟨fun h => h, fun h => h⟩
theorem through_vows : Through (V := V) (Vows k id) := ⟨fun h => h, fun h => h⟩
theorem through_idles : Through (V := V) (Idles k g) := ⟨fun h => h, fun h => h⟩
theorem through_offers : Through (V := V) (Offers k g id) := ⟨fun h => h, fun h => h⟩
theorem through_solo {ha hb m : Bool} : Through (V := V) (Solo T k g ha hb m) :=
  ⟨fun h => by unfold Solo; exact h, fun h => by unfold Solo; exact h⟩

theorem through_severs : Through (V := V) (Severs g id) := ⟨fun h => h, fun h => h⟩
theorem through_cuts {m : Bool} : Through (V := V) (Cuts k g id m) :=
  ⟨fun h => by unfold Cuts; exact h, fun h => by unfold Cuts; exact h⟩

/-- Knowing that the entity is not in the group is better. -/
theorem cuts_mono : ∀ {p : Prog V} {m : Bool}, Cuts k g id m p → Cuts k g id false p := by
  intro p
  induction p with
  | done => intro m h; unfold Cuts; trivial
  | panic => intro m h; unfold Cuts; trivial
  | acq l mo p ih => intro m h; unfold Cuts at h ⊢; exact ih h
  | rel l mo p ih => intro m h; unfold Cuts at h ⊢; exact ih h
  | act a f ih =>
    intro m h
    unfold Cuts at h ⊢
    cases a with
    | has e => exact ih _ h
    | attachStore t e v => exact ⟨h.1, ih _ h.2⟩
    | groupAdd j e => exact ⟨h.1, ih _ h.2⟩
    | groupRemove j e => exact ⟨h.1, ih _ h.2⟩
    | detachStore t e => exact ⟨fun _ => rfl, fun r => ih _ (h.2 r)⟩
    | storeRead t e => exact fun r => ih _ (h r)
    | storeWrite t e v => exact fun r => ih _ (h r)
    | _ => exact h

theorem Through.store {P : Prog V → Prop} (hP : Through P) {t : Nat} {m : Mode} {p : Prog V}
    (ht : cfg.registered t = true) (h : P p) : P (store cfg t m p) := by
  unfold Prog.store
  rw [if_pos ht]; exact hP.acq h

theorem Through.lockGroups {P : Prog V → Prop} (hP : Through P) (t : Nat) (gs : List (Nat × Shape)) {p : Prog V}
    (h : P p) : P (lockGroups t gs p) := by
  induction gs with
  | nil => exact h
  | cons x rest ih =>
    obtain ⟨k, g⟩ := x
    simp only [Prog.lockGroups]
    refine hP.acq (hP.rel ?_)
    split
    · exact hP.acq ih
    · exact ih

theorem Through.groupStep {P : Prog V → Prop} (hP : Through P) (hr : GroupsReg cfg) {j : Nat} {gj : Shape}
    (hj : cfg.groups[j]? = some gj) {a : Act V} {p : Prog V}
    (h : P (.act a fun _ => .rel (.store gj.b) gj.modeB <| .rel (.store gj.a) gj.modeA <| .rel (.group j) .mut p)) :
    P (groupStep cfg j gj a p) :=
  hP.store (hr j gj hj).1 (hP.store (hr j gj hj).2 h)

/-! ### Every chain -/

theorem chained_loop (hr : GroupsReg cfg) {a : Nat → Act V}
    (ha : ∀ (j : Nat) (gj : Shape) (f : Ret V → Prog V), cfg.groups[j]? = some gj → Chained cfg id b (f .unit) →
      Chained cfg id b (.act (a j) f))
    (gs : List (Nat × Shape)) (hgs : ∀ x ∈ gs, cfg.groups[x.1]? = some x.2) {p : Prog V} (h : Chained cfg id b p) :
    Chained cfg id b (groupLoop cfg a gs p) := by
  induction gs with
  | nil => exact h
  | cons x rest ih =>
    obtain ⟨j, gj⟩ := x
    have hj := hgs (j, gj) (by simp)
    refine through_chained.groupStep hr hj (ha j gj _ hj ?_)
    exact ih fun x hx => hgs x (List.mem_cons_of_mem _ hx)

theorem chained_script (hr : GroupsReg cfg) (ops : List (HOp V))
    (hb : b = true → (ApiCall.on id ops).soft = true ∧ (ApiCall.on id ops).proper cfg = true) :
    ∀ {acc : List (Ret V)} {p : List (Ret V) → Prog V}, (∀ rs, Chained cfg id b (p rs)) →
      Chained cfg id b (script cfg id ops acc p) := by
  induction ops with
  | nil => intro acc p h; exact h _
  | cons o ops ih =>
    intro acc p h
    simp only [ApiCall.soft, ApiCall.proper, List.all_cons, Bool.and_eq_true] at hb
    have ih' := @ih (fun hb' => ⟨(hb hb').1.2, (hb hb').2.2⟩)
    cases o with
    | attach t v =>
      simp only [script, attach]
      split
      · rename_i hreg
        refine ⟨rfl, hreg, ?_⟩
        refine through_chained.lockGroups _ _ (chained_loop hr ?_ _ touching_indexed (ih' h))
        exact fun j gj f hj hf => ⟨rfl, ⟨gj, hj⟩, hf⟩
      · rename_i hreg
        cases b with
        | false => exact rfl
        | true => exact absurd (hb rfl).2.1 hreg
    | detach t =>
      have hb0 : b = false := by
        cases b with
        | false => rfl
        | true => have := (hb rfl).1.1; simp at this
      simp only [script, detach]
      split
      · rename_i hreg
        refine through_chained.lockGroups _ _ (chained_loop hr ?_ _ touching_indexed ?_)
        · exact fun j gj f hj hf => ⟨rfl, ⟨gj, hj⟩, hf⟩
        · exact ⟨rfl, hb0, hreg, fun r => ih' h⟩
      · exact hb0
    | read t =>
      simp only [script, read]
      split
      · exact fun r => ih' h
      · exact ih' h
    | write t v =>
      simp only [script, write]
      split
      · exact fun r => ih' h
      · exact ih' h

/-! ### Groups whose types are not changed -/

theorem touching_ne (hk : cfg.groups[k]? = some g) {t : Nat} (ht : g.touches t = false) :
    ∀ x ∈ touching cfg t, x.1 ≠ k := by
  rintro x hx rfl
  have h1 := touching_indexed x hx
  have h2 := (List.mem_filter.1 hx).2
  rw [hk] at h1; cases h1
  rw [ht] at h2; cases h2

theorem idles_loop (hr : GroupsReg cfg) {a : Nat → Act V}
    (ha : ∀ (j : Nat) (f : Ret V → Prog V), j ≠ k → Idles k g (f .unit) → Idles k g (.act (a j) f))
    (gs : List (Nat × Shape)) (hgs : ∀ x ∈ gs, cfg.groups[x.1]? = some x.2) (hne : ∀ x ∈ gs, x.1 ≠ k)
    {p : Prog V} (h : Idles k g p) : Idles k g (groupLoop cfg a gs p) := by
  induction gs with
  | nil => exact h
  | cons x rest ih =>
    obtain ⟨j, gj⟩ := x
    refine through_idles.groupStep hr (hgs (j, gj) (by simp)) (ha j _ (hne (j, gj) (by simp)) ?_)
    exact ih (fun x hx => hgs x (List.mem_cons_of_mem _ hx)) fun x hx => hne x (List.mem_cons_of_mem _ hx)

theorem idles_script (hr : GroupsReg cfg) (hk : cfg.groups[k]? = some g) (ops : List (HOp V))
    (hc : g.cutBy ops = false) (hd : g.fedBy ops = false) :
    ∀ {acc : List (Ret V)} {p : List (Ret V) → Prog V}, (∀ rs, Idles k g (p rs)) → Idles k g (script cfg id ops acc p) := by
  induction ops with
  | nil => intro acc p h; exact h _
  | cons o ops ih =>
    intro acc p h
    simp only [Shape.cutBy, List.any_cons, Bool.or_eq_false_iff] at hc
    simp only [Shape.fedBy, List.any_cons, Bool.or_eq_false_iff] at hd
    have ih' := @ih hc.2 hd.2
    cases o with
    | attach t v =>
      simp only [script, attach]
      split
      · refine ⟨hd.1, through_idles.lockGroups _ _ (idles_loop hr ?_ _ touching_indexed (touching_ne hk hd.1) (ih' h))⟩
        exact fun j f hj hf => ⟨hj, hf⟩
      · trivial
    | detach t =>
      simp only [script, detach]
      split
      · refine through_idles.lockGroups _ _ (idles_loop hr ?_ _ touching_indexed (touching_ne hk hc.1) ?_)
        · exact fun j f hj hf => ⟨hj, hf⟩
        · exact ⟨hc.1, fun r => ih' h⟩
      · trivial
    | read t =>
      simp only [script, read]
      split
      · exact fun r => ih' h
      · exact ih' h
    | write t v =>
      simp only [script, write]
      split
      · exact fun r => ih' h
      · exact ih' h

/-! ### Groups whose types are only attached -/

theorem offers_loop (hr : GroupsReg cfg) {a : Nat → Act V} {Q : Nat → Prop}
    (ha : ∀ (j : Nat) (f : Ret V → Prog V), Q j → Offers k g id (f .unit) → Offers k g id (.act (a j) f))
    (gs : List (Nat × Shape)) (hgs : ∀ x ∈ gs, cfg.groups[x.1]? = some x.2) (hne : ∀ x ∈ gs, Q x.1)
    {p : Prog V} (h : Offers k g id p) : Offers k g id (groupLoop cfg a gs p) := by
  induction gs with
  | nil => exact h
  | cons x rest ih =>
    obtain ⟨j, gj⟩ := x
    refine through_offers.groupStep hr (hgs (j, gj) (by simp)) (ha j _ (hne (j, gj) (by simp)) ?_)
    exact ih (fun x hx => hgs x (List.mem_cons_of_mem _ hx)) fun x hx => hne x (List.mem_cons_of_mem _ hx)

theorem vows_loop (hr : GroupsReg cfg) (gs : List (Nat × Shape)) (hgs : ∀ x ∈ gs, cfg.groups[x.1]? = some x.2)
    (hk : (k, g) ∈ gs) {p : Prog V} : Vows k id (groupLoop cfg (fun j => .groupAdd j id) gs p) := by
  induction gs with
  | nil => simp at hk
  | cons x rest ih =>
    obtain ⟨j, gj⟩ := x
    refine through_vows.groupStep hr (hgs (j, gj) (by simp)) ?_
    rcases List.mem_cons.1 hk with h | h
    · cases h; exact .inl rfl
    · exact .inr ⟨by simp, fun r => ih (fun x hx => hgs x (List.mem_cons_of_mem _ hx)) h⟩

theorem offers_script (hr : GroupsReg cfg) (hk : cfg.groups[k]? = some g) (ops : List (HOp V))
    (hc : g.cutBy ops = false) :
    ∀ {acc : List (Ret V)} {p : List (Ret V) → Prog V}, (∀ rs, Offers k g id (p rs)) →
      Offers k g id (script cfg id ops acc p) := by
  induction ops with
  | nil => intro acc p h; exact h _
  | cons o ops ih =>
    intro acc p h
    simp only [Shape.cutBy, List.any_cons, Bool.or_eq_false_iff] at hc
    have ih' := @ih hc.2
    cases o with
    | attach t v =>
      simp only [script, attach]
      split
      · refine ⟨fun ht => ?_, ?_⟩
        · exact through_vows.lockGroups _ _ (vows_loop hr _ touching_indexed (mem_touching hk ht))
        · refine through_offers.lockGroups _ _ (offers_loop (Q := fun _ => True) hr ?_ _ touching_indexed (by simp) (ih' h))
          exact fun j f _ hf => hf
      · trivial
    | detach t =>
      simp only [script, detach]
      split
      · refine through_offers.lockGroups _ _ (offers_loop (Q := fun j => j ≠ k) hr ?_ _ touching_indexed (touching_ne hk hc.1) ?_)
        · exact fun j f hj hf => ⟨hj, hf⟩
        · exact ⟨hc.1, fun r => ih' h⟩
      · trivial
    | read t =>
      simp only [script, read]
      split
      · exact fun r => ih' h
      · exact ih' h
    | write t v =>
      simp only [script, write]
      split
      · exact fun r => ih' h
      · exact ih' h

/-! ### Groups one of whose types is detached -/

theorem solo_addLoop (hr : GroupsReg cfg) {ha hb : Bool} (gs : List (Nat × Shape))
    (hgs : ∀ x ∈ gs, cfg.groups[x.1]? = some x.2) {p : Prog V} : ∀ {m : Bool},
    (∀ m', m' = (m || (decide (k ∈ gs.map Prod.fst) && ha && hb)) → Solo T k g ha hb m' p) →
    Solo T k g ha hb m (groupLoop cfg (fun j => .groupAdd j id) gs p) := by
  induction gs with
  | nil => intro m h; exact h m (by simp)
  | cons x rest ih =>
    intro m h
    obtain ⟨j, gj⟩ := x
    refine through_solo.groupStep hr (hgs (j, gj) (by simp)) ?_
    unfold Solo
    refine through_solo.rel (through_solo.rel (through_solo.rel ?_))
    refine ih (fun x hx => hgs x (List.mem_cons_of_mem _ hx)) fun m' hm => h m' ?_
    rw [hm]
    simp only [List.map_cons, List.mem_cons]
    by_cases h1 : k = j <;> by_cases h2 : k ∈ rest.map Prod.fst <;> cases m <;> cases ha <;> cases hb <;> simp [h1, h2]

theorem solo_removeLoop (hr : GroupsReg cfg) {ha hb : Bool} (gs : List (Nat × Shape))
    (hgs : ∀ x ∈ gs, cfg.groups[x.1]? = some x.2) {p : Prog V} : ∀ {m : Bool},
    (∀ m', m' = (m && !decide (k ∈ gs.map Prod.fst)) → Solo T k g ha hb m' p) →
    Solo T k g ha hb m (groupLoop cfg (fun j => .groupRemove j id) gs p) := by
  induction gs with
  | nil => intro m h; exact h m (by simp)
  | cons x rest ih =>
    intro m h
    obtain ⟨j, gj⟩ := x
    refine through_solo.groupStep hr (hgs (j, gj) (by simp)) ?_
    unfold Solo
    refine through_solo.rel (through_solo.rel (through_solo.rel ?_))
    refine ih (fun x hx => hgs x (List.mem_cons_of_mem _ hx)) fun m' hm => h m' ?_
    rw [hm]
    simp only [List.map_cons, List.mem_cons]
    by_cases h1 : k = j <;> by_cases h2 : k ∈ rest.map Prod.fst <;> cases m <;> simp [h1, h2]

theorem mem_touching_keys (hk : cfg.groups[k]? = some g) (t : Nat) :
    decide (k ∈ (touching cfg t).map Prod.fst) = g.touches t := by
  rw [Bool.eq_iff_iff]
  simp only [decide_eq_true_eq, List.mem_map]
  constructor
  · rintro ⟨x, hx, rfl⟩
    have h1 := touching_indexed x hx
    rw [hk] at h1; cases h1
    exact (List.mem_filter.1 hx).2
  · intro htt; exact ⟨(k, g), mem_touching hk htt, rfl⟩

theorem touches_false {t : Nat} (h : g.touches t = false) : (g.a == t) = false ∧ (g.b == t) = false := by
  simpa only [Shape.touches, Bool.or_eq_false_iff] using h

theorem solo_script (hr : GroupsReg cfg) (hk : cfg.groups[k]? = some g) (ops : List (HOp V)) :
    ∀ {acc : List (Ret V)} {p : List (Ret V) → Prog V} {ha hb m : Bool}, (T → ha = true → hb = true → m = true) →
    (∀ rs ha hb m, (T → ha = true → hb = true → m = true) → Solo T k g ha hb m (p rs)) →
    Solo T k g ha hb m (script cfg id ops acc p) := by
  induction ops with
  | nil => intro acc p ha hb m hc h; exact h _ _ _ _ hc
  | cons o ops ih =>
    intro acc p ha hb m hc h
    cases o with
    | attach t v =>
      simp only [script, attach]
      split
      · unfold Solo
        unfold Solo
        refine through_solo.rel (through_solo.lockGroups _ _ (solo_addLoop hr _ touching_indexed fun m' hm => ih ?_ h))
        rw [mem_touching_keys hk] at hm
        intro hT h1 h2
        rw [hm]
        cases htt : g.touches t with
        | true => rw [h1, h2]; simp
        | false =>
          obtain ⟨e1, e2⟩ := touches_false htt
          rw [e1, Bool.or_false] at h1
          rw [e2, Bool.or_false] at h2
          simp [hc hT h1 h2]
      · unfold Solo; exact hc
    | detach t =>
      simp only [script, detach]
      split
      · refine through_solo.lockGroups _ _ (solo_removeLoop hr _ touching_indexed fun m' hm => ?_)
        rw [mem_touching_keys hk] at hm
        unfold Solo
        unfold Solo
        refine ⟨fun ht => by rw [hm, ht]; simp, fun v => through_solo.rel (ih ?_ h), fun e1 e2 => ?_⟩
        · intro hT h1 h2
          simp only [Bool.and_eq_true, Bool.not_eq_true'] at h1 h2
          rw [hm, hc hT h1.1 h2.1]
          simp [Shape.touches, h1.2, h2.2]
        · have hc' : T → ha = true → hb = true → m' = true := by
            intro hT h1 h2
            have n1 : (g.a == t) = false := by
              cases hx : (g.a == t) with
              | false => rfl
              | true => rw [e1 (beq_iff_eq.1 hx)] at h1; cases h1
            have n2 : (g.b == t) = false := by
              cases hx : (g.b == t) with
              | false => rfl
              | true => rw [e2 (beq_iff_eq.1 hx)] at h2; cases h2
            rw [hm, hc hT h1 h2]
            simp [Shape.touches, n1, n2]
          exact ⟨hc', through_solo.rel (ih hc' h)⟩
      · unfold Solo; exact hc
    | read t =>
      simp only [script, read]
      split
      · unfold Solo; unfold Solo; exact fun r => through_solo.rel (ih hc h)
      · exact ih hc h
    | write t v =>
      simp only [script, write]
      split
      · unfold Solo; unfold Solo; exact fun r => through_solo.rel (ih hc h)
      · exact ih hc h

/-! ### Groups of which types are only detached -/

theorem cuts_addLoop (hr : GroupsReg cfg) {m : Bool} (gs : List (Nat × Shape))
    (hgs : ∀ x ∈ gs, cfg.groups[x.1]? = some x.2) (hne : ∀ x ∈ gs, x.1 ≠ k) {p : Prog V} (h : Cuts k g id m p) :
    Cuts k g id m (groupLoop cfg (fun j => .groupAdd j id) gs p) := by
  induction gs with
  | nil => exact h
  | cons x rest ih =>
    obtain ⟨j, gj⟩ := x
    refine through_cuts.groupStep hr (hgs (j, gj) (by simp)) ?_
    unfold Cuts
    refine ⟨hne (j, gj) (by simp), through_cuts.rel (through_cuts.rel (through_cuts.rel ?_))⟩
    exact ih (fun x hx => hgs x (List.mem_cons_of_mem _ hx)) fun x hx => hne x (List.mem_cons_of_mem _ hx)

theorem severs_loop (hr : GroupsReg cfg) (gs : List (Nat × Shape)) (hgs : ∀ x ∈ gs, cfg.groups[x.1]? = some x.2)
    {p : Prog V} (h : Severs g id p) : Severs g id (groupLoop cfg (fun j => .groupRemove j id) gs p) := by
  induction gs with
  | nil => exact h
  | cons x rest ih =>
    obtain ⟨j, gj⟩ := x
    refine through_severs.groupStep hr (hgs (j, gj) (by simp)) ?_
    exact .inr ⟨by simp, fun r => ih (fun x hx => hgs x (List.mem_cons_of_mem _ hx))⟩

theorem cuts_removeLoop (hr : GroupsReg cfg) (gs : List (Nat × Shape))
    (hgs : ∀ x ∈ gs, cfg.groups[x.1]? = some x.2) {p : Prog V} (hs : k ∈ gs.map Prod.fst → Severs g id p) : ∀ {m : Bool},
    (∀ m', m' = (m && !decide (k ∈ gs.map Prod.fst)) → Cuts k g id m' p) →
    Cuts k g id m (groupLoop cfg (fun j => .groupRemove j id) gs p) := by
  induction gs with
  | nil => intro m h; exact h m (by simp)
  | cons x rest ih =>
    intro m h
    obtain ⟨j, gj⟩ := x
    have hgs' : ∀ x ∈ rest, cfg.groups[x.1]? = some x.2 := fun x hx => hgs x (List.mem_cons_of_mem _ hx)
    refine through_cuts.groupStep hr (hgs (j, gj) (by simp)) ?_
    unfold Cuts
    refine ⟨fun e => ?_, through_cuts.rel (through_cuts.rel (through_cuts.rel ?_))⟩
    · exact severs_loop hr rest hgs' (hs (by simp [e]))
    · refine ih hgs' (fun hx => hs (by simp only [List.map_cons, List.mem_cons]; exact .inr hx)) fun m' hm => h m' ?_
      rw [hm]
      simp only [List.map_cons, List.mem_cons]
      by_cases h1 : k = j <;> by_cases h2 : k ∈ rest.map Prod.fst <;> cases m <;> simp [h1, h2]

theorem cuts_script (hr : GroupsReg cfg) (hk : cfg.groups[k]? = some g) (ops : List (HOp V)) (hf : g.fedBy ops = false) :
    ∀ {acc : List (Ret V)} {p : List (Ret V) → Prog V} {m : Bool}, (∀ rs m, Cuts k g id m (p rs)) →
    Cuts k g id m (script cfg id ops acc p) := by
  induction ops with
  | nil => intro acc p m h; exact h _ _
  | cons o ops ih =>
    intro acc p m h
    simp only [Shape.fedBy, List.any_cons, Bool.or_eq_false_iff] at hf
    have ih' := @ih hf.2
    cases o with
    | attach t v =>
      simp only [script, attach]
      split
      · unfold Cuts
        unfold Cuts
        refine ⟨hf.1, through_cuts.rel (through_cuts.lockGroups _ _ (cuts_addLoop hr _ touching_indexed (touching_ne hk hf.1) ?_))⟩
        exact ih' h
      · unfold Cuts; trivial
    | detach t =>
      simp only [script, detach]
      split
      · refine through_cuts.lockGroups _ _ (cuts_removeLoop hr _ touching_indexed (fun hx => ?_) fun m' hm => ?_)
        · have hx := decide_eq_true hx
          rw [mem_touching_keys hk] at hx
          exact .inl ⟨t, rfl, hx⟩
        · rw [mem_touching_keys hk] at hm
          unfold Cuts
          unfold Cuts
          exact ⟨fun ht => by rw [hm, ht]; simp, fun r => through_cuts.rel (ih' h)⟩
      · unfold Cuts; trivial
    | read t =>
      simp only [script, read]
      split
      · unfold Cuts; unfold Cuts; exact fun r => through_cuts.rel (ih' h)
      · exact ih' h
    | write t v =>
      simp only [script, write]
      split
      · unfold Cuts; unfold Cuts; exact fun r => through_cuts.rel (ih' h)
      · exact ih' h

/-! ### Calls -/

theorem stance_handle (hr : GroupsReg cfg) (hk : cfg.groups[k]? = some g) (ops : List (HOp V)) (acc : List (Ret V))
    {ha hb m : Bool} (hc : g.cutBy ops = true → g.fedBy ops = true → T → ha = true → hb = true → m = true) :
    Stance T k g id ops ha hb m (handle cfg id ops acc) := by
  unfold Stance
  split
  · rename_i h
    split
    · rename_i h'
      unfold handle Solo; unfold Solo
      exact solo_script hr hk ops (hc h h') fun rs ha hb m h => through_solo.rel (by unfold Solo; exact h)
    · rename_i h'
      unfold handle Cuts; unfold Cuts
      exact cuts_script hr hk ops (by simpa using h') fun rs m => through_cuts.rel (by unfold Cuts; trivial)
  · rename_i h
    split
    · exact offers_script hr hk ops (by simpa using h) fun _ => trivial
    · rename_i h'
      exact idles_script hr hk ops (by simpa using h) (by simpa using h') fun _ => trivial

theorem chained_handle (hr : GroupsReg cfg) (ops : List (HOp V)) (acc : List (Ret V))
    (hb : b = true → (ApiCall.on id ops).soft = true ∧ (ApiCall.on id ops).proper cfg = true) :
    Chained cfg id b (handle cfg id ops acc) :=
  ⟨rfl, chained_script hr ops hb fun _ => trivial⟩

theorem waits_create {T : Nat → Prop} (hr : GroupsReg cfg) (ops : List (HOp V)) :
    Waits cfg T (some ops) ((ApiCall.create ops).prog cfg) := by
  refine .inr (.inr ⟨rfl, ops, rfl, fun id => ⟨?_, fun k g hk => ?_⟩⟩)
  · exact chained_handle hr ops _ (by simp)
  · have := stance_handle (T := T k) (id := id) hr hk ops [.id id] (ha := false) (hb := false) (m := false) (by simp)
    unfold Stance at this ⊢
    split
    · rename_i h
      rw [if_pos h] at this
      split
      · rename_i h'; rw [if_pos h'] at this; exact through_solo.rel this
      · rename_i h'; rw [if_neg h'] at this; exact through_cuts.rel this
    · rename_i h
      rw [if_neg h] at this
      split
      · rename_i h'; rw [if_pos h'] at this; exact this
      · rename_i h'; rw [if_neg h'] at this; exact this

theorem pours_batches {T : Nat → Prop} {x y : Nat} (bs : List (Nat × List V)) (h1 : (bs.map Prod.fst).Nodup) :
    ∀ {D : List Nat} {p : Prog V}, (∀ b ∈ bs, b.1 ∉ D) →
    (∀ b ∈ bs, ∀ (k : Nat) g, T k → cfg.groups[k]? = some g → g.touches b.1 = false) → (∀ D, Pours cfg T x y D p) →
    Pours cfg T x y D (batches cfg x y bs p) := by
  induction bs with
  | nil => intro D p _ _ h; exact h D
  | cons b bs ih =>
    intro D p h2 h3 h
    obtain ⟨t, vs⟩ := b
    simp only [List.map_cons, List.nodup_cons] at h1
    simp only [batches, store]
    split
    · rename_i hlen
      split
      · rename_i hreg
        refine ⟨t, vs, rfl, h2 (t, vs) (by simp), by simpa using hlen, hreg, h3 (t, vs) (by simp), ?_⟩
        refine ih h1.2 (fun b hb => ?_) (fun b hb => h3 b (by simp [hb])) h
        rw [List.mem_cons]
        rintro (rfl | h4)
        · exact h1.1 (List.mem_map_of_mem hb)
        · exact h2 b (by simp [hb]) h4
      · trivial
    · trivial

theorem pours_fill {T : Nat → Prop} {x y : Nat} {D : List Nat} {bs : List (Nat × List V)} (h1 : (bs.map Prod.fst).Nodup)
    (h2 : ∀ b ∈ bs, b.1 ∉ D) (h3 : (ApiCall.fill x y bs).spares cfg T) :
    Pours cfg T x y D ((ApiCall.fill x y bs).prog cfg) :=
  pours_batches bs h1 h2 h3 fun _ => trivial

theorem waits_other {T : Nat → Prop} {ch : Option (List (HOp V))} {c : ApiCall V} (h1 : ∀ s, c ≠ .create s)
    (h2 : ∀ id s, c ≠ .on id s) (h3 : ∀ id, c ≠ .remove id) (h4 : ∀ n bs, c = .createMany n bs → (bs.map Prod.fst).Nodup)
    (h6 : ∀ x y bs, c ≠ .fill x y bs) (h5 : c.spares cfg T) : Waits cfg T ch (c.prog cfg) := by
  cases c with
  | create s => exact absurd rfl (h1 s)
  | on id s => exact absurd rfl (h2 id s)
  | remove id => exact absurd rfl (h3 id)
  | createMany n bs =>
    refine .inr (.inl ⟨n, rfl, fun x y _ => ?_⟩)
    exact pours_batches bs (h4 n bs rfl) (by simp) h5 fun _ => trivial
  | fill x y bs => exact absurd rfl (h6 x y bs)
  | exist id => exact Calm.waits ⟨rfl, fun _ => trivial⟩
  | read t id =>
    simp only [ApiCall.prog, read]
    split
    · exact Calm.waits ⟨rfl, fun _ => trivial⟩
    · trivial
  | write t id v =>
    simp only [ApiCall.prog, write]
    split
    · exact Calm.waits ⟨rfl, fun _ => trivial⟩
    · trivial
  | count t =>
    simp only [ApiCall.prog]
    split
    · exact Calm.waits ⟨rfl, fun _ => trivial⟩
    · trivial
  | resRead t =>
    simp only [ApiCall.prog]
    split
    · exact Calm.waits ⟨rfl, fun _ => trivial⟩
    · trivial
  | resWrite t v =>
    simp only [ApiCall.prog]
    split
    · exact Calm.waits ⟨rfl, fun _ => trivial⟩
    · trivial
  | query q =>
    refine Calm.waits (calm_openQuery q ?_)
    exact ⟨rfl, fun _ => calm_releaseAll _ trivial⟩

end
end Prog
end Xecs
