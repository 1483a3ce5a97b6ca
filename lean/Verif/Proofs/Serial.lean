import Verif.Proofs.Chained
/-
Programs of considerate clients, and the sequential program that makes the same changes: what the rest of a thread's
program will do to an entity that has the components `has` and is in the groups `mem`, while an equivalent sequential
program has left it with the components `ghas` in the groups `gmem`.
-/
set_option autoImplicit false
namespace Xecs
open Spec World
variable {V : Type}

/-- Entity with the components `has` belongs into group `k`, of which `t` is a type. -/
def Config.joins (cfg : Config) (t : Nat) (has : Nat → Bool) (k : Nat) : Bool :=
  match cfg.groups[k]? with
  | some g => g.touches t && has g.a && has g.b
  | none => false

/-- `t` is a type of group `k`. -/
def Config.touches (cfg : Config) (t k : Nat) : Bool :=
  match cfg.groups[k]? with
  | some g => g.touches t
  | none => false

/-- An entity with the components `has` can be removed. -/
def Config.Safe (cfg : Config) (has : Nat → Bool) : Prop :=
  ∀ (i j : Nat) gi gj, i < j → cfg.groups[i]? = some gi → cfg.groups[j]? = some gj →
    has gi.a = true → has gi.b = true → has gj.a = true → has gj.b = true → gi.owns gj.a = false ∧ gi.owns gj.b = false

namespace Prog

/-- The only thread working on entity `id`. -/
def Serial (cfg : Config) (id : Nat) : (Nat → Bool) → (Nat → Bool) → (Nat → Bool) → (Nat → Bool) → Prog V → Prop
  | has, mem, ghas, gmem, .done _ => has = ghas ∧ mem = gmem
  | has, mem, ghas, gmem, .panic => has = ghas ∧ mem = gmem
  | has, mem, ghas, gmem, .acq _ _ p => Serial cfg id has mem ghas gmem p
  | has, mem, ghas, gmem, .rel _ _ p => Serial cfg id has mem ghas gmem p
  | has, mem, ghas, gmem, .act a f =>
    match a with
    | .has _ => Serial cfg id has mem ghas gmem (f (.bool true))
    | .storeHas t _ => Serial cfg id has mem ghas gmem (f (.bool (has t)))
    | .groupHas k _ => Serial cfg id has mem ghas gmem (f (.bool (mem k)))
    | .groupErase k _ => ∀ g, cfg.groups[k]? = some g →
        Serial cfg id (fun u => has u && !g.owns u) (fun j => mem j && !decide (j = k)) ghas gmem (f .unit)
    | .storeErase t _ => Serial cfg id (fun u => has u && !(u == t)) mem ghas gmem (f .unit)
    | .emRemove _ => cfg.Safe ghas
    | _ => False

/-- Attaches and detaches components of entity `id`. Offers the entity only to groups in `A` and to those of which it has
attached a type; offers it to those, and detaches a type after it has taken the entity out of a group. -/
def Adds (cfg : Config) (id : Nat) : (Nat → Prop) → Prog V → Prop
  | _, .done _ => True
  | _, .panic => True
  | A, .acq _ _ p => Adds cfg id A p
  | A, .rel _ _ p => Adds cfg id A p
  | A, .act a f =>
    match a with
    | .has _ => Adds cfg id A (f (.bool true))
    | .attachStore t _ _ => (∀ k, cfg.touches t k = true → Vows k id (f .unit)) ∧
        Adds cfg id (fun k => A k ∨ cfg.touches t k = true) (f .unit)
    | .groupAdd k _ => A k ∧ Adds cfg id A (f .unit)
    | .groupRemove k _ => (∀ g, cfg.groups[k]? = some g → Severs g id (f .unit)) ∧ Adds cfg id A (f .unit)
    | .detachStore _ _ => ∀ r, Adds cfg id A (f r)
    | .storeRead _ _ => ∀ r, Adds cfg id A (f r)
    | .storeWrite _ _ _ => ∀ r, Adds cfg id A (f r)
    | _ => False

/-- Will bring entity `id` into group `k`, or take one of its components of the group away. -/
def Debts (cfg : Config) (k id : Nat) (p : Prog V) : Prop :=
  p.Vows k id ∨ ∃ g, cfg.groups[k]? = some g ∧ p.Severs g id

/-- Works on no entity, or will create one. -/
def Open (cfg : Config) : Prog V → Prop
  | .done _ => True
  | .panic => True
  | .acq _ _ p => Open cfg p
  | .rel _ _ p => Open cfg p
  | .act a f => (a.mild = true ∧ ∀ r, Open cfg (f r)) ∨ (∃ n, a = .allocateN n ∧ ∀ r, Open cfg (f r)) ∨
      (a = .allocate ∧ ∀ id, Adds cfg id (fun _ => False) (f (.id id))) ∨
      (∃ x y t vs, a = .batchStore x y t vs ∧ ∀ r, Open cfg (f r))

theorem Calm.open {cfg : Config} : ∀ {p : Prog V}, Calm p → Open cfg p
  | .done _, _ => trivial
  | .panic, _ => trivial
  | .acq _ _ p, h => Calm.open (p := p) h
  | .rel _ _ p, h => Calm.open (p := p) h
  | .act _ _, h => .inl ⟨h.1, fun r => Calm.open (h.2 r)⟩

/-! ### Attaching -/
section
variable {cfg : Config} {id : Nat} {A : Nat → Prop}

theorem through_adds : Through (V := V) (Adds cfg id A) := ⟨fun h => h, fun h => h⟩

theorem touches_of {t : Nat} {x : Nat × Shape} (h : x ∈ touching cfg t) : cfg.touches t x.1 = true := by
  have h1 := touching_indexed x h
  simp only [Config.touches, h1]
  exact (List.mem_filter.1 h).2

theorem adds_addLoop (hr : GroupsReg cfg) (gs : List (Nat × Shape)) (hgs : ∀ x ∈ gs, cfg.groups[x.1]? = some x.2)
    (hA : ∀ x ∈ gs, A x.1) {p : Prog V} (h : Adds cfg id A p) :
    Adds cfg id A (groupLoop cfg (fun k => .groupAdd k id) gs p) := by
  induction gs with
  | nil => exact h
  | cons x rest ih =>
    obtain ⟨k, g⟩ := x
    refine through_adds.groupStep hr (hgs (k, g) (by simp)) ⟨hA (k, g) (by simp), ?_⟩
    exact ih (fun x hx => hgs x (List.mem_cons_of_mem _ hx)) fun x hx => hA x (List.mem_cons_of_mem _ hx)

theorem adds_removeLoop (hr : GroupsReg cfg) (gs : List (Nat × Shape)) (hgs : ∀ x ∈ gs, cfg.groups[x.1]? = some x.2)
    {p : Prog V} (hs : ∀ x ∈ gs, Severs x.2 id p) (h : Adds cfg id A p) :
    Adds cfg id A (groupLoop cfg (fun k => .groupRemove k id) gs p) := by
  induction gs with
  | nil => exact h
  | cons x rest ih =>
    obtain ⟨k, g⟩ := x
    have hk := hgs (k, g) (by simp)
    have hgs' : ∀ x ∈ rest, cfg.groups[x.1]? = some x.2 := fun x hx => hgs x (List.mem_cons_of_mem _ hx)
    refine through_adds.groupStep hr hk ⟨fun g' hg' => ?_, ?_⟩
    · have : g' = g := by
        have h1 : cfg.groups[k]? = some g := hk
        rw [h1] at hg'; cases hg'; rfl
      subst this
      exact severs_loop hr rest hgs' (hs (k, g') (by simp))
    · exact ih hgs' fun x hx => hs x (List.mem_cons_of_mem _ hx)

theorem adds_script (hr : GroupsReg cfg) (ops : List (HOp V)) :
    ∀ {A : Nat → Prop} {acc : List (Ret V)} {p : List (Ret V) → Prog V}, (∀ A rs, Adds cfg id A (p rs)) →
      Adds cfg id A (script cfg id ops acc p) := by
  induction ops with
  | nil => intro A acc p h; exact h _ _
  | cons o ops ih =>
    intro A acc p h
    cases o with
    | attach t v =>
      simp only [script, attach]
      split
      · refine ⟨fun k hk => ?_, ?_⟩
        · simp only [Config.touches] at hk
          cases hg : cfg.groups[k]? with
          | none => rw [hg] at hk; cases hk
          | some g =>
            rw [hg] at hk
            exact through_vows.lockGroups _ _ (vows_loop hr _ touching_indexed (mem_touching hg hk))
        · exact through_adds.lockGroups _ _ (adds_addLoop hr _ touching_indexed (fun x hx => .inr (touches_of hx)) (ih h))
      · trivial
    | detach t =>
      simp only [script, detach]
      split
      · refine through_adds.lockGroups _ _ (adds_removeLoop hr _ touching_indexed (fun x hx => ?_) fun r => ih h)
        exact .inl ⟨t, rfl, (List.mem_filter.1 hx).2⟩
      · trivial
    | read t =>
      simp only [script, read]
      split
      · exact fun r => ih h
      · exact ih h
    | write t v =>
      simp only [script, write]
      split
      · exact fun r => ih h
      · exact ih h

theorem adds_handle (hr : GroupsReg cfg) (ops : List (HOp V)) (acc : List (Ret V)) (A : Nat → Prop) :
    Adds cfg id A (handle cfg id ops acc) := adds_script hr ops fun _ _ => trivial

end

/-! ### Working alone -/
section
variable {cfg : Config} {id : Nat}

theorem serial_store {has mem ghas gmem : Nat → Bool} {t : Nat} {m : Mode} {p : Prog V} (h : Serial cfg id has mem ghas gmem p)
    (ht : cfg.registered t = true) : Serial cfg id has mem ghas gmem (store cfg t m p) := by
  unfold store
  rw [if_pos ht]; exact h

theorem joins_iff {t k : Nat} {has : Nat → Bool} : cfg.joins t has k = true ↔
    ∃ g, (k, g) ∈ touching cfg t ∧ has g.a = true ∧ has g.b = true := by
  simp only [Config.joins]
  cases hk : cfg.groups[k]? with
  | none =>
    refine ⟨fun h => by simp at h, ?_⟩
    rintro ⟨g, h1, _⟩
    have := touching_indexed _ h1
    rw [hk] at this; cases this
  | some g =>
    simp only [Bool.and_eq_true]
    constructor
    · rintro ⟨⟨h1, h2⟩, h3⟩; exact ⟨g, mem_touching hk h1, h2, h3⟩
    · rintro ⟨g', h1, h2, h3⟩
      have := touching_indexed _ h1
      rw [hk] at this; cases this
      exact ⟨⟨(List.mem_filter.1 h1).2, h2⟩, h3⟩

/-! ### Removing -/

theorem serial_scanGroups (hr : GroupsReg cfg) (gs : List (Nat × Shape)) (hgs : ∀ x ∈ gs, cfg.groups[x.1]? = some x.2)
    {has mem ghas gmem : Nat → Bool} : ∀ {acc : List (Nat × Shape)} {p : List (Nat × Shape) → Prog V},
    (∀ x ∈ acc, cfg.groups[x.1]? = some x.2) →
    (∀ acc, (∀ x ∈ acc, cfg.groups[x.1]? = some x.2) → Serial cfg id has mem ghas gmem (p acc)) →
    Serial cfg id has mem ghas gmem (scanGroups cfg id gs acc p) := by
  induction gs with
  | nil => intro acc p ha h; exact h _ ha
  | cons x rest ih =>
    intro acc p ha h
    obtain ⟨k, g⟩ := x
    have hk := hgs (k, g) (by simp)
    have := hr k g hk
    simp only [scanGroups, Serial]
    refine serial_store (serial_store ?_ this.2) this.1
    have hrest : ∀ x ∈ rest, cfg.groups[x.1]? = some x.2 := fun x hx => hgs x (List.mem_cons_of_mem _ hx)
    simp only [Serial]
    cases hm : mem k with
    | true =>
      refine ih hrest ?_ h
      intro x hx
      rcases List.mem_append.1 hx with hx | hx
      · exact ha x hx
      · simp only [List.mem_cons, List.not_mem_nil, or_false] at hx; subst hx; exact hk
    | false => exact ih hrest ha h

theorem serial_eraseLoop (hr : GroupsReg cfg) (gs : List (Nat × Shape)) (hgs : ∀ x ∈ gs, cfg.groups[x.1]? = some x.2)
    {p : Prog V} {ghas gmem : Nat → Bool} (h : ∀ has mem, Serial cfg id has mem ghas gmem p) : ∀ {has mem : Nat → Bool},
    Serial cfg id has mem ghas gmem (groupLoop cfg (fun k => .groupErase k id) gs p) := by
  induction gs with
  | nil => intro has mem; exact h _ _
  | cons x rest ih =>
    intro has mem
    obtain ⟨k, g⟩ := x
    have := hr k g (hgs (k, g) (by simp))
    exact serial_store (serial_store (fun _ _ => ih fun x hx => hgs x (List.mem_cons_of_mem _ hx)) this.2) this.1

theorem serial_scanStores (ts : List Nat) {has mem ghas gmem : Nat → Bool} : ∀ {acc : List Nat} {p : List Nat → Prog V},
    (∀ acc, Serial cfg id has mem ghas gmem (p acc)) → Serial cfg id has mem ghas gmem (scanStores id ts acc p) := by
  induction ts with
  | nil => intro acc p h; exact h _
  | cons t rest ih =>
    intro acc p h
    simp only [scanStores, Serial]
    cases hm : has t with
    | true => exact ih h
    | false => exact ih h

theorem serial_eraseStores (ts : List Nat) {p : Prog V} {mem ghas gmem : Nat → Bool}
    (h : ∀ has, Serial cfg id has mem ghas gmem p) : ∀ {has : Nat → Bool},
    Serial cfg id has mem ghas gmem (eraseStores id ts p) := by
  induction ts with
  | nil => intro has; exact h _
  | cons t rest ih => intro has; exact ih

theorem serial_remove (hr : GroupsReg cfg) {has mem : Nat → Bool} (ho : cfg.Safe has) :
    Serial cfg id has mem has mem (remove cfg id : Prog V) := by
  have hidx : ∀ x ∈ cfg.indexed, cfg.groups[x.1]? = some x.2 := fun x hx => mem_indexed hx
  refine serial_scanGroups hr _ hidx (by simp) fun gs hgs => serial_eraseLoop hr gs hgs fun has mem =>
    serial_scanStores _ fun ts => serial_eraseStores (p := .acq .em .mut <| .act (.emRemove id) fun _ => .rel .em .mut (.done [.unit]))
      _ fun has => ho

/-! ### Other calls -/

theorem open_create (hr : GroupsReg cfg) (ops : List (HOp V)) : Open cfg ((ApiCall.create ops).prog cfg) := by
  refine .inr (.inr (.inl ⟨rfl, fun id => ?_⟩))
  exact adds_handle hr ops _ _

theorem open_batches {x y : Nat} (bs : List (Nat × List V)) {p : Prog V} (h : Open cfg p) :
    Open cfg (batches cfg x y bs p) := by
  induction bs with
  | nil => exact h
  | cons b bs ih =>
    obtain ⟨t, vs⟩ := b
    simp only [batches, store]
    split
    · split
      · exact .inr (.inr (.inr ⟨x, y, t, vs, rfl, fun _ => ih⟩))
      · trivial
    · trivial

theorem open_other {c : ApiCall V} (h1 : ∀ s, c ≠ .create s) (h2 : ∀ id s, c ≠ .on id s) (h3 : ∀ id, c ≠ .remove id) :
    Open cfg (c.prog cfg) := by
  cases c with
  | create s => exact absurd rfl (h1 s)
  | on id s => exact absurd rfl (h2 id s)
  | remove id => exact absurd rfl (h3 id)
  | createMany n bs =>
    refine .inr (.inl ⟨n, rfl, fun r => ?_⟩)
    cases r with
    | range x y => exact open_batches (p := .rel .em .ref (.done [.range x y])) bs trivial
    | _ => trivial
  | fill x y bs => exact open_batches (p := .rel .em .ref (.done [.range x y])) bs trivial
  | exist id => exact Calm.open ⟨rfl, fun _ => trivial⟩
  | read t id =>
    simp only [ApiCall.prog, read]
    split
    · exact Calm.open ⟨rfl, fun _ => trivial⟩
    · trivial
  | write t id v =>
    simp only [ApiCall.prog, write]
    split
    · exact Calm.open ⟨rfl, fun _ => trivial⟩
    · trivial
  | count t =>
    simp only [ApiCall.prog]
    split
    · exact Calm.open ⟨rfl, fun _ => trivial⟩
    · trivial
  | resRead t =>
    simp only [ApiCall.prog]
    split
    · exact Calm.open ⟨rfl, fun _ => trivial⟩
    · trivial
  | resWrite t v =>
    simp only [ApiCall.prog]
    split
    · exact Calm.open ⟨rfl, fun _ => trivial⟩
    · trivial
  | query q =>
    refine Calm.open (calm_openQuery q ?_)
    exact ⟨rfl, fun _ => calm_releaseAll _ trivial⟩

end
end Prog
end Xecs
