import Verif.Proofs.ThreadRel
/-
Programs of disciplined clients: what the rest of a thread's program may rely on and has to do.
-/
set_option autoImplicit false
namespace Xecs
open Spec World
variable {V : Type}

/-- The entity with the components `has` is in all groups of `T` it should be in. -/
def Complete (cfg : Config) (T : Nat → Prop) (has mem : Nat → Bool) : Prop :=
  ∀ (k : Nat) g, T k → cfg.groups[k]? = some g → has g.a = true → has g.b = true → mem k = true

/-- What is true of every entity of a consistent world. -/
structure Sane (cfg : Config) (has mem : Nat → Bool) : Prop where
  reg : ∀ t, has t = true → cfg.registered t = true
  mem : ∀ k, mem k = true → ∃ g, cfg.groups[k]? = some g ∧ has g.a = true ∧ has g.b = true

namespace Prog

/-- Does at most read, and write values. -/
def Calm : Prog V → Prop
  | .done _ => True
  | .panic => True
  | .acq _ _ p => Calm p
  | .rel _ _ p => Calm p
  | .act a f => a.mild = true ∧ ∀ r, Calm (f r)

/-- Will offer entity `id` to group number `k`. -/
def Owes (k id : Nat) : Prog V → Prop
  | .done _ => False
  | .panic => False
  | .acq _ _ p => Owes k id p
  | .rel _ _ p => Owes k id p
  | .act a f => a = .groupAdd k id ∨ ∀ r, Owes k id (f r)

/-- Attaches components to entity `id` and offers it to the groups concerned; otherwise at most reads and writes
values. Panics only if `b` is false. -/
def Gentle (cfg : Config) (id : Nat) (b : Bool) : Prog V → Prop
  | .done _ => True
  | .panic => b = false
  | .acq _ _ p => Gentle cfg id b p
  | .rel _ _ p => Gentle cfg id b p
  | .act a f =>
    match a with
    | .has e => e = id ∧ Gentle cfg id b (f (.bool true))
    | .attachStore t e _ => e = id ∧ cfg.registered t = true ∧ Gentle cfg id b (f .unit) ∧
        ∀ (k : Nat) g, cfg.groups[k]? = some g → g.touches t = true → Owes k id (f .unit)
    | .groupAdd k e => e = id ∧ (∃ g, cfg.groups[k]? = some g) ∧ Gentle cfg id b (f .unit)
    | .storeRead _ _ => ∀ r, Gentle cfg id b (f r)
    | .storeWrite _ _ _ => ∀ r, Gentle cfg id b (f r)
    | _ => False

/-- The only thread working on entity `id`, which has the components `has` and is in the groups `mem`. -/
def Alone (cfg : Config) (T : Nat → Prop) (id : Nat) : (Nat → Bool) → (Nat → Bool) → Prog V → Prop
  | has, mem, .done _ => Complete cfg T has mem
  | has, mem, .panic => Complete cfg T has mem
  | has, mem, .acq _ _ p => Alone cfg T id has mem p
  | has, mem, .rel _ _ p => Alone cfg T id has mem p
  | has, mem, .act a f =>
    match a with
    | .has e => e = id ∧ Alone cfg T id has mem (f (.bool true))
    | .attachStore t e _ => e = id ∧ cfg.registered t = true ∧ Alone cfg T id (fun u => has u || u == t) mem (f .unit)
    | .groupAdd k e => e = id ∧ ∃ g, cfg.groups[k]? = some g ∧
        Alone cfg T id has (fun j => mem j || (decide (j = k) && has g.a && has g.b)) (f .unit)
    | .groupRemove k e => e = id ∧ (∃ g, cfg.groups[k]? = some g) ∧
        Alone cfg T id has (fun j => mem j && !decide (j = k)) (f .unit)
    | .detachStore t e => e = id ∧ cfg.registered t = true ∧
        (∀ (k : Nat) g, cfg.groups[k]? = some g → g.touches t = true → mem k = false) ∧
        (has t = true → ∀ v, Alone cfg T id (fun u => has u && !(u == t)) mem (f (.val (some v)))) ∧
        (has t = false → Complete cfg T has mem ∧ Alone cfg T id has mem (f (.val none)))
    | .storeRead _ _ => ∀ r, Alone cfg T id has mem (f r)
    | .storeWrite _ _ _ => ∀ r, Alone cfg T id has mem (f r)
    | .storeHas t e => e = id ∧ cfg.registered t = true ∧ Alone cfg T id has mem (f (.bool (has t)))
    | .groupHas k e => e = id ∧ (∃ g, cfg.groups[k]? = some g) ∧ Alone cfg T id has mem (f (.bool (mem k)))
    | .groupErase k e => e = id ∧ mem k = true ∧ ∃ g, cfg.groups[k]? = some g ∧
        (∀ (j : Nat) gj, j ≠ k → cfg.groups[j]? = some gj → mem j = true → g.owns gj.a = false ∧ g.owns gj.b = false) ∧
        Alone cfg T id (fun u => has u && !g.owns u) (fun j => mem j && !decide (j = k)) (f .unit)
    | .storeErase t e => e = id ∧ has t = true ∧
        (∀ (k : Nat) g, cfg.groups[k]? = some g → g.touches t = true → mem k = false) ∧
        Alone cfg T id (fun u => has u && !(u == t)) mem (f .unit)
    | .emRemove e => e = id ∧ (∀ t, has t = false) ∧ (∀ k, mem k = false) ∧ Calm (f .unit)
    | _ => False

/-- Works on no entity yet. -/
def Quiet (cfg : Config) (T : Nat → Prop) : Prog V → Prop
  | .done _ => True
  | .panic => True
  | .acq _ _ p => Quiet cfg T p
  | .rel _ _ p => Quiet cfg T p
  | .act a f => (a.mild = true ∧ ∀ r, Quiet cfg T (f r)) ∨ (∃ n, a = .allocateN n ∧ ∀ r, Quiet cfg T (f r)) ∨
      (a = .allocate ∧ ∀ id, Alone cfg T id (fun _ => false) (fun _ => false) (f (.id id)))

theorem Calm.quiet {cfg : Config} {T : Nat → Prop} : ∀ {p : Prog V}, Calm p → Quiet cfg T p
  | .done _, _ => trivial
  | .panic, _ => trivial
  | .acq _ _ p, h => Calm.quiet (p := p) h
  | .rel _ _ p, h => Calm.quiet (p := p) h
  | .act _ _, h => .inl ⟨h.1, fun r => Calm.quiet (h.2 r)⟩

/-! ### Scripts without detach -/

section
variable {cfg : Config} {id : Nat} {b : Bool}

theorem gentle_store {t : Nat} {m : Mode} {p : Prog V} (h : Gentle cfg id b p) (ht : cfg.registered t = true) :
    Gentle cfg id b (store cfg t m p) := by
  unfold store
  rw [if_pos ht]; exact h

theorem gentle_lockGroups (t : Nat) (gs : List (Nat × Shape)) {p : Prog V} (h : Gentle cfg id b p) :
    Gentle cfg id b (lockGroups t gs p) := by
  induction gs with
  | nil => exact h
  | cons x rest ih =>
    obtain ⟨k, g⟩ := x
    simp only [lockGroups, Gentle]
    split
    · exact ih
    · exact ih

theorem owes_lockGroups {k : Nat} (t : Nat) (gs : List (Nat × Shape)) {p : Prog V} (h : Owes k id p) :
    Owes k id (lockGroups t gs p) := by
  induction gs with
  | nil => exact h
  | cons x rest ih =>
    obtain ⟨k, g⟩ := x
    simp only [lockGroups, Owes]
    split
    · exact ih
    · exact ih

/-- The types of the groups are registered. -/
def GroupsReg (cfg : Config) : Prop :=
  ∀ (k : Nat) g, cfg.groups[k]? = some g → cfg.registered g.a = true ∧ cfg.registered g.b = true

theorem gentle_addLoop (hr : GroupsReg cfg) (gs : List (Nat × Shape)) (hgs : ∀ x ∈ gs, cfg.groups[x.1]? = some x.2)
    {p : Prog V} (h : Gentle cfg id b p) :
    Gentle cfg id b (groupLoop cfg (fun k => .groupAdd k id) gs p) := by
  induction gs with
  | nil => exact h
  | cons x rest ih =>
    obtain ⟨k, g⟩ := x
    have hk := hgs (k, g) (by simp)
    have := hr k g hk
    refine gentle_store (gentle_store ⟨rfl, ⟨g, hk⟩, ?_⟩ this.2) this.1
    exact ih fun x hx => hgs x (List.mem_cons_of_mem _ hx)

theorem owes_store {k t : Nat} {m : Mode} {p : Prog V} (h : Owes k id p) (ht : cfg.registered t = true) :
    Owes k id (store cfg t m p) := by
  unfold store
  rw [if_pos ht]; exact h

theorem owes_addLoop (hr : GroupsReg cfg) {k : Nat} {g : Shape} (gs : List (Nat × Shape))
    (hgs : ∀ x ∈ gs, cfg.groups[x.1]? = some x.2) (hk : (k, g) ∈ gs) {p : Prog V} :
    Owes k id (groupLoop cfg (fun k => .groupAdd k id) gs p) := by
  induction gs with
  | nil => simp at hk
  | cons x rest ih =>
    obtain ⟨k', g'⟩ := x
    have hk' := hgs (k', g') (by simp)
    have := hr k' g' hk'
    refine owes_store (owes_store ?_ this.2) this.1
    rcases List.mem_cons.1 hk with h | h
    · cases h; exact .inl rfl
    · exact .inr fun r => ih (fun x hx => hgs x (List.mem_cons_of_mem _ hx)) h

theorem mem_touching {k t : Nat} {g : Shape} (hk : cfg.groups[k]? = some g) (ht : g.touches t = true) :
    (k, g) ∈ touching cfg t := by
  refine List.mem_filter.2 ⟨?_, ht⟩
  simp only [Config.indexed, List.mem_mapIdx]
  obtain ⟨h1, h2⟩ := List.getElem?_eq_some_iff.1 hk
  exact ⟨k, h1, by simp [h2]⟩

theorem gentle_attach (hr : GroupsReg cfg) {t : Nat} {v : V} {p : Prog V} (h : Gentle cfg id b p)
    (ht : b = true → cfg.registered t = true) : Gentle cfg id b (attach cfg id t v p) := by
  unfold attach
  split
  · rename_i hreg
    refine ⟨rfl, hreg, ?_, ?_⟩
    · exact gentle_lockGroups _ _ (gentle_addLoop hr _ touching_indexed h)
    · intro k g hk htt
      exact owes_lockGroups _ _ (owes_addLoop hr _ touching_indexed (mem_touching hk htt))
  · rename_i hreg
    cases b with
    | false => exact rfl
    | true => exact absurd (ht rfl) hreg

theorem gentle_read {t e : Nat} {p : Ret V → Prog V} (h : ∀ r, Gentle cfg id b (p r)) :
    Gentle cfg id b (read cfg t e p) := by
  unfold read
  split
  · exact h
  · exact h _

theorem gentle_write {t e : Nat} {v : V} {p : Ret V → Prog V} (h : ∀ r, Gentle cfg id b (p r)) :
    Gentle cfg id b (write cfg t e v p) := by
  unfold write
  split
  · exact h
  · exact h _

theorem gentle_script (hr : GroupsReg cfg) (ops : List (HOp V))
    (hs : (ApiCall.on id ops).soft = true) (hb : b = true → (ApiCall.on id ops).proper cfg = true) :
    ∀ {acc : List (Ret V)} {p : List (Ret V) → Prog V}, (∀ rs, Gentle cfg id b (p rs)) →
      Gentle cfg id b (script cfg id ops acc p) := by
  induction ops with
  | nil => intro acc p h; exact h _
  | cons o ops ih =>
    intro acc p h
    simp only [ApiCall.soft, ApiCall.proper, List.all_cons, Bool.and_eq_true] at hs hb
    cases o with
    | attach t v => exact gentle_attach hr (ih hs.2 (fun hb' => (hb hb').2) h) fun hb' => (hb hb').1
    | detach t => simp at hs
    | read t => exact gentle_read fun r => ih hs.2 (fun hb' => (hb hb').2) h
    | write t v => exact gentle_write fun r => ih hs.2 (fun hb' => (hb hb').2) h

theorem gentle_on (hr : GroupsReg cfg) (ops : List (HOp V)) (hs : (ApiCall.on id ops).soft = true) :
    Gentle cfg id ((ApiCall.on id ops).proper cfg) ((ApiCall.on id ops).prog cfg) :=
  ⟨rfl, gentle_script hr ops hs (fun h => h) fun _ => trivial⟩

end

/-! ### Working alone -/

section
variable {cfg : Config} {T : Nat → Prop} {id : Nat}

theorem alone_store {has mem : Nat → Bool} {t : Nat} {m : Mode} {p : Prog V} (h : Alone cfg T id has mem p)
    (ht : cfg.registered t = true) : Alone cfg T id has mem (store cfg t m p) := by
  unfold store
  rw [if_pos ht]; exact h

theorem alone_lockGroups {has mem : Nat → Bool} (t : Nat) (gs : List (Nat × Shape)) {p : Prog V}
    (h : Alone cfg T id has mem p) : Alone cfg T id has mem (lockGroups t gs p) := by
  induction gs with
  | nil => exact h
  | cons x rest ih =>
    obtain ⟨k, g⟩ := x
    simp only [lockGroups, Alone]
    split
    · exact ih
    · exact ih

theorem alone_addLoop (hr : GroupsReg cfg) (gs : List (Nat × Shape)) (hgs : ∀ x ∈ gs, cfg.groups[x.1]? = some x.2)
    {p : Prog V} : ∀ {has mem : Nat → Bool}, Sane cfg has mem →
    (∀ (k : Nat) g, T k → cfg.groups[k]? = some g → has g.a = true → has g.b = true → mem k = true ∨ (k, g) ∈ gs) →
    (∀ mem, Sane cfg has mem → Complete cfg T has mem → Alone cfg T id has mem p) →
    Alone cfg T id has mem (groupLoop cfg (fun k => .groupAdd k id) gs p) := by
  induction gs with
  | nil =>
    intro has mem hs hc h
    refine h mem hs fun k g ht hk ha hb => ?_
    rcases hc k g ht hk ha hb with h | h
    · exact h
    · simp at h
  | cons x rest ih =>
    intro has mem hs hc h
    obtain ⟨k, g⟩ := x
    have hk := hgs (k, g) (by simp)
    have := hr k g hk
    refine alone_store (alone_store ⟨rfl, g, hk, ?_⟩ this.2) this.1
    refine ih (fun x hx => hgs x (List.mem_cons_of_mem _ hx)) ⟨hs.reg, ?_⟩ ?_ h
    · intro j hj
      simp only [Bool.or_eq_true, Bool.and_eq_true, decide_eq_true_eq] at hj
      rcases hj with hj | ⟨⟨rfl, ha⟩, hb⟩
      · exact hs.mem j hj
      · exact ⟨g, hk, ha, hb⟩
    · intro j gj ht hj ha hb
      rcases hc j gj ht hj ha hb with h1 | h1
      · left; simp [h1]
      · rcases List.mem_cons.1 h1 with h2 | h2
        · cases h2; left; simp [ha, hb]
        · exact .inr h2

theorem alone_attach (hr : GroupsReg cfg) {t : Nat} {v : V} {p : Prog V} {has mem : Nat → Bool}
    (hs : Sane cfg has mem) (hc : Complete cfg T has mem)
    (h : ∀ has mem, Sane cfg has mem → Complete cfg T has mem → Alone cfg T id has mem p) :
    Alone cfg T id has mem (attach cfg id t v p) := by
  unfold attach
  split
  · rename_i hreg
    refine ⟨rfl, hreg, alone_lockGroups _ _ (alone_addLoop hr _ touching_indexed ⟨?_, ?_⟩ ?_ fun mem => h _ mem)⟩
    · intro u hu
      simp only [Bool.or_eq_true, beq_iff_eq] at hu
      rcases hu with hu | rfl
      · exact hs.reg u hu
      · exact hreg
    · intro k hk
      obtain ⟨g, h1, h2, h3⟩ := hs.mem k hk
      exact ⟨g, h1, by simp [h2], by simp [h3]⟩
    · intro k g ht hk ha hb
      simp only [Bool.or_eq_true, beq_iff_eq] at ha hb
      by_cases htt : g.touches t = true
      · exact .inr (mem_touching hk htt)
      · left
        simp only [Shape.touches, Bool.or_eq_true, beq_iff_eq, not_or] at htt
        refine hc k g ht hk ?_ ?_
        · rcases ha with ha | ha
          · exact ha
          · exact absurd ha htt.1
        · rcases hb with hb | hb
          · exact hb
          · exact absurd hb htt.2
  · exact hc

theorem alone_removeLoop (hr : GroupsReg cfg) (gs : List (Nat × Shape)) (hgs : ∀ x ∈ gs, cfg.groups[x.1]? = some x.2)
    {p : Prog V} {has : Nat → Bool} : ∀ {mem : Nat → Bool},
    (∀ mem', (∀ j, mem' j = (mem j && !decide (j ∈ gs.map Prod.fst))) → Alone cfg T id has mem' p) →
    Alone cfg T id has mem (groupLoop cfg (fun k => .groupRemove k id) gs p) := by
  induction gs with
  | nil => intro mem h; exact h mem (by simp)
  | cons x rest ih =>
    intro mem h
    obtain ⟨k, g⟩ := x
    have hk := hgs (k, g) (by simp)
    have := hr k g hk
    refine alone_store (alone_store ⟨rfl, ⟨g, hk⟩, ?_⟩ this.2) this.1
    refine ih (fun x hx => hgs x (List.mem_cons_of_mem _ hx)) fun mem' hm => h mem' fun j => ?_
    rw [hm]
    simp only [List.map_cons, List.mem_cons]
    cases mem j <;> simp

theorem alone_detach (hr : GroupsReg cfg) {t : Nat} {p : Ret V → Prog V} {has mem : Nat → Bool}
    (hs : Sane cfg has mem) (hc : Complete cfg T has mem)
    (h : ∀ r has mem, Sane cfg has mem → Complete cfg T has mem → Alone cfg T id has mem (p r)) :
    Alone cfg T id has mem (detach cfg id t p) := by
  unfold detach
  split
  · rename_i hreg
    refine alone_lockGroups _ _ (alone_removeLoop hr _ touching_indexed fun mem' hm => ?_)
    have hin : ∀ (k : Nat) g, cfg.groups[k]? = some g → (decide (k ∈ (touching cfg t).map Prod.fst) = true ↔ g.touches t = true) := by
      intro k g hk
      simp only [decide_eq_true_eq, List.mem_map]
      constructor
      · rintro ⟨x, hx, rfl⟩
        have h1 := touching_indexed x hx
        rw [hk] at h1; cases h1
        exact (List.mem_filter.1 hx).2
      · intro htt; exact ⟨(k, g), mem_touching hk htt, rfl⟩
    have hsm : ∀ k, mem' k = true → mem k = true := by
      intro k hk; rw [hm] at hk; simp only [Bool.and_eq_true] at hk; exact hk.1
    have hclear : ∀ (k : Nat) g, cfg.groups[k]? = some g → g.touches t = true → mem' k = false := by
      intro k g hk htt
      rw [hm, (hin k g hk).2 htt]; simp
    have hmiss : ∀ (k : Nat) g, T k → cfg.groups[k]? = some g → has g.a = true → has g.b = true → g.touches t = false → mem' k = true := by
      intro k g ht hk ha hb htt
      have : decide (k ∈ (touching cfg t).map Prod.fst) = false := by
        cases hd : decide (k ∈ (touching cfg t).map Prod.fst) with
        | false => rfl
        | true => have := (hin k g hk).1 hd; rw [htt] at this; cases this
      rw [hm, hc k g ht hk ha hb, this]; rfl
    refine ⟨rfl, hreg, hclear, ?_, ?_⟩
    · intro hht v
      refine h _ _ _ ⟨fun u hu => hs.reg u (by simp at hu; exact hu.1), ?_⟩ ?_
      · intro k hk
        obtain ⟨g, h1, h2, h3⟩ := hs.mem k (hsm k hk)
        have htt : g.touches t = false := by
          cases htt : g.touches t with
          | false => rfl
          | true => rw [hclear k g h1 htt] at hk; cases hk
        simp only [Shape.touches, Bool.or_eq_false_iff] at htt
        exact ⟨g, h1, by simp [h2, htt.1], by simp [h3, htt.2]⟩
      · intro k g ht hk ha hb
        simp only [Bool.and_eq_true, Bool.not_eq_true'] at ha hb
        exact hmiss k g ht hk ha.1 hb.1 (by simp [Shape.touches, ha.2, hb.2])
    · intro hht
      have hsane : Sane cfg has mem' := ⟨hs.reg, fun k hk => hs.mem k (hsm k hk)⟩
      have hcomp : Complete cfg T has mem' := by
        intro k g ht hk ha hb
        refine hmiss k g ht hk ha hb ?_
        simp only [Shape.touches, Bool.or_eq_false_iff]
        constructor
        · cases hx : (g.a == t) with
          | false => rfl
          | true => rw [beq_iff_eq.1 hx, hht] at ha; cases ha
        · cases hx : (g.b == t) with
          | false => rfl
          | true => rw [beq_iff_eq.1 hx, hht] at hb; cases hb
      exact ⟨hcomp, h _ _ _ hsane hcomp⟩
  · exact hc

theorem alone_read {t e : Nat} {p : Ret V → Prog V} {has mem : Nat → Bool} (h : ∀ r, Alone cfg T id has mem (p r)) :
    Alone cfg T id has mem (read cfg t e p) := by
  unfold read
  split
  · exact h
  · exact h _

theorem alone_write {t e : Nat} {v : V} {p : Ret V → Prog V} {has mem : Nat → Bool}
    (h : ∀ r, Alone cfg T id has mem (p r)) : Alone cfg T id has mem (write cfg t e v p) := by
  unfold write
  split
  · exact h
  · exact h _

theorem alone_script (hr : GroupsReg cfg) (ops : List (HOp V)) :
    ∀ {acc : List (Ret V)} {p : List (Ret V) → Prog V} {has mem : Nat → Bool}, Sane cfg has mem → Complete cfg T has mem →
    (∀ rs has mem, Sane cfg has mem → Complete cfg T has mem → Alone cfg T id has mem (p rs)) →
    Alone cfg T id has mem (script cfg id ops acc p) := by
  induction ops with
  | nil => intro acc p has mem hs hc h; exact h _ _ _ hs hc
  | cons o ops ih =>
    intro acc p has mem hs hc h
    cases o with
    | attach t v => exact alone_attach hr hs hc fun has mem hs hc => ih hs hc h
    | detach t => exact alone_detach hr hs hc fun r has mem hs hc => ih hs hc h
    | read t => exact alone_read fun r => ih hs hc h
    | write t v => exact alone_write fun r => ih hs hc h

theorem alone_handle (hr : GroupsReg cfg) (ops : List (HOp V)) (acc : List (Ret V)) {has mem : Nat → Bool}
    (hs : Sane cfg has mem) (hc : Complete cfg T has mem) : Alone cfg T id has mem (handle cfg id ops acc) :=
  ⟨rfl, alone_script hr ops hs hc fun _ _ _ _ hc => hc⟩

theorem quiet_create (hr : GroupsReg cfg) (ops : List (HOp V)) : Quiet cfg T ((ApiCall.create ops).prog cfg) := by
  refine .inr (.inr ⟨rfl, fun id => ?_⟩)
  exact alone_handle hr ops _ ⟨by simp, by simp⟩ (by intro k g _ _ h; simp at h)

/-! ### Removing an entity -/

theorem alone_scanGroups (hr : GroupsReg cfg) (gs : List (Nat × Shape)) (hgs : ∀ x ∈ gs, cfg.groups[x.1]? = some x.2)
    {has mem : Nat → Bool} : ∀ {acc : List (Nat × Shape)} {p : List (Nat × Shape) → Prog V},
    Alone cfg T id has mem (p (acc ++ gs.filter fun x => mem x.1)) →
    Alone cfg T id has mem (scanGroups cfg id gs acc p) := by
  induction gs with
  | nil => intro acc p h; simpa [scanGroups] using h
  | cons x rest ih =>
    intro acc p h
    obtain ⟨k, g⟩ := x
    have hk := hgs (k, g) (by simp)
    have := hr k g hk
    simp only [scanGroups, Alone]
    refine alone_store (alone_store ⟨rfl, ⟨g, hk⟩, ?_⟩ this.2) this.1
    have hrest : ∀ x ∈ rest, cfg.groups[x.1]? = some x.2 := fun x hx => hgs x (List.mem_cons_of_mem _ hx)
    cases hm : mem k with
    | true => exact ih hrest (by simpa [List.filter_cons, hm] using h)
    | false => exact ih hrest (by simpa [List.filter_cons, hm] using h)

theorem alone_eraseLoop (hr : GroupsReg cfg) (gs : List (Nat × Shape)) (hgs : ∀ x ∈ gs, cfg.groups[x.1]? = some x.2)
    {p : Prog V} : ∀ {has mem : Nat → Bool}, Sane cfg has mem → (gs.map Prod.fst).Nodup →
    (∀ k, mem k = true ↔ k ∈ gs.map Prod.fst) →
    gs.Pairwise (fun x y => x.2.owns y.2.a = false ∧ x.2.owns y.2.b = false) →
    (∀ has mem, Sane cfg has mem → (∀ k, mem k = false) → Alone cfg T id has mem p) →
    Alone cfg T id has mem (groupLoop cfg (fun k => .groupErase k id) gs p) := by
  induction gs with
  | nil =>
    intro has mem hs _ hm _ h
    exact h _ _ hs fun k => by
      cases hk : mem k with
      | false => rfl
      | true => have := (hm k).1 hk; simp at this
  | cons x rest ih =>
    intro has mem hs hnd hm hpw h
    obtain ⟨k, g⟩ := x
    have hk := hgs (k, g) (by simp)
    have hreg := hr k g hk
    rw [List.map_cons, List.nodup_cons] at hnd
    rw [List.pairwise_cons] at hpw
    have hmk : mem k = true := (hm k).2 (by simp)
    have hlater : ∀ (j : Nat) gj, j ≠ k → cfg.groups[j]? = some gj → mem j = true → g.owns gj.a = false ∧ g.owns gj.b = false := by
      intro j gj hj hgj hmj
      have := (hm j).1 hmj
      simp only [List.map_cons, List.mem_cons, hj, false_or, List.mem_map] at this
      obtain ⟨x, hx, rfl⟩ := this
      have h1 := hgs x (List.mem_cons_of_mem _ hx)
      rw [hgj] at h1; cases h1
      exact hpw.1 x hx
    refine alone_store (alone_store ⟨rfl, hmk, g, hk, hlater, ?_⟩ hreg.2) hreg.1
    refine ih (fun x hx => hgs x (List.mem_cons_of_mem _ hx)) ⟨?_, ?_⟩ hnd.2 ?_ hpw.2 h
    · intro u hu; simp only [Bool.and_eq_true] at hu; exact hs.reg u hu.1
    · intro j hj
      simp only [Bool.and_eq_true, Bool.not_eq_true', decide_eq_false_iff_not] at hj
      obtain ⟨gj, h1, h2, h3⟩ := hs.mem j hj.1
      have := hlater j gj hj.2 h1 hj.1
      exact ⟨gj, h1, by simp [h2, this.1], by simp [h3, this.2]⟩
    · intro j
      simp only [Bool.and_eq_true, Bool.not_eq_true', decide_eq_false_iff_not, hm, List.map_cons, List.mem_cons]
      constructor
      · rintro ⟨h1 | h1, h2⟩
        · exact absurd h1 h2
        · exact h1
      · intro h1
        exact ⟨.inr h1, fun h2 => hnd.1 (h2 ▸ h1)⟩

theorem alone_scanStores (ts : List Nat) (hts : ∀ t ∈ ts, cfg.registered t = true)
    {has mem : Nat → Bool} : ∀ {acc : List Nat} {p : List Nat → Prog V},
    Alone cfg T id has mem (p (acc ++ ts.filter has)) → Alone cfg T id has mem (scanStores id ts acc p) := by
  induction ts with
  | nil => intro acc p h; simpa [scanStores] using h
  | cons t rest ih =>
    intro acc p h
    have hrest : ∀ t ∈ rest, cfg.registered t = true := fun x hx => hts x (List.mem_cons_of_mem _ hx)
    simp only [scanStores, Alone]
    refine ⟨trivial, hts t (by simp), ?_⟩
    cases hm : has t with
    | true => exact ih hrest (by simpa [List.filter_cons, hm] using h)
    | false => exact ih hrest (by simpa [List.filter_cons, hm] using h)

theorem alone_eraseStores (ts : List Nat) {p : Prog V} {mem : Nat → Bool} (hmem : ∀ k, mem k = false) :
    ∀ {has : Nat → Bool}, ts.Nodup → (∀ t, has t = true ↔ t ∈ ts) →
    (∀ has, (∀ t, has t = false) → Alone cfg T id has mem p) → Alone cfg T id has mem (eraseStores id ts p) := by
  induction ts with
  | nil =>
    intro has _ hm h
    exact h _ fun t => by
      cases ht : has t with
      | false => rfl
      | true => have := (hm t).1 ht; simp at this
  | cons t rest ih =>
    intro has hnd hm h
    rw [List.nodup_cons] at hnd
    refine ⟨rfl, (hm t).2 (by simp), fun k _ _ _ => hmem k, ih hnd.2 ?_ h⟩
    intro u
    simp only [Bool.and_eq_true, Bool.not_eq_true', hm, List.mem_cons]
    constructor
    · rintro ⟨h1 | h1, h2⟩
      · simp [h1] at h2
      · exact h1
    · intro h1
      refine ⟨.inr h1, ?_⟩
      simp only [beq_eq_false_iff_ne, ne_eq]
      exact fun h2 => hnd.1 (h2 ▸ h1)

theorem alone_remove (hr : GroupsReg cfg) (hnd : cfg.order.Nodup) {has mem : Nat → Bool} (hs : Sane cfg has mem)
    (ho : ∀ (i j : Nat) gi gj, i < j → cfg.groups[i]? = some gi → cfg.groups[j]? = some gj → mem i = true → mem j = true →
      gi.owns gj.a = false ∧ gi.owns gj.b = false) :
    Alone cfg T id has mem (remove cfg id : Prog V) := by
  have hidx : ∀ x ∈ cfg.indexed, cfg.groups[x.1]? = some x.2 := fun x hx => mem_indexed hx
  have hkeys : cfg.indexed.map Prod.fst = List.range cfg.groups.length := by
    apply List.ext_getElem
    · simp [Config.indexed]
    · intro i h1 h2; simp [Config.indexed]
  refine ⟨rfl, alone_scanGroups hr _ hidx ?_⟩
  rw [List.nil_append]
  refine alone_eraseLoop hr _ (fun x hx => hidx x (List.mem_filter.1 hx).1) hs ?_ ?_ ?_ ?_
  · have : (cfg.indexed.filter fun x => mem x.1).map Prod.fst = (cfg.indexed.map Prod.fst).filter mem := by
      rw [List.filter_map]; rfl
    rw [this, hkeys]
    exact List.nodup_range.filter _
  · intro k
    constructor
    · intro hk
      obtain ⟨g, hg, _⟩ := hs.mem k hk
      refine List.mem_map.2 ⟨(k, g), List.mem_filter.2 ⟨?_, hk⟩, rfl⟩
      simp only [Config.indexed, List.mem_mapIdx]
      obtain ⟨h1, h2⟩ := List.getElem?_eq_some_iff.1 hg
      exact ⟨k, h1, by simp [h2]⟩
    · intro hk
      obtain ⟨x, hx, rfl⟩ := List.mem_map.1 hk
      exact (List.mem_filter.1 hx).2
  · have hpw : cfg.indexed.Pairwise fun x y => x.1 < y.1 := by
      have := List.pairwise_lt_range (n := cfg.groups.length)
      rw [← hkeys, List.pairwise_map] at this
      exact this
    refine (hpw.filter _).imp_of_mem ?_
    intro x y hx hy hxy
    rw [List.mem_filter] at hx hy
    exact ho x.1 y.1 x.2 y.2 hxy (hidx x hx.1) (hidx y hy.1) hx.2 hy.2
  · intro has mem hs hm
    refine alone_scanStores _ (fun t ht => by simpa [Config.registered] using ht) ?_
    rw [List.nil_append]
    refine alone_eraseStores _ hm (hnd.filter _) ?_ ?_
    · intro t
      rw [List.mem_filter]
      refine ⟨fun h => ⟨?_, h⟩, fun h => h.2⟩
      have := hs.reg t h
      simpa [Config.registered] using this
    · intro has hh
      exact ⟨rfl, hh, hm, trivial⟩

/-! ### Other calls -/

theorem calm_store {t : Nat} {m : Mode} {p : Prog V} (h : Calm p) : Calm (store cfg t m p) := by
  unfold store
  split
  · exact h
  · trivial

theorem calm_visitGroups (ks : List Nat) {p : Prog V} (h : Calm p) : Calm (visitGroups ks p) := by
  induction ks with
  | nil => exact h
  | cons k ks ih => exact ih

theorem calm_openQuery (q : Query) : ∀ {p : Prog V}, Calm p → Calm (openQuery cfg q p) := by
  induction q with
  | comp m t => intro p h; exact calm_store h
  | with2 a b iha ihb => intro p h; exact iha (ihb h)
  | withoutL a b iha ihb => intro p h; exact iha (ihb h)
  | withoutR a b iha ihb => intro p h; exact iha (ihb h)
  | with3 a b c iha ihb ihc => intro p h; exact iha (ihb (ihc h))
  | with4 a b c d iha ihb ihc ihd => intro p h; exact iha (ihb (ihc (ihd h)))
  | with5 a b c d e iha ihb ihc ihd ihe => intro p h; exact iha (ihb (ihc (ihd (ihe h))))
  | group k ma mb a b =>
    intro p h
    simp only [openQuery]
    split
    · refine calm_store (calm_store ?_)
      split
      · exact calm_visitGroups _ (calm_visitGroups _ h)
      · exact calm_visitGroups _ trivial
    · trivial

theorem calm_releaseAll (gs : List Guard) {p : Prog V} (h : Calm p) : Calm (releaseAll gs p) := by
  induction gs with
  | nil => exact h
  | cons g gs ih => exact ih

/-- Calls that work on no entity. -/
theorem quiet_other {c : ApiCall V} (h1 : ∀ s, c ≠ .create s) (h2 : ∀ id s, c ≠ .on id s) (h3 : ∀ id, c ≠ .remove id)
    (h4 : ∀ n bs, c = .createMany n bs → bs = []) (h5 : ∀ a b bs, c = .fill a b bs → bs = []) : Quiet cfg T (c.prog cfg) := by
  cases c with
  | create s => exact absurd rfl (h1 s)
  | on id s => exact absurd rfl (h2 id s)
  | remove id => exact absurd rfl (h3 id)
  | createMany n bs =>
    have := h4 n bs rfl; subst this
    refine .inr (.inl ⟨n, rfl, fun r => ?_⟩)
    cases r <;> trivial
  | fill a b bs =>
    have := h5 a b bs rfl; subst this
    trivial
  | exist id => exact Calm.quiet ⟨rfl, fun _ => trivial⟩
  | read t id =>
    simp only [ApiCall.prog, read]
    split
    · exact Calm.quiet ⟨rfl, fun _ => trivial⟩
    · trivial
  | write t id v =>
    simp only [ApiCall.prog, write]
    split
    · exact Calm.quiet ⟨rfl, fun _ => trivial⟩
    · trivial
  | count t =>
    simp only [ApiCall.prog]
    split
    · exact Calm.quiet ⟨rfl, fun _ => trivial⟩
    · trivial
  | resRead t =>
    simp only [ApiCall.prog]
    split
    · exact Calm.quiet ⟨rfl, fun _ => trivial⟩
    · trivial
  | resWrite t v =>
    simp only [ApiCall.prog]
    split
    · exact Calm.quiet ⟨rfl, fun _ => trivial⟩
    · trivial
  | query q =>
    refine Calm.quiet (calm_openQuery q ?_)
    exact ⟨rfl, fun _ => calm_releaseAll _ trivial⟩

end

end Prog
end Xecs
