import Verif.Proofs.GroupQueries
import Verif.Props.Entities
/-
Groups: properties C14-C22.
-/
set_option autoImplicit false
namespace Xecs
open Spec World Hist
variable {V : Type} {tr : List (Op V × Out V)} {w w' : World V}

/-- An allowed `make_group` that returns extends the history. -/
theorem Trace.makeGroup (h : Trace tr w) {k : SKind} {a b : EntityId} (ha : registered a tr = true)
    (hb : registered b tr = true) (hab : k ≠ .non → a ≠ b) (he : World.makeGroup (toKind k) a b w = (w', .ok ())) :
    Trace ((.makeGroup k a b, .unit) :: tr) w' := by
  refine .ok h ⟨ha, hb, hab⟩ ?_
  show (World.makeGroup (toKind k) a b >>= fun _ => pure Out.unit) w = _
  rw [bind_pure_ok]; exact ⟨(), he, rfl⟩

/-! ### C14: making a full-owning group -/

/-- Immediately after `make_group(full_owning::<A, B>())`, in whatever order and number the components are
stored, the group query yields exactly the entities having both `A` and `B`, each once, with their own
values, in all four combinations of `&` and `&mut`. -/
theorem C14_full (h : Trace tr w) {a b : EntityId} (ha : registered a tr = true) (hb : registered b tr = true)
    (hab : a ≠ b) (he : World.makeGroup .full a b w = (w', .ok ())) (ma mb : Mode) :
    ∃ l, Yields w' (.group .full ma mb a b) l ∧ Lists l (fun id => bothOf (lastValue a id tr) (lastValue b id tr)) :=
  (h.makeGroup (k := .full) ha hb (fun _ => hab) he).group_yields (k := .full) (by simp [madeGroup, ofKind])
    (by simp [batchSince, ofKind]) (by simp) (.inl hab)

/-- The same for partial-owning groups. -/
theorem C14_part (h : Trace tr w) {a b : EntityId} (ha : registered a tr = true) (hb : registered b tr = true)
    (hab : a ≠ b) (he : World.makeGroup .part a b w = (w', .ok ())) (ma mb : Mode) :
    ∃ l, Yields w' (.group .part ma mb a b) l ∧ Lists l (fun id => bothOf (lastValue a id tr) (lastValue b id tr)) :=
  (h.makeGroup (k := .part) ha hb (fun _ => hab) he).group_yields (k := .part) (by simp [madeGroup, ofKind])
    (by simp [batchSince, ofKind]) (by simp) (.inl hab)

/-- `make_group` of registered types, not conflicting with an existing group, succeeds. -/
theorem C14_succeeds (h : Trace tr w) {k : SKind} {a b : EntityId} (ha : registered a tr = true)
    (hb : registered b tr = true) (hab : k ≠ .non → a ≠ b)
    (hc : ∀ g ∈ groupsMade tr, g ≠ (k, a, b) ∧ ∀ t, ¬ (groupOwns g t = true ∧ groupOwns (k, a, b) t = true)) :
    ∃ w', World.makeGroup (toKind k) a b w = (w', .ok ()) := by
  obtain ⟨s, hr⟩ := h.run
  have hc' : s.groups.any (fun g => (g.kind == k && g.a == a && g.b == b) ||
        (g.owns a && (SGroup.mk k a b (fun _ => false) false).owns a) ||
        (g.owns b && (SGroup.mk k a b (fun _ => false) false).owns b)) = false := by
    rw [List.any_eq_false]
    intro g hg hx
    obtain ⟨h1, h2⟩ := hc (tag g) (by rw [← run_tags hr]; exact List.mem_map.2 ⟨g, hg, rfl⟩)
    have ho : ∀ t, groupOwns (tag g) t = g.owns t := by
      intro t; rcases g with ⟨k, a, b, m, f⟩; cases k <;> rfl
    have hn : ∀ t, groupOwns (k, a, b) t = (SGroup.mk k a b (fun _ => false) false).owns t := by
      intro t; cases k <;> rfl
    simp only [Bool.or_eq_true, Bool.and_eq_true, beq_iff_eq] at hx
    rcases hx with (⟨⟨rfl, rfl⟩, rfl⟩ | hx) | hx
    · exact h1 rfl
    · exact h2 a ⟨by rw [ho]; exact hx.1, by rw [hn]; exact hx.2⟩
    · exact h2 b ⟨by rw [ho]; exact hx.1, by rw [hn]; exact hx.2⟩
  obtain ⟨w', h1, _⟩ := makeGroup_ref hr.rel hc' (by rw [run_registered hr]; exact ha) (by rw [run_registered hr]; exact hb) hab
  exact ⟨w', h1⟩

namespace Demo

/-- Three entities with type 1, two with type 2, the smaller storage second; then the other way round for
types 3 and 4. -/
def pairCalls : List (Op Nat) :=
  [.register 1, .register 2, .register 3, .register 4, .createEntities 4, .attach 3 1 31, .attach 1 1 11, .attach 4 1 41,
   .attach 2 2 22, .attach 4 2 42, .attach 2 3 23, .attach 4 3 43, .attach 1 4 14, .attach 3 4 34, .attach 2 4 24]

theorem pairCalls_play : (play Hist.allowed pairCalls ([], World.new)).isSome = true := by decide +kernel
/-- The history. -/
def pairTr : List (Op Nat × Out Nat) := (played pairCalls pairCalls_play).1
/-- The world. -/
def pairW : World Nat := (played pairCalls pairCalls_play).2
theorem pairTrace : Trace pairTr pairW := played_trace pairCalls pairCalls_play

end Demo

example : ∃ w', World.makeGroup .full 1 2 Demo.pairW = (w', .ok ()) ∧
    ∃ l, Yields w' (.group .full .mut .mut 1 2) l ∧ (4, .pair (.leaf 41) (.leaf 42)) ∈ l ∧ l.length = 1 := by
  obtain ⟨w', h⟩ := C14_succeeds Demo.pairTrace (k := .full) (a := 1) (b := 2) (by decide +kernel) (by decide +kernel) (by decide)
    (by rw [show groupsMade Demo.pairTr = [] by decide +kernel]; simp)
  obtain ⟨l, h1, h2⟩ := C14_full Demo.pairTrace (by decide +kernel) (by decide +kernel) (by decide) h .mut .mut
  refine ⟨w', h, l, h1, (h2.2 4 _).2 (by decide +kernel), ?_⟩
  have : (World.makeGroup .full 1 2 Demo.pairW).1.results (.group .full .mut .mut 1 2)
    = .ok [(4, some (.pair (.leaf 41) (.leaf 42)))] := by decide +kernel
  have e : toKind SKind.full = Kind.full := rfl
  rw [e] at h
  rw [h, h1] at this
  simp only [Except.ok.injEq] at this
  simpa using congrArg List.length this

example : ∃ w', World.makeGroup .full 3 4 Demo.pairW = (w', .ok ()) ∧
    ∃ l, Yields w' (.group .full .ref .mut 3 4) l ∧ (2, .pair (.leaf 23) (.leaf 24)) ∈ l := by
  obtain ⟨w', h⟩ := C14_succeeds Demo.pairTrace (k := .full) (a := 3) (b := 4) (by decide +kernel) (by decide +kernel) (by decide)
    (by rw [show groupsMade Demo.pairTr = [] by decide +kernel]; simp)
  obtain ⟨l, h1, h2⟩ := C14_full Demo.pairTrace (by decide +kernel) (by decide +kernel) (by decide) h .ref .mut
  exact ⟨w', h, l, h1, (h2.2 2 _).2 (by decide +kernel)⟩

/-! ### C15, C16, C17: group queries stay correct -/

/-- After any allowed history in which a full-owning group over `A`, `B` was made, and neither type was
batch-attached since: the group query yields exactly the entities having both, each once, each with its own
values, without fault. -/
theorem C15_full (h : Trace tr w) {a b : EntityId} (hg : madeGroup .full a b tr = true)
    (hb : batchSince .full a b tr = false) (ma mb : Mode) :
    ∃ l, Yields w (.group .full ma mb a b) l ∧ Lists l (fun id => bothOf (lastValue a id tr) (lastValue b id tr)) :=
  h.group_yields (k := .full) hg hb (by simp) (.inl ((h.made_registered hg).2.2 (by simp)))

/-- Also after batch attaches, the query is sound: no fault, no entity twice, and every entity it yields has
both components, with those values. -/
theorem C15_sound (h : Trace tr w) {a b : EntityId} (hg : madeGroup .full a b tr = true) (ma mb : Mode) :
    ∃ l, Yields w (.group .full ma mb a b) l ∧ (l.map Prod.fst).Nodup ∧
      ∀ x ∈ l, bothOf (lastValue a x.1 tr) (lastValue b x.1 tr) = some x.2 := by
  obtain ⟨l, h1, h2, h3, _⟩ := h.group_sound (k := .full) (ma := ma) (mb := mb) hg (by simp) (.inl ((h.made_registered hg).2.2 (by simp)))
  exact ⟨l, h1, h2, h3⟩

example : ∃ l, Yields Demo.w (.group .full .ref .mut 1 2) l ∧ (2, .pair (.leaf 11) (.leaf 21)) ∈ l := by
  obtain ⟨l, h1, h2⟩ := C15_full Demo.trace (a := 1) (b := 2) (by decide +kernel) (by decide +kernel) .ref .mut
  exact ⟨l, h1, (h2.2 2 _).2 (by decide +kernel)⟩

/-- The same for partial-owning groups. -/
theorem C16_part (h : Trace tr w) {a b : EntityId} (hg : madeGroup .part a b tr = true)
    (hb : batchSince .part a b tr = false) (ma mb : Mode) :
    ∃ l, Yields w (.group .part ma mb a b) l ∧ Lists l (fun id => bothOf (lastValue a id tr) (lastValue b id tr)) :=
  h.group_yields (k := .part) hg hb (by simp) (.inl ((h.made_registered hg).2.2 (by simp)))

/-- Also after batch attaches, the query is sound. -/
theorem C16_sound (h : Trace tr w) {a b : EntityId} (hg : madeGroup .part a b tr = true) (ma mb : Mode) :
    ∃ l, Yields w (.group .part ma mb a b) l ∧ (l.map Prod.fst).Nodup ∧
      ∀ x ∈ l, bothOf (lastValue a x.1 tr) (lastValue b x.1 tr) = some x.2 := by
  obtain ⟨l, h1, h2, h3, _⟩ := h.group_sound (k := .part) (ma := ma) (mb := mb) hg (by simp) (.inl ((h.made_registered hg).2.2 (by simp)))
  exact ⟨l, h1, h2, h3⟩

namespace Demo

/-- A partial-owning group over 1 and 2, and a non-owning one over 3 and 4, with changes after they were made. -/
def groupCalls : List (Op Nat) :=
  [.register 1, .register 2, .register 3, .register 4, .createEntities 5, .attach 3 1 31, .attach 3 2 32,
   .makeGroup .part 1 2, .attach 1 2 12, .attach 1 1 11, .attach 4 3 43, .makeGroup .non 3 4, .attach 4 4 44, .attach 2 4 24,
   .attach 2 3 23, .detach 3 2, .attach 5 1 51, .attach 5 2 52, .removeEntity [1, 2, 3, 4] 3, .write 3 4 99]

theorem groupCalls_play : (play Hist.allowed groupCalls ([], World.new)).isSome = true := by decide +kernel
/-- The history. -/
def groupTr : List (Op Nat × Out Nat) := (played groupCalls groupCalls_play).1
/-- The world. -/
def groupW : World Nat := (played groupCalls groupCalls_play).2
theorem groupTrace : Trace groupTr groupW := played_trace groupCalls groupCalls_play

end Demo

example : ∃ l, Yields Demo.groupW (.group .part .mut .ref 1 2) l ∧ (1, .pair (.leaf 11) (.leaf 12)) ∈ l ∧
    (5, .pair (.leaf 51) (.leaf 52)) ∈ l ∧ ∀ x, (3, x) ∉ l := by
  obtain ⟨l, h1, h2⟩ := C16_part Demo.groupTrace (a := 1) (b := 2) (by decide +kernel) (by decide +kernel) .mut .ref
  refine ⟨l, h1, (h2.2 1 _).2 (by decide +kernel), (h2.2 5 _).2 (by decide +kernel), fun x hx => ?_⟩
  have := (h2.2 3 x).1 hx
  simp only [show bothOf (lastValue 1 3 Demo.groupTr) (lastValue 2 3 Demo.groupTr) = none by decide +kernel] at this
  cases this

/-- Non-owning groups, as long as no component of the two types was moved in its storage since the group was made
(`disturbed`). Missing from the English property: that it holds also after a detach of one of the two
components, after removal of an entity having one, after batch attaches, and when entities join or leave a group
owning one of the types, or such a group is made; in these cases the code yields wrong components or reads out of bounds (`C17_unchecked_counterexample`,
`C17_wrong_value_counterexample`, `C17_owning_counterexample`). -/
theorem C17_non_partial (h : Trace tr w) {a b : EntityId} (hg : madeGroup .non a b tr = true)
    (hb : batchSince .non a b tr = false) (hm : disturbed a b tr = false) {ma mb : Mode} (hc : a ≠ b ∨ (ma = .ref ∧ mb = .ref)) :
    ∃ l, Yields w (.group .non ma mb a b) l ∧ Lists l (fun id => bothOf (lastValue a id tr) (lastValue b id tr)) :=
  h.group_yields (k := .non) hg hb (fun _ => hm) hc

example : ∃ l, Yields Demo.groupW (.group .non .ref .ref 3 4) l ∧ (4, .pair (.leaf 99) (.leaf 44)) ∈ l ∧
    (2, .pair (.leaf 23) (.leaf 24)) ∈ l := by
  obtain ⟨l, h1, h2⟩ := C17_non_partial Demo.groupTrace (a := 3) (b := 4) (by decide +kernel) (by decide +kernel)
    (by decide +kernel) (ma := .ref) (mb := .ref) (.inl (by decide))
  exact ⟨l, h1, (h2.2 4 _).2 (by decide +kernel), (h2.2 2 _).2 (by decide +kernel)⟩

/-! ### C18: ownership is exclusive -/

/-- After any history whatsoever -- including panicking calls and what they leave behind -- no two groups are
equal, and no component type is owned by two groups. -/
theorem C18_exclusive (h : Wild tr w) :
    w.groups.Pairwise fun g g' => ¬ (g.kind = g'.kind ∧ g.tyA = g'.tyA ∧ g.tyB = g'.tyB) ∧
      ∀ t, ¬ (t ∈ g.owning ∧ t ∈ g'.owning) := by
  have := wild_exclusive h
  unfold Exclusive at this
  rw [List.pairwise_map] at this
  refine this.imp ?_
  rintro g g' ⟨h1, h2⟩
  refine ⟨fun ⟨e1, e2, e3⟩ => h1 ?_, fun t ht => h2 t ?_⟩
  · simp only [gtag, e1, e2, e3]
  · rw [owning_tag, owning_tag] at ht; exact ht

/-- In any world: `make_group` panics and changes nothing if the new group equals an existing one or would own
a type an existing group owns. -/
theorem C18_conflict {k : Kind} {a b : EntityId}
    (hc : ∃ g ∈ w.groups, (g.kind = k ∧ g.tyA = a ∧ g.tyB = b) ∨ ∃ t, t ∈ g.owning ∧ t ∈ (Group.fresh k a b).owning) :
    World.makeGroup k a b w = (w, .error .panic) := by
  rcases makeGroup_tags w k a b with ⟨_, h⟩ | ⟨h, _⟩
  · obtain ⟨g, hg, hx⟩ := hc
    obtain ⟨h1, h2⟩ := h (gtag g) (List.mem_map.2 ⟨g, hg, rfl⟩)
    rcases hx with ⟨rfl, rfl, rfl⟩ | ⟨t, ht1, ht2⟩
    · exact absurd rfl h1
    · rw [owning_tag] at ht1 ht2; rw [fresh_gtag] at ht2
      exact absurd ⟨ht1, ht2⟩ (h2 t)
  · exact h

/-- After an allowed history, for registered (and, for owning groups, different) types: `make_group` panics --
leaving the world unchanged -- exactly when the group was made before or a group made before owns a type it
would own; otherwise it succeeds. -/
theorem C18_exactly (h : Trace tr w) {k : SKind} {a b : EntityId} (ha : registered a tr = true)
    (hb : registered b tr = true) (hab : k ≠ .non → a ≠ b) :
    ((∃ g ∈ groupsMade tr, g = (k, a, b) ∨ ∃ t, groupOwns g t = true ∧ groupOwns (k, a, b) t = true) ↔
      World.makeGroup (toKind k) a b w = (w, .error .panic)) ∧
    ((¬ ∃ g ∈ groupsMade tr, g = (k, a, b) ∨ ∃ t, groupOwns g t = true ∧ groupOwns (k, a, b) t = true) ↔
      ∃ w', World.makeGroup (toKind k) a b w = (w', .ok ())) := by
  have hsucc : (¬ ∃ g ∈ groupsMade tr, g = (k, a, b) ∨ ∃ t, groupOwns g t = true ∧ groupOwns (k, a, b) t = true) →
      ∃ w', World.makeGroup (toKind k) a b w = (w', .ok ()) := by
    intro hn
    exact C14_succeeds h ha hb hab (fun g hg => ⟨fun e => hn ⟨g, hg, .inl e⟩, fun t ht => hn ⟨g, hg, .inr ⟨t, ht⟩⟩⟩)
  have hfail : (∃ g ∈ groupsMade tr, g = (k, a, b) ∨ ∃ t, groupOwns g t = true ∧ groupOwns (k, a, b) t = true) →
      World.makeGroup (toKind k) a b w = (w, .error .panic) := by
    rintro ⟨g, hg, hx⟩
    obtain ⟨s, hr⟩ := h.run
    rw [← run_tags hr, List.mem_map] at hg
    obtain ⟨gs, hgs, rfl⟩ := hg
    have ho : ∀ t, groupOwns (tag gs) t = gs.owns t := by
      intro t; rcases gs with ⟨k, a, b, m, f⟩; cases k <;> rfl
    have hn : ∀ t, groupOwns (k, a, b) t = (SGroup.mk k a b (fun _ => false) false).owns t := by
      intro t; cases k <;> rfl
    refine makeGroup_conflict hr.rel (List.any_eq_true.2 ⟨gs, hgs, ?_⟩)
    simp only [Bool.or_eq_true, Bool.and_eq_true, beq_iff_eq]
    rcases hx with hx | ⟨t, h1, h2⟩
    · simp only [tag, Prod.mk.injEq] at hx; exact .inl (.inl ⟨⟨hx.1, hx.2.1⟩, hx.2.2⟩)
    · rw [ho] at h1; rw [hn] at h2
      have ht : t = a ∨ t = b := by
        cases k <;> simp only [SGroup.owns, Bool.or_eq_true, beq_iff_eq] at h2
        · exact h2
        · exact .inl h2
        · cases h2
      rcases ht with rfl | rfl
      · exact .inl (.inr ⟨h1, h2⟩)
      · exact .inr ⟨h1, h2⟩
  refine ⟨⟨hfail, fun he => ?_⟩, ⟨hsucc, fun ⟨w', he⟩ hx => ?_⟩⟩
  · refine Classical.byContradiction fun hn => ?_
    obtain ⟨w', h'⟩ := hsucc hn
    rw [h'] at he; simp at he
  · rw [hfail hx] at he; simp at he

/-- In the demo history, groups (full 1 2) and (non 1 3) exist: another group owning 2 is refused, a partial
group owning only 3 is accepted. -/
example : World.makeGroup .part 2 3 Demo.w = (Demo.w, .error .panic) ∧
    ∃ w', World.makeGroup .part 3 1 Demo.w = (w', .ok ()) := by
  have hg : groupsMade Demo.tr = [(.full, 1, 2), (.non, 1, 3)] := by decide +kernel
  constructor
  · refine (C18_exactly Demo.trace (k := .part) (a := 2) (b := 3) (by decide +kernel) (by decide +kernel) (by decide)).1.1 ?_
    rw [hg]; exact ⟨_, List.mem_cons_self .., .inr ⟨2, rfl, rfl⟩⟩
  · refine (C18_exactly Demo.trace (k := .part) (a := 3) (b := 1) (by decide +kernel) (by decide +kernel) (by decide)).2.1 ?_
    rw [hg]
    rintro ⟨g, hg, hx⟩
    simp only [List.mem_cons, List.not_mem_nil, or_false] at hg
    rcases hg with rfl | rfl <;> simp [groupOwns] at hx

/-! ### C19: make_group is all-or-nothing -/

/-- On well-formed storages, work behind the guards of a new group does not fault. -/
theorem groupMakeX_still {k : Nat} {e : Fault} (hwf : ∀ t st, w.comps t = some st → st.set.WF)
    (he : groupMakeX k w = (w', .error e)) : w' = w := by
  have h' : w' = (groupMakeX k w).1 := by rw [he]
  have h2 : (groupMakeX k w).2 = .error e := by rw [he]
  rw [h']
  unfold groupMakeX onPair at h2 ⊢
  cases hg : getR w.groups k with
  | error e => rfl
  | ok g =>
    rw [hg] at h2
    simp only [R.bind_ok] at h2 ⊢
    cases hp : w.lockPair g with
    | error e => rfl
    | ok p =>
      obtain ⟨A, B⟩ := p
      rw [hp] at h2
      simp only [R.bind_ok] at h2
      obtain ⟨stA, stB, hA, hB, rfl, rfl, -⟩ := lockPair_inv hp
      obtain ⟨g', A', B', hm, -⟩ := Group.make_spec (g := g) (hwf _ _ hA) (hwf _ _ hB)
      rw [Group.makeX_does.ok (s' := (g', A', B')) (a := ()) (by simp only [hm]; rfl)] at h2
      cases h2

/-- A `make_group` that panics, after any history without repeated batch attach (whatever panicked before), has
either changed nothing or added just the new, empty group; entities, components and resources are untouched.
Missing from the English property: it does leave the group behind when a component type is not registered (or,
for an owning group, both types are the same). -/
theorem C19_atomic_partial (h : AnyTrace tr w) (hn : NoRebatch tr) {k : Kind} {a b : EntityId} {e : Fault}
    (he : World.makeGroup k a b w = (w', .error e)) :
    w' = w ∨ w' = { w with groups := w.groups ++ [Group.fresh k a b] } := by
  rcases makeGroup_tags w k a b with ⟨_, hadd⟩ | ⟨h1, _⟩
  · rw [← addable_iff] at hadd
    simp only [World.makeGroup, M.bind_apply, M.read_apply, hadd.1, hadd.2, M.assert_true, Bool.not_false] at he
    rw [M.crit_ok rfl] at he
    dsimp only at he
    rw [groupMake_exact] at he
    refine .inr (groupMakeX_still ?_ he)
    intro t st ht
    exact ((any_look h hn).at_some ht).2.2.1
  · rw [h1] at he; simp only [Prod.mk.injEq] at he; exact .inl he.1.symm

/-- After an allowed history, with registered (and for owning groups different) types, `make_group` is
all-or-nothing. -/
theorem C19_registered (h : Trace tr w) {k : SKind} {a b : EntityId} (ha : registered a tr = true)
    (hb : registered b tr = true) (hab : k ≠ .non → a ≠ b) {e : Fault}
    (he : World.makeGroup (toKind k) a b w = (w', .error e)) : w' = w := by
  rcases Classical.em (∃ g ∈ groupsMade tr, g = (k, a, b) ∨ ∃ t, groupOwns g t = true ∧ groupOwns (k, a, b) t = true) with hx | hx
  · rw [(C18_exactly h ha hb hab).1.1 hx] at he; simp only [Prod.mk.injEq] at he; exact he.1.symm
  · obtain ⟨w1, h1⟩ := (C18_exactly h ha hb hab).2.1 hx
    rw [h1] at he; simp at he

/-- Exactly when `make_group` succeeds, after an allowed history, and what a failing one leaves behind: nothing if there is
the same group already or a group owning one of the types; otherwise, if a type is not registered (or the types of an
owning group are the same) the new, empty group. -/
theorem C19_exact (h : Trace tr w) {k : SKind} {a b : EntityId} :
    ((∃ g ∈ groupsMade tr, g = (k, a, b) ∨ ∃ t, groupOwns g t = true ∧ groupOwns (k, a, b) t = true) →
      World.makeGroup (toKind k) a b w = (w, .error .panic)) ∧
    ((¬ ∃ g ∈ groupsMade tr, g = (k, a, b) ∨ ∃ t, groupOwns g t = true ∧ groupOwns (k, a, b) t = true) →
      (registered a tr = true → registered b tr = true → (k ≠ .non → a ≠ b) →
        ∃ w', World.makeGroup (toKind k) a b w = (w', .ok ())) ∧
      (registered a tr = false ∨ registered b tr = false →
        World.makeGroup (toKind k) a b w = ({ w with groups := w.groups ++ [Group.fresh (toKind k) a b] }, .error .panic)) ∧
      (registered a tr = true → k ≠ .non → a = b →
        World.makeGroup (toKind k) a b w = ({ w with groups := w.groups ++ [Group.fresh (toKind k) a b] }, .error .deadlock))) := by
  obtain ⟨s, hr⟩ := h.run
  have hn : ∀ t, groupOwns (k, a, b) t = (SGroup.mk k a b (fun _ => false) false).owns t := by
    intro t; cases k <;> rfl
  have ho : ∀ (gs : SGroup) t, groupOwns (tag gs) t = gs.owns t := by
    intro gs t; rcases gs with ⟨k, a, b, m, f⟩; cases k <;> rfl
  refine ⟨?_, fun hx => ?_⟩
  · rintro ⟨g, hg, hx⟩
    rw [← run_tags hr, List.mem_map] at hg
    obtain ⟨gs, hgs, rfl⟩ := hg
    refine makeGroup_conflict hr.rel (List.any_eq_true.2 ⟨gs, hgs, ?_⟩)
    simp only [Bool.or_eq_true, Bool.and_eq_true, beq_iff_eq]
    rcases hx with hx | ⟨t, h1, h2⟩
    · simp only [tag, Prod.mk.injEq] at hx; exact .inl (.inl ⟨⟨hx.1, hx.2.1⟩, hx.2.2⟩)
    · rw [ho] at h1; rw [hn] at h2
      have ht : t = a ∨ t = b := by
        cases k <;> simp only [SGroup.owns, Bool.or_eq_true, beq_iff_eq] at h2
        · exact h2
        · exact .inl h2
        · cases h2
      rcases ht with rfl | rfl
      · exact .inl (.inr ⟨h1, h2⟩)
      · exact .inr ⟨h1, h2⟩
  · have hc' : s.groups.any (fun g => (g.kind == k && g.a == a && g.b == b) ||
          (g.owns a && (SGroup.mk k a b (fun _ => false) false).owns a) ||
          (g.owns b && (SGroup.mk k a b (fun _ => false) false).owns b)) = false := by
      rw [List.any_eq_false]
      intro g hg hy
      have hm : tag g ∈ groupsMade tr := by rw [← run_tags hr]; exact List.mem_map.2 ⟨g, hg, rfl⟩
      simp only [Bool.or_eq_true, Bool.and_eq_true, beq_iff_eq] at hy
      rcases hy with (⟨⟨rfl, rfl⟩, rfl⟩ | hy) | hy
      · exact hx ⟨_, hm, .inl rfl⟩
      · exact hx ⟨_, hm, .inr ⟨a, by rw [ho]; exact hy.1, by rw [hn]; exact hy.2⟩⟩
      · exact hx ⟨_, hm, .inr ⟨b, by rw [ho]; exact hy.1, by rw [hn]; exact hy.2⟩⟩
    obtain ⟨hc1, hc2⟩ := (conflict_iff k a b).1 hc'
    have h1 : w.hasGroup (toKind k) a b = false := by rw [hasGroup_eq hr.rel.core]; exact hc1
    have h2 : w.ownershipFree (Group.fresh (toKind k) a b) = true := (ownershipFree_iff hr.rel.core k a b _ _).2 hc2
    have hfail : ∀ e, ({ w with groups := w.groups ++ [Group.fresh (toKind k) a b] } : World V).lockPair (Group.fresh (toKind k) a b) = .error e →
        World.makeGroup (toKind k) a b w = ({ w with groups := w.groups ++ [Group.fresh (toKind k) a b] }, .error e) := by
      intro e he
      simp only [World.makeGroup, M.bind_apply, M.read_apply, h1, h2, M.assert_true, Bool.not_false]
      rw [M.crit_ok rfl]
      dsimp only
      rw [groupMake_exact]
      simp [groupMakeX, onPair, getR, he]
    have hreg : ∀ t, registered t tr = false → w.comps t = none := by
      intro t ht
      cases hc : w.comps t with
      | none => rfl
      | some st => rw [((any_look h.any h.live.1).at_some hc).1] at ht; cases ht
    have hsome : ∀ t, registered t tr = true → ∃ st, w.comps t = some st := by
      intro t ht
      cases hc : w.comps t with
      | none => rw [((any_look h.any h.live.1).at_none hc).1] at ht; cases ht
      | some st => exact ⟨st, rfl⟩
    have hkind : (Group.fresh (toKind k) a b).tyA = a ∧ (Group.fresh (toKind k) a b).tyB = b ∧
        ((Group.fresh (toKind k) a b).kind = .non ↔ k = .non) := by cases k <;> simp [Group.fresh, toKind, Group.tyA, Group.tyB, Group.kind]
    refine ⟨fun ra rb hab => ?_, fun hr' => hfail _ ?_, fun ra hk hab => hfail _ ?_⟩
    · obtain ⟨w', h1, _⟩ := makeGroup_ref hr.rel hc' (by rw [run_registered hr]; exact ra) (by rw [run_registered hr]; exact rb) hab
      exact ⟨w', h1⟩
    · simp only [World.lockPair, hkind.1, hkind.2.1]
      by_cases ra : registered a tr = true
      · have rb : registered b tr = false := by rcases hr' with h | h; (rw [ra] at h; cases h); exact h
        obtain ⟨A, hA⟩ := hsome a ra
        have hne : a ≠ b := by rintro rfl; rw [ra] at rb; cases rb
        simp [hA, hreg b rb, unwrapR, hne]
      · simp [hreg a (by simpa using ra), unwrapR]
    · obtain ⟨A, hA⟩ := hsome a ra
      simp only [World.lockPair, hkind.1, hkind.2.1, hA, unwrapR, ok_bind]
      rw [if_pos ⟨hab, fun h => hk (hkind.2.2.1 h)⟩]

/-- The type 77 is not registered. -/
example : World.makeGroup .non 1 77 Demo.w = ({ Demo.w with groups := Demo.w.groups ++ [Group.fresh .non 1 77] }, .error .panic) := by
  refine ((C19_exact Demo.trace (k := .non) (a := 1) (b := 77)).2 ?_).2.1 (.inr (by decide +kernel))
  rintro ⟨g, hg, rfl | ⟨t, _, ht⟩⟩
  · exact absurd hg (by decide +kernel)
  · cases ht

example : (World.makeGroup .full 2 3 Demo.w).2 = .error .panic ∧ (World.makeGroup .full 2 3 Demo.w).1 = Demo.w := by
  have h : (World.makeGroup .full 2 3 Demo.w).2 = .error .panic := by decide +kernel
  exact ⟨h, C19_registered Demo.trace (k := .full) (a := 2) (b := 3) (by decide +kernel) (by decide +kernel) (by decide)
    (Prod.ext rfl h)⟩

/-! ### C20: groups and batch attach -/

/-- Exactly who a group contains after any allowed history, with any batch attaches: those who had both components
when the group was made or when one of the two components was attached individually later, and of whom neither
was detached since. -/
theorem C20_exact (h : Trace tr w) {k : Kind} {a b : EntityId} {ma mb : Mode}
    (hg : madeGroup (ofKind k) a b tr = true) (hu : k = .non → disturbed a b tr = false)
    (hm : a ≠ b ∨ (ma = .ref ∧ mb = .ref)) :
    ∃ l, Yields w (.group k ma mb a b) l ∧ Lists l (fun id =>
      if joined (ofKind k, a, b) id tr then bothOf (lastValue a id tr) (lastValue b id tr) else none) :=
  h.group_exact hg hu hm

/-- An entity with both components (for example by batch attach, bypassing the group) is in the group as soon as
one of its two components is attached (again) individually. Missing from the English property: that a
batch-attached entity is in the group at once; it is not (`C20_bypass_counterexample`). -/
theorem C20_reattach_partial (h : Trace tr w) {k : Kind} {a b id t : EntityId} {v : V}
    (hg : madeGroup (ofKind k) a b tr = true) (hk : k ≠ .non) (ht : t = a ∨ t = b) (hid : alive id tr = true)
    (hboth : ∀ u, u = a ∨ u = b → u ≠ t → (lastValue u id tr).isSome = true) (ma mb : Mode) :
    ∃ w' l x, World.attach id t v w = (w', .ok ()) ∧ Yields w' (.group k ma mb a b) l ∧ (id, x) ∈ l := by
  obtain ⟨h1, h2, hab⟩ := h.made_registered hg
  have hab := hab (by cases k <;> simp_all [ofKind])
  have hr : registered t tr = true := by rcases ht with rfl | rfl <;> assumption
  obtain ⟨w', ha, hT⟩ := h.attach hid hr v
  obtain ⟨l, y1, y2, y3, y4⟩ := hT.group_sound (k := k) (ma := ma) (mb := mb) (a := a) (b := b)
    (by simpa [madeGroup] using hg) (fun e => absurd e hk) (.inl hab)
  obtain ⟨s, hrun⟩ := h.run
  have hlive : s.live id = true := by rw [← (run_em hrun).2.2.2.1]; exact hid
  obtain ⟨f, hf⟩ := Option.isSome_iff_exists.1 ((run_registered hrun t).trans hr)
  have hstep : s.step (.attach id t v) = .ok (s.attached id t f v) .unit := by
    simp only [State.step, State.needLive, hlive, if_true, hf]
  have hx : exec (.attach id t v) w = (w', .ok .unit) := by
    show (World.attach id t v >>= fun _ => pure Out.unit) w = _
    rw [bind_pure_ok]; exact ⟨(), ha, rfl⟩
  have hrun' : Run ((.attach id t v, .unit) :: tr) w' (s.attached id t f v) :=
    .ok hrun (by trivial) hstep hx
  have hget : ∀ u, u = a ∨ u = b → ((s.attached id t f v).get u id).isSome = true := by
    intro u hu
    rw [run_get hrun' u id]
    by_cases hut : u = t
    · subst hut; simp [lastValue]
    · simp only [lastValue]; rw [if_neg (fun e => hut e.2.symm)]; exact hboth u hu hut
  have hmem : (s.attached id t f v).member k a b id = true := by
    have hsome := group?_isSome hrun' k a b
    rw [show madeGroup (ofKind k) a b ((.attach id t v, .unit) :: tr) = madeGroup (ofKind k) a b tr from rfl, hg] at hsome
    obtain ⟨g, hg'⟩ := Option.isSome_iff_exists.1 hsome
    simp only [State.member, hg']
    have hm := List.mem_of_find?_eq_some hg'
    have he := List.find?_some hg'
    simp only [Bool.and_eq_true, beq_iff_eq] at he
    simp only [State.attached, List.mem_map] at hm
    obtain ⟨g0, _, rfl⟩ := hm
    simp only at he ⊢
    obtain ⟨⟨_, rfl⟩, rfl⟩ := he
    have ht' : g0.touches t = true := by simp only [SGroup.touches, Bool.or_eq_true, beq_iff_eq]; exact ht
    have hb2 := hget g0.a (.inl rfl)
    have hb3 := hget g0.b (.inr rfl)
    simp only [Bool.or_eq_true, Bool.and_eq_true, beq_self_eq_true, true_and, ht']
    right
    simp only [State.both, State.has, Bool.and_eq_true]
    exact ⟨hb2, hb3⟩
  have hin : id ∈ l.map Prod.fst := by
    rw [y4 _ hrun' id]
    simp only [State.yields, hmem, if_true]
    rw [pairOf_isSome, State.has, State.has, hget a (.inl rfl), hget b (.inr rfl)]; rfl
  obtain ⟨⟨i, x⟩, hmx, rfl⟩ := List.mem_map.1 hin
  exact ⟨w', l, x, ha, y1, hmx⟩

/-- An allowed batch attach that returns extends the history. -/
theorem Trace.batch (h : Trace tr w) {a b t : EntityId} {vs : List V} (hle : a ≤ b)
    (hal : ∀ x, a ≤ x → x < b → alive x tr = true) (hno : ∀ x, a ≤ x → x < b → lastValue t x tr = none)
    (he : World.attachBatch a b t vs w = (w', .ok ())) : Trace ((.attachBatch a b t vs, .unit) :: tr) w' := by
  refine .ok h ⟨hle, hal, fun _ => hno⟩ ?_
  show (World.attachBatch a b t vs >>= fun _ => pure Out.unit) w = _
  rw [bind_pure_ok]; exact ⟨(), he, rfl⟩

/-- Entities that got both components by batch attach *before* the group was made are in it, with these
components. -/
theorem C20_before {w1 w2 w3 w4 : World V} (h : Trace tr w) {a b : EntityId} (ha : registered a tr = true)
    (hb : registered b tr = true) {k : SKind} (hk : k ≠ .non) (hab : a ≠ b) {n start stop : Nat} {vs us : List V}
    (h1 : World.createEntities n w = (w1, .ok (start, stop)))
    (h2 : World.attachBatch start stop a vs w1 = (w2, .ok ())) (h3 : World.attachBatch start stop b us w2 = (w3, .ok ()))
    (h4 : World.makeGroup (toKind k) a b w3 = (w4, .ok ())) (ma mb : Mode) :
    ∃ l, Yields w4 (.group (toKind k) ma mb a b) l ∧ ∀ i x y, vs[i]? = some x → us[i]? = some y →
      (start + i, .pair (.leaf x) (.leaf y)) ∈ l := by
  obtain ⟨w1', s', e1, hpos, hnew, -⟩ := C09_block (Wild.of_any h.any) h.live.2.1 n
  rw [e1] at h1
  simp only [Prod.mk.injEq, Except.ok.injEq] at h1
  obtain ⟨rfl, rfl, rfl⟩ := h1
  have hx : exec (.createEntities n) w = (w1', .ok (.range s' (s' + n))) := by
    show (World.createEntities n >>= fun x => pure (Out.range x.1 x.2)) w = _
    rw [bind_pure_ok]; exact ⟨_, e1, rfl⟩
  have t1 := Trace.ok h (by trivial) hx
  have halive : ∀ x, s' ≤ x → x < s' + n → alive x ((.createEntities n, .range s' (s' + n)) :: tr) = true := by
    intro x p q; simp [alive, p, q]
  have hnone : ∀ t x, s' ≤ x → lastValue t x tr = none := by
    intro t x p
    cases hv : lastValue t x tr with
    | none => rfl
    | some v =>
      have hl := any_alive h.any h.live.1 h.live.2.1 h.live.2.2 t x (by simp [hv])
      have hem := wild_em (Wild.of_any h.any) h.live.2.1
      have := hnew x p
      have h5 := (emOk_alive hem x).1 hl
      rw [(hem.out x).2 ⟨h5.1, h5.2.1⟩] at this; cases this
  have t2 := t1.batch (Nat.le_add_right _ _) halive (fun x p _ => hnone a x p) h2
  have t3 := t2.batch (Nat.le_add_right _ _) halive
    (fun x p q => by simp only [lastValue, hab, false_and, if_false]; exact hnone b x p) h3
  have hlen : vs.length = n ∧ us.length = n := by
    simp only [World.attachBatch, M.bind_ok, M.assert_iff] at h2 h3
    obtain ⟨_, _, ⟨_, e⟩, _⟩ := h2
    obtain ⟨_, _, ⟨_, e'⟩, _⟩ := h3
    simp at e e'
    exact ⟨e, e'⟩
  have key : ∀ tr', tr' = ((.attachBatch s' (s' + n) b us, .unit) :: (.attachBatch s' (s' + n) a vs, .unit) ::
      (.createEntities n, .range s' (s' + n)) :: tr) → ∀ l, Lists l (fun id => bothOf (lastValue a id tr') (lastValue b id tr')) →
      ∀ i x y, vs[i]? = some x → us[i]? = some y → (s' + i, .pair (.leaf x) (.leaf y)) ∈ l := by
    rintro tr' rfl l hl i x y hx hy
    have hi : i < n := by rw [← hlen.1]; exact (List.getElem?_eq_some_iff.1 hx).1
    refine (hl.2 _ _).2 ?_
    simp only [lastValue]
    have hba : ¬ b = a := fun e => hab e.symm
    simp [hba, hi, hx, hy, bothOf]
  cases k with
  | full => obtain ⟨l, l1, l2⟩ := C14_full t3 (by simpa [registered] using ha) (by simpa [registered] using hb) hab h4 ma mb; exact ⟨l, l1, key _ rfl l l2⟩
  | part => obtain ⟨l, l1, l2⟩ := C14_part t3 (by simpa [registered] using ha) (by simpa [registered] using hb) hab h4 ma mb; exact ⟨l, l1, key _ rfl l l2⟩
  | non => exact absurd rfl hk

namespace Demo

/-- A full-owning group over 1 and 2; then entities 1, 2 get both components by batch attach, bypassing it. -/
def batchCalls : List (Op Nat) :=
  [.register 1, .register 2, .createEntities 2, .makeGroup .full 1 2, .attachBatch 1 3 1 [11, 21], .attachBatch 1 3 2 [12, 22]]

theorem batchCalls_play : (play Hist.allowed batchCalls ([], World.new)).isSome = true := by decide +kernel
/-- The history. -/
def batchTr : List (Op Nat × Out Nat) := (played batchCalls batchCalls_play).1
/-- The world. -/
def batchW : World Nat := (played batchCalls batchCalls_play).2
theorem batchTrace : Trace batchTr batchW := played_trace batchCalls batchCalls_play

end Demo

example : ∃ l, Yields Demo.batchW (.group .full .ref .ref 1 2) l ∧ ∀ x, (2, x) ∉ l := by
  obtain ⟨l, l1, l2⟩ := C20_exact Demo.batchTrace (k := .full) (a := 1) (b := 2) (ma := .ref) (mb := .ref) (by decide +kernel)
    (by decide) (.inl (by decide))
  refine ⟨l, l1, fun x hx => ?_⟩
  have := (l2.2 2 x).1 hx
  dsimp only at this
  rw [if_neg (by decide +kernel)] at this
  cases this
example : ∃ l, Yields Demo.groupW (.group .part .ref .mut 1 2) l ∧ (5, .pair (.leaf 51) (.leaf 52)) ∈ l := by
  obtain ⟨l, l1, l2⟩ := C20_exact Demo.groupTrace (k := .part) (a := 1) (b := 2) (ma := .ref) (mb := .mut) (by decide +kernel)
    (by decide) (.inl (by decide))
  exact ⟨l, l1, (l2.2 5 _).2 (by decide +kernel)⟩

/-- Entity 2 is not in the group after the batch attaches, but is after attaching component 2 again. -/
example : Demo.batchW.results (.group .full .ref .ref 1 2) = .ok [] ∧
    ∃ w' l x, World.attach 2 2 99 Demo.batchW = (w', .ok ()) ∧ Yields w' (.group .full .ref .ref 1 2) l ∧ (2, x) ∈ l :=
  ⟨by decide +kernel, C20_reattach_partial Demo.batchTrace (k := .full) (by decide +kernel) (by decide) (.inr rfl) (by decide +kernel)
    (by intro u hu hne; rcases hu with rfl | rfl; · decide +kernel
        · exact absurd rfl hne) .ref .ref⟩

example : ∃ w1 w2 w3 w4 l, World.createEntities 2 Demo.pairW = (w1, .ok (5, 7)) ∧
    World.attachBatch 5 7 1 [51, 61] w1 = (w2, .ok ()) ∧ World.attachBatch 5 7 2 [52, 62] w2 = (w3, .ok ()) ∧
    World.makeGroup .full 1 2 w3 = (w4, .ok ()) ∧ Yields w4 (.group .full .ref .ref 1 2) l ∧
    (6, .pair (.leaf 61) (.leaf 62)) ∈ l := by
  have e1 : (World.createEntities 2 Demo.pairW).2 = .ok (5, 7) := by decide +kernel
  have e2 : (World.attachBatch 5 7 1 [51, 61] (World.createEntities 2 Demo.pairW).1).2 = .ok () := by decide +kernel
  have e3 : (World.attachBatch 5 7 2 [52, 62] (World.attachBatch 5 7 1 [51, 61] (World.createEntities 2 Demo.pairW).1).1).2 = .ok () := by
    decide +kernel
  have e4 : (World.makeGroup .full 1 2 (World.attachBatch 5 7 2 [52, 62]
    (World.attachBatch 5 7 1 [51, 61] (World.createEntities 2 Demo.pairW).1).1).1).2 = .ok () := by decide +kernel
  have f1 : World.createEntities 2 Demo.pairW = ((World.createEntities 2 Demo.pairW).1, .ok (5, 7)) := by rw [← e1]
  generalize (World.createEntities 2 Demo.pairW).1 = w1 at f1 e2 e3 e4
  have f2 : World.attachBatch 5 7 1 [51, 61] w1 = ((World.attachBatch 5 7 1 [51, 61] w1).1, .ok ()) := by rw [← e2]
  generalize (World.attachBatch 5 7 1 [51, 61] w1).1 = w2 at f2 e3 e4
  have f3 : World.attachBatch 5 7 2 [52, 62] w2 = ((World.attachBatch 5 7 2 [52, 62] w2).1, .ok ()) := by rw [← e3]
  generalize (World.attachBatch 5 7 2 [52, 62] w2).1 = w3 at f3 e4
  have f4 : World.makeGroup .full 1 2 w3 = ((World.makeGroup .full 1 2 w3).1, .ok ()) := by rw [← e4]
  obtain ⟨l, l1, l2⟩ := C20_before Demo.pairTrace (a := 1) (b := 2) (by decide +kernel) (by decide +kernel) (k := .full) (by decide) (by decide)
    f1 f2 f3 f4 .ref .ref
  exact ⟨w1, w2, w3, _, l, f1, f2, f3, f4, l1, l2 1 61 62 rfl rfl⟩

/-! ### C21: remove_entity and groups -/

/-- After removing a living entity (when no two groups share an owned type on it), every group not bypassed by
batch attaches yields exactly the remaining entities having both its components; for a non-owning group, if it
was correct before and the removed entity had neither of its components. Missing from the English property:
the case of `RemoveSafe` failing, where the code corrupts the later group (`C21_overlap` in Props/Overlap), and
non-owning groups whose cached positions the removal invalidates (`C21_stale_counterexample`). -/
theorem C21_groups_partial (h : Trace tr w) {id : EntityId} (hid : alive id tr = true) (hs : RemoveSafe id tr)
    {order : List TypeId} (ho : order.Nodup ∧ ∀ t, t ∈ order ↔ registered t tr = true) :
    ∃ w', World.removeEntity order id w = (w', .ok ()) ∧ ∀ k a b, madeGroup (ofKind k) a b tr = true →
      batchSince (ofKind k) a b tr = false →
      (k = .non → disturbed a b tr = false ∧
        lastValue a id tr = none ∧ lastValue b id tr = none) →
      ∀ ma mb, (a ≠ b ∨ (ma = .ref ∧ mb = .ref)) → ∃ l, Yields w' (.group k ma mb a b) l ∧
        Lists l (fun x => if x = id then none else bothOf (lastValue a x tr) (lastValue b x tr)) := by
  obtain ⟨w', h1, _⟩ := C13_remove h hid ho
  refine ⟨w', h1, fun k a b hg hb hk ma mb hab => ?_⟩
  have hx : exec (.removeEntity order id) w = (w', .ok .unit) := by
    show (World.removeEntity order id >>= fun _ => pure Out.unit) w = _
    rw [bind_pure_ok]; exact ⟨(), h1, rfl⟩
  have ht := Trace.ok h (op := .removeEntity order id) ⟨h.usable hid, ho, fun _ => hs⟩ hx
  obtain ⟨l, l1, l2⟩ := ht.group_yields (k := k) (ma := ma) (mb := mb) hg hb
    (fun e => by
      obtain ⟨m1, m4, m5⟩ := hk e
      simp [disturbed, m1, m4, m5]) hab
  refine ⟨l, l1, l2.1, fun x y => ?_⟩
  rw [l2.2]
  simp only [lastValue]
  by_cases hxi : x = id
  · subst hxi; simp [bothOf]
  · rw [if_neg hxi, if_neg (fun e => hxi e.symm), if_neg (fun e => hxi e.symm)]

example : ∃ w', World.removeEntity [4, 3, 2, 1] 1 Demo.groupW = (w', .ok ()) ∧ ∃ l, Yields w' (.group .part .ref .ref 1 2) l ∧
    (5, .pair (.leaf 51) (.leaf 52)) ∈ l ∧ ∀ x, (1, x) ∉ l := by
  obtain ⟨w', h1, h2⟩ := C21_groups_partial Demo.groupTrace (id := 1) (order := [4, 3, 2, 1]) (by decide +kernel) (by decide +kernel)
    (orderOk_iff (op := .removeEntity [4, 3, 2, 1] 1) (by decide +kernel))
  obtain ⟨l, l1, l2⟩ := h2 .part 1 2 (by decide +kernel) (by decide +kernel) (by decide) .ref .ref (.inl (by decide))
  refine ⟨w', h1, l, l1, (l2.2 5 _).2 (by decide +kernel), fun x hx => ?_⟩
  have := (l2.2 1 x).1 hx
  simp at this

/-- Removing entity 5, which has neither 3 nor 4, leaves the non-owning group over 3 and 4 intact. -/
example : ∃ w', World.removeEntity [4, 3, 2, 1] 5 Demo.groupW = (w', .ok ()) ∧ ∃ l, Yields w' (.group .non .ref .ref 3 4) l ∧
    (4, .pair (.leaf 99) (.leaf 44)) ∈ l := by
  obtain ⟨w', h1, h2⟩ := C21_groups_partial Demo.groupTrace (id := 5) (order := [4, 3, 2, 1]) (by decide +kernel) (by decide +kernel)
    (orderOk_iff (op := .removeEntity [4, 3, 2, 1] 5) (by decide +kernel))
  obtain ⟨l, l1, l2⟩ := h2 .non 3 4 (by decide +kernel) (by decide +kernel) (fun _ => by decide +kernel) .ref .ref (.inl (by decide))
  exact ⟨w', h1, l, l1, (l2.2 4 _).2 (by decide +kernel)⟩

/-! ### C22: group queries agree with plain queries -/

/-- A group query whose group is not affected by the known defects yields, up to order, what the plain tuple
query over the same two components yields. -/
theorem C22_agree (h : Trace tr w) {k : Kind} {a b : EntityId} {ma mb : Mode}
    (hg : madeGroup (ofKind k) a b tr = true) (hb : batchSince (ofKind k) a b tr = false)
    (hu : k = .non → disturbed a b tr = false)
    (hc : a ≠ b ∨ (ma = .ref ∧ mb = .ref)) :
    ∃ l l', Yields w (.group k ma mb a b) l ∧ Yields w (.with2 (.comp ma a) (.comp mb b)) l' ∧ l.Perm l' := by
  obtain ⟨h1, h2, _⟩ := h.made_registered hg
  obtain ⟨l, y1, y2⟩ := h.group_yields (k := k) (ma := ma) (mb := mb) hg hb hu hc
  have hcl : (Query.with2 (.comp ma a) (.comp mb b)).Conflictless := group_conflictless (k := k) hc
  obtain ⟨w0, s, pc, pg, hs, hq⟩ := (Ready.plain (q := .with2 (.comp ma a) (.comp mb b)) h.any h.live.1 ⟨trivial, trivial⟩ ⟨h1, h2⟩).setup
  obtain ⟨l', z1, z2, _⟩ := hs.yieldsList hq hcl
  refine ⟨l, l', y1, z1, y2.perm ?_⟩
  refine ⟨z2.1, fun id x => ?_⟩
  rw [z2.2]
  simp only [Query.answer, values]
  cases lastValue a id tr <;> cases lastValue b id tr <;> rfl

example : ∃ l l', Yields Demo.groupW (.group .part .mut .ref 1 2) l ∧
    Yields Demo.groupW (.with2 (.comp .mut 1) (.comp .ref 2)) l' ∧ l.Perm l' :=
  C22_agree Demo.groupTrace (k := .part) (by decide +kernel) (by decide +kernel) (by decide) (.inl (by decide))

example : ∃ l l', Yields Demo.groupW (.group .non .ref .ref 3 4) l ∧
    Yields Demo.groupW (.with2 (.comp .ref 3) (.comp .ref 4)) l' ∧ l.Perm l' :=
  C22_agree Demo.groupTrace (k := .non) (by decide +kernel) (by decide +kernel) (fun _ => by decide +kernel) (.inl (by decide))

end Xecs
