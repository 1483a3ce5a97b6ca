import Verif.Proofs.Reorder
import Verif.Props.Phases
/-
C70: operations on different entities can be reordered.
-/
set_option autoImplicit false
namespace Xecs
open Spec World Hist
variable {V : Type}

theorem Reordered.value {l l' tr : List (Op V × Out V)} (h : Reordered l l') (t id : Nat) :
    lastValue t id (l' ++ tr) = lastValue t id (l ++ tr) := by
  rw [doneTo_lastValue h.1, doneTo_lastValue h.2.1, h.2.2]

theorem Reordered.alive {l l' tr : List (Op V × Out V)} (h : Reordered l l') (id : Nat) :
    Hist.alive id (l' ++ tr) = Hist.alive id (l ++ tr) := by
  rw [doneTo_alive h.1, doneTo_alive h.2.1, h.2.2]

theorem Reordered.mem {l l' : List (Op V × Out V)} (h : Reordered l l') (x : Op V × Out V) : x ∈ l ↔ x ∈ l' := by
  have key : ∀ {l l' : List (Op V × Out V)}, Reordered l l' → x ∈ l → x ∈ l' := by
    intro l l' h hx
    obtain ⟨id, he⟩ := entity_of_movable (h.1 x hx)
    have : x ∈ doneTo id l := List.mem_filter.2 ⟨hx, by simp [he]⟩
    rw [h.2.2] at this
    exact (List.mem_filter.1 this).1
  exact ⟨key h, key ⟨h.2.1, h.1, fun id => (h.2.2 id).symm⟩⟩

theorem movable_highest {t x : Nat} {tr : List (Op V × Out V)} : ∀ {l : List (Op V × Out V)}, (∀ x ∈ l, Movable x) →
    (x < highest t (l ++ tr) ↔ x < highest t tr ∨ ∃ id v o, (.attach id t v, o) ∈ l ∧ x < id + 1)
  | [], _ => by simp
  | (op, o) :: l, h => by
    have ih := movable_highest (t := t) (x := x) (tr := tr) (l := l) fun x hx => h x (.tail _ hx)
    have hm := h _ (.head _)
    cases op with
    | attach id t' v =>
      simp only [List.cons_append, highest]
      by_cases ht : t' = t
      · subst ht
        rw [if_pos rfl, show ∀ a b : Nat, x < max a b ↔ x < a ∨ x < b from fun a b => by omega, ih]
        constructor
        · rintro ((h1 | ⟨i, v', o', h1, h2⟩) | h1)
          · exact .inl h1
          · exact .inr ⟨i, v', o', .tail _ h1, h2⟩
          · exact .inr ⟨id, v, o, .head _, h1⟩
        · rintro (h1 | ⟨i, v', o', h1, h2⟩)
          · exact .inl (.inl h1)
          · rcases List.mem_cons.1 h1 with h1 | h1
            · cases h1; exact .inr h2
            · exact .inl (.inr ⟨i, v', o', h1, h2⟩)
      · rw [if_neg ht, ih]
        constructor
        · rintro (h1 | ⟨i, v', o', h1, h2⟩)
          · exact .inl h1
          · exact .inr ⟨i, v', o', .tail _ h1, h2⟩
        · rintro (h1 | ⟨i, v', o', h1, h2⟩)
          · exact .inl h1
          · rcases List.mem_cons.1 h1 with h1 | h1
            · cases h1; exact absurd rfl ht
            · exact .inr ⟨i, v', o', h1, h2⟩
    | _ =>
      first
      | exact hm.elim
      | (simp only [List.cons_append, highest]
         rw [ih]
         constructor
         · rintro (h1 | ⟨i, v', o', h1, h2⟩)
           · exact .inl h1
           · exact .inr ⟨i, v', o', .tail _ h1, h2⟩
         · rintro (h1 | ⟨i, v', o', h1, h2⟩)
           · exact .inl h1
           · rcases List.mem_cons.1 h1 with h1 | h1
             · cases h1
             · exact .inr ⟨i, v', o', h1, h2⟩)

theorem movable_rest {tr : List (Op V × Out V)} : ∀ {l : List (Op V × Out V)}, (∀ x ∈ l, Movable x) →
    (∀ id, handedOut id (l ++ tr) = handedOut id tr) ∧ (∀ t, lastResource t (l ++ tr) = lastResource t tr) ∧
    recyclable (l ++ tr) = removedIds l ++ recyclable tr
  | [], _ => ⟨fun _ => rfl, fun _ => rfl, rfl⟩
  | (op, o) :: l, h => by
    obtain ⟨h1, h2, h3⟩ := movable_rest (tr := tr) (l := l) fun x hx => h x (.tail _ hx)
    have hm := h _ (.head _)
    cases op with
    | removeEntity order id =>
      refine ⟨h1, h2, ?_⟩
      simp only [List.cons_append, recyclable, h3, removedIds, List.filterMap_cons]
    | _ => first | exact hm.elim | exact ⟨h1, h2, h3⟩

/-- The two outcomes cannot be told apart (unless the specification leaves one of them open). -/
def Outcome.alike : Outcome V → Outcome V → Prop
  | .unspecified, _ => True
  | _, .unspecified => True
  | .ok _ o, .ok _ o' => o = o'
  | .panics, .panics => True
  | _, _ => False

theorem Outcome.alike_iff {a b : Outcome V} (h : Outcome.alike a b) (h1 : a ≠ .unspecified) (h2 : b ≠ .unspecified) :
    (∃ s1 s2 o, a = .ok s1 o ∧ b = .ok s2 o) ∨ (a = .panics ∧ b = .panics) := by
  cases a with
  | ok s o =>
    cases b with
    | ok s' o' => cases h; exact .inl ⟨_, _, _, rfl, rfl⟩
    | panics => exact h.elim
    | unspecified => exact absurd rfl h2
  | panics =>
    cases b with
    | ok s' o' => exact h.elim
    | panics => exact .inr ⟨rfl, rfl⟩
    | unspecified => exact absurd rfl h2
  | unspecified => exact absurd rfl h1

theorem Outcome.alike_left {b : Outcome V} : Outcome.alike .unspecified b := trivial
theorem Outcome.alike_right {a : Outcome V} : Outcome.alike a .unspecified := by cases a <;> trivial

theorem Outcome.alike_ite {c : Prop} [d : Decidable c] {a b a' b' : Outcome V} (h1 : Outcome.alike a a') (h2 : Outcome.alike b b') :
    Outcome.alike (if c then a else b) (if c then a' else b') := by
  by_cases h : c
  · rw [if_pos h, if_pos h]; exact h1
  · rw [if_neg h, if_neg h]; exact h2

/-- What one can tell apart by calls other than `make_group` depends on these parts of a state. -/
theorem step_alike_but {s s' : State V} (hn : s'.next = s.next) (hf : s'.free = s.free) (hc : s'.comp = s.comp) (hh : s'.hw = s.hw)
    (hr : s'.res = s.res) (op : Op V) (hg : ∀ k a b, op ≠ .makeGroup k a b) : Outcome.alike (s.step op) (s'.step op) := by
  obtain ⟨n, fr, c, hw, g, r⟩ := s
  obtain ⟨n', fr', c', hw', g', r'⟩ := s'
  simp only at hn hf hc hh hr
  subst hn hf hc hh hr
  cases op with
  | makeGroup k a b => exact absurd rfl (hg k a b)
  | removeEntity order id =>
    refine Outcome.alike_ite ?_ (Outcome.alike_ite trivial trivial)
    by_cases h1 : State.orderSafe id g = true
    · dsimp only; rw [if_pos h1]
      by_cases h2 : State.orderSafe id g' = true
      · rw [if_pos h2]; rfl
      · rw [if_neg h2]; exact Outcome.alike_right
    · dsimp only; rw [if_neg h1]; exact Outcome.alike_left
  | register t => simp only [State.step]; cases c' t <;> first | rfl | trivial
  | createEntity => simp only [State.step]; cases fr' <;> rfl
  | createEntities k => rfl
  | exist id => exact Outcome.alike_ite rfl (Outcome.alike_ite trivial (Outcome.alike_ite rfl trivial))
  | attach id t v =>
    refine Outcome.alike_ite ?_ (Outcome.alike_ite trivial trivial)
    dsimp only
    cases c' t <;> first | trivial | rfl
  | detach id t =>
    refine Outcome.alike_ite ?_ (Outcome.alike_ite trivial trivial)
    dsimp only
    cases c' t with
    | none => trivial
    | some f =>
      dsimp only
      cases f id with
      | some v => rfl
      | none => exact Outcome.alike_ite trivial rfl
  | attachBatch start stop t vs =>
    refine Outcome.alike_ite (Outcome.alike_ite ?_ trivial) trivial
    dsimp only
    cases c' t with
    | none => trivial
    | some f => exact Outcome.alike_ite rfl trivial
  | read t id => rfl
  | write t id v =>
    simp only [State.step]
    cases c' t with
    | none => rfl
    | some f => dsimp only; cases f id <;> rfl
  | count t => simp only [State.step]; cases c' t <;> rfl
  | registerResource t v => rfl
  | resourceRead t => rfl
  | resourceWrite t v => simp only [State.step]; cases r' t <;> rfl

/-- What one can tell apart by calls depends on these parts of a state. -/
theorem step_alike {s s' : State V} (hn : s'.next = s.next) (hf : s'.free = s.free) (hc : s'.comp = s.comp) (hh : s'.hw = s.hw)
    (hg : s'.groups.map tag = s.groups.map tag) (hr : s'.res = s.res) (op : Op V) : Outcome.alike (s.step op) (s'.step op) := by
  cases op with
  | makeGroup k a b =>
    obtain ⟨n, fr, c, hw, g, r⟩ := s
    obtain ⟨n', fr', c', hw', g', r'⟩ := s'
    simp only at hn hf hc hh hg hr
    subst hn hf hc hh hr
    have same : ∀ (P : SKind × Nat × Nat → Bool) (Q : SGroup → Bool), (∀ x, Q x = P (tag x)) → g'.any Q = g.any Q := by
      intro P Q hq
      have : ∀ l : List SGroup, l.any Q = (l.map tag).any P := by
        intro l; rw [List.any_map]; congr 1; funext x; exact hq x
      rw [this, this, hg]
    simp only [State.step]
    have e : _ = g.any (fun g => (g.kind == k && g.a == a && g.b == b) ||
        (g.owns a && (SGroup.mk k a b (fun _ => false) false).owns a) ||
        (g.owns b && (SGroup.mk k a b (fun _ => false) false).owns b)) := same (fun x => (x.1 == k && x.2.1 == a && x.2.2 == b) ||
        ((SGroup.mk x.1 x.2.1 x.2.2 (fun _ => false) false).owns a && (SGroup.mk k a b (fun _ => false) false).owns a) ||
        ((SGroup.mk x.1 x.2.1 x.2.2 (fun _ => false) false).owns b && (SGroup.mk k a b (fun _ => false) false).owns b)) _ (fun x => rfl)
    rw [e]
    split
    · trivial
    · split
      · trivial
      · rfl
  | _ => exact step_alike_but hn hf hc hh hr _ (by rintro _ _ _ ⟨⟩)

/-- The component maps of the specification are determined by the history. -/
theorem run_comp_eq {tr tr' : List (Op V × Out V)} {w w' : World V} {s1 s2 : State V} (e1 : Run tr w s1) (e2 : Run tr' w' s2)
    (hreg : ∀ t, registered t tr' = registered t tr) (hv : ∀ t id, lastValue t id tr' = lastValue t id tr) : s2.comp = s1.comp := by
  funext t
  have h1 : (s2.comp t).isSome = (s1.comp t).isSome := by rw [run_registered e1, run_registered e2, hreg]
  have h2 : ∀ id, s2.get t id = s1.get t id := fun id => by rw [run_get e1, run_get e2, hv]
  simp only [State.get] at h2
  cases h3 : s1.comp t with
  | none => rw [h3] at h1; simpa using h1
  | some f =>
    rw [h3] at h1 h2
    cases h4 : s2.comp t with
    | none => rw [h4] at h1; cases h1
    | some f' => rw [h4] at h2; exact congrArg some (funext h2)

/-- The next id of the specification is determined by the history. -/
theorem run_next_eq {tr tr' : List (Op V × Out V)} {w w' : World V} {s1 s2 : State V} (e1 : Run tr w s1) (e2 : Run tr' w' s2)
    (hh : ∀ id, handedOut id tr' = handedOut id tr) : s2.next = s1.next := by
  obtain ⟨_, p1, p2, _⟩ := run_em e1
  obtain ⟨_, q1, q2, _⟩ := run_em e2
  have h3 : ∀ id, (0 < id ∧ id < s1.next) ↔ (0 < id ∧ id < s2.next) := by
    intro id; rw [← p2, ← q2, hh]
  have h4 := h3 s1.next
  have h5 := h3 s2.next
  omega

theorem Hist.Parts.mono {pc pc' : TypeId → Prop} {pg pg' : Kind → TypeId → TypeId → Prop} (h1 : ∀ t, pc t → pc' t)
    (h2 : ∀ k a b, pg k a b → pg' k a b) (q : Query) : Parts pc pg q → Parts pc' pg' q := by
  induction q <;> simp only [Parts] <;> grind

section
variable {tr l l' : List (Op V × Out V)} {w w1 : World V}

/-- **C70**. After any history, let a single owner make calls on entities: attach, detach what is there, read, write, ask
for existing entities, remove. The same calls in another order, in which the calls on each entity still come in
the same order, return the same values, and lead to a world in which every entity has the same components and the same
entities exist. -/
theorem C70_reorder (ht : Trace tr w) (hl : Continues tr w l w1) (hr : Reordered l l') :
    ∃ w2, Continues tr w l' w2 ∧
      (∀ t id, (World.componentRead t id w2).2 = (World.componentRead t id w1).2) ∧
      (∀ id, id ∈ w2.em.entities ↔ id ∈ w1.em.entities) := by
  obtain ⟨w2, h2⟩ := hl.reorder ht hr.1 l' hr.2.1 fun id => ⟨[], by rw [hr.2.2 id]; rfl⟩
  have t1 := hl.trace ht
  have t2 := h2.trace ht
  refine ⟨w2, h2, fun t id => ?_, fun id => ?_⟩
  · rw [((C54_state (.of_trace t2)).1 t id).1, ((C54_state (.of_trace t1)).1 t id).1, hr.value]
  · rw [C42_listing (.of_any t2.any) t2.live.2.1, C42_listing (.of_any t1.any) t1.live.2.1, hr.alive]

/-- **C70**: and every query whose non-owning groups, if any, are not affected by the known defect (`Unmoved`) yields the same entities with the same components (in some
order). -/
theorem C70_queries (ht : Trace tr w) (hl : Continues tr w l w1) (hr : Reordered l l') {w2 : World V}
    (hl' : Continues tr w l' w2) {q : Query} (he : Exists tr q) (hn : Unmoved (l ++ tr) q)
    (hn' : Unmoved (l' ++ tr) q) (hb : Unbatched tr q) (hc : q.Conflictless) :
    ∃ r1 r2, Yields w1 q r1 ∧ Yields w2 q r2 ∧ r1.Perm r2 := by
  have t1 := hl.trace ht
  have t2 := hl'.trace ht
  have ex : ∀ {k : List (Op V × Out V)}, (∀ x ∈ k, Movable x) → Exists (k ++ tr) q ∧ Hist.Unbatched (k ++ tr) q := by
    intro k hk
    obtain ⟨_, m2, m3, m4⟩ := movable_groups (tr := tr) hk
    exact ⟨Parts.mono (fun t h => by rw [m2]; exact h) (fun k a b h => by rw [m2, m2, m3]; exact h) q he,
      Parts.mono (fun t h => h) (fun k a b h => by rw [m4]; exact h) q hb⟩
  obtain ⟨r1, y1, s1⟩ := C54_queries (.of_trace t1) (ex hr.1).1 hn (ex hr.1).2 hc
  obtain ⟨r2, y2, s2⟩ := C54_queries (.of_trace t2) (ex hr.2.1).1 hn' (ex hr.2.1).2 hc
  have : values (l' ++ tr) = values (l ++ tr) := by
    funext t id; exact hr.value t id
  rw [this] at s2
  exact ⟨r1, r2, y1, y2, s1.perm s2⟩

/-- **C70**: if the removals come in the same order in both, then whatever call (that the histories allow) comes next, it
returns the same value, or panics, in both. (The order of removals shows: removed ids are handed out again, the latest first.) -/
theorem C70_future (ht : Trace tr w) (hl : Continues tr w l w1) (hr : Reordered l l') {w2 : World V}
    (hl' : Continues tr w l' w2) (he : removedIds l = removedIds l') (op : Op V) (ha : Allowed (l ++ tr) op) :
    Allowed (l' ++ tr) op ∧ (exec op w2).2 = (exec op w1).2 := by
  obtain ⟨s1, e1⟩ := (hl.trace ht).run
  obtain ⟨s2, e2⟩ := (hl'.trace ht).run
  obtain ⟨a1, a2, a3, a4⟩ := movable_groups (tr := tr) hr.1
  obtain ⟨b1, b2, b3, b4⟩ := movable_groups (tr := tr) hr.2.1
  obtain ⟨c1, c2, c3⟩ := movable_rest (tr := tr) hr.1
  obtain ⟨d1, d2, d3⟩ := movable_rest (tr := tr) hr.2.1
  have hrec : recyclable (l' ++ tr) = recyclable (l ++ tr) := by rw [c3, d3, he]
  have hus : ∀ id, Usable id (l ++ tr) → Usable id (l' ++ tr) := by
    intro id h; rw [Usable, hrec]; exact h
  have hreg : ∀ t, registered t (l' ++ tr) = registered t (l ++ tr) := fun t => by rw [a2, b2]
  have ha' : Allowed (l' ++ tr) op := by
    cases op with
    | exist id => exact hus _ ha
    | attach id t v => exact hus _ ha
    | detach id t => exact hus _ ha
    | removeEntity order id =>
      refine ⟨hus _ ha.1, ⟨ha.2.1.1, fun t => by rw [hreg]; exact ha.2.1.2 t⟩, fun hv => ?_⟩
      rw [hr.alive] at hv
      have := ha.2.2 hv
      unfold RemoveSafe at this ⊢
      rw [b1, ← a1]
      simp only [hr.value]
      exact this
    | attachBatch start stop t vs =>
      exact ⟨ha.1, fun x h1 h2 => by rw [hr.alive]; exact ha.2.1 x h1 h2,
        fun h0 x h1 h2 => by rw [hr.value]; exact ha.2.2 h0 x h1 h2⟩
    | makeGroup k a b => exact ⟨by rw [hreg]; exact ha.1, by rw [hreg]; exact ha.2.1, ha.2.2⟩
    | _ => trivial
  refine ⟨ha', ?_⟩
  obtain ⟨f1, f2⟩ := allowed_spec e1 ha
  obtain ⟨g1, g2⟩ := allowed_spec e2 ha'
  have hnext : s2.next = s1.next := run_next_eq e1 e2 fun id => by rw [c1, d1]
  have hcomp : s2.comp = s1.comp := run_comp_eq e1 e2 hreg hr.value
  have hhw : s2.hw = s1.hw := by
    funext t
    rw [run_hw e1, run_hw e2]
    have key : ∀ x, x < highest t (l' ++ tr) ↔ x < highest t (l ++ tr) := by
      intro x
      rw [movable_highest hr.1, movable_highest hr.2.1]
      simp only [hr.mem]
    have h1 := key (highest t (l ++ tr))
    have h2 := key (highest t (l' ++ tr))
    omega
  rcases Outcome.alike_iff (step_alike hnext (by rw [(run_em e1).1, (run_em e2).1, hrec]) hcomp hhw
    (by rw [run_tags e1, run_tags e2, a1, b1]) (by funext t; rw [run_res e1, run_res e2, c2, d2]) op) f2 g2 with
    ⟨x1, x2, o, h1, h2⟩ | ⟨h1, h2⟩
  · obtain ⟨v1, k1, _⟩ := step_ok e1.rel f1 h1
    obtain ⟨v2, k2, _⟩ := step_ok e2.rel g1 h2
    rw [k1, k2]
  · rw [step_panics e1.rel f1 h1, step_panics e2.rel g1 h2]

end

/-- Executable form of `Continues`. -/
def continues [DecidableEq V] (tr : List (Op V × Out V)) (w : World V) : List (Op V × Out V) → Option (World V)
  | [] => some w
  | (op, o) :: l => (continues tr w l).bind fun w1 =>
    if Hist.allowed (l ++ tr) op && decide ((exec op w1).2 = .ok o) then some (exec op w1).1 else none

theorem continues_ok [DecidableEq V] {tr : List (Op V × Out V)} {w : World V} : ∀ {l : List (Op V × Out V)} {w1 : World V},
    continues tr w l = some w1 → Continues tr w l w1
  | [], w1, h => by cases h; exact .nil
  | (op, o) :: l, w2, h => by
    obtain ⟨w1, h1, h2⟩ := Option.bind_eq_some_iff.1 h
    split at h2
    · next hc =>
      simp only [Bool.and_eq_true, decide_eq_true_eq] at hc
      cases h2
      exact .cons (continues_ok h1) (allowed_iff hc.1) (by rw [← hc.2])
    · cases h2

theorem continues_get [DecidableEq V] {tr : List (Op V × Out V)} {w : World V} {l : List (Op V × Out V)}
    (h : (continues tr w l).isSome = true) : Continues tr w l ((continues tr w l).get h) :=
  continues_ok (Option.eq_some_of_isSome h)

namespace Demo

/-- Two entities are worked on, one after the other: one gets out of the partial-owning group and back in and is
read, the other loses a component, then is removed; a third gets a component. (Latest first.) -/
def reorderA : List (Op Nat × Out Nat) :=
  [(.attach 4 1 41, .unit), (.removeEntity [1, 2, 3, 4] 5, .unit), (.detach 5 2, .val (some 52)), (.exist 5, .bool true),
   (.read 2 1, .val (some 13)), (.attach 1 2 13, .unit), (.detach 1 2, .val (some 12))]
/-- The same, interleaved. -/
def reorderB : List (Op Nat × Out Nat) :=
  [(.read 2 1, .val (some 13)), (.removeEntity [1, 2, 3, 4] 5, .unit), (.attach 1 2 13, .unit), (.detach 5 2, .val (some 52)),
   (.detach 1 2, .val (some 12)), (.exist 5, .bool true), (.attach 4 1 41, .unit)]

theorem reorderA_runs : (continues groupTr groupW reorderA).isSome = true := by decide +kernel
theorem reorderB_runs : (continues groupTr groupW reorderB).isSome = true := by decide +kernel

theorem reorderAB : Reordered reorderA reorderB := by
  refine ⟨by simp [reorderA, Movable], by simp [reorderB, Movable], fun id => ?_⟩
  by_cases h1 : id = 1
  · subst h1; decide +kernel
  · by_cases h4 : id = 4
    · subst h4; decide +kernel
    · by_cases h5 : id = 5
      · subst h5; decide +kernel
      · have : ∀ l : List (Op Nat × Out Nat), (∀ x ∈ l, x.1.entity = some 1 ∨ x.1.entity = some 4 ∨ x.1.entity = some 5) →
            doneTo id l = [] := by
          intro l hl
          refine List.filter_eq_nil_iff.2 fun x hx => ?_
          rcases hl x hx with h | h | h <;> rw [h] <;> simp <;> omega
        rw [this, this]
        · simp [reorderB, Op.entity]
        · simp [reorderA, Op.entity]

end Demo

example := C70_reorder Demo.groupTrace (continues_get Demo.reorderA_runs) Demo.reorderAB
example := C70_queries Demo.groupTrace (continues_get Demo.reorderA_runs) Demo.reorderAB (continues_get Demo.reorderB_runs)
  (q := .with2 (.group .part .mut .ref 1 2) (.comp .ref 4)) (by simp only [Hist.Exists, Parts]; decide +kernel)
  (NoNon.unmoved (by simp [NoNon, Parts])) (NoNon.unmoved (by simp [NoNon, Parts]))
  (by simp only [Hist.Unbatched, Parts]; decide +kernel) (by decide +kernel)
example := C70_future Demo.groupTrace (continues_get Demo.reorderA_runs) Demo.reorderAB (continues_get Demo.reorderB_runs)
  (by decide +kernel) .createEntity trivial

/-- The order of removals shows in the next id. -/
example : let a := [(.removeEntity [1, 2, 3, 4] 5, .unit), (.removeEntity [1, 2, 3, 4] 1, .unit)]
    let b := [(.removeEntity [1, 2, 3, 4] 1, .unit), (.removeEntity [1, 2, 3, 4] 5, .unit)]
    ((continues Demo.groupTr Demo.groupW a).map fun w => (exec .createEntity w).2) = some (.ok (.id 5)) ∧
    ((continues Demo.groupTr Demo.groupW b).map fun w => (exec .createEntity w).2) = some (.ok (.id 1)) := by decide +kernel

/-- Detaching what is not there cannot be moved: after the component was attached to entity 3, detaching it from entity 2
returns `None`; before, it panics (the array of indices ends just below 2). -/
theorem C70_absent : ∃ (tr : List (Op Nat × Out Nat)) (w : World Nat), Trace tr w ∧
    (continues tr w [(.detach 2 1, .val none), (.attach 3 1 31, .unit)]).isSome = true ∧ Hist.Allowed tr (.detach 2 1) ∧
    (exec (.detach 2 1) w).2 = .error .panic := by
  refine ⟨_, _, played_trace (V := Nat) [.register 1, .createEntities 3, .attach 1 1 11] (by decide +kernel),
    by decide +kernel, ⟨by decide, by decide +kernel⟩, by decide +kernel⟩

end Xecs
