import Verif.Proofs.Storage
/-
Group queries after disciplined histories.
-/
set_option autoImplicit false
namespace Xecs
open Spec World Hist
variable {V : Type} {tr : List (Op V × Out V)} {w w' : World V}

theorem group_conflictless {k : Kind} {ma mb : Mode} {a b : Nat} (hm : a ≠ b ∨ (ma = .ref ∧ mb = .ref)) :
    (Query.group k ma mb a b).Conflictless := by
  simp only [Query.Conflictless, Query.accesses, List.pairwise_cons, List.mem_cons, List.not_mem_nil, or_false,
    Query.Clash, List.Pairwise.nil, and_true, false_implies, implies_true, forall_eq, not_and, not_or]
  rcases hm with h | ⟨rfl, rfl⟩
  · exact fun h' => absurd h' h
  · exact fun _ => ⟨by simp, by simp⟩

/-- Groups were made over registered types. -/
theorem Trace.made_registered (h : Trace tr w) : ∀ {k : SKind} {a b : Nat}, madeGroup k a b tr = true →
    registered a tr = true ∧ registered b tr = true ∧ (k ≠ .non → a ≠ b) := by
  induction h with
  | init => intro k a b h; simp [madeGroup] at h
  | fails _ _ _ ih => exact ih
  | ok hprev ha he ih =>
    rename_i tr w w' op o
    intro k a b h
    cases op with
    | makeGroup k' a' b' =>
      simp only [madeGroup, Bool.or_eq_true, Bool.and_eq_true, beq_iff_eq] at h
      rcases h with ⟨⟨rfl, rfl⟩, rfl⟩ | h
      · exact ha
      · exact ih h
    | register t =>
      obtain ⟨h1, h2, h3⟩ := ih h
      exact ⟨by simp [registered, h1], by simp [registered, h2], h3⟩
    | _ => exact ih h

theorem Mixed.made_registered (h : Mixed tr w) {k : SKind} {a b : Nat} (hm : madeGroup k a b tr = true) :
    registered a tr = true ∧ registered b tr = true ∧ (k ≠ .non → a ≠ b) := by
  obtain ⟨u, _, _, ht, _⟩ := h.kin
  exact ht.made_registered hm

theorem Trace.group_yields (h : Trace tr w) {k : Kind} {ma mb : Mode} {a b : Nat}
    (hg : madeGroup (ofKind k) a b tr = true) (hb : batchSince (ofKind k) a b tr = false)
    (hu : k = .non → disturbed a b tr = false)
    (hm : a ≠ b ∨ (ma = .ref ∧ mb = .ref)) :
    ∃ l, Yields w (.group k ma mb a b) l ∧ Lists l (fun id => bothOf (lastValue a id tr) (lastValue b id tr)) := by
  obtain ⟨h1, h2, _⟩ := h.made_registered hg
  obtain ⟨w0, s, pc, pg, hs, hq⟩ := (Ready.grouped (q := .group k ma mb a b) h ⟨h1, h2, hg⟩ hu hb).setup
  obtain ⟨l, y1, y2, _⟩ := hs.yieldsList hq (group_conflictless hm)
  exact ⟨l, y1, y2⟩

/-- Also when batch attaches bypassed the group, its query is sound. -/
theorem Trace.group_sound (h : Trace tr w) {k : Kind} {ma mb : Mode} {a b : Nat}
    (hg : madeGroup (ofKind k) a b tr = true)
    (hu : k = .non → disturbed a b tr = false)
    (hm : a ≠ b ∨ (ma = .ref ∧ mb = .ref)) :
    ∃ (l : List (Nat × Item V)), Yields w (.group k ma mb a b) l ∧ (l.map Prod.fst).Nodup ∧
      (∀ x ∈ l, bothOf (lastValue a x.1 tr) (lastValue b x.1 tr) = some x.2) ∧
      (∀ s, Run tr w s → ∀ id, id ∈ l.map Prod.fst ↔ (s.yields (.group k ma mb a b) id).isSome = true) := by
  obtain ⟨h1, h2, _⟩ := h.made_registered hg
  obtain ⟨s, hr⟩ := h.run
  let q : Query := .group k ma mb a b
  have hd : s.Defined q := (run_defined hr q).2 ⟨h1, h2, hg⟩
  have hf : s.FreshIn q := run_fresh hr hu
  obtain ⟨n1, n2⟩ := rest_spec hr.rel.core q hd
  have hall := queryAll_eq hr.rel.core q hd hf (group_conflictless hm)
  let g : Nat → Option (Nat × Item V) := fun id => (s.yields q id).map fun x => (id, x)
  have hpt : ∀ id v, s.yields q id = some v → s.point q id = some v := by
    intro id v hv
    cases k <;> simp only [q, State.yields, State.point] at hv ⊢ <;> split at hv <;> simp_all
  have key : ∀ l : List Nat, (∀ id ∈ l, (s.yields q id).isSome = true) → (l.filterMap g).map Prod.fst = l ∧
      l.map (fun id => (id, w.derefItem (place w id q))) = (l.filterMap g).map fun x => (x.1, some x.2) := by
    intro l
    induction l with
    | nil => intro _; exact ⟨rfl, rfl⟩
    | cons id l ih =>
      intro hl
      obtain ⟨v, hv⟩ := Option.isSome_iff_exists.1 (hl id (by simp))
      obtain ⟨i1, i2⟩ := ih (fun x hx => hl x (by simp [hx]))
      have : g id = some (id, v) := by simp [g, hv]
      simp only [List.filterMap_cons, this, List.map_cons, i1, i2, place_deref hr.rel.core q (hpt id v hv), and_self]
  obtain ⟨g1, g2⟩ := key (rest w s q 0) (fun id hid => (n2 id).1 hid)
  refine ⟨(rest w s q 0).filterMap g, ?_, by rw [g1]; exact n1, ?_, ?_⟩
  · simp only [Yields, World.results, hall, q, ok_bind, List.map_map]
    rw [← g2]; rfl
  · intro x hx
    obtain ⟨id, _, hx⟩ := List.mem_filterMap.1 hx
    simp only [g, Option.map_eq_some_iff] at hx
    obtain ⟨v, hv, rfl⟩ := hx
    exact point_pos hr hv
  · intro s' hr' id
    rw [g1]
    obtain ⟨m1, m2⟩ := rest_spec hr'.rel.core q ((run_defined hr' q).2 ⟨h1, h2, hg⟩)
    have e := queryAll_eq hr'.rel.core q ((run_defined hr' q).2 ⟨h1, h2, hg⟩) (run_fresh hr' hu) (group_conflictless hm)
    rw [hall] at e
    simp only [Except.ok.injEq] at e
    have e2 : rest w s q 0 = rest w s' q 0 := by
      have := congrArg (List.map Prod.fst) e
      simpa [List.map_map, Function.comp_def] using this
    rw [e2, m2]

/-- Also when batch attaches bypassed the group, its query yields exactly those who joined it. -/
theorem Trace.group_exact (h : Trace tr w) {k : Kind} {ma mb : Mode} {a b : Nat}
    (hg : madeGroup (ofKind k) a b tr = true) (hu : k = .non → disturbed a b tr = false)
    (hm : a ≠ b ∨ (ma = .ref ∧ mb = .ref)) :
    ∃ (l : List (Nat × Item V)), Yields w (.group k ma mb a b) l ∧
      Lists l (fun id => if joined (ofKind k, a, b) id tr then bothOf (lastValue a id tr) (lastValue b id tr) else none) := by
  obtain ⟨l, l1, l2, l3, l4⟩ := h.group_sound (ma := ma) (mb := mb) hg hu hm
  obtain ⟨s, hr⟩ := h.run
  have hmem : ∀ id, s.member k a b id = joined (ofKind k, a, b) id tr := by
    intro id
    have hs := group?_isSome hr k a b
    rw [hg] at hs
    obtain ⟨g, hg'⟩ := Option.isSome_iff_exists.1 hs
    have hm' := List.mem_of_find?_eq_some hg'
    have he := List.find?_some hg'
    simp only [Bool.and_eq_true, beq_iff_eq] at he
    obtain ⟨⟨ek, rfl⟩, rfl⟩ := he
    simp only [State.member, hg', (run_joined hr g hm').1 id, tag, ek]
  have hin : ∀ id, id ∈ l.map Prod.fst ↔ joined (ofKind k, a, b) id tr = true ∧
      (bothOf (lastValue a id tr) (lastValue b id tr)).isSome = true := by
    intro id
    rw [l4 s hr id]
    simp only [State.yields, hmem]
    have e : (s.pairOf a b id).isSome = (bothOf (lastValue a id tr) (lastValue b id tr)).isSome := by
      rw [pairOf_isSome, State.has, State.has, run_get hr, run_get hr]
      cases lastValue a id tr <;> cases lastValue b id tr <;> rfl
    cases joined (ofKind k, a, b) id tr <;> simp [e]
  refine ⟨l, l1, l2, fun id x => ⟨fun hx => ?_, fun hx => ?_⟩⟩
  · have h1 := (hin id).1 (List.mem_map.2 ⟨_, hx, rfl⟩)
    dsimp only
    rw [if_pos h1.1]
    exact l3 _ hx
  · dsimp only at hx
    split at hx
    · rename_i hj
      obtain ⟨⟨i, y⟩, hy, rfl⟩ := List.mem_map.1 ((hin id).2 ⟨hj, by rw [hx]; rfl⟩)
      have := l3 _ hy
      simp only [hx, Option.some.injEq] at this
      rw [this]; exact hy
    · cases hx

theorem Lists.perm {α : Type} {f : Nat → Option α} {l l' : List (Nat × α)} (h : Lists l f) (h' : Lists l' f) : l.Perm l' := by
  have nd : ∀ {l : List (Nat × α)}, (l.map Prod.fst).Nodup → l.Nodup := by
    intro l hl
    rw [List.Nodup, List.pairwise_map] at hl
    exact hl.imp (fun hne e => hne (by rw [e]))
  rw [List.perm_ext_iff_of_nodup (nd h.1) (nd h'.1)]
  intro x; rw [h.2, h'.2]

end Xecs
