import Verif.Proofs.Standstill
import Verif.Props.Deadlocks
/-
C40: where clients out of order deadlock, in every world.
-/
set_option autoImplicit false
namespace Xecs
open Spec World Hist
variable {V : Type} {w : World V} {tr : List (Op V × Out V)} {n : Nat} {order : List TypeId}

/-- Thread 0 makes only the call `c0`, thread 1 only `c1`, and no other thread makes any. -/
def Sys.justThese (c0 c1 : ApiCall V) (_ : Sys V) (i : Nat) (c : ApiCall V) : Prop := (i = 0 ∧ c = c0) ∨ (i = 1 ∧ c = c1)

theorem held_replicate : ∀ th ∈ List.replicate n (Thread.idle : Thread V), th.held = [] := by
  intro th h; rw [List.eq_of_mem_replicate h]; rfl

theorem call_replicate : ∀ th ∈ List.replicate n (Thread.idle : Thread V), th.call = none := by
  intro th h; rw [List.eq_of_mem_replicate h]; rfl

theorem config_registered {t : Nat} (ho : Enumerates w order) (h : w.hasRegistered t = true) :
    (Config.of w order).registered t = true := by
  rw [Config.registered, List.contains_iff_mem]
  exact (ho.2 t).2 h

theorem config_shape_at {j : Nat} {g : Group} (h : w.groups[j]? = some g) : (Config.of w order).groups[j]? = some g.shape := by
  simp only [Config.of, List.getElem?_map, h, Option.map_some]

theorem config_shape {i : Nat} {h : Shape} (hi : (Config.of w order).groups[i]? = some h) :
    ∃ g, w.groups[i]? = some g ∧ g.shape = h := by
  simpa only [Config.of, List.getElem?_map, Option.map_eq_some_iff] using hi

theorem modeA_mut_of {k : Kind} {a b : Nat} (h : k ≠ .non) : (Shape.mk k a b).modeA = .mut := by
  cases k <;> first | rfl | exact absurd rfl h

/-- **C40** fails in every world that has a group: a query on the group and a concurrent `attach` of a component of one of
its two types, to any entity alive, can deadlock (if the query or the group writes, and the group is the oldest with the
type). So `C40_divided_partial` must keep the types of queried groups apart from those of updated ones. -/
theorem C40_sharp_attach (h : Mixed tr w) (ho : Enumerates w order) {id : EntityId} (hid : id ∈ w.em.entities)
    {j : Nat} {g : Group} (hg : w.groups[j]? = some g) {t : TypeId} (ht : t = g.tyA ∨ t = g.tyB)
    (hfirst : ∀ (i : Nat) g', i < j → w.groups[i]? = some g' → t ≠ g'.tyA ∧ t ≠ g'.tyB) (hne : g.tyA ≠ g.tyB)
    (ha : w.hasRegistered g.tyA = true) (hb : w.hasRegistered g.tyB = true) {ma mb : Mode}
    (hm : g.kind ≠ .non ∨ ma = .mut ∨ mb = .mut) (v : V) :
    ∃ σ, (Sys.init w (n + 2)).Sched (Config.of w order)
        (Sys.justThese (.query (.group g.kind ma mb g.tyA g.tyB)) (.on id [.attach t v])) σ ∧ σ.Deadlock ∧ σ.log = [] := by
  obtain ⟨s, hr⟩ := h.origin
  have hmat := matches_of ho
  have hrt : (Config.of w order).registered t = true := by
    rcases ht with rfl | rfl
    · exact config_registered ho ha
    · exact config_registered ho hb
  have h0 : (Sys.init w (n + 2)).Sched (Config.of w order)
      (Sys.justThese (.query (.group g.kind ma mb g.tyA g.tyB)) (.on id [.attach t v])) (duo w .idle .idle (List.replicate n .idle)) := .refl
  have h1 := duo_start1 h0 (c := .on id [.attach t v]) fun σ => .inr ⟨rfl, rfl⟩
  have h2 := duo_acq1 held_replicate h1 rfl (by intro x hx; cases hx) (by intro x hx; cases hx)
  have h3 := duo_act1 h2 rfl (has_run hr.rel.em hid)
  simp only [Prog.script, Prog.attach, hrt, if_true] at h3
  have h4 := duo_acq1 held_replicate h3 rfl (by intro x hx; cases hx) (by
    intro x hx
    simp only [List.mem_singleton] at hx; subst hx
    rintro ⟨e, _⟩; cases e)
  obtain ⟨w', s', hrun, _⟩ := attachStore_run hr.rel hmat v hrt (live_iff.2 (hr.rel.em.mem_entities.1 hid |> fun h =>
    ⟨h.1, hr.rel.next ▸ h.2.1, h.2.2⟩))
  have h5 := duo_act1 h4 rfl hrun
  have h6 := duo_rel1 h5 rfl
  simp only [List.erase_cons_head] at h6
  refine duo_group held_replicate call_replicate (a := fun k => .groupAdd k id) (config_shape_at hg) ?_ ?_ (config_registered ho ha) (config_registered ho hb) hne ?_ (fun σ => .inl ⟨rfl, rfl⟩) ?_ rfl h6
  · show (g.tyA == t || g.tyB == t) = true
    rcases ht with rfl | rfl <;> simp
  · intro i h hi hh
    obtain ⟨g', h1, rfl⟩ := config_shape hh
    have := hfirst i g' hi h1
    show (g'.tyA == t || g'.tyB == t) = false
    simp [Ne.symm this.1, Ne.symm this.2]
  · exact hm.imp modeA_mut_of fun h => h
  · intro x hx
    simpa using hx

/-- **C40** fails likewise for a query on a group and a concurrent `detach`. -/
theorem C40_sharp_detach (h : Mixed tr w) (ho : Enumerates w order) {id : EntityId} (hid : id ∈ w.em.entities)
    {j : Nat} {g : Group} (hg : w.groups[j]? = some g) {t : TypeId} (ht : t = g.tyA ∨ t = g.tyB)
    (hfirst : ∀ (i : Nat) g', i < j → w.groups[i]? = some g' → t ≠ g'.tyA ∧ t ≠ g'.tyB) (hne : g.tyA ≠ g.tyB)
    (ha : w.hasRegistered g.tyA = true) (hb : w.hasRegistered g.tyB = true) {ma mb : Mode}
    (hm : g.kind ≠ .non ∨ ma = .mut ∨ mb = .mut) :
    ∃ σ, (Sys.init w (n + 2)).Sched (Config.of w order)
        (Sys.justThese (.query (.group g.kind ma mb g.tyA g.tyB)) (.on id [.detach t])) σ ∧ σ.Deadlock ∧ σ.log = [] := by
  obtain ⟨s, hr⟩ := h.origin
  have hrt : (Config.of w order).registered t = true := by
    rcases ht with rfl | rfl
    · exact config_registered ho ha
    · exact config_registered ho hb
  have h0 : (Sys.init w (n + 2)).Sched (Config.of w order)
      (Sys.justThese (.query (.group g.kind ma mb g.tyA g.tyB)) (.on id [.detach t])) (duo w .idle .idle (List.replicate n .idle)) := .refl
  have h1 := duo_start1 h0 (c := .on id [.detach t]) fun σ => .inr ⟨rfl, rfl⟩
  have h2 := duo_acq1 held_replicate h1 rfl (by intro x hx; cases hx) (by intro x hx; cases hx)
  have h3 := duo_act1 h2 rfl (has_run hr.rel.em hid)
  simp only [Prog.script, Prog.detach, hrt, if_true] at h3
  refine duo_group held_replicate call_replicate (a := fun k => .groupRemove k id) (config_shape_at hg) ?_ ?_ (config_registered ho ha) (config_registered ho hb) hne ?_ (fun σ => .inl ⟨rfl, rfl⟩) ?_ rfl h3
  · show (g.tyA == t || g.tyB == t) = true
    rcases ht with rfl | rfl <;> simp
  · intro i h hi hh
    obtain ⟨g', h1, rfl⟩ := config_shape hh
    have := hfirst i g' hi h1
    show (g'.tyA == t || g'.tyB == t) = false
    simp [Ne.symm this.1, Ne.symm this.2]
  · exact hm.imp modeA_mut_of fun h => h
  · intro x hx
    simpa using hx

/-- Thread 0 makes only the call `c0`, thread 1 only `c1`, thread 2 only `c2`, and no other thread makes any. -/
def Sys.justThree (c0 c1 c2 : ApiCall V) (_ : Sys V) (i : Nat) (c : ApiCall V) : Prop :=
  (i = 0 ∧ c = c0) ∨ (i = 1 ∧ c = c1) ∨ (i = 2 ∧ c = c2)

/-- **C40** A query that only reads a non-owning group, and a concurrent `attach`, deadlock too, if a third thread takes a
`storage_write` of the first type of the group meanwhile: readers wait for a writer that waits. -/
theorem C40_sharp_writer (h : Mixed tr w) (ho : Enumerates w order) {id : EntityId} (hid : id ∈ w.em.entities)
    {j : Nat} {g : Group} (hg : w.groups[j]? = some g) (hk : g.kind = .non) {t : TypeId} (ht : t = g.tyA ∨ t = g.tyB)
    (hfirst : ∀ (i : Nat) g', i < j → w.groups[i]? = some g' → t ≠ g'.tyA ∧ t ≠ g'.tyB) (hne : g.tyA ≠ g.tyB)
    (ha : w.hasRegistered g.tyA = true) (hb : w.hasRegistered g.tyB = true) {ma mb : Mode} (id' : EntityId) (v v' : V) :
    ∃ σ, (Sys.init w (n + 3)).Sched (Config.of w order)
        (Sys.justThree (.query (.group g.kind ma mb g.tyA g.tyB)) (.on id [.attach t v]) (.write g.tyA id' v')) σ ∧
      σ.Deadlock ∧ σ.log = [] := by
  obtain ⟨s, hr⟩ := h.origin
  have hmat := matches_of ho
  have hrt : (Config.of w order).registered t = true := by
    rcases ht with rfl | rfl
    · exact config_registered ho ha
    · exact config_registered ho hb
  have h0 : (Sys.init w (n + 3)).Sched (Config.of w order)
      (Sys.justThree (.query (.group g.kind ma mb g.tyA g.tyB)) (.on id [.attach t v]) (.write g.tyA id' v'))
      (duo w .idle .idle (List.replicate (n + 1) .idle)) := .refl
  have h1 := duo_start1 h0 (c := .on id [.attach t v]) fun σ => .inr (.inl ⟨rfl, rfl⟩)
  have h2 := duo_acq1 held_replicate h1 rfl (by intro x hx; cases hx) (by intro x hx; cases hx)
  have h3 := duo_act1 h2 rfl (has_run hr.rel.em hid)
  simp only [Prog.script, Prog.attach, hrt, if_true] at h3
  have h4 := duo_acq1 held_replicate h3 rfl (by intro x hx; cases hx) (by
    intro x hx
    simp only [List.mem_singleton] at hx; subst hx
    rintro ⟨e, _⟩; cases e)
  obtain ⟨w', s', hrun, _⟩ := attachStore_run hr.rel hmat v hrt (live_iff.2 (hr.rel.em.mem_entities.1 hid |> fun h =>
    ⟨h.1, hr.rel.next ▸ h.2.1, h.2.2⟩))
  have h5 := duo_act1 h4 rfl hrun
  have h6 := duo_rel1 h5 rfl
  simp only [List.erase_cons_head] at h6
  refine trio_group (k := List.replicate n .idle) (fun th hth => List.eq_of_mem_replicate hth) (a := fun k => .groupAdd k id)
    (config_shape_at hg) ?_ ?_ (config_registered ho ha) (config_registered ho hb) hne ?_ (fun σ => .inl ⟨rfl, rfl⟩)
    (fun σ => .inr (.inr ⟨rfl, rfl⟩)) ?_ rfl h6
  · show (g.tyA == t || g.tyB == t) = true
    rcases ht with rfl | rfl <;> simp
  · intro i h hi hh
    obtain ⟨g', h1, rfl⟩ := config_shape hh
    have := hfirst i g' hi h1
    show (g'.tyA == t || g'.tyB == t) = false
    simp [Ne.symm this.1, Ne.symm this.2]
  · show g.shape.modeA = .ref
    rw [Shape.modeA, show g.shape.kind = g.kind from rfl, hk]
  · intro x hx
    simpa using hx

/-- **C40** fails in every world with two component types: two queries naming them in different order, each type for
writing in one of them, can deadlock. -/
theorem C40_sharp_queries (ho : Enumerates w order) {a b : TypeId} (hne : a ≠ b) (ha : w.hasRegistered a = true)
    (hb : w.hasRegistered b = true) {ma mb ma' mb' : Mode} (hma : ma = .mut ∨ ma' = .mut) (hmb : mb = .mut ∨ mb' = .mut) :
    ∃ σ, (Sys.init w (n + 2)).Sched (Config.of w order)
        (Sys.justThese (.query (.with2 (.comp ma a) (.comp mb b))) (.query (.with2 (.comp mb' b) (.comp ma' a)))) σ ∧
      σ.Deadlock ∧ σ.log = [] := by
  have hra := config_registered ho ha
  have hrb := config_registered ho hb
  have h0 : (Sys.init w (n + 2)).Sched (Config.of w order)
      (Sys.justThese (.query (.with2 (.comp ma a) (.comp mb b))) (.query (.with2 (.comp mb' b) (.comp ma' a))))
      (duo w .idle .idle (List.replicate n .idle)) := .refl
  have h1 := duo_start0 (duo_start1 h0 (c := .query (.with2 (.comp mb' b) (.comp ma' a))) fun σ => .inr ⟨rfl, rfl⟩)
    (c := .query (.with2 (.comp ma a) (.comp mb b))) fun σ => .inl ⟨rfl, rfl⟩
  simp only [ApiCall.prog, Prog.openQuery, Prog.store, hra, hrb, if_true] at h1
  have h2 := duo_acq0 held_replicate h1 rfl (by intro x hx; cases hx) (by intro x hx; cases hx)
  have h3 := duo_acq1 held_replicate h2 rfl (by
    intro x hx
    simp only [List.mem_singleton] at hx; subst hx
    rintro ⟨e, _⟩
    injection e with e
    exact hne e.symm) (by intro x hx; cases hx)
  exact ⟨_, h3, duo_deadlock (by simp) rfl rfl call_replicate (duo_not_free1 (m' := mb') (by simp) hmb)
    (duo_not_free0 (m' := ma) (by simp) hma.symm), rfl⟩

/-! ### Concrete cases -/
namespace Demo

theorem groupW_at : groupW.groups[0]?.map Group.shape = some ⟨.part, 1, 2⟩ ∧
    groupW.groups[1]?.map Group.shape = some ⟨.non, 3, 4⟩ := by decide +kernel

theorem groupW_alive : 5 ∈ groupW.em.entities := by decide +kernel
theorem groupW_types : ∀ t, t = 1 ∨ t = 2 ∨ t = 3 ∨ t = 4 → groupW.hasRegistered t = true := by
  rintro t (rfl | rfl | rfl | rfl) <;> decide +kernel

end Demo

/-- The non-owning group of `groupW`, queried for writing, and an attach. -/
example : ∃ σ, (Sys.init Demo.groupW 2).Sched Demo.groupCfg
    (Sys.justThese (.query (.group .non .ref .mut 3 4)) (.on 5 [.attach 4 99])) σ ∧ σ.Deadlock ∧ σ.log = [] := by
  obtain ⟨g, hg, e⟩ := Option.map_eq_some_iff.1 Demo.groupW_at.2
  obtain ⟨g0, hg0, e0⟩ := Option.map_eq_some_iff.1 Demo.groupW_at.1
  injection e with e1 e2 e3
  injection e0 with _ e2' e3'
  have := C40_sharp_attach (n := 0) (.of_trace Demo.groupTrace) Demo.groupEnumerates Demo.groupW_alive hg (t := 4)
    (.inr e3.symm) (by
      intro i g' hi hi'
      obtain rfl : i = 0 := by omega
      rw [hg0] at hi'; cases hi'
      rw [e2', e3']; decide) (by rw [e2, e3]; decide) (Demo.groupW_types _ (by rw [e2]; simp))
    (Demo.groupW_types _ (by rw [e3]; simp)) (ma := .ref) (mb := .mut) (.inr (.inr rfl)) 99
  rwa [e1, e2, e3] at this

/-- The same query only reading, with a writer. -/
example : ∃ σ, (Sys.init Demo.groupW 3).Sched Demo.groupCfg
    (Sys.justThree (.query (.group .non .ref .ref 3 4)) (.on 5 [.attach 4 99]) (.write 3 1 7)) σ ∧ σ.Deadlock ∧ σ.log = [] := by
  obtain ⟨g, hg, e⟩ := Option.map_eq_some_iff.1 Demo.groupW_at.2
  obtain ⟨g0, hg0, e0⟩ := Option.map_eq_some_iff.1 Demo.groupW_at.1
  injection e with e1 e2 e3
  injection e0 with _ e2' e3'
  have := C40_sharp_writer (n := 0) (.of_trace Demo.groupTrace) Demo.groupEnumerates Demo.groupW_alive hg e1 (t := 4)
    (.inr e3.symm) (by
      intro i g' hi hi'
      obtain rfl : i = 0 := by omega
      rw [hg0] at hi'; cases hi'
      rw [e2', e3']; decide) (by rw [e2, e3]; decide) (Demo.groupW_types _ (by rw [e2]; simp))
    (Demo.groupW_types _ (by rw [e3]; simp)) (ma := .ref) (mb := .ref) 1 99 7
  rwa [e1, e2, e3] at this

/-- The owning group, and a detach. -/
example : ∃ σ, (Sys.init Demo.groupW 2).Sched Demo.groupCfg
    (Sys.justThese (.query (.group .part .ref .ref 1 2)) (.on 5 [.detach 2])) σ ∧ σ.Deadlock ∧ σ.log = [] := by
  obtain ⟨g0, hg0, e0⟩ := Option.map_eq_some_iff.1 Demo.groupW_at.1
  injection e0 with e1 e2 e3
  have := C40_sharp_detach (n := 0) (.of_trace Demo.groupTrace) Demo.groupEnumerates Demo.groupW_alive hg0 (t := 2)
    (.inr e3.symm) (fun i g' hi _ => absurd hi (Nat.not_lt_zero i)) (by rw [e2, e3]; decide)
    (Demo.groupW_types _ (by rw [e2]; simp)) (Demo.groupW_types _ (by rw [e3]; simp)) (ma := .ref) (mb := .ref)
    (.inl (by rw [show g0.kind = .part from e1]; decide))
  rwa [show g0.kind = .part from e1, show g0.tyA = 1 from e2, show g0.tyB = 2 from e3] at this

example : ∃ σ, (Sys.init Demo.groupW 2).Sched Demo.groupCfg
    (Sys.justThese (.query (.with2 (.comp .ref 1) (.comp .mut 4))) (.query (.with2 (.comp .ref 4) (.comp .mut 1)))) σ ∧
      σ.Deadlock ∧ σ.log = [] :=
  C40_sharp_queries (n := 0) Demo.groupEnumerates (by decide) (Demo.groupW_types _ (by simp))
    (Demo.groupW_types _ (by simp)) (.inr rfl) (.inl rfl)

end Xecs
