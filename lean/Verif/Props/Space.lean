import Verif.Proofs.Space
import Verif.Props.Phases
/-
Property C71: memory and counters stay bounded by what is in use.
-/
set_option autoImplicit false
namespace Xecs
open Spec World Hist
variable {V : Type} {tr : List (Op V × Out V)} {w : World V}

/-- After any allowed history, parts of which may be the work of several threads, the entity table lists just the living
entities; it has room for no more ids than the largest number of entities that were ever alive together, plus, if
`create_entities` was used, the largest number of free ids it has passed over (the bound of C60); every storage has an index for no more ids than that, and room for at
most as many components as there are living entities; and no group has more members than there are living entities. -/
theorem C71_room (h : Mixed tr w) : Room (peak tr + unused tr) (population tr) w := h.room

/-- At every moment while considerate clients share the world, too: `l` are the changes recorded so far. -/
theorem C71_during (h : Mixed tr w) {order : List TypeId} (ho : Enumerates w order) {n : Nat} {l : List (Nat × Op V × Out V)}
    {σ : Sys V} (hl : (Sys.init w n).Record (Config.of w order) (Sys.considerate (Config.of w order)) l σ) :
    Room (peak (l.map Prod.snd ++ tr) + unused (l.map Prod.snd ++ tr)) (population (l.map Prod.snd ++ tr)) σ.world := by
  obtain ⟨u, g, s0, ht, hr, hw, ha⟩ := h.kin
  obtain ⟨hb, s, hd, u', g', ht', hr', he, _⟩ := phase_run ht hr hw ha ho hl
  have hlv := ht'.live.2.1
  have hu : Wild (l.map Prod.snd ++ tr) u' := .of_any ht'.any
  have hbase := he.base
  have e1 : σ.world.em.flags.length = u'.em.flags.length := by
    rw [hd.rel.next, hr'.rel.next, hbase.next]
  have e2 : σ.world.em.entities.length = population (l.map Prod.snd ++ tr) := by
    have c1 := em_size hd.rel.em
    have c2 := em_size hr'.rel.em
    have c3 := em_population (wild_em hu hlv)
    rw [hbase.free] at c2
    omega
  have := hd.rel.room (N := peak (l.map Prod.snd ++ tr) + unused (l.map Prod.snd ++ tr))
    (by rw [e1]; exact wild_flags hu hlv) fun t => by
      rw [← hbase.hw, run_hw hr']; exact trace_highest ht' t
  rwa [e2] at this

/-- In particular the numbers the code computes (positions plus one, lengths, the next id) do not overflow as long as
that bound is less than `2 ^ 64 - 1`. -/
theorem C71_overflow (h : Mixed tr w) (hb : peak tr + unused tr < 2 ^ 64 - 1) :
    w.em.flags.length < 2 ^ 64 ∧ w.em.entities.length < 2 ^ 64 - 1 ∧ (∀ g, g ∈ w.groups → g.len < 2 ^ 64 - 1) ∧
      ∀ t st, w.comps t = some st → st.set.indices.length < 2 ^ 64 ∧ st.set.entities.length < 2 ^ 64 - 1 := by
  obtain ⟨h1, h2, h3, h4, h5, h6⟩ := h.room
  have h7 : population tr ≤ peak tr := by cases tr; exact Nat.le_refl _; exact Nat.le_max_left _ _
  refine ⟨by omega, by omega, fun g hg => ?_, fun t st hst => ⟨?_, ?_⟩⟩
  · have := h6 g hg; omega
  · have := h3 t st hst; omega
  · have := h4 t st hst; omega

/-- The same at every moment of a shared phase. -/
theorem C71_overflow_during (h : Mixed tr w) {order : List TypeId} (ho : Enumerates w order) {n : Nat}
    {l : List (Nat × Op V × Out V)} {σ : Sys V}
    (hl : (Sys.init w n).Record (Config.of w order) (Sys.considerate (Config.of w order)) l σ)
    (hb : peak (l.map Prod.snd ++ tr) + unused (l.map Prod.snd ++ tr) < 2 ^ 64 - 1) :
    σ.world.em.flags.length < 2 ^ 64 ∧ σ.world.em.entities.length < 2 ^ 64 - 1 ∧ (∀ g, g ∈ σ.world.groups → g.len < 2 ^ 64 - 1) ∧
      ∀ t st, σ.world.comps t = some st → st.set.indices.length < 2 ^ 64 ∧ st.set.entities.length < 2 ^ 64 - 1 := by
  obtain ⟨h1, h2, h3, h4, h5, h6⟩ := C71_during h ho hl
  have h7 : population (l.map Prod.snd ++ tr) ≤ peak (l.map Prod.snd ++ tr) := by
    cases (l.map Prod.snd ++ tr); exact Nat.le_refl _; exact Nat.le_max_left _ _
  refine ⟨by omega, by omega, fun g hg => ?_, fun t st hst => ⟨?_, ?_⟩⟩
  · have := h6 g hg; omega
  · have := h3 t st hst; omega
  · have := h4 t st hst; omega

/-- 102 entities were created, but the entity table has three slots (one is the head of the free list). -/
example : created Demo.churnTr = 102 ∧ Demo.churnW.em.flags.length ≤ 3 := by
  have h := (C71_room (.of_trace Demo.churn_trace)).flags
  rw [show peak Demo.churnTr + unused Demo.churnTr = 2 by decide +kernel] at h
  exact ⟨by decide +kernel, h⟩

/-- The world with groups: five ids, four living entities, two groups with two members each. -/
example : peak Demo.groupTr + unused Demo.groupTr = 5 ∧ population Demo.groupTr = 4 ∧ Demo.groupW.groups.map Group.len = [2, 2] ∧
    Room 5 4 Demo.groupW := by
  have h1 : peak Demo.groupTr + unused Demo.groupTr = 5 := by decide +kernel
  have h2 : population Demo.groupTr = 4 := by decide +kernel
  have h3 := C71_room (.of_trace Demo.groupTrace)
  rw [h1, h2] at h3
  exact ⟨h1, h2, by decide +kernel, h3⟩

/-- In the middle of the phase `busy`. -/
example : Room 5 5 Demo.busyMid.world := by
  have h := C71_during (.of_trace Demo.groupTrace) Demo.groupEnumerates Demo.busyMid_record
  rw [show peak (Demo.busyMidLog.map Prod.snd ++ Demo.groupTr) + unused (Demo.busyMidLog.map Prod.snd ++ Demo.groupTr) = 5 by
    decide +kernel, show population (Demo.busyMidLog.map Prod.snd ++ Demo.groupTr) = 5 by decide +kernel] at h
  exact h

end Xecs
