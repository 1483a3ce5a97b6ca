import Verif.Spec.Ids
import Verif.Props.Phases
/-
C60: ids stay as small as the population.
-/
set_option autoImplicit false
namespace Xecs
open Spec World Hist
variable {V : Type} {tr : List (Op V × Out V)} {w w' : World V}

/-- The ids handed out are those of the living and the free ones. -/
theorem em_size {m : EntityManager} {free : List Nat} (h : m.Inv free) : m.flags.length = m.entities.length + free.length + 1 := by
  have hpos := h.pos
  have hp : (m.entities ++ free).Perm (List.range' 1 (m.flags.length - 1)) := by
    rw [List.perm_ext_iff_of_nodup]
    · intro x
      rw [List.mem_append, h.mem_entities, List.mem_range'_1]
      constructor
      · rintro (hx | hx)
        · omega
        · have := h.range x hx; omega
      · intro hx
        rcases Classical.em (x ∈ free) with hm | hm
        · exact .inr hm
        · exact .inl ⟨by omega, by omega, hm⟩
    · rw [List.nodup_append]
      refine ⟨h.entities_nodup, h.nodup, fun a ha b hb => ?_⟩
      rintro rfl
      exact (h.mem_entities.1 ha).2.2 hb
    · exact List.nodup_range'
  have := hp.length_eq
  rw [List.length_append, List.length_range'] at this
  omega

theorem em_population {w : World V} (h : EmOk w tr) : population tr = w.em.entities.length := by
  have := h.count; unfold population; omega

theorem em_peak (h : Wild tr w) : RemovesLive tr → w.em.flags.length ≤ peak tr + unused tr + 1 := by
  induction h with
  | init => intro _; exact Nat.le_refl 1
  | fails hprev he ih =>
    intro hl
    rename_i tr w w' op e
    have h1 := wild_em hprev hl
    have h2 := wild_em (.fails hprev he) hl
    have e1 := em_size h1.inv
    have e2 := em_size h2.inv
    have e3 := h1.count
    have e4 := h2.count
    have := ih hl
    omega
  | ok hprev he ih =>
    intro hl
    rename_i tr w w' op o
    have h2 := wild_em (.ok hprev he) hl
    have e2 := em_size h2.inv
    have p2 := em_population h2
    have hl' : RemovesLive tr := by cases op <;> first | exact hl | exact hl.2
    have h1 := wild_em hprev hl'
    have e1 := em_size h1.inv
    have p1 := em_population h1
    have hi := ih hl'
    have keep : recyclable ((op, o) :: tr) = recyclable tr → w'.em.entities.length = w.em.entities.length →
        unused ((op, o) :: tr) = unused tr → w'.em.flags.length ≤ peak ((op, o) :: tr) + unused ((op, o) :: tr) + 1 := by
      intro a b c
      rw [a] at e2
      rw [c]
      simp only [peak]
      omega
    have c2 := h2.count
    have c1 := h1.count
    cases op with
    | createEntity =>
      simp only [exec, M.bind_ok] at he
      obtain ⟨w1, id, hc, he⟩ := he
      cases (show (w1, Except.ok (Out.id id)) = (w', .ok o) from he)
      obtain ⟨em, id', k1, k2, k3, k4⟩ := createEntity_em h1
      rw [k1] at hc
      simp only [Prod.mk.injEq, Except.ok.injEq] at hc
      obtain ⟨rfl, rfl⟩ := hc
      simp only [peak, unused]
      rcases k4 with ⟨k4, _, _⟩ | ⟨_, k4⟩
      · have : recyclable ((Op.createEntity, Out.id id') :: tr) = [] := by simp [recyclable, k4]
        rw [this] at e2
        have e3 : em.flags.length = em.entities.length + 0 + 1 := e2
        have p3 : population ((Op.createEntity, Out.id id') :: tr) = em.entities.length := p2
        show em.flags.length ≤ _
        omega
      · show em.flags.length ≤ _
        omega
    | createEntities n =>
      simp only [exec, M.bind_ok] at he
      obtain ⟨w1, id, hc, he⟩ := he
      cases (show (w1, Except.ok (Out.range id.1 id.2)) = (w', .ok o) from he)
      simp only [recyclable] at e2
      simp only [peak, unused]
      omega
    | removeEntity order id =>
      simp only [recyclable, List.length_cons, removals, created] at e2 c2
      simp only [peak, unused]
      omega
    | _ =>
      simp only [removals, created] at c2
      exact keep rfl (by omega) rfl

/-- **C60**: after any history in which only living entities were removed, a never used id handed out by `create_entity`
is the number of living entities, the new one included. -/
theorem C60_new (h : Wild tr w) (hl : RemovesLive tr) {id : EntityId} (he : World.createEntity w = (w', .ok id)) :
    handedOut id tr = true ∨ id = population ((.createEntity, .id id) :: tr) := by
  have hem := wild_em h hl
  obtain ⟨em, id', k1, _, _, k4⟩ := createEntity_em hem
  rw [k1] at he
  simp only [Prod.mk.injEq, Except.ok.injEq] at he
  obtain ⟨_, rfl⟩ := he
  have e := em_size hem.inv
  have c := hem.count
  rcases k4 with ⟨hn, rfl, _⟩ | ⟨hm, _⟩
  · rw [hn] at e
    simp only [List.length_nil] at e
    refine .inr ?_
    simp only [population, created, removals]
    omega
  · have : id' ∈ recyclable tr := List.mem_of_head? hm
    exact .inl ((hem.out _).2 (hem.inv.range _ this))

/-- **C60**: so no id is larger than the largest number of entities that have lived at the same time -- plus, if
`create_entities` was used, the largest number of free ids it has passed over. -/
theorem C60_peak (h : Wild tr w) (hl : RemovesLive tr) {id : EntityId} (ho : handedOut id tr = true) :
    id ≤ peak tr + unused tr := by
  have := em_peak h hl
  have := ((wild_em h hl).out id).1 ho
  omega

/-- **C60**: the first id of a block is the number of living entities and free ids, plus one. -/
theorem C60_block (h : Wild tr w) (hl : RemovesLive tr) (n : Nat) :
    ∃ w', World.createEntities n w = (w', .ok (population tr + (recyclable tr).length + 1, population tr + (recyclable tr).length + 1 + n)) := by
  have hem := wild_em h hl
  have e := em_size hem.inv
  have p := em_population hem
  refine ⟨{ w with em := (w.em.allocateN n).1 }, ?_⟩
  rw [p, ← e]
  rfl

/-- **C60**, also when threads have shared the world in between. -/
theorem C60_phases (h : Mixed tr w) {id : EntityId} (ho : handedOut id tr = true) : id ≤ peak tr + unused tr := by
  obtain ⟨u, g, ht, _, _⟩ := h.like
  exact C60_peak (Wild.of_any ht.any) ht.live.2.1 ho

/-! A hundred entities created and removed one after the other all have the id 1. -/
namespace Demo

def churn : List (Op Nat) := (List.replicate 100 [.createEntity, .removeEntity [] 1]).flatten ++ [.createEntity, .createEntity]
theorem churn_play : (play Hist.allowed churn ([], World.new)).isSome = true := by decide +kernel
def churnTr : List (Op Nat × Out Nat) := (played churn churn_play).1
def churnW : World Nat := (played churn churn_play).2
theorem churn_trace : Trace churnTr churnW := played_trace churn churn_play

end Demo

example (id : EntityId) (h : handedOut id Demo.churnTr = true) : id ≤ 2 := by
  have := C60_phases (.of_trace Demo.churn_trace) h
  rwa [show peak Demo.churnTr + unused Demo.churnTr = 2 by decide +kernel] at this
example : created Demo.churnTr = 102 ∧ peak Demo.churnTr = 2 := by decide +kernel
example : peak Demo.tr = 4 ∧ unused Demo.tr = 0 := by decide +kernel
example : handedOut 5 Demo.tr = false := by
  rcases h : handedOut 5 Demo.tr with _ | _
  · rfl
  · have := C60_phases (.of_trace Demo.trace) h
    rw [show peak Demo.tr + unused Demo.tr = 4 by decide +kernel] at this
    omega
example : ∃ w', World.createEntities 3 Demo.w = (w', .ok (5, 8)) := by
  obtain ⟨w', h⟩ := C60_block (Wild.of_any Demo.trace.any) Demo.trace.live.2.1 3
  rw [show population Demo.tr + (recyclable Demo.tr).length + 1 = 5 by decide +kernel] at h
  exact ⟨w', h⟩

end Xecs
