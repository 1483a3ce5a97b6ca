import Verif.Proofs.Basic
/-
The entity table: free-list invariant and behaviour of every operation.
-/
set_option autoImplicit false
namespace Xecs
namespace EntityManager

/-- The free list threaded through the flags, starting at slot `p`: each free id points to the next one,
the last one holds the terminator `unavailable 0`. -/
def Chain (flags : List EntityFlag) : Nat → List Nat → Prop
  | p, [] => flags[p]? = some (.unavailable 0)
  | p, f :: fs => flags[p]? = some (.available f) ∧ Chain flags f fs

/-- Representation invariant; `free` is the stack of removed ids, most recent first. -/
structure Inv (m : EntityManager) (free : List Nat) : Prop where
  chain : Chain m.flags 0 free
  nodup : free.Nodup
  range : ∀ f ∈ free, 0 < f ∧ f < m.flags.length
  live : ∀ id i : Nat, 0 < id → id ∉ free →
    (m.flags[id]? = some (.unavailable i) ↔ m.entities[i]? = some id)
  ent : ∀ id ∈ m.entities, 0 < id ∧ id < m.flags.length ∧ id ∉ free
  tot : ∀ id : Nat, 0 < id → id < m.flags.length → id ∉ free → id ∈ m.entities

theorem chain_set {flags : List EntityFlag} {q : Nat} {x : EntityFlag} :
    ∀ {p : Nat} {fs : List Nat}, q ≠ p → q ∉ fs → Chain flags p fs → Chain (flags.set q x) p fs
  | p, [], hq, _, h => by
    simp only [Chain, List.getElem?_set] at *; simp [hq, h]
  | p, f :: fs, hq, hn, h => by
    simp only [List.mem_cons, not_or] at hn
    simp only [Chain] at h ⊢
    refine ⟨?_, chain_set hn.1 hn.2 h.2⟩
    simp [List.getElem?_set, hq, h.1]

theorem chain_append {flags ext : List EntityFlag} :
    ∀ {p : Nat} {fs : List Nat}, Chain flags p fs → Chain (flags ++ ext) p fs
  | p, [], h => by
    simp only [Chain] at *
    rw [List.getElem?_append_left (List.getElem?_eq_some_iff.1 h).1]; exact h
  | p, f :: fs, h => by
    simp only [Chain] at h ⊢
    refine ⟨?_, chain_append h.2⟩
    rw [List.getElem?_append_left (List.getElem?_eq_some_iff.1 h.1).1]; exact h.1

/-- Replace the head of the chain. -/
theorem chain_head {flags : List EntityFlag} {x : EntityFlag} {p q : Nat} {fs : List Nat}
    (hx : flags[p]? = some x) (hc : Chain flags p fs) (hq : q < flags.length) (hqf : q ∉ fs) :
    Chain (flags.set q x) q fs := by
  cases fs with
  | nil =>
    simp only [Chain] at *
    rw [hx] at hc; simp at hc; simp [hq, hc]
  | cons f fs =>
    simp only [Chain] at *
    rw [hx] at hc; simp at hc
    simp only [List.mem_cons, not_or] at hqf
    exact ⟨by simp [hq, hc], chain_set hqf.1 hqf.2 hc.2⟩

theorem Inv.pos {m : EntityManager} {free : List Nat} (h : m.Inv free) : 0 < m.flags.length := by
  have := h.chain
  cases free with
  | nil => simp only [Chain] at this; exact (List.getElem?_eq_some_iff.1 this).1
  | cons f fs => simp only [Chain] at this; exact (List.getElem?_eq_some_iff.1 this.1).1

theorem inv_new : (new).Inv [] := by
  constructor <;> simp [new, Chain]
  · intro id i h
    cases id <;> simp_all
  · omega

theorem Inv.flag {m : EntityManager} {free : List Nat} (h : m.Inv free) {id : Nat} (h0 : 0 < id)
    (hl : id < m.flags.length) (hf : id ∉ free) :
    ∃ i, m.flags[id]? = some (.unavailable i) ∧ m.entities[i]? = some id := by
  obtain ⟨i, hi⟩ := List.mem_iff_getElem?.1 (h.tot id h0 hl hf)
  exact ⟨i, (h.live id i h0 hf).2 hi, hi⟩

theorem Inv.inj {m : EntityManager} {free : List Nat} (h : m.Inv free) {id i j : Nat}
    (hi : m.entities[i]? = some id) (hj : m.entities[j]? = some id) : i = j := by
  have he := h.ent id (List.mem_of_getElem? hi)
  have h1 := (h.live id i he.1 he.2.2).2 hi
  have h2 := (h.live id j he.1 he.2.2).2 hj
  rw [h1] at h2; simpa using h2

theorem Inv.entities_nodup {m : EntityManager} {free : List Nat} (h : m.Inv free) :
    m.entities.Nodup := by
  rw [List.Nodup, List.pairwise_iff_getElem]
  intro i j hi hj hij heq
  have := h.inj (id := m.entities[i]) (List.getElem?_eq_getElem hi)
    (by rw [heq]; exact List.getElem?_eq_getElem hj)
  omega

theorem Inv.mem_entities {m : EntityManager} {free : List Nat} (h : m.Inv free) {id : Nat} :
    id ∈ m.entities ↔ 0 < id ∧ id < m.flags.length ∧ id ∉ free :=
  ⟨h.ent id, fun ⟨a, b, c⟩ => h.tot id a b c⟩

/-! ### has -/

theorem has_live {m : EntityManager} {free : List Nat} (h : m.Inv free) {id : Nat} (h0 : 0 < id)
    (hl : id < m.flags.length) (hf : id ∉ free) : m.has id = .ok true := by
  obtain ⟨i, hi, _⟩ := h.flag h0 hl hf
  simp [has, getR_some hi]

theorem has_oob {m : EntityManager} {id : Nat} (hl : m.flags.length ≤ id) :
    m.has id = .error .panic := by
  simp [has, getR_none (List.getElem?_eq_none hl)]

theorem has_chain {m : EntityManager} : ∀ {p : Nat} {fs : List Nat}, Chain m.flags p fs →
    ∀ {id : Nat}, id ∈ fs → fs.Nodup → m.has id = .ok (decide (fs.getLast? = some id))
  | p, [], _, id, hid, _ => by simp at hid
  | p, f :: fs, hc, id, hid, hn => by
    simp only [Chain] at hc
    rw [List.nodup_cons] at hn
    cases fs with
    | nil =>
      simp at hid; subst hid
      simp only [Chain] at hc
      simp [has, getR_some hc.2]
    | cons g fs =>
      by_cases h : id ∈ g :: fs
      · rw [has_chain hc.2 h hn.2]; simp
      · simp only [List.mem_cons] at hid h
        have : id = f := by grind
        subst this
        simp only [Chain] at hc
        simp only [has, getR_some hc.2.1, ok_bind]
        have : (g :: fs).getLast? ≠ some id := by
          intro h'
          exact hn.1 (List.mem_of_getLast? h')
        simpa using this

/-- What `has` answers for a removed id that has not been reused: `false`, except for the one at the
bottom of the free stack, for which it answers `true`. -/
theorem has_free {m : EntityManager} {free : List Nat} (h : m.Inv free) {id : Nat} (hf : id ∈ free) :
    m.has id = .ok (decide (free.getLast? = some id)) := has_chain h.chain hf h.nodup

/-! ### allocate -/

theorem allocate_nil {m : EntityManager} (h : m.Inv []) :
    ∃ m', m.allocate = .ok (m', m.flags.length) ∧ m'.Inv [] ∧
      m'.flags.length = m.flags.length + 1 ∧ m'.entities = m.entities ++ [m.flags.length] := by
  have hc := h.chain
  simp only [Chain] at hc
  refine ⟨⟨m.flags ++ [.unavailable m.entities.length], m.entities ++ [m.flags.length]⟩, ?_, ?_, by simp, rfl⟩
  · simp [allocate, getR_some hc]
  · have hpos := h.pos
    constructor
    · exact chain_append h.chain
    · simp
    · simp
    · intro id i h0 _
      have h1 := h.live id i h0 (by simp)
      have h2 := h.ent id
      have h3 : m.flags[id]? = some (.unavailable i) → id < m.flags.length :=
        fun h => (List.getElem?_eq_some_iff.1 h).1
      have h4 : m.entities[i]? = some id → id ∈ m.entities := fun h => List.mem_of_getElem? h
      have h5 : m.entities[i]? = some id → i < m.entities.length :=
        fun h => (List.getElem?_eq_some_iff.1 h).1
      simp only [List.getElem?_append]
      by_cases hid : id < m.flags.length
      · simp only [hid, if_true]
        by_cases hi : i < m.entities.length
        · simp only [hi, if_true]; exact h1
        · simp only [hi, if_false]
          have h6 : ¬ m.entities[i]? = some id := fun h => hi (h5 h)
          have h7 : ¬ m.flags[id]? = some (.unavailable i) := fun h => h6 (h1.1 h)
          constructor
          · intro h; exact absurd h h7
          · intro h
            rw [List.getElem?_singleton] at h
            split at h <;> simp at h
            omega
      · simp only [hid, if_false]
        rw [List.getElem?_singleton]
        by_cases hi : i < m.entities.length
        · simp only [hi, if_true]
          have h6 : ¬ m.entities[i]? = some id := fun h => hid (h2 (h4 h)).2.1
          constructor
          · intro h
            split at h <;> simp at h
            omega
          · intro h; exact absurd h h6
        · simp only [hi, if_false]
          rw [List.getElem?_singleton]
          by_cases ha : id - m.flags.length = 0 <;> by_cases hb : i - m.entities.length = 0 <;>
            simp only [ha, hb, if_true, if_false] <;> simp <;> omega
    · intro id hid
      simp only [List.mem_append, List.mem_singleton] at hid
      simp only [List.length_append, List.length_cons, List.length_nil]
      rcases hid with hid | hid
      · have := h.ent id hid; refine ⟨this.1, by omega, by simp⟩
      · exact ⟨by omega, by omega, by simp⟩
    · intro id h0 hl _
      simp only [List.length_append, List.length_cons, List.length_nil] at hl
      simp only [List.mem_append, List.mem_singleton]
      by_cases hid : id = m.flags.length
      · exact .inr hid
      · exact .inl (h.tot id h0 (by omega) (by simp))

theorem allocate_cons {m : EntityManager} {f : Nat} {fs : List Nat} (h : m.Inv (f :: fs)) :
    ∃ m', m.allocate = .ok (m', f) ∧ m'.Inv fs ∧
      m'.flags.length = m.flags.length ∧ m'.entities = m.entities ++ [f] := by
  have hc := h.chain
  simp only [Chain] at hc
  have hf := h.range f (by simp)
  have hnd := List.nodup_cons.1 h.nodup
  have hx : ∃ x, m.flags[f]? = some x := ⟨_, List.getElem?_eq_getElem hf.2⟩
  obtain ⟨x, hx⟩ := hx
  have hpos := h.pos
  refine ⟨⟨(m.flags.set f (.unavailable m.entities.length)).set 0 x, m.entities ++ [f]⟩, ?_, ?_,
    by simp, rfl⟩
  · simp [allocate, getR_some hc.1, getR_some hx, setR_lt _ hf.2,
      setR_lt (l := m.flags.set f (.unavailable m.entities.length)) (i := 0) _ (by simpa using hpos)]
  · have h0fs : 0 ∉ fs := fun h' => by have := h.range 0 (List.mem_cons_of_mem _ h'); omega
    have hfe : f ∉ m.entities := fun h' => (h.ent f h').2.2 (by simp)
    constructor
    · rw [List.set_comm _ _ (by omega)]
      apply chain_set (by omega) hnd.1
      exact chain_head hx hc.2 hpos h0fs
    · exact hnd.2
    · intro g hg; simpa using h.range g (List.mem_cons_of_mem _ hg)
    · intro id i h0 hid
      have h1 := h.live id i h0
      have h4 : m.entities[i]? = some id → id ∈ m.entities := fun h => List.mem_of_getElem? h
      have h5 : m.entities[i]? = some id → i < m.entities.length :=
        fun h => (List.getElem?_eq_some_iff.1 h).1
      simp only [List.getElem?_set, List.getElem?_append, List.length_set]
      by_cases hidf : id = f
      · subst hidf
        have h6 : ¬ m.entities[i]? = some id := fun h => hfe (h4 h)
        have h0' : ¬ 0 = id := by omega
        simp only [h0', if_false, if_true, hf.2]
        by_cases hi : i < m.entities.length
        · simp only [hi, if_true]
          simp [h6]; omega
        · simp only [hi, if_false]
          rw [List.getElem?_singleton]
          by_cases hb : i - m.entities.length = 0 <;> simp [hb] <;> omega
      · have h0' : ¬ 0 = id := by omega
        have hidf' : ¬ f = id := fun h => hidf h.symm
        have h1' := h1 (by simp [hidf, hid])
        simp only [h0', if_false, hidf']
        by_cases hi : i < m.entities.length
        · simp only [hi, if_true]; exact h1'
        · simp only [hi, if_false]
          have h6 : ¬ m.flags[id]? = some (.unavailable i) := fun h => hi (h5 (h1'.1 h))
          constructor
          · intro h; exact absurd h h6
          · intro h
            rw [List.getElem?_singleton] at h
            split at h <;> simp at h
            exact absurd h hidf'
    · intro id hid
      simp only [List.mem_append, List.mem_singleton] at hid
      simp only [List.length_set]
      rcases hid with hid | hid
      · have := h.ent id hid
        exact ⟨this.1, this.2.1, fun h' => this.2.2 (List.mem_cons_of_mem _ h')⟩
      · subst hid; exact ⟨hf.1, hf.2, hnd.1⟩
    · intro id h0 hl hid
      simp only [List.length_set] at hl
      simp only [List.mem_append, List.mem_singleton]
      by_cases hidf : id = f
      · exact .inr hidf
      · exact .inl (h.tot id h0 hl (by simp [hidf, hid]))

/-! ### allocate_n -/

theorem allocateN_spec {m : EntityManager} {free : List Nat} (h : m.Inv free) (n : Nat) :
    (m.allocateN n).2 = (m.flags.length, m.flags.length + n) ∧ (m.allocateN n).1.Inv free ∧
      (m.allocateN n).1.flags.length = m.flags.length + n ∧
      (m.allocateN n).1.entities = m.entities ++ List.range' m.flags.length n := by
  have hpos := h.pos
  refine ⟨rfl, ?_, by simp [allocateN], rfl⟩
  simp only [allocateN]
  constructor
  · exact chain_append h.chain
  · exact h.nodup
  · intro f hf; have := h.range f hf; simp; omega
  · intro id i h0 hid
    have h1 := h.live id i h0 hid
    have h2 := h.ent id
    have h3 : m.flags[id]? = some (.unavailable i) → id < m.flags.length :=
      fun h => (List.getElem?_eq_some_iff.1 h).1
    have h4 : m.entities[i]? = some id → id ∈ m.entities := fun h => List.mem_of_getElem? h
    have h5 : m.entities[i]? = some id → i < m.entities.length :=
      fun h => (List.getElem?_eq_some_iff.1 h).1
    simp only [List.getElem?_append, List.getElem?_map, List.getElem?_range']
    grind
  · intro id hid
    simp only [List.mem_append, List.mem_range'_1] at hid
    simp only [List.length_append, List.length_map, List.length_range']
    rcases hid with hid | hid
    · have := h.ent id hid; exact ⟨this.1, by omega, this.2.2⟩
    · refine ⟨by omega, by omega, fun hf => ?_⟩
      have := h.range id hf; omega
  · intro id h0 hl hid
    simp only [List.length_append, List.length_map, List.length_range'] at hl
    simp only [List.mem_append, List.mem_range'_1]
    by_cases hlt : id < m.flags.length
    · exact .inl (h.tot id h0 hlt hid)
    · exact .inr (by omega)

/-! ### remove -/

theorem remove_live {m : EntityManager} {free : List Nat} (h : m.Inv free) {id : Nat} (h0 : 0 < id)
    (hl : id < m.flags.length) (hf : id ∉ free) :
    ∃ m', m.remove id = .ok m' ∧ m'.Inv (id :: free) ∧ m'.flags.length = m.flags.length ∧
      (∀ x, x ∈ m'.entities ↔ x ∈ m.entities ∧ x ≠ id) ∧
      m'.entities.length + 1 = m.entities.length := by
  obtain ⟨i, hi, hei⟩ := h.flag h0 hl hf
  have hil : i < m.entities.length := (List.getElem?_eq_some_iff.1 hei).1
  have hlast : m.entities.getLast? = some m.entities[m.entities.length - 1] := by
    rw [List.getLast?_eq_getElem?]; exact List.getElem?_eq_getElem _
  have hz : m.entities[m.entities.length - 1]? = some m.entities[m.entities.length - 1] :=
    List.getElem?_eq_getElem _
  generalize m.entities[m.entities.length - 1] = last at hz hlast
  have hlive := h.ent last (List.mem_of_getElem? hz)
  obtain ⟨E, hE, hEl, hEk⟩ := swapRemoveR_ok hil
  have hpos := h.pos
  have h00 : ∃ x, m.flags[0]? = some x := ⟨_, List.getElem?_eq_getElem hpos⟩
  obtain ⟨x, hx⟩ := h00
  have hx' : (m.flags.set last (.unavailable i))[0]? = some x := by
    rw [List.getElem?_set]; have : ¬ last = 0 := by omega
    simp [this, hx]
  have h0free : 0 ∉ free := fun h' => by have := h.range 0 h'; omega
  have hmem : ∀ y, y ∈ E ↔ y ∈ m.entities ∧ y ≠ id := by
    intro y
    rw [List.mem_iff_getElem?, List.mem_iff_getElem?]
    constructor
    · rintro ⟨k, hk⟩
      rw [hEk] at hk
      split at hk
      · split at hk
        · refine ⟨⟨_, hk⟩, ?_⟩
          rintro rfl
          have := h.inj hk hei; omega
        · refine ⟨⟨_, hk⟩, ?_⟩
          rintro rfl
          have := h.inj hk hei; omega
      · simp at hk
    · rintro ⟨⟨k, hk⟩, hne⟩
      have hkl := (List.getElem?_eq_some_iff.1 hk).1
      have hki : k ≠ i := by rintro rfl; rw [hei] at hk; simp at hk; exact hne hk.symm
      by_cases hkl' : k = m.entities.length - 1
      · refine ⟨i, ?_⟩
        rw [hEk, if_pos (by omega), if_pos rfl, ← hkl', hk]
      · refine ⟨k, ?_⟩
        rw [hEk, if_pos (by omega), if_neg hki, hk]
  refine ⟨⟨((m.flags.set last (.unavailable i)).set id x).set 0 (.available id), E⟩, ?_, ?_, by simp,
    hmem, by rw [hEl]; omega⟩
  · simp [remove, getR_some hi, hlast, setR_lt _ hlive.2.1, hE, getR_some hx', 
      setR_lt (l := m.flags.set last (.unavailable i)) (i := id) _ (by simpa using hl),
      setR_lt (l := (m.flags.set last (.unavailable i)).set id x) (i := 0) _ (by simpa using hpos)]
  · constructor
    · simp only [Chain]
      refine ⟨by simp [hpos], ?_⟩
      apply chain_set (by omega) h0free
      apply chain_head hx' _ (by simpa using hl) hf
      exact chain_set (by omega) hlive.2.2 h.chain
    · exact List.nodup_cons.2 ⟨hf, h.nodup⟩
    · intro f hf'
      simp only [List.mem_cons] at hf'
      simp only [List.length_set]
      rcases hf' with rfl | hf'
      · exact ⟨h0, hl⟩
      · exact h.range f hf'
    · intro y j hy0 hyf
      simp only [List.mem_cons, not_or] at hyf
      have h1 := h.live y j hy0 hyf.2
      have h1i := h.live y i hy0 hyf.2
      have hyi : m.entities[i]? ≠ some y := by
        intro h'; rw [hei] at h'; simp at h'; exact hyf.1 h'.symm
      have hyz : m.entities[m.entities.length - 1]? = some y ↔ last = y := by rw [hz]; simp
      have hyj : m.entities[j]? = some y → j < m.entities.length :=
        fun h => (List.getElem?_eq_some_iff.1 h).1
      have hyj' : m.entities[j]? = some y → last = y → j = m.entities.length - 1 :=
        fun a b => h.inj a (b ▸ hz)
      have hne : ¬ 0 = y := by omega
      have hne2 : ¬ id = y := fun h => hyf.1 h.symm
      simp only [List.getElem?_set, hne, hne2, if_false, hEk]
      by_cases hly : last = y
      · subst hly
        have hil' : i ≠ m.entities.length - 1 := by
          rintro rfl; exact hyi hz
        simp only [if_true, hlive.2.1]
        by_cases hj : j < m.entities.length - 1
        · simp only [hj, if_true]
          by_cases hji : j = i
          · subst hji; simp [hz]
          · simp only [hji, if_false]
            constructor
            · intro h'; simp at h'; omega
            · intro h'; have := hyj' h' rfl; omega
        · simp only [hj, if_false]
          constructor
          · intro h'; simp at h'; omega
          · intro h'; simp at h'
      · simp only [hly, if_false]
        by_cases hj : j < m.entities.length - 1
        · simp only [hj, if_true]
          by_cases hji : j = i
          · subst hji; simp only [if_true]; rw [hyz, h1]
            constructor
            · intro h'; exact absurd h' hyi
            · intro h'; exact absurd h' hly
          · simp only [hji, if_false]; exact h1
        · simp only [hj, if_false]
          constructor
          · intro h'
            have h2 := h1.1 h'
            have := hyj h2
            have : j = m.entities.length - 1 := by omega
            rw [this, hyz] at h2; exact absurd h2 hly
          · intro h'; simp at h'
    · intro y hy
      obtain ⟨hy1, hy2⟩ := (hmem y).1 hy
      have := h.ent y hy1
      refine ⟨this.1, by simpa using this.2.1, ?_⟩
      simp [hy2, this.2.2]
    · intro y hy0 hyl hyf
      simp only [List.mem_cons, not_or] at hyf
      exact (hmem y).2 ⟨h.tot y hy0 (by simpa using hyl) hyf.2, hyf.1⟩

end EntityManager
end Xecs
