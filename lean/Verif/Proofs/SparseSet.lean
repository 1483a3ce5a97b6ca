import Verif.Proofs.Basic
/-
The sparse set is a map: representation invariant and behaviour of every operation.
-/
set_option autoImplicit false
namespace Xecs
namespace SparseSet
variable {V : Type _}

/-- Representation invariant: `entities` and `data` run in parallel and `indices` is exactly the inverse
of `entities` (entries are dense index plus one). -/
structure WF (s : SparseSet V) : Prop where
  len : s.entities.length = s.data.length
  idx0 : ∀ e : Nat, s.indices[e]? ≠ some (some 0)
  idx : ∀ e i : Nat, s.indices[e]? = some (some (i + 1)) ↔ s.entities[i]? = some e

/-- The map a sparse set represents. -/
def lookup (s : SparseSet V) (e : EntityId) : Option V := (s.getIndex e).bind fun i => s.data[i]?

theorem getIndex_iff {s : SparseSet V} (h : s.WF) {e i : Nat} :
    s.getIndex e = some i ↔ s.entities[i]? = some e := by
  rw [← h.idx, getIndex]
  have := h.idx0 e
  split
  · rename_i k hk
    rw [hk]
    cases k with
    | zero => exact absurd hk this
    | succ k => simp
  · rename_i hk
    constructor
    · simp
    · intro h'; exact absurd h' (by simpa using hk _)

theorem exist_eq {s : SparseSet V} {e : Nat} : s.exist e = (s.getIndex e).isSome := by
  unfold exist getIndex
  cases h : s.indices[e]? with
  | none => rfl
  | some o => cases o <;> rfl

theorem exist_iff {s : SparseSet V} (h : s.WF) {e : Nat} : s.exist e = true ↔ e ∈ s.entities := by
  rw [exist_eq, Option.isSome_iff_exists, List.mem_iff_getElem?]
  simp only [getIndex_iff h]

theorem getIndex_lt {s : SparseSet V} (h : s.WF) {e i : Nat} (hi : s.getIndex e = some i) :
    i < s.entities.length := by
  rw [getIndex_iff h] at hi
  exact (List.getElem?_eq_some_iff.1 hi).1

theorem getIndex_none {s : SparseSet V} (h : s.WF) {e : Nat} :
    s.getIndex e = none ↔ e ∉ s.entities := by
  rw [← exist_iff h, exist_eq]; cases s.getIndex e <;> simp

theorem entities_inj {s : SparseSet V} (h : s.WF) {e i j : Nat} (hi : s.entities[i]? = some e)
    (hj : s.entities[j]? = some e) : i = j := by
  rw [← getIndex_iff h] at hi hj
  rw [hi] at hj; simpa using hj

theorem nodup {s : SparseSet V} (h : s.WF) : s.entities.Nodup := by
  rw [List.Nodup, List.pairwise_iff_getElem]
  intro i j hi hj hij heq
  have := entities_inj h (e := s.entities[i]) (List.getElem?_eq_getElem hi)
    (by rw [heq]; exact List.getElem?_eq_getElem hj)
  omega

theorem lookup_isSome {s : SparseSet V} (h : s.WF) {e : Nat} :
    (s.lookup e).isSome ↔ e ∈ s.entities := by
  rw [← exist_iff h, exist_eq, lookup]
  cases hi : s.getIndex e with
  | none => simp
  | some i =>
    have := getIndex_lt h hi
    rw [h.len] at this
    simp [List.getElem?_eq_getElem this]

theorem lookup_none {s : SparseSet V} (h : s.WF) {e : Nat} :
    s.lookup e = none ↔ e ∉ s.entities := by
  rw [← lookup_isSome h]; cases s.lookup e <;> simp

/-- `lookup` in terms of the dense arrays. -/
theorem lookup_eq_some {s : SparseSet V} (h : s.WF) {e : Nat} {v : V} :
    s.lookup e = some v ↔ ∃ i : Nat, s.entities[i]? = some e ∧ s.data[i]? = some v := by
  unfold lookup
  constructor
  · intro hl
    obtain ⟨i, hi, hv⟩ := Option.bind_eq_some_iff.1 hl
    exact ⟨i, (getIndex_iff h).1 hi, hv⟩
  · rintro ⟨i, hi, hv⟩
    rw [(getIndex_iff h).2 hi]; simpa using hv

theorem lookup_of_index {s : SparseSet V} (h : s.WF) {e i : Nat} (hi : s.entities[i]? = some e) :
    s.lookup e = s.data[i]? := by
  rw [lookup, (getIndex_iff h).2 hi]; rfl

theorem wf_new : (new : SparseSet V).WF := by
  constructor <;> simp [new]

theorem lookup_new (e : Nat) : (new : SparseSet V).lookup e = none := by simp [lookup, getIndex, new]

theorem get_eq {s : SparseSet V} (h : s.WF) (e : Nat) : s.get e = .ok (s.lookup e) := by
  unfold get lookup
  cases hi : s.getIndex e with
  | none => rfl
  | some i =>
    have hlt := getIndex_lt h hi
    rw [h.len] at hlt
    simp [getR_some (List.getElem?_eq_getElem hlt), List.getElem?_eq_getElem hlt]

theorem getUnchecked_eq {s : SparseSet V} (h : s.WF) {e : Nat} {v : V} (hv : s.lookup e = some v) :
    s.getUnchecked e = .ok v := by
  obtain ⟨i, hi, hd⟩ := (lookup_eq_some h).1 hv
  have := (h.idx e i).2 hi
  simp [getUnchecked, getU_some this, getU_some hd]

/-! ### enlarge -/

theorem enlarge_spec (l : List (Option Nat)) (e : Nat) :
    (enlarge l e).length = max l.length (e + 1) ∧
    ∀ k, (enlarge l e)[k]? = if k < l.length then l[k]? else if k ≤ e then some none else none := by
  fun_induction enlarge l e with
  | case1 l h ih =>
    obtain ⟨h1, h2⟩ := ih
    constructor
    · rw [h1]; simp; omega
    · intro k
      rw [h2]; simp only [List.length_append, List.length_cons, List.length_nil]
      grind
  | case2 l h =>
    constructor
    · omega
    · intro k
      grind

/-! ### add -/

theorem add_present {s : SparseSet V} (h : s.WF) {e : Nat} (v : V) (he : e ∈ s.entities) :
    ∃ s', s.add e v = .ok s' ∧ s'.WF ∧ s'.entities = s.entities ∧ s'.indices.length = s.indices.length ∧
      (∀ x, s'.lookup x = if x = e then some v else s.lookup x) ∧
      (∀ x, s'.getIndex x = s.getIndex x) := by
  obtain ⟨i, hi⟩ := List.mem_iff_getElem?.1 he
  have hx := (h.idx e i).2 hi
  have helt : e < s.indices.length := (List.getElem?_eq_some_iff.1 hx).1
  have hilt : i < s.entities.length := (List.getElem?_eq_some_iff.1 hi).1
  obtain ⟨hl, hk⟩ := enlarge_spec s.indices e
  have hen : enlarge s.indices e = s.indices := by
    apply List.ext_getElem?; intro k; rw [hk]; grind
  have hilt' : i < s.data.length := by have := h.len; omega
  refine ⟨{ s with data := s.data.set i v }, ?_, ?_, rfl, rfl, ?_, fun x => rfl⟩
  · simp [add, hen, getR_some hx, setR_lt v hilt']
  · exact ⟨by simpa using h.len, h.idx0, h.idx⟩
  · intro x
    have hw : (⟨s.indices, s.entities, s.data.set i v⟩ : SparseSet V).WF :=
      ⟨by simpa using h.len, h.idx0, h.idx⟩
    by_cases hxe : x = e
    · subst hxe
      rw [lookup_of_index hw hi]; simp [hilt']
    · rw [if_neg hxe]
      simp only [lookup]
      have : (⟨s.indices, s.entities, s.data.set i v⟩ : SparseSet V).getIndex x = s.getIndex x := rfl
      rw [this]
      cases hj : s.getIndex x with
      | none => rfl
      | some j =>
        have hne : i ≠ j := by
          rintro rfl
          rw [getIndex_iff h] at hj
          rw [hi] at hj; simp at hj; exact hxe hj.symm
        simp [hne]

theorem add_absent {s : SparseSet V} (h : s.WF) {e : Nat} (v : V) (he : e ∉ s.entities) :
    ∃ s', s.add e v = .ok s' ∧ s'.WF ∧ s'.entities = s.entities ++ [e] ∧ s'.data = s.data ++ [v] ∧
      s'.indices.length = max s.indices.length (e + 1) ∧
      (∀ x, s'.lookup x = if x = e then some v else s.lookup x) ∧
      (∀ x, s'.getIndex x = if x = e then some s.entities.length else s.getIndex x) := by
  obtain ⟨hl, hk⟩ := enlarge_spec s.indices e
  have hke : (enlarge s.indices e)[e]? = some none := by
    rw [hk]
    split
    · rename_i hlt
      cases ho : s.indices[e]? with
      | none => rw [List.getElem?_eq_none_iff] at ho; omega
      | some o =>
        cases o with
        | none => rfl
        | some k =>
          cases k with
          | zero => exact absurd ho (h.idx0 e)
          | succ k => exact absurd (List.mem_of_getElem? ((h.idx e k).1 ho)) he
    · simp
  have hwf : (⟨(enlarge s.indices e).set e (some (s.entities.length + 1)), s.entities ++ [e],
      s.data ++ [v]⟩ : SparseSet V).WF := by
    constructor
    · simp [h.len]
    · intro x
      have := h.idx0 x
      simp only [List.getElem?_set, hk]
      grind
    · intro x i
      have h1 := h.idx x i
      have h2 := h.idx e i
      have h3 : s.entities[i]? ≠ some e := fun h' => he (List.mem_of_getElem? h')
      simp only [List.getElem?_set, hk, List.getElem?_append]
      grind
  have hgi : ∀ x, (⟨(enlarge s.indices e).set e (some (s.entities.length + 1)), s.entities ++ [e],
      s.data ++ [v]⟩ : SparseSet V).getIndex x = if x = e then some s.entities.length else s.getIndex x := by
    intro x
    simp only [getIndex, List.getElem?_set, hk]
    by_cases hxe : e = x
    · subst hxe
      have : e < (enlarge s.indices e).length := by omega
      simp [this]
    · have hxe' : ¬ x = e := fun h => hxe h.symm
      simp only [hxe, hxe', if_false]
      by_cases hlt : x < s.indices.length
      · simp [hlt]
      · have : s.indices[x]? = none := List.getElem?_eq_none (by omega)
        simp only [hlt, if_false, this]
        by_cases hle : x ≤ e <;> simp [hle]
  refine ⟨_, ?_, hwf, rfl, rfl, ?_, ?_, hgi⟩
  · simp [add, getR_some hke, setR_lt _ (show e < (enlarge s.indices e).length by omega)]
  · simp [hl]
  · intro x
    simp only [lookup, hgi]
    by_cases hxe : x = e
    · simp [hxe, h.len]
    · simp only [hxe, if_false]
      cases hj : s.getIndex x with
      | none => rfl
      | some j =>
        have := getIndex_lt h hj
        rw [h.len] at this
        simp [List.getElem?_append, this]

/-! ### swap -/

theorem swapByIndex_spec {s : SparseSet V} (h : s.WF) {i j : Nat} (hi : i < s.entities.length)
    (hj : j < s.entities.length) :
    ∃ s', s.swapByIndex i j = .ok s' ∧ s'.WF ∧ s'.indices.length = s.indices.length ∧
      s'.entities.length = s.entities.length ∧
      (∀ k, s'.entities[k]? = if k = j then s.entities[i]? else if k = i then s.entities[j]? else s.entities[k]?) ∧
      (∀ x, s'.lookup x = s.lookup x) ∧ (∀ x, x ∈ s'.entities ↔ x ∈ s.entities) := by
  by_cases hij : i = j
  · subst hij
    refine ⟨s, by simp [swapByIndex], h, rfl, rfl, ?_, fun _ => rfl, fun _ => Iff.rfl⟩
    intro k; split <;> simp_all
  have ha : s.entities[i]? = some s.entities[i] := List.getElem?_eq_getElem hi
  have hb : s.entities[j]? = some s.entities[j] := List.getElem?_eq_getElem hj
  generalize s.entities[i] = ea at ha
  generalize s.entities[j] = eb at hb
  have hia := (h.idx ea i).2 ha
  have hib := (h.idx eb j).2 hb
  have hla := (List.getElem?_eq_some_iff.1 hia).1
  have hlb := (List.getElem?_eq_some_iff.1 hib).1
  obtain ⟨I, hI, hIl, hIk⟩ := swapR_ok hla hlb
  obtain ⟨E, hE, hEl, hEk⟩ := swapR_ok hi hj
  obtain ⟨D, hD, hDl, hDk⟩ := swapR_ok (l := s.data) (i := i) (j := j) (by rw [← h.len]; exact hi)
    (by rw [← h.len]; exact hj)
  have hne : ea ≠ eb := fun heq => hij (entities_inj h ha (heq ▸ hb))
  have hwf : (⟨I, E, D⟩ : SparseSet V).WF := by
    constructor
    · simp [hEl, hDl, h.len]
    · intro e
      have := h.idx0 e
      have := h.idx0 ea
      have := h.idx0 eb
      simp only [hIk]
      grind
    · intro e k
      have h1 := h.idx e k
      have h2 := h.idx ea k
      have h3 := h.idx eb k
      have h4 := h.idx e i
      have h5 := h.idx e j
      simp only [hIk, hEk]
      grind
  have hlook : ∀ x, (⟨I, E, D⟩ : SparseSet V).lookup x = s.lookup x := by
    intro x
    apply Option.ext
    intro v
    rw [lookup_eq_some hwf, lookup_eq_some h]
    simp only [hEk, hDk]
    constructor
    · rintro ⟨k, h1, h2⟩
      by_cases hkj : k = j
      · exact ⟨i, by simpa [hkj] using h1, by simpa [hkj] using h2⟩
      · by_cases hki : k = i
        · exact ⟨j, by simpa [hkj, hki, hij] using h1, by simpa [hkj, hki, hij] using h2⟩
        · exact ⟨k, by simpa [hkj, hki] using h1, by simpa [hkj, hki] using h2⟩
    · rintro ⟨k, h1, h2⟩
      by_cases hkj : k = j
      · exact ⟨i, by simpa [hkj, hij] using hkj ▸ h1, by simpa [hkj, hij] using hkj ▸ h2⟩
      · by_cases hki : k = i
        · exact ⟨j, by simpa [hki] using hki ▸ h1, by simpa [hki] using hki ▸ h2⟩
        · exact ⟨k, by simpa [hkj, hki] using h1, by simpa [hkj, hki] using h2⟩
  refine ⟨⟨I, E, D⟩, ?_, hwf, hIl, hEl, hEk, hlook, ?_⟩
  · have h1 : ¬ (s.len ≤ i) := by simp [len]; omega
    have h2 : ¬ (s.len ≤ j) := by simp [len]; omega
    simp [swapByIndex, hij, h1, h2, getR_some ha, getR_some hb, hI, hE, hD]
  · intro x
    rw [← lookup_isSome hwf, ← lookup_isSome h, hlook]

/-- Swapping by entity is swapping by index. -/
theorem swapByEntity_eq {s : SparseSet V} (h : s.WF) {a b i j : Nat} (ha : s.entities[i]? = some a) (hb : s.entities[j]? = some b) :
    s.swapByEntity a b = s.swapByIndex i j := by
  have hia := (h.idx a i).2 ha
  have hib := (h.idx b j).2 hb
  have hi := (List.getElem?_eq_some_iff.1 ha).1
  have hj := (List.getElem?_eq_some_iff.1 hb).1
  have h1 : ¬ (s.len ≤ i) := by simp [len]; omega
  have h2 : ¬ (s.len ≤ j) := by simp [len]; omega
  by_cases hab : a = b
  · subst hab
    have : i = j := entities_inj h ha hb
    subst this
    simp [swapByEntity, swapByIndex, exist, hia, assertR]
  · have hij : i ≠ j := by
      rintro rfl
      rw [ha] at hb
      exact hab (Option.some.inj hb)
    simp [swapByEntity, swapByIndex, exist, hia, hib, assertR, hab, hij, h1, h2, getR_some ha, getR_some hb, getR_some hia, getR_some hib, unwrapR]

/-! ### remove -/

theorem remove_present {s : SparseSet V} (h : s.WF) {e i : Nat} (he : s.entities[i]? = some e) :
    ∃ s', s.remove e = .ok (s', s.lookup e) ∧ s'.WF ∧ s'.indices.length = s.indices.length ∧
      s'.entities.length = s.entities.length - 1 ∧
      (∀ k, s'.entities[k]? = if k < s.entities.length - 1 then
        (if k = i then s.entities[s.entities.length - 1]? else s.entities[k]?) else none) ∧
      (∀ x, s'.lookup x = if x = e then none else s.lookup x) ∧
      (∀ x, x ∈ s'.entities ↔ x ≠ e ∧ x ∈ s.entities) := by
  have hi : i < s.entities.length := (List.getElem?_eq_some_iff.1 he).1
  have hie := (h.idx e i).2 he
  have hle := (List.getElem?_eq_some_iff.1 hie).1
  have hl : s.entities.getLast? = some s.entities[s.entities.length - 1] := by
    rw [List.getLast?_eq_getElem?]; exact List.getElem?_eq_getElem _
  have hz : s.entities[s.entities.length - 1]? = some s.entities[s.entities.length - 1] :=
    List.getElem?_eq_getElem _
  generalize s.entities[s.entities.length - 1] = el at hz hl
  have hil := (h.idx el _).2 hz
  have hll := (List.getElem?_eq_some_iff.1 hil).1
  obtain ⟨I, hI, hIl, hIk⟩ := swapR_ok hle hll
  obtain ⟨E, hE, hEl, hEk⟩ := swapRemoveR_ok hi
  have hid : i < s.data.length := by rw [← h.len]; exact hi
  obtain ⟨D, hD, hDl, hDk⟩ := swapRemoveR_ok hid
  have hlook : s.lookup e = some s.data[i] := by
    rw [lookup_of_index h he, List.getElem?_eq_getElem hid]
  have hinj : ∀ k e', s.entities[k]? = some e' → (e' = e ↔ k = i) := by
    intro k e' hk
    constructor
    · rintro rfl; exact entities_inj h hk he
    · rintro rfl; rw [hk] at he; simpa using he
  have hwf : (⟨I.set e none, E, D⟩ : SparseSet V).WF := by
    constructor
    · simp [hEl, hDl, h.len]
    · intro x
      have := h.idx0 x
      have := h.idx0 el
      simp only [List.getElem?_set, hIk]
      grind
    · intro x k
      have h1 := h.idx x k
      have h4 := h.idx x (s.entities.length - 1)
      have h5 := hinj k x
      have h6 : s.entities[k]? = some x → k < s.entities.length := fun h => (List.getElem?_eq_some_iff.1 h).1
      have h7 := hinj (s.entities.length - 1) el hz
      have h8 := h.idx x i
      simp only [List.getElem?_set, hIk, hEk]
      by_cases hx : e = x
      · subst hx
        grind
      · grind
  have hlook' : ∀ x, (⟨I.set e none, E, D⟩ : SparseSet V).lookup x = if x = e then none else s.lookup x := by
    intro x
    by_cases hx : x = e
    · subst hx
      simp only [lookup, getIndex, List.getElem?_set, if_true]
      have : x < I.length := hIl ▸ hle
      simp [this]
    · rw [if_neg hx]
      apply Option.ext
      intro v
      rw [lookup_eq_some hwf, lookup_eq_some h]
      simp only [hEk, hDk]
      have hlen := h.len
      constructor
      · rintro ⟨k, h1, h2⟩
        rw [← hlen] at h2
        by_cases hk : k < s.entities.length - 1
        · by_cases hki : k = i
          · exact ⟨s.entities.length - 1, by subst hki; simpa [hk] using h1, by
              subst hki; simpa [hk] using h2⟩
          · exact ⟨k, by simpa [hk, hki] using h1, by simpa [hk, hki] using h2⟩
        · simp [hk] at h1
      · rintro ⟨k, h1, h2⟩
        have hk : k < s.entities.length := (List.getElem?_eq_some_iff.1 h1).1
        have hki : k ≠ i := fun hki => hx ((hinj k x h1).2 hki)
        rw [← hlen]
        by_cases hkl : k = s.entities.length - 1
        · subst hkl
          have : i < s.entities.length - 1 := by omega
          exact ⟨i, by simpa [this] using h1, by simpa [this] using h2⟩
        · have : k < s.entities.length - 1 := by omega
          exact ⟨k, by simpa [this, hki] using h1, by simpa [this, hki] using h2⟩
  refine ⟨⟨I.set e none, E, D⟩, ?_, hwf, by simp [hIl], hEl, hEk, hlook', ?_⟩
  · have h1 : ¬ (s.indices.length < e) := by omega
    have h2 : e < I.length := by omega
    rw [hlook]
    simp [remove, h1, getR_some hie, getR_some he, hl, hI, setR_lt _ h2, hE, hD]
  · intro x
    rw [← lookup_isSome hwf, ← lookup_isSome h, hlook']
    by_cases hx : x = e <;> simp [hx]

theorem indices_of_absent {s : SparseSet V} (h : s.WF) {e : Nat} (he : e ∉ s.entities) :
    s.indices[e]? = none ∨ s.indices[e]? = some none := by
  cases ho : s.indices[e]? with
  | none => exact .inl rfl
  | some o =>
    cases o with
    | none => exact .inr rfl
    | some k =>
      cases k with
      | zero => exact absurd ho (h.idx0 e)
      | succ k => exact absurd (List.mem_of_getElem? ((h.idx e k).1 ho)) he

/-- Removing an absent id is a no-op, except exactly at `e = indices.length`, where it panics. -/
theorem remove_absent {s : SparseSet V} (h : s.WF) {e : Nat} (he : e ∉ s.entities) :
    s.remove e = if e = s.indices.length then .error .panic else .ok (s, none) := by
  unfold remove
  by_cases h1 : s.indices.length < e
  · have : e ≠ s.indices.length := by omega
    simp [h1, this]
  · by_cases h2 : e = s.indices.length
    · have : s.indices[e]? = none := List.getElem?_eq_none (by omega)
      rw [if_neg h1, if_pos h2]; simp [getR_none this]
    · have hlt : e < s.indices.length := by omega
      rcases indices_of_absent h he with h3 | h3
      · rw [List.getElem?_eq_none_iff] at h3; omega
      · simp [h1, h2, getR_some h3]

theorem removeUnwrap_present {s : SparseSet V} (h : s.WF) {e i : Nat} (he : s.entities[i]? = some e) :
    ∃ s', s.removeUnwrap e = .ok s' ∧ s'.WF ∧ s'.indices.length = s.indices.length ∧
      s'.entities.length = s.entities.length - 1 ∧
      (∀ k, s'.entities[k]? = if k < s.entities.length - 1 then
        (if k = i then s.entities[s.entities.length - 1]? else s.entities[k]?) else none) ∧
      (∀ x, s'.lookup x = if x = e then none else s.lookup x) ∧
      (∀ x, x ∈ s'.entities ↔ x ≠ e ∧ x ∈ s.entities) := by
  obtain ⟨s', h1, h2⟩ := remove_present h he
  refine ⟨s', ?_, h2⟩
  have : s.lookup e ≠ none := by
    rw [Ne, lookup_none h]; simp [List.mem_of_getElem? he]
  obtain ⟨v, hv⟩ := Option.ne_none_iff_exists'.1 this
  simp [removeUnwrap, h1, hv]

/-! ### add_batch -/

theorem addBatchLoop_spec (es : List EntityId) :
    ∀ (I : List (Option Nat)) (k : Nat), es.Nodup →
    ∃ I', addBatchLoop I k es = .ok I' ∧
      (∀ e : Nat, I'[e]? = if e ∈ es then some (some (k + es.idxOf e + 1))
        else if e < I.length then I[e]? else if e < I'.length then some none else none) ∧
      I'.length = es.foldl (fun n e => max n (e + 1)) I.length := by
  induction es with
  | nil => 
    intro I k _
    refine ⟨I, rfl, ?_, rfl⟩
    intro e
    by_cases h : e < I.length
    · simp [h]
    · simp [h]
  | cons a es ih =>
    intro I k hnd
    rw [List.nodup_cons] at hnd
    obtain ⟨hl, hk⟩ := enlarge_spec I a
    obtain ⟨I', h1, h2, h3⟩ := ih ((enlarge I a).set a (some (k + 1))) (k + 1) hnd.2
    have hmono : ∀ (l : List EntityId) (n : Nat), n ≤ l.foldl (fun n e => max n (e + 1)) n := by
      intro l
      induction l with
      | nil => simp
      | cons b l ihl => intro n; simp only [List.foldl_cons]; have := ihl (max n (b+1)); omega
    have hm := hmono es (max I.length (a + 1))
    have ha : a < (enlarge I a).length := by rw [hl]; omega
    simp only [List.length_set, hl] at h3
    refine ⟨I', ?_, ?_, ?_⟩
    · simp [addBatchLoop, setR_lt _ ha, h1]
    · intro e
      rw [h2]
      simp only [List.length_set, List.getElem?_set, hl, hk, List.mem_cons, List.idxOf_cons]
      grind
    · rw [h3]; simp [hl]

theorem addBatch_spec {s : SparseSet V} (h : s.WF) {es : List EntityId} {vs : List V}
    (hlen : es.length = vs.length) (hnd : es.Nodup) (hdisj : ∀ e ∈ es, e ∉ s.entities) :
    ∃ s', s.addBatch es vs = .ok s' ∧ s'.WF ∧ s'.entities = s.entities ++ es ∧ s'.data = s.data ++ vs ∧
      s'.indices.length = es.foldl (fun n e => max n (e + 1)) s.indices.length ∧
      (∀ x, s'.lookup x = if x ∈ es then vs[es.idxOf x]? else s.lookup x) ∧
      (∀ x, x ∉ es → s'.getIndex x = s.getIndex x) := by
  obtain ⟨I, hI, hIk, hIl⟩ := addBatchLoop_spec es s.indices s.entities.length hnd
  have hwf : (⟨I, s.entities ++ es, s.data ++ vs⟩ : SparseSet V).WF := by
    constructor
    · simp [h.len, hlen]
    · intro e
      have := h.idx0 e
      rw [hIk]; grind
    · intro e i
      rw [hIk]
      have h1 := h.idx e i
      have h2 := hdisj e
      by_cases he : e ∈ es
      · have h3 : s.entities[i]? ≠ some e := fun h' => h2 he (List.mem_of_getElem? h')
        have h4 : es.idxOf e < es.length := List.idxOf_lt_length_iff.2 he
        have h5 : es[es.idxOf e]? = some e := by
          rw [List.getElem?_eq_getElem h4]; simp
        have h6 : ∀ j : Nat, es[j]? = some e → j = es.idxOf e := by
          intro j hj
          obtain ⟨hj1, hj2⟩ := List.getElem?_eq_some_iff.1 hj
          exact (List.getElem_inj hnd (h₀ := hj1) (h₁ := h4)).1 (by rw [hj2]; simp)
        simp only [he, if_true, List.getElem?_append]
        constructor
        · intro h'
          have : i = s.entities.length + es.idxOf e := by simpa using h'.symm
          simp [this, h5]
        · intro h'
          by_cases hlt : i < s.entities.length
          · simp [hlt] at h'; exact absurd (by simpa [hlt] using h') h3
          · simp only [hlt, if_false] at h'
            have := h6 _ h'
            simp; omega
      · simp only [he, if_false, List.getElem?_append]
        have h3 : ∀ j : Nat, es[j]? ≠ some e := fun j h' => he (List.mem_of_getElem? h')
        have h4 := h3 (i - s.entities.length)
        have h5 : s.entities[i]? = some e → i < s.entities.length := fun h => (List.getElem?_eq_some_iff.1 h).1
        grind
  have hgi : ∀ x, x ∉ es → (⟨I, s.entities ++ es, s.data ++ vs⟩ : SparseSet V).getIndex x = s.getIndex x := by
    intro x hx
    simp only [getIndex, hIk, hx, if_false]
    by_cases hlt : x < s.indices.length
    · simp [hlt]
    · have : s.indices[x]? = none := List.getElem?_eq_none (by omega)
      simp only [hlt, if_false, this]
      by_cases hle : x < I.length <;> simp [hle]
  refine ⟨⟨I, s.entities ++ es, s.data ++ vs⟩, ?_, hwf, rfl, rfl, hIl, ?_, hgi⟩
  · simp [addBatch, hlen, hI]
  · intro x
    by_cases hx : x ∈ es
    · have h4 : es.idxOf x < es.length := List.idxOf_lt_length_iff.2 hx
      have h5 : es[es.idxOf x]? = some x := by rw [List.getElem?_eq_getElem h4]; simp
      rw [lookup_of_index hwf (i := s.entities.length + es.idxOf x) (by simp [List.getElem?_append, h5])]
      have : ¬ (s.data.length + es.idxOf x < s.data.length) := by omega
      simp [hx, List.getElem?_append, h.len, this]
    · simp only [hx, if_false, lookup, hgi x hx]
      cases hj : s.getIndex x with
      | none => rfl
      | some j =>
        have := getIndex_lt h hj
        rw [h.len] at this
        simp [List.getElem?_append, this]

/-- Assignment to a present component. -/
theorem setUnchecked_present {s : SparseSet V} (h : s.WF) {e : Nat} (v : V) (he : e ∈ s.entities) :
    ∃ s', s.setUnchecked e v = .ok s' ∧ s'.WF ∧ s'.entities = s.entities ∧ s'.indices = s.indices ∧
      (∀ x, s'.lookup x = if x = e then some v else s.lookup x) ∧
      (∀ x, s'.getIndex x = s.getIndex x) := by
  obtain ⟨i, hi⟩ := List.mem_iff_getElem?.1 he
  have hx := (h.idx e i).2 hi
  have hilt : i < s.entities.length := (List.getElem?_eq_some_iff.1 hi).1
  have hilt' : i < s.data.length := by have := h.len; omega
  have hw : (⟨s.indices, s.entities, s.data.set i v⟩ : SparseSet V).WF :=
    ⟨by simpa using h.len, h.idx0, h.idx⟩
  refine ⟨⟨s.indices, s.entities, s.data.set i v⟩, ?_, hw, rfl, rfl, ?_, fun x => rfl⟩
  · simp [setUnchecked, getU_some hx, getU_some (List.getElem?_eq_getElem hilt')]
  · intro x
    by_cases hxe : x = e
    · subst hxe
      rw [lookup_of_index hw hi]; simp [hilt']
    · rw [if_neg hxe]
      simp only [lookup]
      have : (⟨s.indices, s.entities, s.data.set i v⟩ : SparseSet V).getIndex x = s.getIndex x := rfl
      rw [this]
      cases hj : s.getIndex x with
      | none => rfl
      | some j =>
        have hne : i ≠ j := by
          rintro rfl
          rw [getIndex_iff h] at hj
          rw [hi] at hj; simp at hj; exact hxe hj.symm
        simp [hne]

end SparseSet
end Xecs
