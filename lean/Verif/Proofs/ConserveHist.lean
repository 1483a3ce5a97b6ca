import Verif.Proofs.Conserve
/-
The account of values over whole histories.
-/
set_option autoImplicit false
namespace Xecs
open Spec World Hist
variable {V : Type}

theorem value_lookup {w : World V} {t id : Nat} {st : Storage V} (hs : w.comps t = some st) (ht : st.ty = t) :
    w.value t id = st.set.lookup id := by
  unfold World.value World.componentRead
  simp only [M.read_apply, hs, downcast, if_pos ht, R.bind_ok]
  have h1 : st.set.exist id = (st.set.getIndex id).isSome := by
    unfold SparseSet.exist SparseSet.getIndex
    rcases st.set.indices[id]? with _ | _ | k <;> rfl
  have h2 : ∀ i, st.set.getIndex id = some i → st.set.getUnchecked id = getU st.set.data i := by
    intro i hi
    unfold SparseSet.getIndex at hi
    rcases h : st.set.indices[id]? with _ | _ | k <;> rw [h] at hi
    · cases hi
    · cases hi
    · cases hi
      simp only [SparseSet.getUnchecked, getU_some h, R.bind_ok, unwrapR]
  rw [h1]
  unfold SparseSet.lookup
  cases hi : st.set.getIndex id with
  | none => rfl
  | some i =>
    simp only [Option.isSome_some, if_true, h2 i hi, Option.bind_some, getU]
    cases st.set.data[i]? <;> rfl

theorem attach_num (P : V → Bool) (t : Nat) {w w' : World V} {id u : Nat} {v : V} (h : World.attach id u v w = (w', .ok ())) :
    w'.num P t + (if u = t then SparseSet.one P (w.value t id) else 0) =
      w.num P t + (if u = t then SparseSet.one P (some v) else 0) := by
  simp only [World.attach, World.entityAttach, M.bind_ok, M.read_ok, M.assert_iff, M.crit_iff] at h
  obtain ⟨w1, o, he, w2, x, ⟨rfl, hx⟩, w3, r, ⟨rfl, hr⟩, w4, _, ⟨rfl, hreg⟩, w5, _, hs, w6, ks, ⟨rfl, hks⟩, hl⟩ := h
  obtain ⟨rfl, ⟨hb, rfl⟩ | ⟨hb, rfl⟩⟩ := entity_ok he
  · simp at hx; subst hx
    simp only [attachStore, bind_eq_ok, downcast] at hs
    obtain ⟨st, hst, s, hd, S, hS, hs⟩ := hs
    have hst := unwrapR_ok hst
    split at hd
    · rename_i hty
      simp at hd hs; subst hd hs
      have h1 := M.Even.forEach (fun k => groupAdd_even P t k id) ks (w4.setSet u S)
      rw [hl] at h1
      have h2 := num_setSet P t u _ hst S
      have h3 := SparseSet.add_num P hS
      change w'.num P t = _ at h1
      by_cases hu : u = t
      · subst hu
        rw [value_lookup hst hty]
        simp only [if_true] at h2 ⊢
        omega
      · simp only [if_neg hu] at h2 ⊢; omega
    · simp at hd
  · simp at hx

theorem write_num (P : V → Bool) (t : Nat) {w w' : World V} {id u : Nat} {v : V} (h : World.componentWrite u id v w = (w', .ok true)) :
    w'.num P t + (if u = t then SparseSet.one P (w.value t id) else 0) =
      w.num P t + (if u = t then SparseSet.one P (some v) else 0) := by
  rcases componentWrite_inv h with h | ⟨_, st, S, hst, hex, hS, rfl⟩
  · cases h.1
  have hty : st.ty = u := by
    unfold componentWrite at h
    rw [M.crit_iff] at h
    simp only [hst, bind_eq_ok, downcast] at h
    obtain ⟨s, hd, _⟩ := h
    split at hd
    · assumption
    · cases hd
  have h1 := num_setSet P t u w hst S
  have h2 : S.num P + SparseSet.one P (st.set.lookup id) = st.set.num P + SparseSet.one P (some v) := by
    simp only [SparseSet.setUnchecked, bind_eq_ok] at hS
    obtain ⟨o, ho, k, hk, x, hx, hS⟩ := hS
    simp at hS; subst hS
    have get : ∀ {α : Type} {l : List α} {i : Nat} {a : α}, getU l i = .ok a → l[i]? = some a := by
      intro α l i a hx
      unfold getU at hx
      cases h : l[i]? with
      | none => simp [h] at hx
      | some y => simp [h] at hx; rw [hx]
    have hx := get hx
    have ho := get ho
    rw [unwrapR_ok hk] at ho
    have hl : st.set.lookup id = some x := by simp [SparseSet.lookup, SparseSet.getIndex, ho, hx]
    rw [hl]
    exact countP_set' hx
  by_cases hu : u = t
  · subst hu
    rw [value_lookup hst hty]
    simp only [if_true] at h1 ⊢
    omega
  · simp only [if_neg hu] at h1 ⊢; omega

theorem batch_num (P : V → Bool) (t : Nat) {w w' : World V} {start stop u : Nat} {vs : List V}
    (h : World.attachBatch start stop u vs w = (w', .ok ())) :
    w'.num P t = w.num P t + (if u = t then vs.countP P else 0) := by
  obtain ⟨_, st, S, hst, _, hS, rfl⟩ := attachBatch_inv h
  have h1 := num_setSet P t u w hst S
  have h2 := SparseSet.addBatch_num P hS
  by_cases hu : u = t
  · simp only [if_pos hu] at h1 ⊢; omega
  · simp only [if_neg hu] at h1 ⊢; omega

theorem detach_num (P : V → Bool) (t : Nat) {w w' : World V} {id u : Nat} {r : Option V} (h : World.detach id u w = (w', .ok r)) :
    w'.num P t + (if u = t then SparseSet.one P r else 0) = w.num P t := by
  simp only [World.detach, World.entityDetach, M.bind_ok, M.read_ok, M.assert_iff, M.crit_iff] at h
  obtain ⟨w1, o, he, w2, x, ⟨rfl, hx⟩, w3, b, ⟨rfl, hr⟩, w4, _, ⟨rfl, hreg⟩, w5, ks, ⟨rfl, hks⟩, w6, _, hl, hs⟩ := h
  obtain ⟨rfl, ⟨hb, rfl⟩ | ⟨hb, rfl⟩⟩ := entity_ok he
  · simp at hx; subst hx
    simp only [detachStore, bind_eq_ok, downcast] at hs
    obtain ⟨st, hst, s, hd, ⟨S, r'⟩, hS, hs⟩ := hs
    have hst := unwrapR_ok hst
    split at hd
    · rename_i hty
      simp at hd hs; obtain ⟨rfl, rfl⟩ := hs; subst hd
      have h1 := M.Even.forEach (fun k => groupRemove_even P t k id) ks w5
      rw [hl] at h1
      change w6.num P t = _ at h1
      have h2 := num_setSet P t u w6 hst S
      have h3 := SparseSet.remove_num P hS
      by_cases hu : u = t
      · simp only [if_pos hu] at h2 ⊢; omega
      · simp only [if_neg hu] at h2 ⊢; omega
    · simp at hd
  · simp at hx

theorem countP_ite (P : V → Bool) (c : Prop) [Decidable c] (l : List V) :
    (if c then l else []).countP P = if c then l.countP P else 0 := by split <;> rfl

/-- Nothing is lost. -/
theorem exec_exact (P : V → Bool) (t : Nat) {op : Op V} {w w' : World V} {o : Out V} (h : exec op w = (w', .ok o))
    (hr : ∀ order id, op ≠ .removeEntity order id) :
    w'.num P t + (op.returned t (.ok o)).countP P + (op.replaced w t o).countP P =
      w.num P t + (op.given t (.ok o)).countP P := by
  have even : ∀ {α : Type} (m : M V α) (f : α → Out V), M.Even (num P t) m →
      exec op w = (m >>= fun a => pure (f a)) w → w'.num P t = w.num P t := by
    intro α m f hm he
    have := (M.Even.bind hm fun a => .pure (f a)) w
    rw [← he, h] at this
    exact this
  cases op with
  | register u => have := even _ (fun _ => .unit) (register_even P t u) rfl; simp [Op.returned, Op.replaced, Op.given, this]
  | createEntity => have := even _ .id (createEntity_even P t) rfl; simp [Op.returned, Op.replaced, Op.given, this]
  | createEntities n => have := even _ (fun r => .range r.1 r.2) (createEntities_even P t n) rfl; simp [Op.returned, Op.replaced, Op.given, this]
  | exist id => have := even _ .bool (exist_even P t id) rfl; simp [Op.returned, Op.replaced, Op.given, this]
  | makeGroup k a b => have := even _ (fun _ => .unit) (makeGroup_even P t (toKind k) a b) rfl; simp [Op.returned, Op.replaced, Op.given, this]
  | read u id => have := even _ .val (.read _) rfl; simp [Op.returned, Op.replaced, Op.given, this]
  | count u => have := even _ .count (.read _) rfl; simp [Op.returned, Op.replaced, Op.given, this]
  | registerResource u v => have := even _ (fun _ => .unit) (registerResource_even P t u v) rfl; simp [Op.returned, Op.replaced, Op.given, this]
  | resourceRead u => have := even _ .val (.read _) rfl; simp [Op.returned, Op.replaced, Op.given, this]
  | resourceWrite u v => have := even _ .bool (resourceWrite_even P t u v) rfl; simp [Op.returned, Op.replaced, Op.given, this]
  | removeEntity order id => exact absurd rfl (hr order id)
  | attach id u v =>
    simp only [exec, bind_pure_ok] at h
    obtain ⟨_, h, _⟩ := h
    have := attach_num P t h
    simp only [Op.returned, Op.replaced, Op.given, List.countP_nil, countP_ite]
    exact this
  | attachBatch a b u vs =>
    simp only [exec, bind_pure_ok] at h
    obtain ⟨_, h, _⟩ := h
    have := batch_num P t h
    simp only [Op.returned, Op.replaced, Op.given, List.countP_nil, countP_ite]
    exact this
  | detach id u =>
    simp only [exec, bind_pure_ok] at h
    obtain ⟨r, h, rfl⟩ := h
    have := detach_num P t h
    cases r with
    | none =>
      simp only [Op.returned, Op.replaced, Op.given, List.countP_nil]
      simp only [SparseSet.one, Option.toList, List.countP_nil] at this
      split at this <;> exact this
    | some v =>
      simp only [Op.returned, Op.replaced, Op.given, List.countP_nil, countP_ite]
      exact this
  | write u id v =>
    simp only [exec, bind_pure_ok] at h
    obtain ⟨b, h, rfl⟩ := h
    cases b with
    | false =>
      rcases componentWrite_inv h with h | h
      · rw [h.2]; rfl
      · cases h.1
    | true =>
      have := write_num P t h
      simp only [Op.returned, Op.replaced, Op.given, List.countP_nil, countP_ite]
      exact this

/-! ### Removal -/

theorem SparseSet.data_eq {s : SparseSet V} (h : s.WF) : s.data = s.entities.filterMap s.lookup := by
  have : s.entities.map s.lookup = s.data.map some := by
    apply List.ext_getElem?
    intro i
    simp only [List.getElem?_map]
    cases he : s.entities[i]? with
    | none =>
      have : s.data.length ≤ i := by rw [← h.len]; exact List.getElem?_eq_none_iff.1 he
      simp [List.getElem?_eq_none_iff.2 this]
    | some e =>
      have hi : i < s.data.length := by rw [← h.len]; exact (List.getElem?_eq_some_iff.1 he).1
      have : s.lookup e = s.data[i]? := by
        simp [lookup, (getIndex_iff h).2 he]
      simp [this, List.getElem?_eq_getElem hi]
  have h2 : (s.entities.map s.lookup).filterMap id = (s.data.map some).filterMap id := by rw [this]
  rw [List.filterMap_map, List.filterMap_map] at h2
  simpa using h2.symm

theorem SparseSet.mem_iff {s : SparseSet V} (h : s.WF) (e : Nat) : e ∈ s.entities ↔ (s.lookup e).isSome := by
  constructor
  · intro he
    obtain ⟨i, hi⟩ := List.mem_iff_getElem?.1 he
    have hl : i < s.data.length := by rw [← h.len]; exact (List.getElem?_eq_some_iff.1 hi).1
    simp [lookup, (getIndex_iff h).2 hi, hl]
  · intro he
    obtain ⟨v, hv⟩ := Option.isSome_iff_exists.1 he
    obtain ⟨i, hi, _⟩ := (lookup_eq_some h).1 hv
    exact List.mem_iff_getElem?.2 ⟨i, hi⟩

theorem SparseSet.perm_of_lookup {s s' : SparseSet V} (h : s.WF) (h' : s'.WF) {id : Nat}
    (hl : ∀ x, x ≠ id → s'.lookup x = s.lookup x) (hn : s'.lookup id = none) :
    (s'.data ++ (s.lookup id).toList).Perm s.data := by
  have h1 : (s'.entities ++ (if (s.lookup id).isSome then [id] else [])).Perm s.entities := by
    have hid : id ∉ s'.entities := by rw [mem_iff h', hn]; simp
    rw [List.perm_ext_iff_of_nodup _ (nodup h)]
    · intro x
      rw [List.mem_append, mem_iff h, mem_iff h']
      by_cases hx : x = id
      · subst hx; rw [hn]; split <;> simp_all
      · rw [hl x hx]; split <;> simp [hx]
    · rw [List.nodup_append]
      refine ⟨nodup h', by split <;> simp, ?_⟩
      intro a ha b hb hab
      split at hb
      · simp at hb; subst hb hab; exact hid ha
      · cases hb
  have h2 := h1.filterMap s.lookup
  rw [List.filterMap_append, ← data_eq h] at h2
  have h3 : s'.entities.filterMap s.lookup = s'.data := by
    rw [data_eq h']
    have congr : ∀ (f g : Nat → Option V) (l : List Nat), (∀ x ∈ l, f x = g x) → l.filterMap f = l.filterMap g := by
      intro f g l
      induction l with
      | nil => intro _; rfl
      | cons a l ih =>
        intro hfg
        rw [List.filterMap_cons, List.filterMap_cons, hfg a (by simp), ih fun x hx => hfg x (by simp [hx])]
    apply congr
    intro x hx
    have : x ≠ id := by intro he; subst he; rw [mem_iff h', hn] at hx; cases hx
    rw [hl x this]
  have h4 : (if (s.lookup id).isSome then [id] else []).filterMap s.lookup = (s.lookup id).toList := by
    cases hs : s.lookup id <;> simp [hs]
  rw [h3, h4] at h2
  exact h2

theorem SparseSet.perm_of_same {s s' : SparseSet V} (h : s.WF) (h' : s'.WF) (hl : ∀ x, s'.lookup x = s.lookup x) :
    s'.data.Perm s.data := by
  have h1 : s'.entities.Perm s.entities := by
    rw [List.perm_ext_iff_of_nodup (nodup h') (nodup h)]
    intro x; rw [mem_iff h, mem_iff h', hl]
  rw [data_eq h, data_eq h']
  have : s'.lookup = s.lookup := funext hl
  rw [this]
  exact h1.filterMap _

theorem look_held {w : World V} {tr : List (Op V × Out V)} (h : Look w tr) {w' : World V} (h' : Look w' tr) (t : Nat) :
    (w'.held t).Perm (w.held t) := by
  unfold World.held
  cases hc : w.comps t with
  | none =>
    have := (h.at_none hc).1
    cases hc' : w'.comps t with
    | none => exact .refl _
    | some st' => rw [(h'.at_some hc').1] at this; cases this
  | some st =>
    obtain ⟨e1, _, e2, e3⟩ := h.at_some hc
    cases hc' : w'.comps t with
    | none => rw [(h'.at_none hc').1] at e1; cases e1
    | some st' =>
      obtain ⟨_, _, e4, e5⟩ := h'.at_some hc'
      exact SparseSet.perm_of_same e2 e4 fun x => (e5 x).trans (e3 x).symm

theorem removal_held {tr : List (Op V × Out V)} {w w' : World V} {order : List Nat} {id : Nat} {o : Out V} (hl : Look w tr)
    (hl' : Look w' ((.removeEntity order id, o) :: tr)) (t : Nat) :
    (w'.held t ++ (lastValue t id tr).toList).Perm (w.held t) := by
  unfold World.held
  cases hc : w.comps t with
  | none =>
    obtain ⟨e1, e2⟩ := hl.at_none hc
    rw [e2]
    cases hc' : w'.comps t with
    | none => exact .refl _
    | some st' =>
      have := (hl'.at_some hc').1
      simp only [registered] at this
      rw [this] at e1; cases e1
  | some st =>
    obtain ⟨e1, _, e2, e3⟩ := hl.at_some hc
    cases hc' : w'.comps t with
    | none =>
      have := (hl'.at_none hc').1
      simp only [registered] at this
      rw [this] at e1; cases e1
    | some st' =>
      obtain ⟨_, _, e4, e5⟩ := hl'.at_some hc'
      have := SparseSet.perm_of_lookup e2 e4 (id := id) (fun x hx => by rw [e5, e3]; simp [lastValue, Ne.symm hx]) (by rw [e5]; simp [lastValue])
      rw [e3] at this
      exact this

theorem look_value {w : World V} {tr : List (Op V × Out V)} (h : Look w tr) (t id : Nat) : w.value t id = lastValue t id tr := by
  cases hc : w.comps t with
  | none =>
    rw [(h.at_none hc).2]
    simp [World.value, World.componentRead, M.read_apply, hc]
  | some st =>
    obtain ⟨_, e1, _, e3⟩ := h.at_some hc
    rw [value_lookup hc e1, e3]

/-- The books balance. -/
theorem balance {tr : List (Op V × Out V)} {w : World V} (h : AnyTrace tr w) (P : V → Bool) (t : Nat) : NoRebatch tr →
    w.num P t + (Hist.returned t tr).countP P + (Hist.dropped t tr).countP P = (Hist.given t tr).countP P := by
  induction h with
  | init => intro _; rfl
  | fails hprev he hc ih =>
    rename_i tr w w' op e
    intro hn
    have h1 := look_held (any_look hprev hn) (any_look (.fails hprev he hc) hn) t
    have h2 := ih hn
    have : w'.num P t = w.num P t := h1.countP_eq P
    omega
  | ok hprev ho he ih =>
    rename_i tr w w' op o
    intro hn
    have hn' : NoRebatch tr := by
      cases op <;> first | exact hn | exact hn.2
    have h1 := ih hn'
    have hl := any_look hprev hn'
    have e1 : Hist.returned t ((op, o) :: tr) = op.returned t (.ok o) ++ Hist.returned t tr := rfl
    have e2 : Hist.given t ((op, o) :: tr) = op.given t (.ok o) ++ Hist.given t tr := rfl
    rw [e1, e2, List.countP_append, List.countP_append]
    by_cases hr : ∃ order id, op = .removeEntity order id
    · obtain ⟨order, id, rfl⟩ := hr
      have h2 := removal_held hl (any_look (.ok hprev ho he) hn) t
      have h3 := h2.countP_eq P
      rw [List.countP_append] at h3
      have e3 : Hist.dropped t ((.removeEntity order id, o) :: tr) = (lastValue t id tr).toList ++ Hist.dropped t tr := rfl
      rw [e3, List.countP_append]
      have e4 : Op.returned t (.removeEntity order id) (.ok o) = ([] : List V) := rfl
      have e5 : Op.given t (.removeEntity order id) (.ok o) = ([] : List V) := rfl
      rw [e4, e5]
      change w'.num P t + _ = w.num P t at h3
      simp only [List.countP_nil]
      omega
    · have h2 := exec_exact P t he (fun order id hc => hr ⟨order, id, hc⟩)
      have h3 : (Hist.dropped t ((op, o) :: tr)).countP P = (op.replaced w t o).countP P + (Hist.dropped t tr).countP P := by
        cases op with
        | removeEntity order id => exact absurd ⟨order, id, rfl⟩ hr
        | attach id u v =>
          show ((if u = t then (lastValue t id tr).toList else []) ++ Hist.dropped t tr).countP P = _
          rw [List.countP_append, Op.replaced, look_value hl]
        | write u id v =>
          cases o with
          | bool b =>
            cases b with
            | true =>
              show ((if u = t then (lastValue t id tr).toList else []) ++ Hist.dropped t tr).countP P = _
              rw [List.countP_append, Op.replaced, look_value hl]
            | false => simp [Hist.dropped, Op.replaced]
          | _ => simp [Hist.dropped, Op.replaced]
        | _ => simp [Hist.dropped, Op.replaced]
      omega

/-- Over any calls whatsoever. -/
theorem calls_pay {l : List (Op V × R (Out V))} {w : World V} (h : Calls l w) (P : V → Bool) (t : Nat) :
    w.num P t + (l.flatMap fun x => x.1.returned t x.2).countP P ≤ (l.flatMap fun x => x.1.given t x.2).countP P := by
  induction h with
  | init => exact Nat.zero_le _
  | call hprev he ih =>
    rename_i l w w' op r
    have := exec_pays P t op w
    rw [he] at this
    simp only [List.flatMap_cons, List.countP_append]
    simp only at this
    omega

end Xecs
