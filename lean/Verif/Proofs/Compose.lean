import Verif.Proofs.IterState
import Verif.Proofs.GroupQueries
/-
Composite queries in terms of the lists their parts yield.
-/
set_option autoImplicit false
namespace Xecs
open Spec World Hist
variable {V : Type}

theorem Lists.lookup {α : Type} {f : Nat → Option α} {l : List (Nat × α)} (h : Lists l f) (id : Nat) :
    l.lookup id = f id := by
  obtain ⟨h1, h2⟩ := h
  have key : ∀ l : List (Nat × α), (l.map Prod.fst).Nodup → ∀ id x, l.lookup id = some x ↔ (id, x) ∈ l := by
    intro l
    induction l with
    | nil => intro _ id x; simp
    | cons y l ih =>
      intro hn id x
      simp only [List.map_cons, List.nodup_cons] at hn
      obtain ⟨k, v⟩ := y
      simp only [List.lookup_cons, List.mem_cons, Prod.mk.injEq]
      by_cases hk : id = k
      · subst hk
        simp only [beq_self_eq_true, Option.some.injEq, true_and]
        constructor
        · intro e; exact .inl e.symm
        · rintro (e | e)
          · exact e.symm
          · exact absurd (List.mem_map.2 ⟨_, e, rfl⟩) hn.1
      · have : (id == k) = false := by simpa using hk
        simp only [this, hk, false_and, false_or]
        exact ih hn.2 id x
  cases hf : f id with
  | some x => exact (key l h1 id x).2 ((h2 id x).2 hf)
  | none =>
    cases hl : l.lookup id with
    | none => rfl
    | some x => rw [(h2 id x).1 ((key l h1 id x).1 hl)] at hf; cases hf

/-- A list is determined by the ids. -/
theorem Lists.recover {α : Type} {f : Nat → Option α} {l : List (Nat × α)} (h : Lists l f) :
    l = (l.map Prod.fst).filterMap fun id => (f id).map fun x => (id, x) := by
  have key : ∀ l : List (Nat × α), (∀ x ∈ l, f x.1 = some x.2) →
      l = (l.map Prod.fst).filterMap fun id => (f id).map fun x => (id, x) := by
    intro l
    induction l with
    | nil => intro _; rfl
    | cons y l ih =>
      intro hl
      obtain ⟨k, v⟩ := y
      have := hl (k, v) (by simp)
      simp only [List.map_cons, List.filterMap_cons, this, Option.map_some]
      rw [← ih (fun x hx => hl x (by simp [hx]))]
  exact key l fun x hx => (h.2 x.1 x.2).1 hx

/-- A list obtained from another by keeping some ids and changing the items. -/
theorem Lists.derive {α β : Type} {f : Nat → Option α} {f' : Nat → Option β} {g : Nat → α → Option β} {l : List (Nat × α)}
    {l' : List (Nat × β)} (h : Lists l f) (h' : Lists l' f') (hf : ∀ id, f' id = (f id).bind (g id))
    {keep : Nat → Bool} (hk : ∀ id, keep id = false → ∀ x, g id x = none)
    (hi : l'.map Prod.fst = (l.map Prod.fst).filter keep) :
    l' = l.filterMap fun x => (g x.1 x.2).map fun y => (x.1, y) := by
  rw [h'.recover, hi]
  have key : ∀ l : List (Nat × α), (∀ x ∈ l, f x.1 = some x.2) →
      ((l.map Prod.fst).filter keep).filterMap (fun id => (f' id).map fun x => (id, x)) =
      l.filterMap fun x => (g x.1 x.2).map fun y => (x.1, y) := by
    intro l
    induction l with
    | nil => intro _; rfl
    | cons y l ih =>
      intro hl
      obtain ⟨k, v⟩ := y
      have hv := hl (k, v) (by simp)
      have ih := ih (fun x hx => hl x (by simp [hx]))
      have e : f' k = g k v := by rw [hf, hv]; rfl
      cases hkk : keep k with
      | false =>
        simp only [List.map_cons, List.filter_cons, hkk, Bool.false_eq_true, if_false, List.filterMap_cons, hk k hkk v,
          Option.map_none, ih]
      | true =>
        simp only [List.map_cons, List.filter_cons, hkk, if_true, List.filterMap_cons, e, ih]
  exact key l fun x hx => (h.2 x.1 x.2).1 hx

theorem Query.Conflictless.sub {q a : Query} (h : q.Conflictless) (hs : a.accesses.Sublist q.accesses) : a.Conflictless :=
  List.Pairwise.sublist hs h

/-- The references in an item, in order. -/
theorem locs_place (w : World V) (id : Nat) (q : Query) :
    (place w id q).locs = q.shown.map fun x => (⟨x.1, w.idx x.1 id, x.2⟩ : Loc) := by
  induction q with
  | comp m t => rfl
  | group k ma mb a b => rfl
  | with2 a b iha ihb => simp only [place, Item.locs, Query.shown, List.map_append, iha, ihb]
  | with3 a b c iha ihb ihc => simp only [place, Item.locs, Query.shown, List.map_append, iha, ihb, ihc]
  | with4 a b c d iha ihb ihc ihd => simp only [place, Item.locs, Query.shown, List.map_append, iha, ihb, ihc, ihd]
  | with5 a b c d e iha ihb ihc ihd ihe =>
    simp only [place, Item.locs, Query.shown, List.map_append, iha, ihb, ihc, ihd, ihe]
  | withoutL a b iha ihb => simp only [place, Query.shown, ihb]
  | withoutR a b iha ihb => simp only [place, Query.shown, iha]

theorem shown_sublist (q : Query) : q.shown.Sublist q.accesses := by
  induction q with
  | comp m t => exact .refl _
  | group k ma mb a b => exact .refl _
  | with2 a b iha ihb => exact iha.append ihb
  | with3 a b c iha ihb ihc => simp only [Query.shown, Query.accesses, List.append_assoc]; exact iha.append (ihb.append ihc)
  | with4 a b c d iha ihb ihc ihd =>
    simp only [Query.shown, Query.accesses, List.append_assoc]; exact iha.append (ihb.append (ihc.append ihd))
  | with5 a b c d e iha ihb ihc ihd ihe =>
    simp only [Query.shown, Query.accesses, List.append_assoc]
    exact iha.append (ihb.append (ihc.append (ihd.append ihe)))
  | withoutL a b iha ihb => exact ihb.trans (List.sublist_append_right _ _)
  | withoutR a b iha ihb => exact iha.trans (List.sublist_append_left _ _)

theorem answer_shown {c : Nat → Nat → Option V} (q : Query) {id : Nat} : ∀ {v : Item V}, q.answer c id = some v →
    ∀ x ∈ q.shown, (c x.1 id).isSome = true := by
  induction q with
  | comp m t =>
    intro v hv x hx
    simp only [Query.shown, List.mem_singleton] at hx
    subst hx
    simp only [Query.answer, Option.map_eq_some_iff] at hv
    obtain ⟨u, hu, _⟩ := hv
    simp [hu]
  | group k ma mb a b =>
    intro v hv x hx
    simp only [Query.answer] at hv
    simp only [Query.shown, List.mem_cons, List.not_mem_nil, or_false] at hx
    cases ha : c a id <;> cases hb : c b id <;> rw [ha, hb] at hv <;> simp at hv
    rcases hx with rfl | rfl <;> simp [ha, hb]
  | with2 a b iha ihb =>
    intro v hv x hx
    simp only [Query.answer] at hv
    cases ha : a.answer c id <;> cases hb : b.answer c id <;> rw [ha, hb] at hv <;> simp at hv
    simp only [Query.shown, List.mem_append] at hx
    rcases hx with hx | hx
    · exact iha ha x hx
    · exact ihb hb x hx
  | with3 a b d iha ihb ihc =>
    intro v hv x hx
    simp only [Query.answer] at hv
    cases ha : a.answer c id <;> cases hb : b.answer c id <;> cases hd : d.answer c id <;> rw [ha, hb, hd] at hv <;> simp at hv
    simp only [Query.shown, List.mem_append] at hx
    rcases hx with hx | hx | hx
    · exact iha ha x hx
    · exact ihb hb x hx
    · exact ihc hd x hx
  | with4 a b d e iha ihb ihc ihd =>
    intro v hv x hx
    simp only [Query.answer] at hv
    cases ha : a.answer c id <;> cases hb : b.answer c id <;> cases hd : d.answer c id <;> cases he : e.answer c id <;>
      rw [ha, hb, hd, he] at hv <;> simp at hv
    simp only [Query.shown, List.mem_append] at hx
    rcases hx with hx | hx | hx | hx
    · exact iha ha x hx
    · exact ihb hb x hx
    · exact ihc hd x hx
    · exact ihd he x hx
  | with5 a b d e f iha ihb ihc ihd ihe =>
    intro v hv x hx
    simp only [Query.answer] at hv
    cases ha : a.answer c id <;> cases hb : b.answer c id <;> cases hd : d.answer c id <;> cases he : e.answer c id <;>
      cases hf : f.answer c id <;> rw [ha, hb, hd, he, hf] at hv <;> simp at hv
    simp only [Query.shown, List.mem_append] at hx
    rcases hx with hx | hx | hx | hx | hx
    · exact iha ha x hx
    · exact ihb hb x hx
    · exact ihc hd x hx
    · exact ihd he x hx
    · exact ihe hf x hx
  | withoutL a b iha ihb =>
    intro v hv x hx
    simp only [Query.answer] at hv
    split at hv
    · simp at hv
    · exact ihb hv x hx
  | withoutR a b iha ihb =>
    intro v hv x hx
    simp only [Query.answer] at hv
    split at hv
    · simp at hv
    · exact iha hv x hx

theorem point_shown {s : State V} (q : Query) {id : Nat} : ∀ {v : Item V}, s.point q id = some v →
    ∀ x ∈ q.shown, (s.get x.1 id).isSome = true := by
  induction q with
  | comp m t =>
    intro v hv x hx
    simp only [Query.shown, List.mem_singleton] at hx
    subst hx
    simp only [State.point, Option.map_eq_some_iff] at hv
    obtain ⟨u, hu, _⟩ := hv
    simp [hu]
  | group k ma mb a b =>
    intro v hv x hx
    simp only [Query.shown, List.mem_cons, List.not_mem_nil, or_false] at hx
    have hv : ∃ v, s.pairOf a b id = some v := by
      cases k <;> simp only [State.point] at hv
      · exact ⟨v, hv⟩
      · exact ⟨v, hv⟩
      · split at hv
        · exact ⟨v, hv⟩
        · cases hv
    obtain ⟨v, hv⟩ := hv
    simp only [State.pairOf] at hv
    cases ha : s.get a id <;> cases hb : s.get b id <;> rw [ha, hb] at hv <;> simp at hv
    rcases hx with rfl | rfl <;> simp [ha, hb]
  | with2 a b iha ihb =>
    intro v hv x hx
    simp only [State.point] at hv
    cases ha : s.point a id <;> cases hb : s.point b id <;> rw [ha, hb] at hv <;> simp at hv
    simp only [Query.shown, List.mem_append] at hx
    rcases hx with hx | hx
    · exact iha ha x hx
    · exact ihb hb x hx
  | with3 a b d iha ihb ihc =>
    intro v hv x hx
    simp only [State.point] at hv
    cases ha : s.point a id <;> cases hb : s.point b id <;> cases hd : s.point d id <;> rw [ha, hb, hd] at hv <;> simp at hv
    simp only [Query.shown, List.mem_append] at hx
    rcases hx with hx | hx | hx
    · exact iha ha x hx
    · exact ihb hb x hx
    · exact ihc hd x hx
  | with4 a b d e iha ihb ihc ihd =>
    intro v hv x hx
    simp only [State.point] at hv
    cases ha : s.point a id <;> cases hb : s.point b id <;> cases hd : s.point d id <;> cases he : s.point e id <;>
      rw [ha, hb, hd, he] at hv <;> simp at hv
    simp only [Query.shown, List.mem_append] at hx
    rcases hx with hx | hx | hx | hx
    · exact iha ha x hx
    · exact ihb hb x hx
    · exact ihc hd x hx
    · exact ihd he x hx
  | with5 a b d e f iha ihb ihc ihd ihe =>
    intro v hv x hx
    simp only [State.point] at hv
    cases ha : s.point a id <;> cases hb : s.point b id <;> cases hd : s.point d id <;> cases he : s.point e id <;>
      cases hf : s.point f id <;> rw [ha, hb, hd, he, hf] at hv <;> simp at hv
    simp only [Query.shown, List.mem_append] at hx
    rcases hx with hx | hx | hx | hx | hx
    · exact iha ha x hx
    · exact ihb hb x hx
    · exact ihc hd x hx
    · exact ihd he x hx
    · exact ihe hf x hx
  | withoutL a b iha ihb =>
    intro v hv x hx
    simp only [State.point] at hv
    split at hv
    · simp at hv
    · exact ihb hv x hx
  | withoutR a b iha ihb =>
    intro v hv x hx
    simp only [State.point] at hv
    split at hv
    · simp at hv
    · exact iha hv x hx

theorem Setup.point_shown {tr : List (Op V × Out V)} {w w0 : World V} {s : State V} {pc : Nat → Prop}
    {pg : Kind → Nat → Nat → Prop} (h : Setup tr w w0 s pc pg) {q : Query} (hq : Parts pc pg q) {id : Nat} {v : Item V}
    (hv : q.answer (values tr) id = some v) : ∀ x ∈ q.shown, (s.get x.1 id).isSome = true :=
  Xecs.point_shown q (by rw [((h.ok q hq).2.2 id).1]; exact hv)

/-- Different entities sit in different slots. -/
theorem idx_inj {w : World V} {s : State V} (h : WRel w s) {t x y : Nat} {u v : V} (hx : s.get t x = some u)
    (hy : s.get t y = some v) (he : w.idx t x = w.idx t y) : x = y := by
  have ht : (s.comp t).isSome = true := by
    cases hc : s.comp t with
    | none => simp [State.get, hc] at hx
    | some f => rfl
  obtain ⟨st, hst, hwf, hlk, _⟩ := storage_at h ht
  simp only [World.idx, hst] at he
  rw [← hlk] at hx hy
  obtain ⟨i, hi⟩ : ∃ i, st.set.getIndex x = some i := by
    cases hi : st.set.getIndex x with
    | some i => exact ⟨i, rfl⟩
    | none => simp [SparseSet.lookup, hi] at hx
  obtain ⟨j, hj⟩ : ∃ i, st.set.getIndex y = some i := by
    cases hj : st.set.getIndex y with
    | some i => exact ⟨i, rfl⟩
    | none => simp [SparseSet.lookup, hj] at hy
  rw [hi, hj] at he
  simp only [Option.getD_some] at he
  subst he
  have e1 := (SparseSet.getIndex_iff hwf).1 hi
  have e2 := (SparseSet.getIndex_iff hwf).1 hj
  rw [e1] at e2
  simpa using e2

/-- A query that returns an iterator holds exactly the guards it asked for, none clashing. -/
theorem lock_noclash {w : World V} {held held' : Query.Held} {m : Mode} {t : Nat}
    (hl : Query.lock w held m t = .ok held') : held' = held ++ [(t, m)] ∧ ∀ x ∈ held, ¬ Query.Clash x (t, m) := by
  simp only [Query.lock, bind_eq_ok] at hl
  obtain ⟨st, _, hl⟩ := hl
  split at hl
  · simp at hl
  · rename_i hno
    simp only [bind_eq_ok] at hl
    obtain ⟨_, _, hl⟩ := hl
    simp only [Except.ok.injEq] at hl
    refine ⟨hl.symm, fun x hx hc => hno ?_⟩
    rw [List.any_eq_true]
    refine ⟨x, hx, ?_⟩
    obtain ⟨c1, c2⟩ := hc
    simp only [Bool.and_eq_true, Bool.or_eq_true, beq_iff_eq]
    exact ⟨c1, c2⟩

theorem pairwise_snoc {l : List (Nat × Mode)} {x : Nat × Mode} (h : l.Pairwise fun x y => ¬ Query.Clash x y)
    (hx : ∀ y ∈ l, ¬ Query.Clash y x) : (l ++ [x]).Pairwise fun x y => ¬ Query.Clash x y := by
  rw [List.pairwise_append]
  exact ⟨h, List.pairwise_singleton _ _, fun a ha b hb => by simp only [List.mem_singleton] at hb; subst hb; exact hx a ha⟩

theorem prepare_noclash {w : World V} (q : Query) : ∀ (held : Query.Held) (r : Plan × Query.Held),
    held.Pairwise (fun x y => ¬ Query.Clash x y) → q.prepare w held = .ok r →
    r.2 = held ++ q.accesses ∧ (held ++ q.accesses).Pairwise (fun x y => ¬ Query.Clash x y) := by
  induction q with
  | comp m t =>
    intro held r hp hq
    simp only [Query.prepare, bind_eq_ok] at hq
    obtain ⟨_, _, h', hl, hq⟩ := hq
    simp only [Except.ok.injEq] at hq; subst hq
    obtain ⟨e, hn⟩ := lock_noclash hl
    exact ⟨e, pairwise_snoc hp hn⟩
  | group k ma mb a b =>
    intro held r hp hq
    simp only [Query.prepare, bind_eq_ok] at hq
    obtain ⟨_, _, h1, hl1, h2, hl2, _, _, pos, _, g, _, hq⟩ := hq
    obtain ⟨e1, n1⟩ := lock_noclash hl1
    obtain ⟨e2, n2⟩ := lock_noclash hl2
    have hp1 := pairwise_snoc hp n1
    rw [← e1] at hp1
    have hp2 := pairwise_snoc hp1 n2
    rw [e1, List.append_assoc] at hp2
    rw [e1, List.append_assoc] at e2
    refine ⟨?_, hp2⟩
    cases k <;> simp only [Except.ok.injEq] at hq <;> subst hq <;> exact e2
  | with2 a b iha ihb =>
    intro held r hp hq
    simp only [Query.prepare, bind_eq_ok] at hq
    obtain ⟨⟨p1, h1⟩, q1, ⟨p2, h2⟩, q2, hq⟩ := hq
    simp only [Except.ok.injEq] at hq; subst hq
    obtain ⟨e1, n1⟩ := iha _ _ hp q1
    simp only at e1; subst e1
    obtain ⟨e2, n2⟩ := ihb _ _ n1 q2
    simp only [List.append_assoc] at e2 n2
    exact ⟨e2, n2⟩
  | withoutL a b iha ihb =>
    intro held r hp hq
    simp only [Query.prepare, bind_eq_ok] at hq
    obtain ⟨⟨p1, h1⟩, q1, ⟨p2, h2⟩, q2, hq⟩ := hq
    simp only [Except.ok.injEq] at hq; subst hq
    obtain ⟨e1, n1⟩ := iha _ _ hp q1
    simp only at e1; subst e1
    obtain ⟨e2, n2⟩ := ihb _ _ n1 q2
    simp only [List.append_assoc] at e2 n2
    exact ⟨e2, n2⟩
  | withoutR a b iha ihb =>
    intro held r hp hq
    simp only [Query.prepare, bind_eq_ok] at hq
    obtain ⟨⟨p1, h1⟩, q1, ⟨p2, h2⟩, q2, hq⟩ := hq
    simp only [Except.ok.injEq] at hq; subst hq
    obtain ⟨e1, n1⟩ := iha _ _ hp q1
    simp only at e1; subst e1
    obtain ⟨e2, n2⟩ := ihb _ _ n1 q2
    simp only [List.append_assoc] at e2 n2
    exact ⟨e2, n2⟩
  | with3 a b c iha ihb ihc =>
    intro held r hp hq
    simp only [Query.prepare, bind_eq_ok] at hq
    obtain ⟨⟨p1, h1⟩, q1, ⟨p2, h2⟩, q2, ⟨p3, h3⟩, q3, hq⟩ := hq
    simp only [Except.ok.injEq] at hq; subst hq
    obtain ⟨e1, n1⟩ := iha _ _ hp q1
    simp only at e1; subst e1
    obtain ⟨e2, n2⟩ := ihb _ _ n1 q2
    simp only at e2; subst e2
    obtain ⟨e3, n3⟩ := ihc _ _ n2 q3
    simp only [Query.accesses, List.append_assoc] at e3 n3 ⊢
    exact ⟨e3, n3⟩
  | with4 a b c d iha ihb ihc ihd =>
    intro held r hp hq
    simp only [Query.prepare, bind_eq_ok] at hq
    obtain ⟨⟨p1, h1⟩, q1, ⟨p2, h2⟩, q2, ⟨p3, h3⟩, q3, ⟨p4, h4⟩, q4, hq⟩ := hq
    simp only [Except.ok.injEq] at hq; subst hq
    obtain ⟨e1, n1⟩ := iha _ _ hp q1
    simp only at e1; subst e1
    obtain ⟨e2, n2⟩ := ihb _ _ n1 q2
    simp only at e2; subst e2
    obtain ⟨e3, n3⟩ := ihc _ _ n2 q3
    simp only at e3; subst e3
    obtain ⟨e4, n4⟩ := ihd _ _ n3 q4
    simp only [Query.accesses, List.append_assoc] at e4 n4 ⊢
    exact ⟨e4, n4⟩
  | with5 a b c d e iha ihb ihc ihd ihe =>
    intro held r hp hq
    simp only [Query.prepare, bind_eq_ok] at hq
    obtain ⟨⟨p1, h1⟩, q1, ⟨p2, h2⟩, q2, ⟨p3, h3⟩, q3, ⟨p4, h4⟩, q4, ⟨p5, h5⟩, q5, hq⟩ := hq
    simp only [Except.ok.injEq] at hq; subst hq
    obtain ⟨e1, n1⟩ := iha _ _ hp q1
    simp only at e1; subst e1
    obtain ⟨e2, n2⟩ := ihb _ _ n1 q2
    simp only at e2; subst e2
    obtain ⟨e3, n3⟩ := ihc _ _ n2 q3
    simp only at e3; subst e3
    obtain ⟨e4, n4⟩ := ihd _ _ n3 q4
    simp only at e4; subst e4
    obtain ⟨e5, n5⟩ := ihe _ _ n4 q5
    simp only [Query.accesses, List.append_assoc] at e5 n5 ⊢
    exact ⟨e5, n5⟩

end Xecs
