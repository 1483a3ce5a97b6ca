import Verif.Proofs.Compose
/-
Assigning through the references of a query is writing components.
-/
set_option autoImplicit false
namespace Xecs
open Spec World Hist
variable {V : Type} {tr : List (Op V × Out V)} {w : World V}

theorem Hist.Ready.look {q : Query} (h : Ready tr w q) : Look w tr := by
  cases h with
  | plain h hn _ _ => exact any_look h hn
  | grouped h _ _ _ => exact any_look h.any h.live.1
  | shared h _ _ _ => exact h.look

/-- Assigning through a reference to component `t` of `id` is `component_write`. -/
theorem assign_write (h : Look w tr) {t id : Nat} (hv : (lastValue t id tr).isSome = true) (m : Mode) (v : V) :
    World.componentWrite t id v w = (w.assign ⟨t, w.idx t id, m⟩ v, .ok true) ∧
    SameShape w (w.assign ⟨t, w.idx t id, m⟩ v) := by
  cases hc : w.comps t with
  | none => rw [(h.at_none hc).2 id] at hv; cases hv
  | some st =>
    obtain ⟨_, hty, hwf, hlk⟩ := h.at_some hc
    rw [← hlk, SparseSet.lookup_isSome hwf] at hv
    have hex : st.set.exist id = true := (SparseSet.exist_iff hwf).2 hv
    obtain ⟨i, hi⟩ := List.mem_iff_getElem?.1 hv
    have hgi := (SparseSet.getIndex_iff hwf).2 hi
    have hx := (hwf.idx id i).2 hi
    have hlt : i < st.set.data.length := by
      have := (List.getElem?_eq_some_iff.1 hi).1; rw [hwf.len] at this; exact this
    have hidx : w.idx t id = i := by simp [World.idx, hc, hgi]
    constructor
    · simp only [World.componentWrite, World.assign, hc, hidx]
      apply M.crit_ok
      simp [hc, downcast, hty, hex, SparseSet.setUnchecked, getU_some hx, getU_some (List.getElem?_eq_getElem hlt)]
    · simp only [World.assign, hc]
      refine setSet_shape hc ⟨rfl, fun e => rfl, by simp⟩

/-- A write extends what is known about a query. -/
theorem Hist.Ready.write {q : Query} (h : Ready tr w q) {t id : Nat} {v : V} {w' : World V}
    (he : World.componentWrite t id v w = (w', .ok true)) : Ready ((.write t id v, .bool true) :: tr) w' q := by
  have hx : exec (.write t id v) w = (w', .ok (.bool true)) := by
    show (World.componentWrite t id v >>= fun b => pure (Out.bool b)) w = _
    rw [bind_pure_ok]; exact ⟨true, he, rfl⟩
  cases h with
  | plain h hn hg hd =>
    exact .plain (.ok h trivial hx) hn hg (Parts.imp (fun _ h => h) (fun _ _ _ h => h) q hd)
  | grouped h hd hu hb =>
    exact .grouped (.ok h trivial hx) (Parts.imp (fun _ h => h) (fun _ _ _ h => h) q hd)
      (Parts.imp (fun _ h => h) (fun _ _ _ h => h) q hu) (Parts.imp (fun _ h => h) (fun _ _ _ h => h) q hb)
  | shared h hd hu hb =>
    exact .shared (.ok h trivial hx) (Parts.imp (fun _ h => h) (fun _ _ _ h => h) q hd)
      (Parts.imp (fun _ h => h) (fun _ _ _ h => h) q hu) (Parts.imp (fun _ h => h) (fun _ _ _ h => h) q hb)

/-- A history of writes. -/
def Writes (ws : List (Op V × Out V)) : Prop := ∀ x ∈ ws, ∃ t id v, x = (.write t id v, .bool true)

theorem idx_shape {w w' : World V} (h : SameShape w w') (t id : Nat) : w'.idx t id = w.idx t id := by
  simp only [World.idx]
  rcases h.get t with ⟨e1, e2⟩ | ⟨st, st', e1, e2, _, e4⟩
  · rw [e1, e2]
  · rw [e1, e2]; simp only [e4.index]

theorem idx_congr {w w' : World V} (h : w'.comps = w.comps) (t id : Nat) : w'.idx t id = w.idx t id := by
  simp only [World.idx, h]

theorem place_congr {w w' : World V} (h : ∀ t id, w'.idx t id = w.idx t id) (id : Nat) (q : Query) :
    place w' id q = place w id q := by
  induction q with
  | comp m t => simp only [place, h]
  | group k ma mb a b => simp only [place, h]
  | with2 a b iha ihb => simp only [place, iha, ihb]
  | with3 a b c iha ihb ihc => simp only [place, iha, ihb, ihc]
  | with4 a b c d iha ihb ihc ihd => simp only [place, iha, ihb, ihc, ihd]
  | with5 a b c d e iha ihb ihc ihd ihe => simp only [place, iha, ihb, ihc, ihd, ihe]
  | withoutL a b iha ihb => simp only [place, ihb]
  | withoutR a b iha ihb => simp only [place, iha]

theorem answer_congr {c c' : Nat → Nat → Option V} {id : Nat} (h : ∀ t, c' t id = c t id) (q : Query) :
    q.answer c' id = q.answer c id := by
  induction q with
  | comp m t => simp only [Query.answer, h]
  | group k ma mb a b => simp only [Query.answer, h]
  | with2 a b iha ihb => simp only [Query.answer, iha, ihb]
  | with3 a b c iha ihb ihc => simp only [Query.answer, iha, ihb, ihc]
  | with4 a b c d iha ihb ihc ihd => simp only [Query.answer, iha, ihb, ihc, ihd]
  | with5 a b c d e iha ihb ihc ihd ihe => simp only [Query.answer, iha, ihb, ihc, ihd, ihe]
  | withoutL a b iha ihb => simp only [Query.answer, iha, ihb]
  | withoutR a b iha ihb => simp only [Query.answer, iha, ihb]

theorem assign_rest (w : World V) (l : Loc) (v : V) :
    (w.assign l v).em = w.em ∧ (w.assign l v).groups = w.groups ∧ (w.assign l v).res = w.res := by
  unfold World.assign
  split
  · exact ⟨rfl, rfl, rfl⟩
  · exact ⟨rfl, rfl, rfl⟩

/-- The body of the loop. -/
theorem store_spec {q : Query} (g : Nat → V) (id : Nat) : ∀ (S : List (Nat × Mode)) (tr : List (Op V × Out V)) (w : World V),
    Ready tr w q → (∀ x ∈ S, (lastValue x.1 id tr).isSome = true) →
    ∃ ws, Writes ws ∧ Ready (ws ++ tr) (w.store g (S.map fun x => ⟨x.1, w.idx x.1 id, x.2⟩)) q ∧
      SameShape w (w.store g (S.map fun x => ⟨x.1, w.idx x.1 id, x.2⟩)) ∧
      ((w.store g (S.map fun x => ⟨x.1, w.idx x.1 id, x.2⟩)).em = w.em ∧
        (w.store g (S.map fun x => ⟨x.1, w.idx x.1 id, x.2⟩)).groups = w.groups ∧
        (w.store g (S.map fun x => ⟨x.1, w.idx x.1 id, x.2⟩)).res = w.res) ∧
      ∀ t e, lastValue t e (ws ++ tr) = if e = id ∧ (t, .mut) ∈ S then some (g t) else lastValue t e tr := by
  intro S
  induction S with
  | nil =>
    intro tr w h _
    exact ⟨[], fun x hx => by simp at hx, h, .refl _, ⟨rfl, rfl, rfl⟩, fun t e => by simp⟩
  | cons y S ih =>
    intro tr w h hS
    obtain ⟨t, m⟩ := y
    cases m with
    | ref =>
      obtain ⟨ws, h1, h2, h3, h4, h5⟩ := ih tr w h (fun x hx => hS x (by simp [hx]))
      refine ⟨ws, h1, ?_, ?_, ?_, ?_⟩
      · simpa [World.store] using h2
      · simpa [World.store] using h3
      · simpa [World.store] using h4
      · intro u e
        rw [h5]; simp
    | «mut» =>
      obtain ⟨a1, a2⟩ := assign_write h.look (hS (t, .mut) (by simp)) .mut (g t)
      have hr := h.write a1
      obtain ⟨ws, h1, h2, h3, h4, h5⟩ := ih _ _ hr (fun x hx => by
        simp only [lastValue]
        split
        · rfl
        · exact hS x (by simp [hx]))
      have hm : (S.map fun x => (⟨x.1, (w.assign ⟨t, w.idx t id, .mut⟩ (g t)).idx x.1 id, x.2⟩ : Loc)) =
          S.map fun x => ⟨x.1, w.idx x.1 id, x.2⟩ := by
        apply List.map_congr_left
        intro x _
        rw [idx_shape a2]
      rw [hm] at h2 h3 h4
      have hst : w.store g (((t, Mode.mut) :: S).map fun x => ⟨x.1, w.idx x.1 id, x.2⟩) =
          (w.assign ⟨t, w.idx t id, .mut⟩ (g t)).store g (S.map fun x => ⟨x.1, w.idx x.1 id, x.2⟩) := by
        simp only [List.map_cons, World.store, if_true]
      rw [hst]
      obtain ⟨r1, r2, r3⟩ := assign_rest w ⟨t, w.idx t id, .mut⟩ (g t)
      refine ⟨ws ++ [(.write t id (g t), .bool true)], ?_, ?_, a2.trans h3, ⟨h4.1.trans r1, h4.2.1.trans r2, h4.2.2.trans r3⟩, ?_⟩
      · intro x hx
        rw [List.mem_append] at hx
        rcases hx with hx | hx
        · exact h1 x hx
        · simp only [List.mem_singleton] at hx; exact ⟨_, _, _, hx⟩
      · simpa using h2
      · intro u e
        rw [List.append_assoc, List.singleton_append, h5]
        simp only [lastValue, List.mem_cons, Prod.mk.injEq, and_true]
        by_cases h1 : e = id ∧ (u, Mode.mut) ∈ S
        · rw [if_pos h1, if_pos ⟨h1.1, .inr h1.2⟩]
        · rw [if_neg h1]
          by_cases h2 : id = e ∧ t = u
          · rw [if_pos h2, if_pos ⟨h2.1.symm, .inl h2.2.symm⟩, h2.2]
          · rw [if_neg h2, if_neg]
            rintro ⟨k1, k2 | k2⟩
            · exact h2 ⟨k1.symm, k2.symm⟩
            · exact h1 ⟨k1, k2⟩

theorem loop_spec {w w0 : World V} {s : State V} {pc : Nat → Prop} {pg : Kind → Nat → Nat → Prop}
    (hs : Setup tr w w0 s pc pg) {q : Query} (hq : Parts pc pg q) (g : Nat → Item V → Nat → V) :
    ∀ (L : List Nat) (i : Nat) (x : Ix) (wi : World V) (ws : List (Op V × Out V)),
    rest w0 s q i = L → L.Nodup → i ≤ (drv w0 q).length → (planOf w0 q).Fits x → (planOf w0 q).lead x = i →
    SameShape w wi → Ready (ws ++ tr) wi q → Writes ws → (wi.em = w.em ∧ wi.groups = w.groups ∧ wi.res = w.res) →
    (∀ t, ∀ id ∈ L, lastValue t id (ws ++ tr) = lastValue t id tr) →
    ∃ w' ws', (∀ m, L.length < m → World.updateLoop g m wi ⟨planOf w0 q, x⟩ = .ok w') ∧
      Ready (ws' ++ tr) w' q ∧ Writes ws' ∧ (w'.em = w.em ∧ w'.groups = w.groups ∧ w'.res = w.res) ∧
      ∀ t id, lastValue t id (ws' ++ tr) = if id ∈ L then updated q g (values tr) t id else lastValue t id (ws ++ tr) := by
  obtain ⟨hd, hf, ha⟩ := hs.ok q hq
  intro L
  induction L with
  | nil =>
    intro i x wi ws hL _ hi hx hlx hsh hr hw hrest hv
    refine ⟨wi, ws, ?_, hr, hw, hrest, fun t id => by simp⟩
    intro m hm
    cases m with
    | zero => simp at hm
    | succ m =>
      have hn : (planOf w0 q).nextWithId wi i = .ok (none, (drv w0 q).length) := by
        rw [nextWithId_shape hsh, hs.nextWithId hq]
        rcases nextWithId_rest hs.rel q hd hf hi with ⟨id, j, _, _, _, e⟩ | ⟨e, _⟩
        · rw [hL] at e; cases e
        · exact e
      simp only [World.updateLoop, Iter.nextWithId, Plan.nextWithIdMut_eq wi _ x hx, hlx, hn, ok_bind]
  | cons id L ih =>
    intro i x wi ws hL hnd hi hx hlx hsh hr hw hrest hv
    rw [List.nodup_cons] at hnd
    obtain ⟨j, hn, hij, hj, hLj⟩ : ∃ j, (planOf w0 q).nextWithId wi i = .ok (some (id, place w0 id q), j) ∧ i < j ∧
        j ≤ (drv w0 q).length ∧ rest w0 s q j = L := by
      rw [nextWithId_shape hsh, hs.nextWithId hq]
      rcases nextWithId_rest hs.rel q hd hf hi with ⟨id', j, e1, e2, e3, e⟩ | ⟨_, e⟩
      · rw [hL] at e; simp only [List.cons.injEq] at e
        obtain ⟨rfl, e⟩ := e
        exact ⟨j, e1, e2, e3, e.symm⟩
      · rw [hL] at e; cases e
    have hidmem : id ∈ rest w0 s q i := by rw [hL]; simp
    have hsome : (s.yields q id).isSome = true := by
      simp only [rest, List.mem_filter] at hidmem; exact hidmem.2
    rw [(ha id).2] at hsome
    obtain ⟨v, hans⟩ := Option.isSome_iff_exists.1 hsome
    have hans' : q.answer (values (ws ++ tr)) id = some v := by
      rw [← hans]; exact answer_congr (fun t => hv t id (by simp)) q
    -- the item dereferences to the answer
    obtain ⟨w1, s1, pc1, pg1, hs1, hq1⟩ := hr.setup
    have hidx : ∀ t e, wi.idx t e = w0.idx t e := fun t e => by rw [idx_shape hsh, ← idx_congr hs.comps]
    have hpl : place w0 id q = place w1 id q := (place_congr (fun t e => by rw [idx_congr hs1.comps, hidx]) id q).symm
    have hder : wi.derefItem (place w0 id q) = some v := by rw [hpl]; exact hs1.deref hq1 hans'
    have hlocs : (place w0 id q).locs = q.shown.map fun y => (⟨y.1, wi.idx y.1 id, y.2⟩ : Loc) := by
      rw [locs_place]; apply List.map_congr_left; intro y _; rw [hidx]
    obtain ⟨us, u1, u2, u3, u4, u5⟩ := store_spec (g id v) id q.shown (ws ++ tr) wi hr
      (fun y hy => answer_shown q hans' y hy)
    rw [← hlocs] at u2 u3 u4
    obtain ⟨p1, p2, p3⟩ := Plan.put_spec (planOf w0 q) x hx j
    obtain ⟨w', ws', k1, k2, k3, k4, k5⟩ := ih j ((planOf w0 q).put x j) (wi.store (g id v) (place w0 id q).locs) (us ++ ws)
      hLj hnd.2 hj p1 p2 (hsh.trans u3) (by rw [List.append_assoc]; exact u2)
      (fun y hy => by rw [List.mem_append] at hy; rcases hy with hy | hy; exact u1 y hy; exact hw y hy)
      ⟨u4.1.trans hrest.1, u4.2.1.trans hrest.2.1, u4.2.2.trans hrest.2.2⟩
      (fun t e he => by
        rw [List.append_assoc, u5, if_neg (fun (h : e = id ∧ (t, Mode.mut) ∈ q.shown) => hnd.1 (h.1 ▸ he))]
        exact hv t e (by simp [he]))
    refine ⟨w', ws', ?_, k2, k3, k4, ?_⟩
    · intro m hm
      cases m with
      | zero => simp at hm
      | succ m =>
        simp only [World.updateLoop, Iter.nextWithId, Plan.nextWithIdMut_eq wi _ x hx, hlx, hn, ok_bind, hder]
        exact k1 m (by simp only [List.length_cons] at hm; omega)
    · intro t e
      rw [k5, List.append_assoc, u5]
      by_cases hL' : e ∈ L
      · rw [if_pos hL', if_pos (by simp [hL'])]
      · rw [if_neg hL']
        by_cases he : e = id
        · subst he
          simp only [true_and, List.mem_cons, true_or, if_true, updated, hans]
          by_cases hm : (t, Mode.mut) ∈ q.shown
          · rw [if_pos hm, if_pos hm]
          · rw [if_neg hm, if_neg hm]; exact hv t e (by simp)
        · rw [if_neg (fun h => he h.1), if_neg (by simp [he, hL'])]

end Xecs
