import Verif.Proofs.Alone
import Verif.Proofs.RobustTrace
/-
`remove_entity` run alone.
-/
set_option autoImplicit false
namespace Xecs
open World
variable {V : Type} {cfg : Config} {w : World V} {H : List Guard}

/-- The groups that have to be updated when `id` is removed. -/
def scan (w : World V) (id : Nat) : List (Nat × Shape) → R (List (Nat × Shape))
  | [] => .ok []
  | (k, g) :: gs => do
    let b ← (do w.needRemove id (← getR w.groups k) : R Bool)
    let rest ← scan w id gs
    .ok (if b then (k, g) :: rest else rest)

theorem scan_sub {id : Nat} : ∀ {gs l : List (Nat × Shape)}, scan w id gs = .ok l → ∀ x ∈ l, x ∈ gs := by
  intro gs
  induction gs with
  | nil => intro l h x hx; simp [scan] at h; subst h; exact hx
  | cons y gs ih =>
    obtain ⟨k, g⟩ := y
    intro l h x hx
    simp only [scan, bind_eq_ok] at h
    obtain ⟨b, _, l', hl', h⟩ := h
    simp only [Except.ok.injEq] at h
    subst h
    cases b with
    | false => exact List.mem_cons_of_mem _ (ih hl' x hx)
    | true =>
      rcases List.mem_cons.1 hx with rfl | hx
      · exact List.mem_cons_self ..
      · exact List.mem_cons_of_mem _ (ih hl' x hx)

theorem needRemove_calm (w : World V) (id : Nat) (g : Group) : Calm (w.needRemove id g) :=
  calm_bind calm_unwrapR fun _ _ => calm_bind calm_unwrapR fun _ _ => Group.calm_inGroup

theorem scanGroups_run (hm : Matches cfg w) (id : Nat) (p : List (Nat × Shape) → Prog V) :
    ∀ (gs : List (Nat × Shape)) (acc : List (Nat × Shape)) {H : List Guard}, (gs.map (·.1)).Nodup →
      (∀ x ∈ gs, cfg.groups[x.1]? = some x.2) → NoStore H → (∀ x ∈ gs, ∀ m, Guard.fits (.group x.1, m) H) →
      match scan w id gs with
      | .ok l => ∃ T, Flows (Prog.scanGroups cfg id gs acc p) H w T (p (acc ++ l))
          (l.map (fun x => (Lock.group x.1, Mode.mut)) ++ H) w ∧
          (∀ x ∈ gs, cfg.registered x.2.a = true ∧ cfg.registered x.2.b = true) ∧
          ∀ g, g ∈ T ↔ g ∈ gs.map (fun x => (Lock.group x.1, Mode.ref)) ∨
            g ∈ gs.flatMap (fun x => [(Lock.store x.2.a, Mode.ref), (Lock.store x.2.b, Mode.ref)]) ∨
            g ∈ l.map (fun x => (Lock.group x.1, Mode.mut))
      | .error e => e ≠ .deadlock ∧ Fails (Prog.scanGroups cfg id gs acc p) H w w := by
  intro gs
  induction gs with
  | nil =>
    intro acc H _ _ _ _
    dsimp only [scan]
    exact ⟨[], by rw [List.append_nil]; exact .refl, by simp, by simp⟩
  | cons y gs ih =>
    obtain ⟨k, g⟩ := y
    intro acc H hn hg hs hf
    have hn' := List.nodup_cons.1 hn
    have hfk : ∀ m, Guard.fits (.group k, m) H := hf (k, g) (List.mem_cons_self ..)
    have hk := hg (k, g) (List.mem_cons_self ..)
    obtain ⟨G, hG, rfl⟩ := shape_of hm hk
    have hs' : NoStore ((Lock.group k, Mode.ref) :: H) := hs.cons (by simp)
    have hcalm := needRemove_calm w id G
    simp only [scan, getR_some hG, ok_bind]
    dsimp only [Prog.scanGroups, Prog.store]
    cases ra : cfg.registered G.shape.a with
    | false =>
      have : w.needRemove id G = .error .panic := by
        have : w.comps G.tyA = none := comps_none hm ra
        simp only [needRemove, this]; rfl
      rw [this]
      exact ⟨by simp, _, _, _, _, .acq (hfk .ref) .refl, .inl ⟨rfl, rfl⟩⟩
    | true =>
    rw [if_pos rfl]
    cases rb : cfg.registered G.shape.b with
    | false =>
      have : w.needRemove id G = .error .panic := by
        obtain ⟨A, hA⟩ := comps_some hm (t := G.tyA) ra
        have : w.comps G.tyB = none := comps_none hm rb
        simp only [needRemove, this, hA]; rfl
      rw [this]
      exact ⟨by simp, _, _, _, _, .acq (hfk .ref) (.acq (hs'.fits _ _) .refl), .inl ⟨rfl, rfl⟩⟩
    | true =>
    rw [if_pos rfl]
    have hf2 : Guard.fits (.store G.shape.b, .ref) ((.store G.shape.a, .ref) :: (Lock.group k, Mode.ref) :: H) :=
      Guard.fits_cons.2 ⟨fun hc => by simpa using hc.2, hs'.fits _ _⟩
    have hrun : Act.run (V := V) (.groupHas k id) w = (w, (w.needRemove id G).map Ret.bool) := by
      simp only [Act.run, M.bind_apply, M.read_apply, getR_some hG, ok_bind]
      cases w.needRemove id G <;> rfl
    have start : ∀ {p1 : Prog V} {H1 T1 : List Guard} {w1 : World V} {f : Ret V → Prog V},
        Flows (.act (.groupHas k id) f)
          ((.store G.shape.b, .ref) :: (.store G.shape.a, .ref) :: (Lock.group k, Mode.ref) :: H) w T1 p1 H1 w1 →
        Flows (.acq (.group k) .ref <| .acq (.store G.shape.a) .ref <| .acq (.store G.shape.b) .ref <|
          .act (.groupHas k id) f) H w ((Lock.group k, Mode.ref) :: (.store G.shape.a, .ref) :: (.store G.shape.b, .ref) :: T1)
          p1 H1 w1 := fun h => .acq (hfk .ref) (.acq (hs'.fits _ _) (.acq hf2 h))
    cases hnr : w.needRemove id G with
    | error e =>
      rw [hnr] at hcalm hrun
      refine ⟨fun he => hcalm (by rw [he]), _, _, _, _, start .refl, .inr ⟨_, _, e, rfl, hrun⟩⟩
    | ok b =>
      rw [hnr] at hrun
      simp only [ok_bind]
      cases b with
      | false =>
        have h := ih acc hn'.2 (fun x hx => hg x (List.mem_cons_of_mem _ hx)) hs
          (fun x hx => hf x (List.mem_cons_of_mem _ hx))
        cases hsc : scan w id gs with
        | error e =>
          rw [hsc] at h
          exact ⟨h.1, h.2.after (start (.act hrun (.rel (.rel (.rel .refl)))))⟩
        | ok l =>
          rw [hsc] at h
          obtain ⟨T, h1, h2, h3⟩ := h
          refine ⟨_, start (.act hrun (.rel (.rel (.rel h1)))), ?_, ?_⟩
          · intro x hx
            rcases List.mem_cons.1 hx with rfl | hx
            · exact ⟨ra, rb⟩
            · exact h2 x hx
          · intro g
            simp only [List.mem_cons, h3, List.map_cons, List.flatMap_cons, List.mem_append, List.not_mem_nil, or_false, if_false,
              Bool.false_eq_true]
            constructor
            · rintro (h | h | h | h | h | h) <;> simp [h]
            · rintro ((h | h) | ((h | h) | h) | h) <;> simp [h]
      | true =>
        have h := ih (acc ++ [(k, G.shape)]) (H := (.group k, .mut) :: H) hn'.2
          (fun x hx => hg x (List.mem_cons_of_mem _ hx)) (hs.cons (by simp))
          (fun x hx m => Guard.fits_cons.2 ⟨fun hc => by
            have e : x.1 = k := by simpa using hc.1
            exact hn'.1 (List.mem_map.2 ⟨x, hx, e⟩), hf x (List.mem_cons_of_mem _ hx) m⟩)
        cases hsc : scan w id gs with
        | error e =>
          rw [hsc] at h
          exact ⟨h.1, h.2.after (start (.act hrun (.rel (.rel (.rel (.acq (hfk .mut) .refl))))))⟩
        | ok l =>
          rw [hsc] at h
          obtain ⟨T, h1, h2, h3⟩ := h
          have h1 := h1.thenPerm (H'' := ((k, G.shape) :: l).map (fun x => (Lock.group x.1, Mode.mut)) ++ H)
            (by simpa using List.perm_middle)
          rw [List.append_assoc, List.singleton_append] at h1
          refine ⟨_, start (.act hrun (.rel (.rel (.rel (.acq (hfk .mut) h1))))), ?_, ?_⟩
          · intro x hx
            rcases List.mem_cons.1 hx with rfl | hx
            · exact ⟨ra, rb⟩
            · exact h2 x hx
          · intro g
            simp only [List.mem_cons, h3, List.map_cons, List.flatMap_cons, List.mem_append, List.not_mem_nil, or_false, if_true]
            constructor
            · rintro (h | h | h | h | h | h | h) <;> simp [h]
            · rintro ((h | h) | ((h | h) | h) | h | h) <;> simp [h]

/-- The scan in terms of the sequential model. -/
theorem scan_list (id : Nat) (w : World V) : ∀ (Gs : List Group) (k : Nat), (∀ (i : Nat), w.groups[k + i]? = Gs[i]?) →
    w.needRemoveList id k Gs = (scan w id ((Gs.map Group.shape).mapIdx fun i g => (k + i, g))).map (·.map (·.1)) := by
  intro Gs
  induction Gs with
  | nil => intro k _; rfl
  | cons G Gs ih =>
    intro k h
    have h0 := h 0
    simp only [Nat.add_zero, List.getElem?_cons_zero] at h0
    have ih' := ih (k + 1) (fun i => by
      have := h (i + 1)
      simp only [List.getElem?_cons_succ] at this
      rw [← this]; congr 1; omega)
    simp only [List.map_cons, List.mapIdx_cons, needRemoveList, scan, Nat.add_zero, getR_some h0, ok_bind]
    have hfun : (fun i g => (k + (i + 1), g) : Nat → Shape → Nat × Shape) = fun i g => (k + 1 + i, g) := by
      funext i g; congr 1; omega
    rw [hfun, ih']
    cases w.needRemove id G with
    | error e => rfl
    | ok b =>
      simp only [ok_bind]
      cases scan w id ((Gs.map Group.shape).mapIdx fun i g => (k + 1 + i, g)) with
      | error e => rfl
      | ok l => cases b <;> rfl

theorem scan_indexed (hm : Matches cfg w) (id : Nat) :
    w.needRemoveList id 0 w.groups = (scan w id cfg.indexed).map (·.map (·.1)) := by
  rw [scan_list id w w.groups 0 (by simp)]
  simp only [Config.indexed, hm.groups, Nat.zero_add]

/-! ### The storages -/

theorem scanStores_run (hm : Matches cfg w) (id : Nat) (p : List Nat → Prog V) :
    ∀ (ts acc : List Nat) {H : List Guard}, ts.Nodup → (∀ t ∈ ts, cfg.registered t = true) →
      (∀ t ∈ ts, ∀ m, Guard.fits (.store t, m) H) →
      ∃ T, Flows (Prog.scanStores id ts acc p) H w T (p (acc ++ w.storagesWith id ts))
          ((w.storagesWith id ts).map (fun t => (Lock.store t, Mode.mut)) ++ H) w ∧
        ∀ g, g ∈ T ↔ g ∈ ts.map (fun t => (Lock.store t, Mode.ref)) ∨
          g ∈ (w.storagesWith id ts).map (fun t => (Lock.store t, Mode.mut)) := by
  intro ts
  induction ts with
  | nil =>
    intro acc H _ _ _
    exact ⟨[], by simp only [storagesWith, List.filter_nil, List.append_nil]; exact .refl, by simp [storagesWith]⟩
  | cons t ts ih =>
    intro acc H hn hr hf
    have hn' := List.nodup_cons.1 hn
    obtain ⟨st, hst⟩ := comps_some hm (hr t (List.mem_cons_self ..))
    have hft := hf t (List.mem_cons_self ..)
    have hrun : Act.run (V := V) (.storeHas t id) w = (w, .ok (.bool (st.set.exist id))) := by
      simp only [Act.run, M.bind_apply, M.read_apply, hst, unwrapR_some, ok_bind]
      rfl
    dsimp only [Prog.scanStores]
    cases hex : st.set.exist id with
    | false =>
      rw [hex] at hrun
      obtain ⟨T, h1, h2⟩ := ih acc hn'.2 (fun x hx => hr x (List.mem_cons_of_mem _ hx)) (fun x hx => hf x (List.mem_cons_of_mem _ hx))
      have e : w.storagesWith id (t :: ts) = w.storagesWith id ts := by simp [storagesWith, hst, hex]
      rw [e]
      refine ⟨_, .acq (hft .ref) (.act hrun (.rel h1)), ?_⟩
      intro g
      simp only [List.mem_cons, h2, List.map_cons, or_assoc]
    | true =>
      rw [hex] at hrun
      obtain ⟨T, h1, h2⟩ := ih (acc ++ [t]) (H := (.store t, .mut) :: H) hn'.2
        (fun x hx => hr x (List.mem_cons_of_mem _ hx)) (fun x hx m => Guard.fits_cons.2 ⟨fun hc => by
            have e : x = t := by simpa using hc.1
            exact hn'.1 (e ▸ hx), hf x (List.mem_cons_of_mem _ hx) m⟩)
      have e : w.storagesWith id (t :: ts) = t :: w.storagesWith id ts := by simp [storagesWith, hst, hex]
      rw [e]
      have h1 := h1.thenPerm (H'' := (t :: w.storagesWith id ts).map (fun t => (Lock.store t, Mode.mut)) ++ H)
        (by simpa using List.perm_middle)
      rw [List.append_assoc, List.singleton_append] at h1
      refine ⟨_, .acq (hft .ref) (.act hrun (.rel (.acq (hft .mut) h1))), ?_⟩
      · intro g
        simp only [List.mem_cons, List.mem_append, h2, List.map_cons, List.not_mem_nil, or_false]
        constructor
        · rintro (h | h | h | h) <;> simp [h]
        · rintro ((h | h) | h | h) <;> simp [h]

theorem calm_storeErase' (t id : Nat) : Calm (storeErase (V := V) t id w) := by
  unfold storeErase
  exact calm_bind calm_unwrapR fun _ _ => calm_bind SparseSet.calm_removeUnwrap fun _ _ => calm_ok _

theorem does_eraseStores (id : Nat) (p : Prog V) : ∀ (ts : List Nat) (w : World V),
    Does (Prog.eraseStores id ts p) (ts.map (fun t => (Lock.store t, Mode.mut)) ++ H) w
      (M.forEach ts fun t => M.crit (storeErase t id) (storeEraseX t id)) H (fun _ => False) (fun _ => p) := by
  intro ts
  induction ts with
  | nil => intro w; exact .ok (T' := []) rfl .refl (by simp)
  | cons t ts ih =>
    intro w
    refine Does.bind (T := fun _ => False) (T2 := fun _ => False) (k1 := fun _ => Prog.eraseStores id ts p)
      (H' := ts.map (fun t => (Lock.store t, Mode.mut)) ++ H) ?_ (fun w' a _ _ => ih w') (by simp)
    exact Does.thenRel (l := .store t) (md := .mut) (Does.work (g := fun _ => Ret.unit) rfl (calm_critW (calm_storeErase' t id)))

/-- What removing an entity takes after the first look at the entity table. -/
def removeTakes (cfg : Config) (w : World V) (id : Nat) (g : Guard) : Prop :=
  ∃ l w1, scan w id cfg.indexed = .ok l ∧ M.forEach (l.map (·.1)) (fun k => M.crit (groupErase k id) (groupEraseX k id)) w = (w1, .ok ()) ∧
    (∀ x ∈ cfg.indexed, cfg.registered x.2.a = true ∧ cfg.registered x.2.b = true) ∧
    (g = (.em, .mut) ∨ g ∈ cfg.indexed.map (fun x => (Lock.group x.1, Mode.ref)) ∨
      g ∈ cfg.indexed.flatMap (fun x => [(Lock.store x.2.a, Mode.ref), (Lock.store x.2.b, Mode.ref)]) ∨
      g ∈ l.map (fun x => (Lock.group x.1, Mode.mut)) ∨
      g ∈ l.flatMap (fun x => [(Lock.store x.2.a, x.2.modeA), (Lock.store x.2.b, x.2.modeB)]) ∨
      g ∈ cfg.order.map (fun t => (Lock.store t, Mode.ref)) ∨
      g ∈ (w1.storagesWith id cfg.order).map (fun t => (Lock.store t, Mode.mut)))

/-- The last part of `remove_entity`. -/
def removeTail (order : List Nat) (id : Nat) : M V Unit := do
  let ts ← M.read fun w => .ok (w.storagesWith id order)
  M.forEach ts fun t => M.crit (storeErase t id) (storeEraseX t id)
  M.crit (release id) (onTable (EntityManager.removeX id))

theorem does_removeTail (hm : Matches cfg w) (hs : NoStore H) (he : NoEm H) (id : Nat) (p : Prog V) :
    Does (Prog.scanStores id cfg.order [] fun ts => Prog.eraseStores id ts <|
      .acq .em .mut <| .act (.emRemove id) fun _ => .rel .em .mut p) H w (removeTail cfg.order id) H
      (fun g => g = (.em, .mut) ∨ g ∈ cfg.order.map (fun t => (Lock.store t, Mode.ref)) ∨
        g ∈ (w.storagesWith id cfg.order).map (fun t => (Lock.store t, Mode.mut))) (fun _ => p) := by
  obtain ⟨T, h1, h2⟩ := scanStores_run hm id (fun ts => Prog.eraseStores id ts <|
      .acq .em .mut <| .act (.emRemove id) fun _ => .rel .em .mut p) cfg.order [] (H := H) hm.nodup
      (fun t ht => by simpa [Config.registered] using ht) (fun t _ m => hs.fits t m)
  refine .after h1 (T := (· = (Lock.em, Mode.mut))) (Does.congr (m := do
    M.forEach (w.storagesWith id cfg.order) fun t => M.crit (storeErase t id) (storeEraseX t id)
    M.crit (release id) (onTable (EntityManager.removeX id))) ?_ rfl (fun _ _ _ _ => Iff.rfl)) ?_
  · refine Does.bind (T := fun _ => False) (T2 := (· = (Lock.em, Mode.mut))) (does_eraseStores id _ _ w) ?_ (by simp)
    intro w' _ _ _
    refine does_locked (g := fun _ => Ret.unit) (he.fits .mut) rfl (calm_critW ?_)
    exact calm_bind EntityManager.calm_removeE fun _ _ => calm_ok _
  · intro g
    rw [h2]
    constructor
    · rintro (h | h | h) <;> simp [h]
    · rintro ((h | h) | h)
      · exact .inr (.inl h)
      · exact .inr (.inr h)
      · exact .inl h

theorem does_remove (hm : Matches cfg w) (hs : NoStore H) (hg : NoGroup H) (he : NoEm H) (id : Nat) :
    Does (Prog.remove cfg id) H w (ApiCall.alone cfg.order (.remove id)) H
      (fun g => g = (.em, .ref) ∨ removeTakes cfg w id g) (fun rs => .done rs) := by
  have hcg : ∀ k (w : World V) (g : Group) (AB : SparseSet V × SparseSet V), Calm (do
      let (g', A', B') ← g.remove id AB.1 AB.2
      match g with
      | .full .. => .ok (w.putPair k (g', ← A'.removeUnwrap id, ← B'.removeUnwrap id), ())
      | .part .. => .ok (w.putPair k (g', ← A'.removeUnwrap id, B'), ())
      | .non .. => .ok (w.putPair k (g', A', B'), ()) : R (World V × Unit)) := by
    intro k w g AB
    refine calm_bind Group.calm_removeG fun r _ => ?_
    cases g with
    | full => exact calm_bind SparseSet.calm_removeUnwrap fun _ _ => calm_bind SparseSet.calm_removeUnwrap fun _ _ => calm_ok _
    | part => exact calm_bind SparseSet.calm_removeUnwrap fun _ _ => calm_ok _
    | non => exact calm_ok _
  have hmid : Does (Prog.scanGroups cfg id cfg.indexed [] fun gs =>
        Prog.groupLoop cfg (fun k => .groupErase k id) gs <|
          Prog.scanStores id cfg.order [] fun ts =>
            Prog.eraseStores id ts <|
              .acq .em .mut <| .act (.emRemove id) fun _ => .rel .em .mut (.done [.unit])) H w
      (do
        let ks ← M.read fun w => w.needRemoveList id 0 w.groups
        M.forEach ks fun k => M.crit (groupErase k id) (groupEraseX k id)
        removeTail cfg.order id) H (removeTakes cfg w id) (fun _ => .done [.unit]) := by
    have h := scanGroups_run hm id (fun gs =>
        Prog.groupLoop cfg (fun k => .groupErase k id) gs <|
          Prog.scanStores id cfg.order [] fun ts =>
            Prog.eraseStores id ts <|
              .acq .em .mut <| .act (.emRemove id) fun _ => .rel .em .mut (.done [.unit])) cfg.indexed [] (H := H)
      indexed_nodup (fun x hx => Prog.mem_indexed hx) hs (fun x _ m => hg.fits x.1 m)
    have hlist := scan_indexed hm id
    cases hsc : scan w id cfg.indexed with
    | error e =>
      rw [hsc] at h hlist
      have hx : (do
        let ks ← M.read fun w => w.needRemoveList id 0 w.groups
        M.forEach ks fun k => M.crit (groupErase k id) (groupEraseX k id)
        removeTail cfg.order id : M V Unit) w = (w, .error e) := by
        simp only [M.bind_apply, M.read_apply, hlist]
        rfl
      unfold Does
      rw [hx]
      cases e with
      | deadlock => exact absurd rfl h.1
      | panic => exact h.2
      | ub => exact h.2
    | ok l =>
      rw [hsc] at h hlist
      obtain ⟨T, h1, h2, h3⟩ := h
      have hx : ((M.forEach (l.map (·.1)) fun k => M.crit (groupErase k id) (groupEraseX k id)) >>= fun _ => removeTail cfg.order id : M V Unit) w =
        (do
        let ks ← M.read fun w => w.needRemoveList id 0 w.groups
        M.forEach ks fun k => M.crit (groupErase k id) (groupEraseX k id)
        removeTail cfg.order id : M V Unit) w := by
        rw [M.bind_apply (m := M.read _), M.read_apply, hlist]
        rfl
      refine Does.congr (T := fun g => g ∈ T ∨ g ∈ l.flatMap (fun x => [(Lock.store x.2.a, x.2.modeA), (Lock.store x.2.b, x.2.modeB)]) ∨
          ∃ w1, M.forEach (l.map (·.1)) (fun k => M.crit (groupErase k id) (groupEraseX k id)) w = (w1, .ok ()) ∧
            (g = (.em, .mut) ∨ g ∈ cfg.order.map (fun t => (Lock.store t, Mode.ref)) ∨
              g ∈ (w1.storagesWith id cfg.order).map (fun t => (Lock.store t, Mode.mut)))) ?_ hx ?_
      · refine .after h1 ?_ (fun g => Iff.rfl)
        refine Does.bind (does_groupLoop (a := fun k => .groupErase k id) (F := fun k => groupErase k id) (fun k => rfl)
          (fun k w => rfl) hcg _ hs l w hm (fun x hx => Prog.mem_indexed (scan_sub hsc x hx))) ?_ (fun _ _ _ _ _ _ g => Iff.rfl)
        rintro w1 ⟨⟩ hw1 ⟨T', hfl⟩
        refine (does_removeTail (hfl.mat hm) hs he id (.done [.unit])).congr rfl ?_
        intro _ _ _ g
        constructor
        · exact fun h => ⟨w1, hw1, h⟩
        · rintro ⟨w2, hw2, h⟩
          rw [hw1] at hw2
          cases hw2
          exact h
      · intro w' _ hok g
        obtain ⟨w1, ⟨⟩, hw1, _⟩ := M.bind_ok.1 hok
        simp only [h3]
        constructor
        · rintro ((h | h | h) | h | ⟨w2, hw2, h | h | h⟩)
          · exact ⟨l, w1, hsc, hw1, h2, .inr (.inl h)⟩
          · exact ⟨l, w1, hsc, hw1, h2, .inr (.inr (.inl h))⟩
          · exact ⟨l, w1, hsc, hw1, h2, .inr (.inr (.inr (.inl h)))⟩
          · exact ⟨l, w1, hsc, hw1, h2, .inr (.inr (.inr (.inr (.inl h))))⟩
          · exact ⟨l, w1, hsc, hw1, h2, .inl h⟩
          · exact ⟨l, w1, hsc, hw1, h2, .inr (.inr (.inr (.inr (.inr (.inl h)))))⟩
          · exact ⟨l, w2, hsc, hw2, h2, .inr (.inr (.inr (.inr (.inr (.inr h)))))⟩
        · rintro ⟨l', w2, hl', hw2, -, h⟩
          rw [hsc] at hl'
          cases hl'
          rcases h with h | h | h | h | h | h | h
          · exact .inr (.inr ⟨w2, hw2, .inl h⟩)
          · exact .inl (.inl h)
          · exact .inl (.inr (.inl h))
          · exact .inl (.inr (.inr h))
          · exact .inr (.inl h)
          · exact .inr (.inr ⟨w2, hw2, .inr (.inl h)⟩)
          · exact .inr (.inr ⟨w2, hw2, .inr (.inr h)⟩)
  have hx : (do
      let _ ← entityUnwrap id
      let _ ← (do
        let ks ← M.read fun w => w.needRemoveList id 0 w.groups
        M.forEach ks fun k => M.crit (groupErase k id) (groupEraseX k id)
        removeTail cfg.order id : M V Unit)
      pure [Ret.unit] : M V (List (Ret V))) w = ApiCall.alone cfg.order (.remove id) w := by
    simp only [ApiCall.alone, removeEntity, removeTail, entityUnwrap, World.entity, World.exist, M.bind_apply, M.read_apply]
    rcases w.em.has id with e | b
    · rfl
    · cases b <;> rfl
  refine Does.congr ?_ hx (fun _ _ _ _ => Iff.rfl)
  unfold Prog.remove
  refine .after (.acq (he.fits .ref) .refl) (T := removeTakes cfg w id) ?_ (by simp)
  refine Does.bind (T2 := removeTakes cfg w id) (Does.thenRel (l := .em) (md := .ref) (does_has id _ .panic)) ?_ (by simp)
  rintro w' a ha _
  obtain ⟨rfl, rfl⟩ := entityUnwrap_ok ha
  exact hmid.map (fun _ => rfl)

/-! ### The guards a removal takes -/

theorem scan_mem {id : Nat} (hm : Matches cfg w) : ∀ {gs l : List (Nat × Shape)}, scan w id gs = .ok l →
    ∀ x, x ∈ l ↔ x ∈ gs ∧ w.groupLists id x.1 = true := by
  intro gs
  induction gs with
  | nil => intro l h x; simp [scan] at h; subst h; simp
  | cons y gs ih =>
    obtain ⟨k, g⟩ := y
    intro l h x
    simp only [scan, bind_eq_ok] at h
    obtain ⟨b, ⟨G, hG, hb⟩, l', hl', h⟩ := h
    simp only [Except.ok.injEq] at h
    have hk : w.groupLists id k = b := by simp only [groupLists, getR_ok hG, hb]
    subst h
    cases b with
    | false =>
      simp only [Bool.false_eq_true, if_false, ih hl', List.mem_cons]
      constructor
      · exact fun h => ⟨.inr h.1, h.2⟩
      · rintro ⟨rfl | h, h2⟩
        · rw [hk] at h2; cases h2
        · exact ⟨h, h2⟩
    | true =>
      simp only [if_true, List.mem_cons, ih hl']
      constructor
      · rintro (rfl | h)
        · exact ⟨.inl rfl, hk⟩
        · exact ⟨.inr h.1, h.2⟩
      · rintro ⟨rfl | h, h2⟩
        · exact .inl rfl
        · exact .inr ⟨h, h2⟩

/-- The group loop changes only the storages the groups own. -/
theorem eraseLoop_frame {id : Nat} : ∀ {l : List (Nat × Shape)} {w w1 : World V}, Matches cfg w →
    (∀ x ∈ l, cfg.groups[x.1]? = some x.2) →
    M.forEach (l.map (·.1)) (fun k => M.crit (groupErase k id) (groupEraseX k id)) w = (w1, .ok ()) → ∀ t,
    (Lock.store t, Mode.mut) ∉ l.flatMap (fun x => [(Lock.store x.2.a, x.2.modeA), (Lock.store x.2.b, x.2.modeB)]) →
    w1.comps t = w.comps t := by
  intro l
  induction l with
  | nil => intro w w1 _ _ h t _; simp only [List.map_nil, M.forEach_nil, Prod.mk.injEq] at h; rw [h.1]
  | cons x l ih =>
    intro w w1 hm hg h t ht
    obtain ⟨w2, ⟨⟩, h1, h2⟩ := M.bind_ok.1 h
    have hr : Act.run (V := V) (.groupErase x.1 id) w = (w2, .ok .unit) := by
      simp only [Act.run, M.bind_apply, h1]
      rfl
    have hfr := run_frame hm.groups hr
    simp only [List.flatMap_cons, List.mem_append, not_or] at ht
    rw [ih (hm.frame hfr) (fun y hy => hg y (List.mem_cons_of_mem _ hy)) h2 t ht.2]
    refine hfr.store t ?_
    simp only [Act.footprint, Act.footprint.pair, hg x (List.mem_cons_self ..)]
    intro hc
    rcases List.mem_cons.1 hc with hc | hc
    · cases hc
    · exact ht.1 hc

theorem exist_lookup {S : SparseSet V} (h : S.WF) (id : Nat) : S.exist id = true ↔ S.lookup id ≠ none := by
  rw [Ne, SparseSet.lookup_none h, SparseSet.exist_iff h, Classical.not_not]

/-- In a world whose storages are well-formed, a removal that succeeds takes the guards listed. -/
theorem remove_needs (hm : Matches cfg w) (hwf : ∀ t st, w.comps t = some st → st.set.WF) {id : Nat} {w' : World V}
    {rs : List (Ret V)} (hok : ApiCall.alone cfg.order (.remove id) w = (w', .ok rs)) (g : Guard) :
    (g = (.em, .ref) ∨ removeTakes cfg w id g) ↔ g ∈ ApiCall.needs (V := V) cfg w (.remove id) := by
  simp only [ApiCall.alone, removeEntity, World.exist, M.bind_ok, M.read_ok, M.assert_iff] at hok
  obtain ⟨w6, _, ⟨w1, b, ⟨rfl, hb⟩, w2, _, ⟨rfl, rfl⟩, w3, ks, ⟨rfl, hks⟩, w4, ⟨⟩, hl, -⟩, -⟩ := hok
  rw [scan_indexed hm] at hks
  cases hsc : scan w3 id cfg.indexed with
  | error e => rw [hsc] at hks; cases hks
  | ok l =>
  rw [hsc] at hks
  cases hks
  have hmem := scan_mem hm hsc
  have hidx : ∀ x ∈ l, cfg.groups[x.1]? = some x.2 := fun x hx => Prog.mem_indexed (hmem x |>.1 hx).1
  have hevo := forEach_evo (Less.refl id) (fun _ _ _ => Less.trans) (fun t w w' h => groupErase_evo h) (fun k w => groupEraseX_evo k _ w) _ hl
  have hboth : ∀ x ∈ l, ∃ stA stB, w3.comps x.2.a = some stA ∧ w3.comps x.2.b = some stB ∧
      stA.set.exist id = true ∧ stB.set.exist id = true := by
    intro x hx
    have h1 := ((hmem x).1 hx).2
    obtain ⟨G, hG, hs⟩ := shape_of hm (hidx x hx)
    simp only [groupLists, hG] at h1
    cases hnr : w3.needRemove id G with
    | error e => rw [hnr] at h1; cases h1
    | ok b =>
      rw [hnr] at h1
      simp only at h1
      subst h1
      simp only [needRemove, bind_eq_ok] at hnr
      obtain ⟨A, hA, B, hB, hin⟩ := hnr
      rw [← hs]
      refine ⟨A, B, unwrapR_ok hA, unwrapR_ok hB, ?_⟩
      unfold Group.inGroup at hin
      split at hin
      · cases hin
      · rename_i h
        simpa [Group.inComponents] using h
  have hord : ∀ {t : Nat} {st : Storage V}, w3.comps t = some st → t ∈ cfg.order := fun h => (hm.order _).2 (by rw [h]; rfl)
  simp only [ApiCall.needs, List.mem_append, List.mem_cons, List.not_mem_nil, or_false]
  constructor
  · rintro (h | ⟨l', w1, hl', hw1, hreg, h⟩)
    · exact .inl (.inl (.inl (.inl (.inl h))))
    rw [hsc] at hl'
    cases hl'
    rw [hl] at hw1
    cases hw1
    rcases h with h | h | h | h | h | h | h
    · exact .inl (.inl (.inl (.inl (.inr h))))
    · exact .inl (.inl (.inl (.inr h)))
    · refine .inl (.inr ?_)
      obtain ⟨x, hx, h⟩ := List.mem_flatMap.1 h
      have hr := hreg x hx
      simp only [Config.registered, List.contains_iff_mem] at hr
      rcases List.mem_cons.1 h with rfl | h
      · exact List.mem_map.2 ⟨_, hr.1, rfl⟩
      · rcases List.mem_singleton.1 h with rfl
        exact List.mem_map.2 ⟨_, hr.2, rfl⟩
    · refine .inl (.inl (.inr ?_))
      obtain ⟨x, hx, rfl⟩ := List.mem_map.1 h
      exact List.mem_map.2 ⟨x, List.mem_filter.2 ((hmem x).1 hx), rfl⟩
    · obtain ⟨x, hx, h⟩ := List.mem_flatMap.1 h
      obtain ⟨stA, stB, hA, hB, eA, eB⟩ := hboth x hx
      have key : ∀ (t : Nat) (m : Mode) (st : Storage V), w3.comps t = some st → st.set.exist id = true → g = (.store t, m) →
          g ∈ cfg.order.map (fun t => (Lock.store t, Mode.ref)) ∨ g ∈ (cfg.order.filter fun t => match w3.comps t with
            | some st => st.set.exist id
            | none => false).map (fun t => (Lock.store t, Mode.mut)) := by
        intro t m st hst hex hg
        cases m with
        | ref => exact .inl (List.mem_map.2 ⟨t, hord hst, hg.symm⟩)
        | «mut» => exact .inr (List.mem_map.2 ⟨t, List.mem_filter.2 ⟨hord hst, by simp [hst, hex]⟩, hg.symm⟩)
      have : g ∈ cfg.order.map (fun t => (Lock.store t, Mode.ref)) ∨ g ∈ (cfg.order.filter fun t => match w3.comps t with
            | some st => st.set.exist id
            | none => false).map (fun t => (Lock.store t, Mode.mut)) := by
        rcases List.mem_cons.1 h with h | h
        · exact key _ _ _ hA eA h
        · exact key _ _ _ hB eB (List.mem_singleton.1 h)
      rcases this with h | h
      · exact .inl (.inr h)
      · exact .inr h
    · exact .inl (.inr h)
    · obtain ⟨t, ht, rfl⟩ := List.mem_map.1 h
      obtain ⟨ht1, ht2⟩ := List.mem_filter.1 ht
      refine .inr (List.mem_map.2 ⟨t, List.mem_filter.2 ⟨ht1, ?_⟩, rfl⟩)
      cases hc : w3.comps t with
      | none => rw [hevo.get_none hc] at ht2; exact ht2
      | some st =>
        obtain ⟨st', e1, _, e3⟩ := hevo.get hc
        rw [e1] at ht2
        obtain ⟨hw', _, e4⟩ := e3 (hwf t st hc)
        have h5 := (exist_lookup hw' id).1 ht2
        show st.set.exist id = true
        rw [exist_lookup (hwf t st hc)]
        rcases e4 with e4 | e4
        · rwa [e4] at h5
        · exact absurd e4 h5
  · have hreg : ∀ x ∈ cfg.indexed, cfg.registered x.2.a = true ∧ cfg.registered x.2.b = true := by
      have h := scanGroups_run hm id (fun gs => (.done [] : Prog V)) cfg.indexed [] (H := [])
        indexed_nodup (fun x hx => Prog.mem_indexed hx) .nil (fun x _ m => by simp [Guard.fits])
      rw [hsc] at h
      obtain ⟨_, _, h, _⟩ := h
      exact h
    rintro (((((h | h) | h) | h) | h) | h)
    · exact .inl h
    · exact .inr ⟨l, w4, hsc, hl, hreg, .inl h⟩
    · exact .inr ⟨l, w4, hsc, hl, hreg, .inr (.inl h)⟩
    · obtain ⟨x, hx, rfl⟩ := List.mem_map.1 h
      exact .inr ⟨l, w4, hsc, hl, hreg, .inr (.inr (.inr (.inl (List.mem_map.2 ⟨x, (hmem x).2 (List.mem_filter.1 hx), rfl⟩))))⟩
    · exact .inr ⟨l, w4, hsc, hl, hreg, .inr (.inr (.inr (.inr (.inr (.inl h)))))⟩
    · obtain ⟨t, ht, rfl⟩ := List.mem_map.1 h
      obtain ⟨ht1, ht2⟩ := List.mem_filter.1 ht
      by_cases hin : (Lock.store t, Mode.mut) ∈ l.flatMap (fun x => [(Lock.store x.2.a, x.2.modeA), (Lock.store x.2.b, x.2.modeB)])
      · exact .inr ⟨l, w4, hsc, hl, hreg, .inr (.inr (.inr (.inr (.inl hin))))⟩
      · refine .inr ⟨l, w4, hsc, hl, hreg, .inr (.inr (.inr (.inr (.inr (.inr (List.mem_map.2 ⟨t, ?_, rfl⟩))))))⟩
        refine List.mem_filter.2 ⟨ht1, ?_⟩
        rw [eraseLoop_frame hm hidx hl t hin]
        exact ht2

end Xecs
