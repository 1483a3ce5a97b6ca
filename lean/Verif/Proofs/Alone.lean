import Verif.Proofs.Flows
import Verif.Proofs.Calm
import Verif.Proofs.Guards
/-
Calls that run alone do what the sequential operations do.
-/
set_option autoImplicit false
namespace Xecs
open World
variable {V : Type} {cfg : Config} {w : World V} {H : List Guard}

/-- No guards on storages. -/
def NoStore (H : List Guard) : Prop := ∀ g ∈ H, ∀ t, g.1 ≠ .store t
/-- No guards on groups. -/
def NoGroup (H : List Guard) : Prop := ∀ g ∈ H, ∀ k, g.1 ≠ .group k
/-- No guards on the entity table. -/
def NoEm (H : List Guard) : Prop := ∀ g ∈ H, g.1 ≠ .em
/-- No guards on resources. -/
def NoRes (H : List Guard) : Prop := ∀ g ∈ H, ∀ t, g.1 ≠ .res t

theorem NoStore.fits (h : NoStore H) (t : Nat) (m : Mode) : Guard.fits (.store t, m) H :=
  fun g hg hc => h g hg t hc.1.symm
theorem NoGroup.fits (h : NoGroup H) (k : Nat) (m : Mode) : Guard.fits (.group k, m) H :=
  fun g hg hc => h g hg k hc.1.symm
theorem NoEm.fits (h : NoEm H) (m : Mode) : Guard.fits (.em, m) H := fun g hg hc => h g hg hc.1.symm
theorem NoRes.fits (h : NoRes H) (t : Nat) (m : Mode) : Guard.fits (.res t, m) H :=
  fun g hg hc => h g hg t hc.1.symm
theorem NoStore.nil : NoStore [] := by simp [NoStore]
theorem NoGroup.nil : NoGroup [] := by simp [NoGroup]
theorem NoStore.cons {g : Guard} (h : NoStore H) (hg : ∀ t, g.1 ≠ .store t) : NoStore (g :: H) := by
  intro x hx
  rcases List.mem_cons.1 hx with rfl | hx
  · exact hg
  · exact h x hx
theorem NoGroup.cons {g : Guard} (h : NoGroup H) (hg : ∀ t, g.1 ≠ .group t) : NoGroup (g :: H) := by
  intro x hx
  rcases List.mem_cons.1 hx with rfl | hx
  · exact hg
  · exact h x hx
theorem NoStore.append {K : List Guard} (h : NoStore K) (h' : NoStore H) : NoStore (K ++ H) :=
  fun x hx => (List.mem_append.1 hx).elim (h x) (h' x)

theorem registered_iff' (hm : Matches cfg w) (t : Nat) : cfg.registered t = (w.comps t).isSome := by
  rw [Bool.eq_iff_iff, ← hm.order t]
  simp [Config.registered]

theorem comps_none (hm : Matches cfg w) {t : Nat} (h : cfg.registered t = false) : w.comps t = none := by
  rw [registered_iff' hm] at h; simpa using h

theorem comps_some (hm : Matches cfg w) {t : Nat} (h : cfg.registered t = true) : ∃ st, w.comps t = some st := by
  rw [registered_iff' hm] at h; exact Option.isSome_iff_exists.1 h

theorem calm_componentRead (t id : Nat) : Calm (componentRead (V := V) t id w).2 := by
  simp only [componentRead, M.read_apply]
  repeat (first | exact calm_downcast | exact SparseSet.calm_getUnchecked | calm_step)

theorem calm_critW {α : Type} {f : World V → R (World V × α)} {x : M V α} (h : Calm (f w)) : Calm (M.crit f x w).2 := by
  unfold M.crit
  cases hc : f w with
  | ok p => exact calm_ok _
  | error e => rw [hc] at h; exact fun hh => h (by simpa using hh)

theorem calm_componentWrite (t id : Nat) (v : V) : Calm (componentWrite t id v w).2 := by
  refine calm_critW ?_
  repeat (first | exact calm_downcast | exact SparseSet.calm_setUnchecked | calm_step)

/-- Take a guard, work, drop it. -/
theorem does_locked {α : Type} {a : Act V} {f : Ret V → Prog V} {m : M V α} {g : α → Ret V} {l : Lock} {md : Mode}
    (hf : Guard.fits (l, md) H) (hr : a.run w = (do let x ← m; pure (g x) : M V (Ret V)) w) (hd : Calm (m w).2) :
    Does (.acq l md (.act a fun r => .rel l md (f r))) H w m H (fun x => x = (l, md)) (fun x => f (g x)) := by
  refine .after (.acq hf .refl) (Does.thenRel (l := l) (md := md) (k := fun x => f (g x)) ?_) (T := fun _ => False) (by simp)
  exact Does.work (f := fun r => .rel l md (f r)) hr hd

theorem does_read (hm : Matches cfg w) (hs : NoStore H) (t id : Nat) (k : Ret V → Prog V) :
    Does (Prog.read cfg t id k) H w (componentRead t id) H (· ∈ HOp.needs (V := V) cfg (.read t)) (fun v => k (.val v)) := by
  unfold Prog.read HOp.needs
  cases hr : cfg.registered t with
  | false =>
    have : componentRead t id w = (w, .ok none) := by
      simp only [componentRead, M.read_apply, comps_none hm hr]
    exact .ok this .refl (by simp [hr])
  | true =>
    simp only [if_true]
    exact (does_locked (hs.fits t .ref) rfl (calm_componentRead t id)).congr rfl (by simp [hr])

theorem does_write (hm : Matches cfg w) (hs : NoStore H) (t id : Nat) (v : V) (k : Ret V → Prog V) :
    Does (Prog.write cfg t id v k) H w (componentWrite t id v) H (· ∈ HOp.needs cfg (.write t v))
      (fun b => k (.bool b)) := by
  unfold Prog.write HOp.needs
  cases hr : cfg.registered t with
  | false =>
    have : componentWrite t id v w = (w, .ok false) := by
      simp only [componentWrite, M.crit, comps_none hm hr]
    exact .ok this .refl (by simp [hr])
  | true =>
    simp only [if_true]
    exact (does_locked (hs.fits t .mut) rfl (calm_componentWrite t id v)).congr rfl (by simp [hr])

/-! ### Groups -/

theorem shape_of (hm : Matches cfg w) {k : Nat} {g : Shape} (hk : cfg.groups[k]? = some g) :
    ∃ G, w.groups[k]? = some G ∧ G.shape = g := by
  rw [hm.groups, List.getElem?_map, Option.map_eq_some_iff] at hk
  exact hk

/-- Work behind guards that are not obtained does nothing. -/
theorem onPair_locked {α : Type} {k : Nat} {m : Stm (Group.Trio V) α} {G : Group} {e : Fault} (hG : w.groups[k]? = some G)
    (he : w.lockPair G = .error e) : (onPair k m w).1 = w := by
  unfold onPair
  simp only [getR_some hG, R.bind_ok, he, R.bind_error]

/-- One iteration of a loop over groups. -/
theorem does_groupStep (hm : Matches cfg w) (hs : NoStore H) {k : Nat} {g : Shape} (hk : cfg.groups[k]? = some g)
    {a : Act V} {F : World V → R (World V × Unit)} {X : Stm (Group.Trio V) Unit} {rest : World V → Group → SparseSet V × SparseSet V → R (World V × Unit)}
    (ha : a.run = (do M.crit F (onPair k X); pure .unit))
    (hF : F w = (do let g ← getR w.groups k; let AB ← w.lockPair g; rest w g AB))
    (hc : ∀ g AB, Calm (rest w g AB)) (p : Prog V) :
    Does (Prog.groupStep cfg k g a p) ((.group k, .mut) :: H) w (M.crit F (onPair k X)) H
      (· ∈ [(Lock.store g.a, g.modeA), (.store g.b, g.modeB)]) (fun _ => p) := by
  obtain ⟨G, hG, rfl⟩ := shape_of hm hk
  have hs' : NoStore ((Lock.group k, Mode.mut) :: H) := hs.cons (by simp)
  unfold Prog.groupStep Prog.store
  have hcrit : ∀ e, F w = .error e → w.lockPair G = .error e → M.crit F (onPair k X) w = (w, .error e) := fun e he hl => by
    rw [M.crit_error he, onPair_locked hG hl]
  have hL : w.lockPair G = (do
      let A ← unwrapR (w.comps G.tyA)
      if G.tyA = G.tyB ∧ G.kind ≠ .non then .error .deadlock
      let B ← unwrapR (w.comps G.tyB)
      .ok (A.set, B.set)) := rfl
  simp only [getR_some hG, ok_bind, lockPair] at hF
  show Does (if cfg.registered G.tyA = true then _ else _) _ _ _ _ _ _
  cases ra : cfg.registered G.tyA with
  | false =>
    rw [comps_none hm ra] at hF hL
    exact .panic (hcrit _ hF hL) ⟨[], _, _, _, .refl, .inl ⟨rfl, rfl⟩⟩
  | true =>
    obtain ⟨A, hA⟩ := comps_some hm ra
    simp only [hA, unwrapR_some, ok_bind] at hF hL
    simp only [if_true]
    have hf1 := hs'.fits G.tyA G.shape.modeA
    show Does (.acq (.store G.tyA) G.shape.modeA (if cfg.registered G.tyB = true then _ else _)) _ _ _ _ _ _
    by_cases hself : G.tyA = G.tyB ∧ G.kind ≠ .non
    · rw [if_pos hself] at hF hL
      rw [← hself.1, ra, if_pos rfl]
      refine .deadlock (hcrit _ hF hL) ⟨_, _, _, _, _, .acq hf1 .refl, ?_⟩
      · have : G.shape.modeA = .mut := by
          cases hk' : G.kind with
          | non => exact absurd hk' hself.2
          | full => simp [Shape.modeA, Group.shape, hk']
          | part => simp [Shape.modeA, Group.shape, hk']
        rw [this]
        exact fun h => h (.store G.tyA, .mut) (List.mem_cons_self ..) ⟨by show Lock.store G.tyB = _; rw [hself.1], .inr rfl⟩
    · rw [if_neg hself] at hF hL
      cases rb : cfg.registered G.tyB with
      | false =>
        rw [comps_none hm rb] at hF hL
        exact .panic (hcrit _ hF hL) ⟨_, _, _, _, .acq hf1 .refl, .inl ⟨rfl, rfl⟩⟩
      | true =>
        obtain ⟨B, hB⟩ := comps_some hm rb
        simp only [hB, unwrapR_some, ok_bind] at hF
        simp only [if_true]
        have hf2 : Guard.fits (.store G.tyB, G.shape.modeB) ((.store G.tyA, G.shape.modeA) :: (.group k, .mut) :: H) := by
          refine Guard.fits_cons.2 ⟨fun hc => ?_, hs'.fits _ _⟩
          have e : G.tyA = G.tyB := by simpa using hc.1.symm
          have : G.kind = .non := Classical.byContradiction fun hk' => hself ⟨e, hk'⟩
          have h2 := hc.2
          simp [Shape.modeA, Shape.modeB, Group.shape, this] at h2
        refine .after (.acq hf1 (.acq hf2 .refl)) (T := fun _ => False) ?_ (by intro g; simp [Group.shape])
        refine Does.thenRel (l := .group k) (md := .mut) (Does.thenRel (l := .store G.shape.a) (md := G.shape.modeA)
          (Does.thenRel (l := .store G.shape.b) (md := G.shape.modeB) ?_))
        refine Does.work (g := fun _ => Ret.unit) (by rw [ha]) ?_
        refine calm_critW ?_
        rw [hF]
        exact hc _ _

/-- A loop over groups whose write guards are held. -/
theorem does_groupLoop {a : Nat → Act V} {F : Nat → World V → R (World V × Unit)} {X : Stm (Group.Trio V) Unit}
    {rest : Nat → World V → Group → SparseSet V × SparseSet V → R (World V × Unit)}
    (ha : ∀ k, (a k).run = (do M.crit (F k) (onPair k X); pure .unit))
    (hF : ∀ k w, F k w = (do let g ← getR w.groups k; let AB ← w.lockPair g; rest k w g AB))
    (hc : ∀ k w g AB, Calm (rest k w g AB)) (p : Prog V) (hs : NoStore H) :
    ∀ (gs : List (Nat × Shape)) (w : World V), Matches cfg w → (∀ x ∈ gs, cfg.groups[x.1]? = some x.2) →
    Does (Prog.groupLoop cfg a gs p) (gs.map (fun x => (Lock.group x.1, Mode.mut)) ++ H) w
      (M.forEach (gs.map (·.1)) fun k => M.crit (F k) (onPair k X)) H
      (· ∈ gs.flatMap fun x => [(Lock.store x.2.a, x.2.modeA), (.store x.2.b, x.2.modeB)]) (fun _ => p) := by
  intro gs
  induction gs with
  | nil => intro w _ _; exact .ok rfl .refl (by simp)
  | cons x gs ih =>
    obtain ⟨k, g⟩ := x
    intro w hm hg
    have hs' : NoStore (gs.map (fun x => (Lock.group x.1, Mode.mut)) ++ H) := by
      refine NoStore.append (fun y hy => ?_) hs
      obtain ⟨z, _, rfl⟩ := List.mem_map.1 hy
      simp
    refine Does.bind (T2 := (· ∈ gs.flatMap fun x => [(Lock.store x.2.a, x.2.modeA), (.store x.2.b, x.2.modeB)]))
      (does_groupStep hm hs' (hg (k, g) (List.mem_cons_self ..)) (ha k) (hF k w) (hc k w) _) ?_ ?_
    · rintro w' ⟨⟩ _ ⟨T', hfl⟩
      exact ih w' (hfl.mat hm) fun x hx => hg x (List.mem_cons_of_mem _ hx)
    · intro _ _ _ _ _ _ g'
      rw [List.flatMap_cons, List.mem_append]

/-- Looking at the groups, keeping write guards on those that have the type. -/
theorem flows_lockGroups (t : Nat) (p : Prog V) : ∀ (gs : List (Nat × Shape)) {H : List Guard},
    (gs.map (·.1)).Nodup → (∀ x ∈ gs, ∀ m, Guard.fits (.group x.1, m) H) →
    ∃ T, Flows (Prog.lockGroups t gs p) H w T p
      ((gs.filter fun x => x.2.touches t).map (fun x => (Lock.group x.1, Mode.mut)) ++ H) w ∧
      ∀ g, g ∈ T ↔ g ∈ gs.map (fun x => (Lock.group x.1, Mode.ref)) ∨
        g ∈ (gs.filter fun x => x.2.touches t).map (fun x => (Lock.group x.1, Mode.mut)) := by
  intro gs
  induction gs with
  | nil => intro H _ _; exact ⟨[], .refl, by simp⟩
  | cons x gs ih =>
    obtain ⟨k, g⟩ := x
    intro H hn hf
    have hn' := List.nodup_cons.1 hn
    have hfk := hf (k, g) (List.mem_cons_self ..)
    unfold Prog.lockGroups
    have hfk : ∀ m, Guard.fits (.group k, m) H := hfk
    cases ht : g.touches t with
    | false =>
      obtain ⟨T, h1, h2⟩ := ih hn'.2 fun x hx => hf x (List.mem_cons_of_mem _ hx)
      refine ⟨(.group k, .ref) :: T, .acq (hfk .ref) (.rel ?_), fun g' => ?_⟩
      · simpa [ht] using h1
      · simp [h2, ht, List.filter_cons, or_assoc]
    | true =>
      obtain ⟨T, h1, h2⟩ := ih (H := (.group k, .mut) :: H) hn'.2 (fun x hx m => Guard.fits_cons.2 ⟨fun hc => by
        have e : x.1 = k := by simpa using hc.1
        exact hn'.1 (List.mem_map.2 ⟨x, hx, e⟩), hf x (List.mem_cons_of_mem _ hx) m⟩)
      rw [if_pos rfl]
      refine ⟨(.group k, .ref) :: (.group k, .mut) :: (T ++ []), .acq (hfk .ref) (.rel (.acq (hfk .mut) ?_)), fun g' => ?_⟩
      · refine h1.trans (.perm ?_ .refl)
        simpa [List.filter_cons, ht] using List.perm_middle
      · simp only [List.append_nil, List.mem_cons, h2, List.map_cons, List.filter_cons, ht, if_true, List.mem_cons]
        constructor
        · rintro (h | h | h | h) <;> simp [h]
        · rintro ((h | h) | h | h) <;> simp [h]

theorem indexed_fst : cfg.indexed.map (·.1) = List.range cfg.groups.length := by
  apply List.ext_getElem?
  intro i
  simp only [Config.indexed, List.getElem?_map, List.getElem?_mapIdx]
  by_cases hi : i < cfg.groups.length
  · simp [hi]
  · simp [hi, List.getElem?_eq_none (by omega : cfg.groups.length ≤ i)]

theorem indexed_nodup : (cfg.indexed.map (·.1)).Nodup := by
  rw [indexed_fst]
  exact List.nodup_range

theorem groupsOf_touching (hm : Matches cfg w) (t : Nat) :
    w.groupsOf t = (Prog.touching cfg t).map (·.1) := by
  have hl : w.groups.length = cfg.groups.length := by rw [hm.groups, List.length_map]
  unfold World.groupsOf Prog.touching
  rw [hl, ← indexed_fst, List.filter_map]
  congr 1
  apply List.filter_congr
  intro x hx
  have hx := Prog.mem_indexed hx
  obtain ⟨G, hG, hs⟩ := shape_of hm hx
  simp only [Function.comp, hG, Shape.touches, ← hs, Group.shape]

theorem touching_spec {t : Nat} : ∀ x ∈ Prog.touching cfg t, cfg.groups[x.1]? = some x.2 :=
  fun _ hx => Prog.mem_indexed (List.mem_filter.1 hx).1

theorem calm_attachStore (t id : Nat) (v : V) : Calm (attachStore t id v w) := by
  unfold attachStore
  exact calm_bind calm_unwrapR fun _ _ => calm_bind calm_downcast fun _ _ => calm_bind SparseSet.calm_add fun _ _ => calm_ok _

theorem calm_detachStore (t id : Nat) : Calm (detachStore (V := V) t id w) := by
  unfold detachStore
  exact calm_bind calm_unwrapR fun _ _ => calm_bind calm_downcast fun _ _ => calm_bind SparseSet.calm_remove fun _ _ => calm_ok _

/-- The loop over the groups that have the type `t`. -/
def touchLoop (t : Nat) (F : Nat → World V → R (World V × Unit)) (X : Stm (Group.Trio V) Unit) : M V Unit := do
  let ks ← M.read (fun w => .ok (w.groupsOf t))
  M.forEach ks fun k => M.crit (F k) (onPair k X)

/-- Looking at the groups, then the loop over those that have the type. -/
theorem does_touch {a : Nat → Act V} {F : Nat → World V → R (World V × Unit)} {X : Stm (Group.Trio V) Unit}
    {rest : Nat → World V → Group → SparseSet V × SparseSet V → R (World V × Unit)}
    (ha : ∀ k, (a k).run = (do M.crit (F k) (onPair k X); pure .unit))
    (hF : ∀ k w, F k w = (do let g ← getR w.groups k; let AB ← w.lockPair g; rest k w g AB))
    (hc : ∀ k w g AB, Calm (rest k w g AB)) (hm : Matches cfg w) (hs : NoStore H) (hg : NoGroup H) (t : Nat)
    (p : Prog V) :
    Does (Prog.lockGroups t cfg.indexed <| Prog.groupLoop cfg a (Prog.touching cfg t) p) H w
      (touchLoop t F X) H
      (fun g => g ∈ cfg.indexed.map (fun x => (Lock.group x.1, Mode.ref)) ∨
        g ∈ (Prog.touching cfg t).flatMap fun x =>
          [(Lock.group x.1, Mode.mut), (.store x.2.a, x.2.modeA), (.store x.2.b, x.2.modeB)])
      (fun _ => p) := by
  obtain ⟨T, h1, h2⟩ := flows_lockGroups (w := w) t (Prog.groupLoop cfg a (Prog.touching cfg t) p) cfg.indexed
    indexed_nodup (fun x _ m => hg.fits x.1 m)
  refine .after h1 (T := (· ∈ (Prog.touching cfg t).flatMap fun x => [(Lock.store x.2.a, x.2.modeA), (.store x.2.b, x.2.modeB)]))
    (Does.congr (does_groupLoop ha hF hc p hs _ w hm touching_spec) ?_ (fun _ _ _ _ => Iff.rfl)) ?_
  · show _ = M.forEach (w.groupsOf t) _ w
    rw [groupsOf_touching hm]
  · intro g
    rw [h2]
    simp only [List.mem_flatMap, List.mem_map, List.mem_cons, List.not_mem_nil, or_false, Prog.touching]
    constructor
    · rintro (h | ⟨x, hx, h | h⟩)
      · exact .inl (.inl h)
      · exact .inl (.inr ⟨x, hx, h.symm⟩)
      · exact .inr ⟨x, hx, h⟩
    · rintro ((h | ⟨x, hx, h⟩) | ⟨x, hx, h⟩)
      · exact .inl h
      · exact .inr ⟨x, hx, .inl h.symm⟩
      · exact .inr ⟨x, hx, .inr h⟩

theorem hasRegistered_iff (hm : Matches cfg w) (t : Nat) : w.hasRegistered t = cfg.registered t := by
  rw [registered_iff' hm]
  rfl

theorem does_attach (hm : Matches cfg w) (hs : NoStore H) (hg : NoGroup H) (id t : Nat) (v : V) (p : Prog V) :
    Does (Prog.attach cfg id t v p) H w (entityAttach id t v) H (· ∈ HOp.needs cfg (.attach t v)) (fun _ => p) := by
  unfold Prog.attach
  cases hr : cfg.registered t with
  | false =>
    refine .panic (w' := w) ?_ ⟨[], _, _, _, .refl, .inl ⟨rfl, rfl⟩⟩
    simp only [entityAttach, M.bind_apply, M.read_apply, hasRegistered_iff hm, hr, M.assert_false]
  | true =>
    rw [if_pos rfl]
    have heq : (M.crit (attachStore t id v) (attachStoreX t id v) >>= fun _ => touchLoop t (fun k => groupAdd k id) (Group.addX id)) w
        = entityAttach id t v w := by
      simp only [entityAttach, touchLoop, M.bind_apply, M.read_apply, hasRegistered_iff hm, hr, M.assert_true, groupAddX]
    refine Does.congr ?_ heq (fun _ _ _ _ => Iff.rfl)
    refine Does.bind (T2 := fun g => g ∈ cfg.indexed.map (fun x => (Lock.group x.1, Mode.ref)) ∨
        g ∈ (Prog.touching cfg t).flatMap fun x =>
          [(Lock.group x.1, Mode.mut), (.store x.2.a, x.2.modeA), (.store x.2.b, x.2.modeB)])
      (does_locked (g := fun _ => Ret.unit) (hs.fits t .mut) rfl (calm_critW (calm_attachStore t id v))) ?_ ?_
    · rintro w' ⟨⟩ _ ⟨T', hfl⟩
      exact does_touch (a := fun k => .groupAdd k id) (F := fun k => groupAdd k id)
        (rest := fun k w g AB => do .ok (w.putPair k (← g.add id AB.1 AB.2), ()))
        (fun k => rfl) (fun k w => rfl) (fun k w g AB => calm_bind Group.calm_addG fun _ _ => calm_ok _)
        (hfl.mat hm) hs hg t p
    · intro _ _ _ _ _ _ g
      simp only [HOp.needs, HOp.needs.touch, List.mem_append, List.mem_singleton, Prog.touching, or_assoc]

theorem does_detach (hm : Matches cfg w) (hs : NoStore H) (hg : NoGroup H) (id t : Nat) (p : Ret V → Prog V) :
    Does (Prog.detach cfg id t p) H w (entityDetach id t) H (· ∈ HOp.needs (V := V) cfg (.detach t)) (fun v => p (.val v)) := by
  unfold Prog.detach
  cases hr : cfg.registered t with
  | false =>
    refine .panic (w' := w) ?_ ⟨[], _, _, _, .refl, .inl ⟨rfl, rfl⟩⟩
    simp only [entityDetach, M.bind_apply, M.read_apply, hasRegistered_iff hm, hr, M.assert_false]
  | true =>
    rw [if_pos rfl]
    have heq : ((touchLoop t (fun k => groupRemove k id) (Group.removeX id)) >>= fun _ => M.crit (detachStore t id) (detachStoreX t id)) w
        = entityDetach id t w := by
      simp only [entityDetach, touchLoop, M.bind_apply, M.read_apply, hasRegistered_iff hm, hr, M.assert_true, groupRemoveX]
    refine Does.congr ?_ heq (fun _ _ _ _ => Iff.rfl)
    refine Does.bind (T2 := (· = (Lock.store t, Mode.mut)))
      (does_touch (a := fun k => .groupRemove k id) (F := fun k => groupRemove k id)
        (rest := fun k w g AB => do .ok (w.putPair k (← g.remove id AB.1 AB.2), ()))
        (fun k => rfl) (fun k w => rfl) (fun k w g AB => calm_bind Group.calm_removeG fun _ _ => calm_ok _)
        hm hs hg t _) ?_ ?_
    · rintro w' ⟨⟩ _ ⟨T', hfl⟩
      exact does_locked (g := fun v => Ret.val v) (hs.fits t .mut) rfl (calm_critW (calm_detachStore t id))
    · intro _ _ _ _ _ _ g
      simp only [HOp.needs, HOp.needs.touch, List.mem_append, List.mem_singleton, Prog.touching]
      constructor
      · rintro ((h | h) | h) <;> simp [h]
      · rintro ((h | h) | h) <;> simp [h]

/-- One call on a handle. -/
theorem does_script (hs : NoStore H) (hg : NoGroup H) (id : Nat) (p : List (Ret V) → Prog V) :
    ∀ (ops : List (HOp V)) (acc : List (Ret V)) (w : World V), Matches cfg w →
      Does (Prog.script cfg id ops acc p) H w (HOp.aloneAll id ops) H (· ∈ ops.flatMap (HOp.needs cfg))
        (fun rs => p (acc ++ rs)) := by
  intro ops
  induction ops with
  | nil =>
    intro acc w _
    refine .ok (T' := []) rfl ?_ (by simp)
    rw [List.append_nil]
    exact .refl
  | cons o ops ih =>
    intro acc w hm
    have key : ∀ {q : Prog V}, Does q H w (o.alone id) H (· ∈ o.needs cfg)
        (fun r => Prog.script cfg id ops (acc ++ [r]) p) →
        Does q H w (HOp.aloneAll id (o :: ops)) H (· ∈ (o :: ops).flatMap (HOp.needs cfg)) (fun rs => p (acc ++ rs)) := by
      intro q h
      refine Does.bind (T2 := (· ∈ ops.flatMap (HOp.needs cfg))) h ?_ ?_
      · rintro w' r _ ⟨T', hfl⟩
        refine (ih (acc ++ [r]) w' (hfl.mat hm)).map ?_
        intro rs
        simp
      · intro _ _ _ _ _ _ g
        simp
    cases o with
    | attach t v => exact key ((does_attach hm hs hg id t v _).map (fun _ => rfl))
    | detach t => exact key ((does_detach hm hs hg id t _).map (fun _ => rfl))
    | read t => exact key ((does_read hm hs t id _).map (fun _ => rfl))
    | write t v => exact key ((does_write hm hs t id v _).map (fun _ => rfl))

/-! ### The entity table -/

/-- `entity(id).unwrap()` with the read guard already taken. -/
theorem does_has (id : Nat) (f : Prog V) (g : Prog V) :
    Does (.act (.has id) fun | .bool true => f | _ => .panic) H w (entityUnwrap id) H (fun _ => False) (fun _ => f) := by
  have hrun : Act.run (V := V) (.has id) w = (w, (w.em.has id).map Ret.bool) := by
    simp only [Act.run, World.exist, M.bind_apply, M.read_apply]
    cases w.em.has id <;> rfl
  have hun : entityUnwrap id w = (w, match w.em.has id with
      | .ok true => .ok id | .ok false => .error .panic | .error e => .error e) := by
    simp only [entityUnwrap, World.entity, World.exist, M.bind_apply, M.read_apply]
    rcases w.em.has id with e | b
    · rfl
    · cases b <;> rfl
  have hcalm := EntityManager.calm_has (m := w.em) (id := id)
  cases hh : w.em.has id with
  | error e =>
    rw [hh] at hrun hun hcalm
    have hf : Fails (.act (.has id) fun | .bool true => f | _ => .panic) H w w :=
      ⟨[], _, H, w, .refl, .inr ⟨_, _, e, rfl, hrun⟩⟩
    cases e with
    | deadlock => exact absurd rfl hcalm
    | panic => exact .panic hun hf
    | ub => rw [Does, hun]; exact hf
  | ok b =>
    rw [hh] at hrun hun
    cases b with
    | true => exact .ok hun (.act hrun .refl) (by simp)
    | false => exact .panic hun ⟨_, _, _, _, .act hrun .refl, .inl ⟨rfl, rfl⟩⟩

theorem entityUnwrap_ok {id a : Nat} {w w' : World V} (h : entityUnwrap id w = (w', .ok a)) : a = id ∧ w' = w := by
  simp only [entityUnwrap, World.entity, World.exist, M.bind_apply, M.read_apply] at h
  rcases hh : w.em.has id with e | b
  · rw [hh] at h; cases h
  · rw [hh] at h
    cases b <;> simp_all [M.pure_apply, unwrapR]

theorem does_handle (hm : Matches cfg w) (hs : NoStore H) (hg : NoGroup H) (he : NoEm H) (id : Nat) (ops : List (HOp V))
    (acc : List (Ret V)) :
    Does (Prog.handle cfg id ops acc) H w (do let id ← entityUnwrap id; HOp.aloneAll id ops) H
      (· ∈ (Lock.em, Mode.ref) :: ops.flatMap (HOp.needs cfg)) (fun rs => .done (acc ++ rs)) := by
  unfold Prog.handle
  refine .after (T := (· ∈ ops.flatMap (HOp.needs cfg))) (.acq (he.fits .ref) .refl) ?_ (by simp)
  refine Does.thenRel (l := .em) (md := .ref) ?_
  refine Does.bind (T2 := (· ∈ ops.flatMap (HOp.needs cfg))) (does_has id _ .panic) ?_ (by simp)
  rintro w' a ha ⟨T', hfl⟩
  obtain ⟨rfl, rfl⟩ := entityUnwrap_ok ha
  exact does_script (hs.cons (by simp)) (hg.cons (by simp)) a _ ops acc w' (hfl.mat hm)

theorem does_create (hm : Matches cfg w) (hs : NoStore H) (hg : NoGroup H) (he : NoEm H) (order : List Nat)
    (script : List (HOp V)) :
    Does (ApiCall.prog cfg (.create script)) H w (ApiCall.alone order (.create script)) H
      (· ∈ ApiCall.needs cfg w (.create script)) (fun rs => .done rs) := by
  have heq : ((M.crit allocate (onTable EntityManager.allocateX) : M V Nat) >>= fun id => (do
        let rs ← (do let id ← entityUnwrap id; HOp.aloneAll id script : M V (List (Ret V)))
        pure (.id id :: rs) : M V (List (Ret V)))) w = ApiCall.alone order (.create script) w := by
    simp only [ApiCall.alone, createEntity]
    rw [M.bind_assoc']
    apply M.bind_congr'
    intro w' id _
    rw [M.bind_assoc']
    show (entityUnwrap id >>= fun a => (do
        let rs ← HOp.aloneAll a script
        pure (Ret.id id :: rs) : M V (List (Ret V)))) w' = (entityUnwrap id >>= fun a => (do
        let rs ← HOp.aloneAll a script
        pure (Ret.id a :: rs) : M V (List (Ret V)))) w'
    apply M.bind_congr'
    intro w'' a ha
    rw [(entityUnwrap_ok ha).1]
  refine Does.congr (T := fun g => g = (Lock.em, Mode.mut) ∨ g ∈ (Lock.em, Mode.ref) :: script.flatMap (HOp.needs cfg))
    ?_ heq (by simp [ApiCall.needs])
  refine Does.bind (T := (· = (Lock.em, Mode.mut))) (T2 := (· ∈ (Lock.em, Mode.ref) :: script.flatMap (HOp.needs cfg)))
    (k1 := fun id => Prog.handle cfg id script [.id id])
    (.after (.acq (he.fits .mut) .refl) (T := fun _ => False)
      (Does.thenRel (l := .em) (md := .mut) (Does.work (g := Ret.id) rfl (calm_critW ?_))) (by simp)) ?_ (fun _ _ _ _ _ _ _ => Iff.rfl)
  · exact calm_bind EntityManager.calm_allocate fun _ _ => calm_ok _
  · rintro w' id _ ⟨T', hfl⟩
    exact (does_handle (hfl.mat hm) hs hg he id script [.id id]).map (by simp)

theorem calm_attachBatch (start stop t : Nat) (vs : List V) : Calm (attachBatch start stop t vs w).2 := by
  unfold attachBatch
  rw [M.bind_apply]
  cases vs.length == stop - start with
  | false => exact calm_panic
  | true =>
    refine calm_critW ?_
    exact calm_bind calm_unwrapR fun _ _ => calm_bind calm_downcast fun _ _ => calm_bind SparseSet.calm_addBatch fun _ _ => calm_ok _

theorem does_batches (hs : NoStore H) (start stop : Nat) (p : Prog V) : ∀ (bs : List (Nat × List V)) (w : World V),
    Matches cfg w → Does (Prog.batches cfg start stop bs p) H w
      (M.forEach bs fun b => attachBatch start stop b.1 b.2) H (· ∈ bs.map fun b => (Lock.store b.1, Mode.mut)) (fun _ => p) := by
  intro bs
  induction bs with
  | nil => intro w _; exact .ok (T' := []) rfl .refl (by simp)
  | cons b bs ih =>
    obtain ⟨t, vs⟩ := b
    intro w hm
    refine Does.bind (T := (· = (Lock.store t, Mode.mut))) (T2 := (· ∈ bs.map fun b => (Lock.store b.1, Mode.mut)))
      (k1 := fun _ => Prog.batches cfg start stop bs p) (H' := H) ?_ ?_ (by simp)
    · dsimp only [Prog.batches]
      cases hl : vs.length == stop - start with
      | false =>
        refine .panic (w' := w) ?_ ⟨[], _, _, _, .refl, .inl ⟨rfl, rfl⟩⟩
        simp only [attachBatch, M.bind_apply, hl, M.assert_false]
      | true =>
        simp only [if_true, Prog.store]
        cases hr : cfg.registered t with
        | false =>
          refine .panic (w' := w) ?_ ⟨[], _, _, _, .refl, .inl ⟨rfl, rfl⟩⟩
          simp only [attachBatch, M.bind_apply, hl, M.assert_true]
          rw [M.crit_error (e := .panic) (by simp [batchStore, comps_none hm hr])]
          simp [batchStoreX, onStore, comps_none hm hr]
        | true =>
          exact does_locked (g := fun _ => Ret.unit) (hs.fits t .mut) rfl (calm_attachBatch start stop t vs)
    · rintro w' ⟨⟩ _ ⟨T', hfl⟩
      exact ih w' (hfl.mat hm)

theorem does_createMany (hm : Matches cfg w) (hs : NoStore H) (he : NoEm H) (order : List Nat) (n : Nat)
    (bs : List (Nat × List V)) :
    Does (ApiCall.prog cfg (.createMany n bs)) H w (ApiCall.alone order (.createMany n bs)) H
      (· ∈ ApiCall.needs cfg w (.createMany n bs)) (fun rs => .done rs) := by
  refine Does.bind (T := (· = (Lock.em, Mode.mut)))
    (T2 := (· ∈ (Lock.em, Mode.ref) :: bs.map fun b => (Lock.store b.1, Mode.mut)))
    (k1 := fun (r : Nat × Nat) => .acq .em .ref <| Prog.batches cfg r.1 r.2 bs <| .rel .em .ref (.done [.range r.1 r.2]))
    (.after (.acq (he.fits .mut) .refl) (T := fun _ => False)
      (Does.thenRel (l := .em) (md := .mut) (Does.work (α := Nat × Nat) (g := fun r => Ret.range r.1 r.2) rfl (calm_critW (calm_ok _)))) (by simp)) ?_
    (by simp [ApiCall.needs])
  rintro w' ⟨start, stop⟩ _ ⟨T', hfl⟩
  refine .after (.acq (he.fits .ref) .refl) (T := (· ∈ bs.map fun b => (Lock.store b.1, Mode.mut))) ?_ (by simp)
  refine Does.thenRel (l := .em) (md := .ref) ?_
  exact (does_batches (hs.cons (by simp)) start stop _ bs w' (hfl.mat hm)).map (fun _ => rfl)

theorem does_fill (hm : Matches cfg w) (hs : NoStore H) (he : NoEm H) (order : List Nat) (start stop : Nat)
    (bs : List (Nat × List V)) :
    Does (ApiCall.prog cfg (.fill start stop bs)) H w (ApiCall.alone order (.fill start stop bs)) H
      (· ∈ ApiCall.needs cfg w (.fill start stop bs)) (fun rs => .done rs) := by
  refine .after (.acq (he.fits .ref) .refl) (T := (· ∈ bs.map fun b => (Lock.store b.1, Mode.mut))) ?_ (by simp [ApiCall.needs])
  refine Does.thenRel (l := .em) (md := .ref) ?_
  exact (does_batches (hs.cons (by simp)) start stop _ bs w hm).map (fun _ => rfl)

end Xecs
