import Verif.Proofs.Alone
import Verif.Proofs.Terminates
import Verif.Proofs.Local
/-
Queries run alone.
-/
set_option autoImplicit false
namespace Xecs
open World
variable {V : Type} {cfg : Config} {w : World V} {H : List Guard}

/-- The storage guards in `H` exclude what `held` excludes; no write guards on groups. -/
def Tied (H : List Guard) (held : Query.Held) : Prop :=
  (∀ t m, Guard.fits (.store t, m) H ↔ ¬ (held.any (fun h => h.1 == t && (h.2 == .mut || m == .mut))) = true) ∧
    ∀ k, Guard.fits (.group k, .ref) H

theorem Tied.store {held : Query.Held} (h : Tied H held) (t : Nat) (m : Mode) :
    Tied ((.store t, m) :: H) (held ++ [(t, m)]) := by
  refine ⟨fun t' m' => ?_, fun k => Guard.fits_cons.2 ⟨fun hc => by simp [Guard.clash] at hc, h.2 k⟩⟩
  rw [Guard.fits_cons, h.1, List.any_append]
  simp only [List.any_cons, List.any_nil, Bool.or_false, Bool.or_eq_true, not_or, Guard.clash, Bool.and_eq_true, beq_iff_eq,
    Lock.store.injEq]
  constructor
  · rintro ⟨h1, h2⟩
    exact ⟨h2, fun hc => h1 ⟨hc.1.symm, hc.2.symm⟩⟩
  · rintro ⟨h1, h2⟩
    exact ⟨fun hc => h2 ⟨hc.1.symm, hc.2.symm⟩, h1⟩

theorem Tied.group {held : Query.Held} (h : Tied H held) (k : Nat) : Tied ((.group k, .ref) :: H) held := by
  refine ⟨fun t m => ?_, fun k' => Guard.fits_cons.2 ⟨fun hc => by simp [Guard.clash] at hc, h.2 k'⟩⟩
  rw [Guard.fits_cons, h.1]
  constructor
  · exact fun h => h.2
  · exact fun h => ⟨fun hc => by simp [Guard.clash] at hc, h⟩

theorem Tied.perm {H' : List Guard} {held : Query.Held} (h : Tied H held) (hp : H.Perm H') : Tied H' held := by
  have e : ∀ g, Guard.fits g H' ↔ Guard.fits g H := fun g =>
    ⟨fun h x hx => h x (hp.mem_iff.1 hx), fun h x hx => h x (hp.mem_iff.2 hx)⟩
  exact ⟨fun t m => (e _).trans (h.1 t m), fun k => (e _).2 (h.2 k)⟩

theorem M.read_bind {α β : Type} (f : World V → R α) (g : α → World V → R β) (w : World V) :
    (M.read f >>= fun a => M.read (g a)) w = M.read (fun w => f w >>= fun a => g a w) w := by
  simp only [M.bind_apply, M.read_apply]
  cases f w <;> rfl

/-- Taking a storage guard. -/
theorem does_store (hm : Matches cfg w) (ht : ∀ t st, w.comps t = some st → st.ty = t) {held : Query.Held}
    (h : Tied H held) (m : Mode) (t : Nat) (p : Prog V) :
    Does (Prog.store cfg t m p) H w (M.read fun w => Query.lock w held m t) ((.store t, m) :: H)
      (· = (Lock.store t, m)) (fun _ => p) := by
  unfold Prog.store
  cases hr : cfg.registered t with
  | false =>
    refine .panic (w' := w) ?_ ⟨[], _, _, _, .refl, .inl ⟨rfl, rfl⟩⟩
    simp only [M.read_apply, Query.lock, comps_none hm hr]
    rfl
  | true =>
    obtain ⟨st, hst⟩ := comps_some hm hr
    rw [if_pos rfl]
    by_cases hc : held.any (fun h => h.1 == t && (h.2 == .mut || m == .mut)) = true
    · refine .deadlock (w' := w) ?_ ⟨[], _, _, _, _, .refl, fun hf => (h.1 t m).1 hf hc⟩
      simp only [M.read_apply, Query.lock, hst, unwrapR_some, ok_bind, if_pos hc]
    · refine .ok (w' := w) (a := held ++ [(t, m)]) (T' := [(.store t, m)]) ?_ (.acq ((h.1 t m).2 hc) .refl) (by simp)
      simp only [M.read_apply, Query.lock, hst, unwrapR_some, ok_bind, if_neg hc, downcast, ht t st hst, if_true]

theorem lock_held {held held' : Query.Held} {m : Mode} {t : Nat} (h : Query.lock w held m t = .ok held') :
    held' = held ++ [(t, m)] := by
  simp only [Query.lock, bind_eq_ok] at h
  obtain ⟨st, _, h⟩ := h
  split at h
  · cases h
  · simp only [bind_eq_ok] at h
    obtain ⟨_, _, h⟩ := h
    simpa using h.symm

theorem flows_visit (hg : ∀ k, Guard.fits (.group k, .ref) H) (p : Prog V) : ∀ ks : List Nat,
    ∃ T, Flows (Prog.visitGroups ks p) H w T p H w ∧ ∀ g, g ∈ T ↔ g ∈ ks.map fun k => (Lock.group k, Mode.ref) := by
  intro ks
  induction ks with
  | nil => exact ⟨[], .refl, by simp⟩
  | cons k ks ih =>
    obtain ⟨T, h1, h2⟩ := ih
    exact ⟨_, .acq (hg k) (.rel h1), by simp [h2]⟩

theorem hasGroup_position (hm : Matches cfg w) (k : Kind) (a b : Nat) :
    w.hasGroup k a b = (Prog.position cfg ⟨k, a, b⟩).isSome := by
  rw [← findGroup_position hm.groups]
  simp only [hasGroup, Query.findGroup, List.findIdx?_isSome]

/-- The program `op` takes the guards `G` for good and the guards `N` in all, while `f` does the same to `held`. -/
def Opens {α : Type} (w : World V) (op : Prog V → Prog V) (f : Query.Held → R (α × Query.Held)) (G N : List Guard) : Prop :=
  ∀ (H : List Guard) (held : Query.Held), Tied H held → ∀ p : Prog V,
    Does (op p) H w (M.read fun _ => f held) (G ++ H) (· ∈ N) (fun _ => p) ∧
      ∀ r, f held = .ok r → Tied (G ++ H) r.2

theorem Opens.seq {α β : Type} {op1 op2 : Prog V → Prog V} {f1 : Query.Held → R (α × Query.Held)}
    {f2 : Query.Held → R (β × Query.Held)} {G1 G2 N1 N2 : List Guard} (h1 : Opens w op1 f1 G1 N1)
    (h2 : Opens w op2 f2 G2 N2) : Opens w (fun p => op1 (op2 p))
      (fun held => do let x ← f1 held; let y ← f2 x.2; .ok ((x.1, y.1), y.2)) (G1 ++ G2) (N1 ++ N2) := by
  intro H held ht p
  obtain ⟨d1, t1⟩ := h1 H held ht (op2 p)
  have hp : (G2 ++ (G1 ++ H)).Perm (G1 ++ G2 ++ H) := by
    rw [← List.append_assoc]
    exact List.Perm.append_right H List.perm_append_comm
  constructor
  · refine Does.permEnd (H1 := G2 ++ (G1 ++ H)) ?_ hp
    refine Does.congr (T := (· ∈ N1 ++ N2)) (m := M.read (fun _ => f1 held) >>= fun x => (do
        let y ← M.read fun _ => f2 x.2
        pure ((x.1, y.1), y.2))) ?_ ?_ (fun _ _ _ _ => Iff.rfl)
    · refine Does.bind (T2 := (· ∈ N2)) d1 ?_ (fun _ _ _ _ _ _ g => List.mem_append)
      intro w' x hx _
      simp only [M.read_apply, Prod.mk.injEq] at hx
      rw [← hx.1]
      exact (h2 _ x.2 (t1 x hx.2) p).1.map (fun _ => rfl)
    · simp only [M.bind_apply, M.read_apply]
      cases f1 held with
      | error e => rfl
      | ok x =>
        simp only [ok_bind]
        cases f2 x.2 <;> rfl
  · intro r hr
    simp only [bind_eq_ok] at hr
    obtain ⟨x, hx, y, hy, hr⟩ := hr
    cases hr
    exact ((h2 _ x.2 (t1 x hx) p).2 y hy).perm hp

theorem Opens.map {α β : Type} {op : Prog V → Prog V} {f : Query.Held → R (α × Query.Held)}
    {f' : Query.Held → R (β × Query.Held)} {G N : List Guard} (h : Opens w op f G N) (g : α → β)
    (hf : ∀ held, f' held = do let x ← f held; .ok (g x.1, x.2)) : Opens w op f' G N := by
  intro H held ht p
  obtain ⟨d, t⟩ := h H held ht p
  constructor
  · refine Does.congr (T := (· ∈ N)) (d.map (f := fun x => (g x.1, x.2)) (k2 := fun _ => p) (fun _ => rfl)) ?_
      (fun _ _ _ _ => Iff.rfl)
    simp only [M.bind_apply, M.read_apply, hf]
    cases f held <;> rfl
  · intro r hr
    rw [hf, bind_eq_ok] at hr
    obtain ⟨x, hx, hr⟩ := hr
    cases hr
    exact t x hx

theorem opens_store (hm : Matches cfg w) (ht : ∀ t st, w.comps t = some st → st.ty = t) (m : Mode) (t : Nat) :
    Opens w (Prog.store cfg t m) (fun held => do let h ← Query.lock w held m t; .ok ((), h)) [(.store t, m)] [(.store t, m)] := by
  intro H held h p
  constructor
  · refine Does.congr (T := (· = (Lock.store t, m))) ((does_store hm ht h m t p).map (f := fun x => ((), x))
      (k2 := fun _ => p) (fun _ => rfl)) ?_ (by simp)
    simp only [M.bind_apply, M.read_apply]
    cases Query.lock w held m t <;> rfl
  · intro r hr
    simp only [bind_eq_ok] at hr
    obtain ⟨x, hx, hr⟩ := hr
    cases hr
    rw [lock_held hx]
    exact h.store t m

theorem idxOf_position {g : Shape} {pos : Nat} (h : Prog.position cfg g = some pos) : cfg.groups.idxOf g = pos := by
  unfold Prog.position at h
  rw [List.findIdx?_eq_some_iff_findIdx_eq] at h
  exact h.2

/-- Starting a query. -/
theorem opens_query (hm : Matches cfg w) (ht : ∀ t st, w.comps t = some st → st.ty = t) (q : Query) :
    Opens w (Prog.openQuery cfg q) (fun held => q.prepare w held) (Prog.queryGuards cfg q) (q.needs cfg) := by
  induction q with
  | comp m t =>
    refine (opens_store hm ht m t).map (fun _ => Plan.comp m t) (fun held => ?_)
    simp only [Query.prepare, hasRegistered]
    cases hr : w.comps t with
    | none => simp [Query.lock, hr, assertR, unwrapR]
    | some st =>
      simp only [Option.isSome_some, assertR, if_true]
      cases Query.lock w held m t <;> rfl
  | with2 a b iha ihb =>
    refine (iha.seq ihb).map (fun x => Plan.with2 x.1 x.2) (fun held => ?_)
    simp only [Query.prepare]
    cases a.prepare w held with
    | error e => rfl
    | ok x =>
      simp only [ok_bind]
      cases b.prepare w x.2 <;> rfl
  | with3 a b c iha ihb ihc =>
    refine ((iha.seq ihb).seq ihc).map (fun x => Plan.with3 x.1.1 x.1.2 x.2) (fun held => ?_)
    simp only [Query.prepare]
    cases a.prepare w held with
    | error e => rfl
    | ok x =>
      simp only [ok_bind]
      cases b.prepare w x.2 with
      | error e => rfl
      | ok y =>
        simp only [ok_bind]
        cases c.prepare w y.2 <;> rfl
  | with4 a b c d iha ihb ihc ihd =>
    refine (((iha.seq ihb).seq ihc).seq ihd).map (fun x => Plan.with4 x.1.1.1 x.1.1.2 x.1.2 x.2) (fun held => ?_)
    simp only [Query.prepare]
    cases a.prepare w held with
    | error e => rfl
    | ok x =>
      simp only [ok_bind]
      cases b.prepare w x.2 with
      | error e => rfl
      | ok y =>
        simp only [ok_bind]
        cases c.prepare w y.2 with
        | error e => rfl
        | ok z =>
          simp only [ok_bind]
          cases d.prepare w z.2 <;> rfl
  | with5 a b c d e iha ihb ihc ihd ihe =>
    refine ((((iha.seq ihb).seq ihc).seq ihd).seq ihe).map
      (fun x => Plan.with5 x.1.1.1.1 x.1.1.1.2 x.1.1.2 x.1.2 x.2) (fun held => ?_)
    simp only [Query.prepare]
    cases a.prepare w held with
    | error e => rfl
    | ok x =>
      simp only [ok_bind]
      cases b.prepare w x.2 with
      | error e => rfl
      | ok y =>
        simp only [ok_bind]
        cases c.prepare w y.2 with
        | error e => rfl
        | ok z =>
          simp only [ok_bind]
          cases d.prepare w z.2 with
          | error e => rfl
          | ok u =>
            simp only [ok_bind]
            cases e.prepare w u.2 <;> rfl
  | withoutL a b iha ihb =>
    refine (iha.seq ihb).map (fun x => Plan.withoutL x.1 x.2) (fun held => ?_)
    simp only [Query.prepare]
    cases a.prepare w held with
    | error e => rfl
    | ok x =>
      simp only [ok_bind]
      cases b.prepare w x.2 <;> rfl
  | withoutR a b iha ihb =>
    refine (iha.seq ihb).map (fun x => Plan.withoutR x.1 x.2) (fun held => ?_)
    simp only [Query.prepare]
    cases a.prepare w held with
    | error e => rfl
    | ok x =>
      simp only [ok_bind]
      cases b.prepare w x.2 <;> rfl
  | group k ma mb a b =>
    have h3 : Opens w (fun p => match Prog.position cfg ⟨k, a, b⟩ with
        | some pos => Prog.visitGroups (List.range (pos + 1)) <| Prog.visitGroups (List.range (pos + 1)) <|
            .acq (.group pos) .ref p
        | none => Prog.visitGroups (List.range cfg.groups.length) .panic)
        (fun held => do
          assertR (w.hasGroup k a b)
          let pos ← unwrapR (Query.findGroup w k a b)
          let g ← getR w.groups pos
          match k with
          | .full => .ok (Plan.full g.len ma mb a b, held)
          | .part => .ok (.part g.len ma mb a b, held)
          | .non => .ok (.non pos ma mb a b, held))
        (match Prog.position cfg ⟨k, a, b⟩ with
          | some pos => [(.group pos, .ref)]
          | none => [])
        ((List.range ((cfg.groups.idxOf ⟨k, a, b⟩) + 1)).map fun i => (.group i, .ref)) := by
      intro H held h p
      have hpos := findGroup_position (w := w) hm.groups k a b
      have hhas := hasGroup_position hm k a b
      dsimp only
      cases hp : Prog.position cfg ⟨k, a, b⟩ with
      | none =>
        rw [hp] at hhas
        obtain ⟨T, h1, -⟩ := flows_visit (w := w) h.2 (.panic : Prog V) (List.range cfg.groups.length)
        refine ⟨.panic (w' := w) ?_ ⟨_, _, _, _, h1, .inl ⟨rfl, rfl⟩⟩, ?_⟩
        · simp only [M.read_apply, hhas]
          rfl
        · intro r hr
          rw [hhas] at hr
          cases hr
      | some pos =>
        rw [hp] at hhas hpos
        have hlt : pos < w.groups.length := by
          unfold Query.findGroup at hpos
          exact (List.findIdx?_eq_some_iff_findIdx_eq.1 hpos).1
        obtain ⟨g, hg⟩ : ∃ g, w.groups[pos]? = some g := ⟨_, List.getElem?_eq_getElem hlt⟩
        obtain ⟨T2, h2, h2T⟩ := flows_visit (w := w) h.2 (.acq (.group pos) .ref p) (List.range (pos + 1))
        obtain ⟨T1, h1, h1T⟩ := flows_visit (w := w) h.2
          (Prog.visitGroups (List.range (pos + 1)) (.acq (.group pos) .ref p)) (List.range (pos + 1))
        have hfl := h1.trans (h2.trans (.acq (h.2 pos) .refl))
        have hT : ∀ g, g ∈ T1 ++ (T2 ++ [(Lock.group pos, Mode.ref)]) ↔
            g ∈ (List.range ((cfg.groups.idxOf ⟨k, a, b⟩) + 1)).map fun i => (Lock.group i, Mode.ref) := by
          intro g
          rw [idxOf_position hp, List.mem_append, List.mem_append, h1T, h2T, List.mem_singleton]
          constructor
          · rintro (h | h | rfl)
            · exact h
            · exact h
            · exact List.mem_map.2 ⟨pos, List.mem_range.2 (by omega), rfl⟩
          · exact .inl
        have hf : ∀ pl : Plan, (do
          assertR (w.hasGroup k a b)
          let pos ← unwrapR (Query.findGroup w k a b)
          let g ← getR w.groups pos
          match k with
          | .full => .ok (Plan.full g.len ma mb a b, held)
          | .part => .ok (.part g.len ma mb a b, held)
          | .non => .ok (.non pos ma mb a b, held) : R (Plan × Query.Held)) = .ok (match k with
            | .full => (Plan.full g.len ma mb a b, held)
            | .part => (.part g.len ma mb a b, held)
            | .non => (.non pos ma mb a b, held)) := by
          intro _
          rw [hhas, hpos, unwrapR_some, ok_bind, getR_some hg]
          cases k <;> rfl
        have hf := hf (.comp .ref 0)
        rw [hf]
        refine ⟨.ok (T' := T1 ++ (T2 ++ [(Lock.group pos, Mode.ref)])) rfl hfl hT, ?_⟩
        intro r hr
        cases hr
        have h4 := h.group pos
        cases k <;> exact h4
    have h123 := ((opens_store hm ht ma a).seq (opens_store hm ht mb b)).seq h3
    cases hr : cfg.registered a && cfg.registered b with
    | false =>
      intro H held h p
      have hpr : Query.prepare w held (.group k ma mb a b) = .error .panic := by
        simp only [Query.prepare, hasRegistered_iff hm, hr]
        rfl
      refine ⟨.panic (w' := w) (by simp only [M.read_apply, hpr]) ⟨[], _, _, _, .refl, .inl ⟨?_, rfl⟩⟩, ?_⟩
      · simp only [Prog.openQuery, hr]
        rfl
      · intro r hr
        have hr : Query.prepare w held (.group k ma mb a b) = .ok r := hr
        rw [hpr] at hr
        cases hr
    | true =>
      intro H held h p
      have h4 := (h123.map (f' := fun held => Query.prepare w held (.group k ma mb a b)) (fun x => x.2) (fun held => by
        simp only [Query.prepare, hasRegistered_iff hm, hr, assertR, if_true, ok_bind]
        cases Query.lock w held ma a with
        | error e => rfl
        | ok h1 =>
          simp only [ok_bind]
          cases Query.lock w h1 mb b with
          | error e => rfl
          | ok h2 =>
            simp only [ok_bind]
            cases w.hasGroup k a b with
            | false => rfl
            | true =>
              simp only [if_true, ok_bind]
              cases unwrapR (Query.findGroup w k a b) with
              | error e => rfl
              | ok pos =>
                simp only [ok_bind]
                cases getR w.groups pos with
                | error e => rfl
                | ok g => cases k <;> rfl)) H held h p
      simp only [Prog.openQuery, hr, if_true]
      exact h4

theorem does_query (hm : Matches cfg w) (ht : ∀ t st, w.comps t = some st → st.ty = t) (h : Tied H []) (order : List Nat)
    (q : Query) : Does (ApiCall.prog cfg (.query q)) H w (ApiCall.alone (V := V) order (.query q)) H
      (· ∈ ApiCall.needs cfg w (.query q)) (fun rs => .done rs) := by
  refine Does.congr (T := (· ∈ q.needs cfg)) (m := (M.read fun _ => q.prepare w []) >>= fun _ => (do
    let l ← M.read fun w => w.results q
    pure [Ret.items l])) ?_ ?_ (fun _ _ _ _ => Iff.rfl)
  · refine Does.bind (T2 := fun _ => False) ((opens_query hm ht q) H [] h _).1 ?_ (by simp)
    intro w' r hr _
    simp only [M.read_apply, Prod.mk.injEq] at hr
    obtain ⟨rfl, hr⟩ := hr
    refine Does.thenRelAll (gs := Prog.queryGuards cfg q) ?_
    refine Does.map (k := fun l => Prog.releaseAll (Prog.queryGuards cfg q) (.done [Ret.items l])) ?_ (fun _ => rfl)
    refine Does.work (g := Ret.items) (f := fun r => Prog.releaseAll (Prog.queryGuards cfg q) (.done [r])) rfl ?_
    show Calm (w.results q)
    unfold World.results World.queryAll World.query
    rw [hr]
    simp only [ok_bind]
    refine calm_bind ?_ fun _ _ => calm_ok _
    exact Plan.calm_collectFrom r.1 _ 0 (by omega)
  · simp only [ApiCall.alone, M.bind_apply, M.read_apply]
    cases hp : q.prepare w [] with
    | ok r => rfl
    | error e =>
      have : w.results q = .error e := by
        unfold World.results World.queryAll World.query
        rw [hp]
        rfl
      rw [this]

end Xecs
