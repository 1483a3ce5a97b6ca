import Verif.Proofs.KeepingRun
/-
The simulation of clients that keep things by clients that do not: one step, and whole histories.
-/
set_option autoImplicit false
namespace Xecs
variable {V : Type} {cfg : Config} {may : Sys V → Nat → ApiCall V → Prop} {P : Sys V → Prop} {PK : KSys V → Prop}

theorem klen_set (τ : KSys V) (i : Nat) (k : KThread V) : (τ.setThread i k).threads.length = τ.threads.length := by
  simp [KSys.setThread]

theorem len_set (σ : Sys V) (i : Nat) (b : Thread V) : (σ.setThread i b).threads.length = σ.threads.length := by
  simp [Sys.setThread]

/-- Nothing happens on this side. -/
theorem self_threads {σ : Sys V} {i : Nat} {b : Thread V} (h : σ.threads[i]? = some b) (j : Nat) :
    σ.threads[j]? = if j = i then some b else σ.threads[j]? := by
  split
  · next e => rw [e, h]
  · rfl

/-- Starting a call that has a plain counterpart. -/
theorem sim_start (hbl : Sys.Blind may) (hP : ∀ (τ : KSys V) (σ : Sys V), Near τ σ → PK τ → P σ) {τ : KSys V} {σ0 σ : Sys V}
    {h : List (Event V)} (hk : Sim cfg τ σ) (hgood : KGood cfg τ) {i : Nat} {th : KThread V} {c : KCall V}
    {c' : ApiCall V} (hi : τ.threads[i]? = some th) (hc : th.call = none) (hperm : c.Permitted cfg th.kept)
    (hmay : KSys.keeping may τ i c) (hpl : c.plain = some c')
    (hpk : PK (τ.setThread i { th with
      call := some c, prog := c.prog cfg, subject := c.subject, kept := c.leaves th.kept }))
    (hh : σ0.History cfg may P h σ) :
    ∃ σ', σ0.History cfg may P (.call i c' :: h) σ' ∧ Sim cfg (τ.setThread i { th with
      call := some c, prog := c.prog cfg, subject := c.subject, kept := c.leaves th.kept }) σ' := by
  obtain ⟨b, hb, hsim⟩ := hk.partner hi
  have hbc : b.call = none := by
    have := hsim.shadow
    rw [hc] at this
    simp only [Option.bind_none, Prod.mk.injEq] at this
    exact this.1.symm
  have hheld : th.held.Perm (th.keptGuards cfg) := by
    cases hsim with
    | idle h1 h2 h3 h4 h5 => exact h5
    | off h1 => rw [hc] at h1; cases h1
    | on h1 => rw [hc] at h1; cases h1
  have hm : may σ i c' := hbl _ _ i c' (show τ.shadow.world = σ.world from hk.world.symm) (shadow_map hk) (hmay c' hpl)
  have hl := KCall.leaves_of hpl th.kept
  -- the thread after the start
  have hth := fun j => kset_threads τ i { th with
      call := some c, prog := c.prog cfg, subject := c.subject, kept := c.leaves th.kept } j hi
  have simT : ∀ {gs : List Guard} {b' : Thread V}, b'.call = some c' → b'.subject = c'.subject →
      b'.prog = (c.prog cfg).andThen gs → b'.held = c.via cfg →
      SimT cfg { th with call := some c, prog := c.prog cfg, subject := c.subject, kept := c.leaves th.kept } b' := by
    intro gs b' h1 h2 h3 h4
    refine .on (own := []) rfl hpl h1 (h2.trans (KCall.subject_plain hpl)) h3 ?_ ?_ ?_ ?_
    · show th.held.Perm ([] ++ (c.leaves th.kept).flatMap (Keep.guards cfg))
      rw [hl]; exact hheld
    · have := KCall.tidy (cfg := cfg) c
      rw [KCall.spare_of hpl] at this
      exact this
    · rw [h4]; exact List.Perm.refl _
    · intro g hg
      show Covers ((c.leaves th.kept).flatMap (Keep.guards cfg)) g
      rw [hl]
      exact KCall.via_kept hperm g hg
  have h1 := fun j => setThread_threads σ i { call := some c', prog := c'.prog cfg, held := [], subject := c'.subject } j hb
  have hstart : σ.Step cfg may (σ.setThread i { call := some c', prog := c'.prog cfg, held := [], subject := c'.subject }) :=
    .start hb hbc hm
  have hshow : σ.Shows (σ.setThread i { call := some c', prog := c'.prog cfg, held := [], subject := c'.subject })
      (some (.call i c')) := (shows_call hb h1 hbc rfl rfl).2 rfl
  obtain ⟨gs, ⟨e1, e2⟩ | ⟨l, m, e1, e2⟩ | ⟨id, s, f, rfl, e1, e2, e3⟩⟩ := KCall.entry (cfg := cfg) hpl
  · -- directly
    have hs' := hk.set hth h1 (klen_set _ _ _) (len_set _ _ _) hk.world hk.log (simT (gs := gs) rfl rfl e2 e1.symm)
    exact ⟨_, .step hh hstart hshow (hP _ _ hs'.near hpk), hs'⟩
  · -- after taking the guard
    let σ1 := σ.setThread i { call := some c', prog := c'.prog cfg, held := [], subject := c'.subject }
    have i1 : σ1.threads[i]? = some { call := some c', prog := c'.prog cfg, held := [], subject := c'.subject } := by
      rw [h1, if_pos rfl]
    have h2 := fun j => setThread_threads σ1 i
      { call := some c', prog := (c.prog cfg).andThen gs, held := [(l, m)], subject := c'.subject } j i1
    have h2' : ∀ (j : Nat), (σ1.setThread i
        { call := some c', prog := (c.prog cfg).andThen gs, held := [(l, m)], subject := c'.subject }).threads[j]? =
        if j = i then some { call := some c', prog := (c.prog cfg).andThen gs, held := [(l, m)], subject := c'.subject }
        else σ.threads[j]? := by
      intro j
      rw [h2]
      split
      · rfl
      · next hj => rw [h1, if_neg hj]
    have hs' := hk.set hth h2' (klen_set _ _ _) ((len_set _ _ _).trans (len_set _ _ _)) hk.world hk.log
      (simT (gs := gs) rfl rfl rfl e1.symm)
    have hfree : σ1.Free l m := by
      have hf := hk.freeVia hgood.excl hi hc (KCall.via_kept hperm (l, m) (by rw [e1]; simp))
      intro b' hb' g hg
      rcases List.mem_or_eq_of_mem_set hb' with h' | h'
      · exact hf b' h' g hg
      · rw [h'] at hg; simp at hg
    have hmid : P σ1 := hP _ _ (hs'.near_mid hk.world (i := i) (fun j hj => by rw [h2', if_neg hj, h1, if_neg hj]) i1
      (.inl (by show (c'.prog cfg).work = none; rw [e2]; rfl))) hpk
    refine ⟨_, History.quiet (.step hh hstart hshow hmid) (.acq i1 e2 hfree) ?_ (hP _ _ hs'.near hpk), hs'⟩
    exact (shows_none i1 h2 rfl rfl).2 rfl
  · -- after taking the guard and finding the entity alive
    let σ1 := σ.setThread i { call := some c', prog := c'.prog cfg, held := [], subject := c'.subject }
    have i1 : σ1.threads[i]? = some { call := some c', prog := c'.prog cfg, held := [], subject := c'.subject } := by
      rw [h1, if_pos rfl]
    have h2 := fun j => setThread_threads σ1 i
      { call := some c', prog := .act (.has id) f, held := [(.em, .ref)], subject := c'.subject } j i1
    let σ2 := σ1.setThread i
      { call := some c', prog := .act (.has id) f, held := [(.em, .ref)], subject := c'.subject }
    have i2 : σ2.threads[i]? = some
        { call := some c', prog := .act (.has id) f, held := [(.em, .ref)], subject := c'.subject } := by
      rw [h2, if_pos rfl]
    have h3 := fun j => setThread_threads σ2 i
      { call := some c', prog := f (.bool true), held := [(.em, .ref)], subject := c'.subject } j i2
    have h3' : ∀ (j : Nat), (σ2.setThread i
        { call := some c', prog := f (.bool true), held := [(.em, .ref)], subject := c'.subject }).threads[j]? =
        if j = i then some { call := some c', prog := f (.bool true), held := [(.em, .ref)], subject := c'.subject }
        else σ.threads[j]? := by
      intro j
      rw [h3]
      split
      · rfl
      · next hj => rw [h2, if_neg hj, h1, if_neg hj]
    have hs' := hk.set hth h3' (klen_set _ _ _) ((len_set _ _ _).trans ((len_set _ _ _).trans (len_set _ _ _))) hk.world
      hk.log (simT (gs := gs) rfl rfl e3 e1.symm)
    have hfree : σ1.Free .em .ref := by
      have hf := hk.freeVia hgood.excl hi hc (KCall.via_kept hperm (.em, .ref) (by rw [e1]; simp))
      intro b' hb' g hg
      rcases List.mem_or_eq_of_mem_set hb' with h' | h'
      · exact hf b' h' g hg
      · rw [h'] at hg; simp at hg
    have p1 : P σ1 := hP _ _ (hs'.near_mid hk.world (i := i) (fun j hj => by rw [h3', if_neg hj, h1, if_neg hj]) i1
      (.inl (by show (c'.prog cfg).work = none; rw [e2]; rfl))) hpk
    have p2 : P σ2 := hP _ _ (hs'.near_mid hk.world (i := i)
      (fun j hj => by rw [h3', if_neg hj, h2, if_neg hj, h1, if_neg hj]) i2 (.inr ⟨id, rfl⟩)) hpk
    have halive : σ2.world.em.has id = .ok true := by
      have := hgood.alive i th hi id hperm
      rw [← hk.world] at this
      exact this
    have hact : σ2.Step cfg may (σ2.setThread i
        { call := some c', prog := f (.bool true), held := [(.em, .ref)], subject := c'.subject }) :=
      .act (a := .has id) (w := σ2.world) (r := .bool true) i2 rfl (has_run_true halive)
    refine ⟨_, History.quiet (History.quiet (.step hh hstart hshow p1) (.acq i1 e2 hfree) ?_ p2) hact ?_
      (hP _ _ hs'.near hpk), hs'⟩
    · exact (shows_none i1 h2 rfl rfl).2 rfl
    · exact (shows_none i2 h3 rfl rfl).2 rfl

/-- A call ends with a panic: on both sides, or on the one side only. -/
theorem sim_panic (hP : ∀ (τ : KSys V) (σ : Sys V), Near τ σ → PK τ → P σ) {τ τ' : KSys V} {σ0 σ : Sys V}
    {h : List (Event V)} (hk : Sim cfg τ σ) {i : Nat} {th : KThread V} {c : KCall V} {w : World V}
    (hi : τ.threads[i]? = some th) (hc : th.call = some c)
    (ht : τ' = ({ τ with world := w } : KSys V).finish i { th with
      call := none, prog := .done [], held := th.kept.flatMap (Keep.guards cfg), subject := none } c none)
    (hw : c.plain = none → w = τ.world) (hpk : PK τ')
    (hs : ∀ (b : Thread V) (c' : ApiCall V), σ.threads[i]? = some b → c.plain = some c' → b.call = some c' → SimT cfg th b →
      σ.Step cfg may (({ σ with world := w } : Sys V).finish i c' none))
    (hh : σ0.History cfg may P h σ) :
    ∃ σ', σ0.History cfg may P ((c.plain.map fun c' => Event.ret i c' none).toList ++ h) σ' ∧ Sim cfg τ' σ' := by
  obtain ⟨b, hb, hsim⟩ := hk.partner hi
  subst ht
  have hth := fun j => kfinish_threads { τ with world := w } i
      { th with call := none, prog := .done [], held := th.kept.flatMap (Keep.guards cfg), subject := none } c none j hi
  have hidle : SimT (V := V) cfg { th with
      call := none, prog := .done [], held := th.kept.flatMap (Keep.guards cfg), subject := none } .idle :=
    .idle rfl rfl rfl rfl (List.Perm.refl _)
  cases hpl : c.plain with
  | none =>
    have hbi : b = .idle := by
      cases hsim with
      | idle h1 => rw [hc] at h1; cases h1
      | off h1 h2 h3 => exact h3
      | on h1 h2 => rw [hc] at h1; cases h1; rw [hpl] at h2; cases h2
    subst hbi
    have hw' := hw hpl
    have hs' := hk.set hth (self_threads hb) (klen_set _ _ _) rfl (hk.world.trans hw'.symm)
      (by rw [hk.log]; simp [KSys.finish, hpl]) hidle
    exact ⟨σ, hh, hs'⟩
  | some c' =>
    have hbc : b.call = some c' := by
      have := hsim.shadow
      rw [hc] at this
      simp only [Option.bind_some, hpl, Prod.mk.injEq] at this
      exact this.1.symm
    have hst := hs b c' hb hpl hbc hsim
    have h1 := fun j => setThread_threads { σ with world := w } i .idle j hb
    have hs' := hk.set (σ' := ({ σ with world := w } : Sys V).finish i c' none) hth h1 (klen_set _ _ _) (len_set _ _ _) rfl
      (by simp [KSys.finish, Sys.finish, hpl, hk.log]) hidle
    exact ⟨_, .step (e := some (.ret i c' none)) hh hst rfl (hP _ _ hs'.near hpk), hs'⟩

/-- One step. -/
theorem sim_step (hbl : Sys.Blind may) (hP : ∀ (τ : KSys V) (σ : Sys V), Near τ σ → PK τ → P σ) {τ τ' : KSys V} {σ0 σ : Sys V}
    {h : List (Event V)} {e : Option (Event V)} (hk : Sim cfg τ σ) (hgood : KGood cfg τ)
    (hs : τ.Step cfg (KSys.keeping may) τ') (he : τ.Shows τ' e) (hpk : PK τ') (hh : σ0.History cfg may P h σ) :
    ∃ σ', σ0.History cfg may P (e.toList ++ h) σ' ∧ Sim cfg τ' σ' := by
  cases hs with
  | start hi hc hperm hmay =>
    rename_i i th c
    have hth := fun j => kset_threads τ i { th with
        call := some c, prog := c.prog cfg, subject := c.subject, kept := c.leaves th.kept } j hi
    cases hpl : c.plain with
    | some c' =>
      have := (kshows_call hi hth hc rfl hpl rfl).1 he
      subst this
      exact sim_start hbl hP hk hgood hi hc hperm hmay hpl hpk hh
    | none =>
      have := (kshows_none hi hth (by simp [hc, hpl]) rfl).1 he
      subst this
      obtain ⟨b, hb, hsim⟩ := hk.partner hi
      refine ⟨σ, hh, ?_⟩
      have hidle : b = .idle ∧ th.held.Perm (th.keptGuards cfg) := by
        cases hsim with
        | idle h1 h2 h3 h4 h5 => exact ⟨h2, h5⟩
        | off h1 => rw [hc] at h1; cases h1
        | on h1 => rw [hc] at h1; cases h1
      refine hk.set hth (self_threads hb) (klen_set _ _ _) rfl hk.world hk.log ?_
      refine .off (own := c.spare cfg) rfl hpl hidle.1 (KCall.mute hpl) (KCall.subject_mute hpl) ?_ (KCall.tidy c)
      refine hidle.2.trans ?_
      cases c with
      | drop k => exact perm_kept_erase hperm
      | openStore t m => exact List.Perm.refl _
      | openRes t m => exact List.Perm.refl _
      | _ => simp [KCall.plain] at hpl
  | acq hi hp hf =>
    rename_i i th l m p
    have hth := fun j => kset_threads τ i { th with prog := p, held := (l, m) :: th.held } j hi
    have := (kshows_none hi hth rfl rfl).1 he
    subst this
    obtain ⟨b, hb, hsim⟩ := hk.partner hi
    cases hsim with
    | idle h1 h2 h3 => rw [hp] at h3; cases h3
    | off h1 h2 h3 h4 h5 h6 h7 =>
      rename_i c own
      rw [hp] at h4 h7
      refine ⟨σ, hh, hk.set hth (self_threads hb) (klen_set _ _ _) rfl hk.world hk.log ?_⟩
      exact .off (own := (l, m) :: own) h1 h2 h3 h4 h5 (h6.cons _) h7
    | on h1 h2 h3 h4 h5 h6 h7 h8 h9 =>
      rename_i c c' gs own
      rw [hp] at h5 h7
      have ht := fun j => setThread_threads σ i { b with prog := p.andThen gs, held := (l, m) :: b.held } j hb
      have hs' := hk.set hth ht (klen_set _ _ _) (len_set _ _ _) hk.world hk.log
        (.on (own := (l, m) :: own) h1 h2 h3 h4 rfl (h6.cons _) h7 (h8.cons _) h9)
      exact ⟨_, History.quiet hh (.acq hb h5 (hk.free hf)) ((shows_none hb ht rfl rfl).2 rfl) (hP _ _ hs'.near hpk), hs'⟩
  | rel hi hp =>
    rename_i i th l m p
    have hth := fun j => kset_threads τ i { th with prog := p, held := th.held.erase (l, m) } j hi
    have := (kshows_none hi hth rfl rfl).1 he
    subst this
    obtain ⟨b, hb, hsim⟩ := hk.partner hi
    have erase : ∀ {own own' x : List Guard}, (l, m) ∈ own → x.Perm (own ++ own') →
        (x.erase (l, m)).Perm (own.erase (l, m) ++ own') := by
      intro own own' x hin hx
      have := hx.erase (l, m)
      rwa [List.erase_append_left _ hin] at this
    cases hsim with
    | idle h1 h2 h3 => rw [hp] at h3; cases h3
    | off h1 h2 h3 h4 h5 h6 h7 =>
      rename_i c own
      rw [hp] at h4 h7
      refine ⟨σ, hh, hk.set hth (self_threads hb) (klen_set _ _ _) rfl hk.world hk.log ?_⟩
      exact .off (own := own.erase (l, m)) h1 h2 h3 h4 h5 (erase h7.1 h6) h7.2
    | on h1 h2 h3 h4 h5 h6 h7 h8 h9 =>
      rename_i c c' gs own
      rw [hp] at h5 h7
      have ht := fun j => setThread_threads σ i { b with prog := p.andThen gs, held := b.held.erase (l, m) } j hb
      have hs' := hk.set hth ht (klen_set _ _ _) (len_set _ _ _) hk.world hk.log
        (.on (own := own.erase (l, m)) h1 h2 h3 h4 rfl (erase h7.1 h6) h7.2 (erase h7.1 h8) h9)
      exact ⟨_, History.quiet hh (.rel hb h5) ((shows_none hb ht rfl rfl).2 rfl) (hP _ _ hs'.near hpk), hs'⟩
  | act hi hp hr =>
    rename_i i th a f w r
    have hth := fun j => kset_threads { τ with world := w } i
      { th with prog := f r, subject := a.subjectAfter r th.subject } j hi
    have := (kshows_none hi hth rfl rfl).1 he
    subst this
    obtain ⟨b, hb, hsim⟩ := hk.partner hi
    cases hsim with
    | idle h1 h2 h3 => rw [hp] at h3; cases h3
    | off h1 h2 h3 h4 => rw [hp] at h4; exact False.elim h4
    | on h1 h2 h3 h4 h5 h6 h7 h8 h9 =>
      rename_i c c' gs own
      rw [hp] at h5 h7
      have ht := fun j => setThread_threads { σ with world := w } i
        { b with prog := (f r).andThen gs, subject := a.subjectAfter r b.subject } j hb
      have hs' := hk.set hth ht (klen_set _ _ _) (len_set _ _ _) rfl hk.log
        (.on (own := own) h1 h2 h3 (by rw [h4]) rfl h6 (h7 r) h8 h9)
      exact ⟨_, History.quiet hh (.act hb h5 (by rw [hk.world]; exact hr)) ((shows_none hb ht rfl rfl).2 rfl)
        (hP _ _ hs'.near hpk), hs'⟩
  | fault hi hp hr hc =>
    rename_i i th a f w e' c
    have hth := fun j => kfinish_threads { τ with world := w } i
      { th with call := none, prog := .done [], held := th.kept.flatMap (Keep.guards cfg), subject := none } c none j hi
    have := (kshows_ret (k := c) hth rfl rfl).1 he
    subst this
    refine sim_panic hP hk hi hc rfl (fun hpl => ?_) hpk (fun b c' hb hpl hbc hsim => ?_) hh
    · obtain ⟨b, hb, hsim⟩ := hk.partner hi
      cases hsim with
      | idle h1 h2 h3 => rw [hp] at h3; cases h3
      | off h1 h2 h3 h4 => rw [hp] at h4; exact False.elim h4
      | on h1 h2 => rw [hc] at h1; cases h1; rw [hpl] at h2; cases h2
    · cases hsim with
      | idle h1 h2 h3 => rw [hp] at h3; cases h3
      | off h1 h2 h3 h4 => rw [hp] at h4; exact False.elim h4
      | on h1 h2 h3 h4 h5 =>
        rw [hp] at h5
        exact .fault hb h5 (by rw [hk.world]; exact hr) hbc
  | panic hi hp hc =>
    rename_i i th c
    have hth := fun j => kfinish_threads τ i
      { th with call := none, prog := .done [], held := th.kept.flatMap (Keep.guards cfg), subject := none } c none j hi
    have := (kshows_ret (k := c) hth rfl rfl).1 he
    subst this
    refine sim_panic (w := τ.world) hP hk hi hc rfl (fun _ => rfl) hpk (fun b c' hb hpl hbc hsim => ?_) hh
    cases hsim with
    | idle h1 h2 h3 => rw [hp] at h3; cases h3
    | off h1 h2 h3 h4 => rw [hc] at h1; cases h1; rw [hpl] at h2; cases h2
    | on h1 h2 h3 h4 h5 =>
      rw [hp] at h5
      have : ({ σ with world := τ.world } : Sys V) = σ := by rw [← hk.world]
      rw [this]
      exact .panic hb h5 hbc
  | ret hi hp hc =>
    rename_i i th c rs
    have hth := fun j => kfinish_threads τ i
      { th with call := none, prog := .done [], subject := none, kept := c.keeps cfg rs ++ th.kept } c (some rs) j hi
    have := (kshows_ret (k := c) hth rfl rfl).1 he
    subst this
    obtain ⟨b, hb, hsim⟩ := hk.partner hi
    have hidle : SimT (V := V) cfg { th with call := none, prog := .done [], subject := none, kept := c.keeps cfg rs ++ th.kept } .idle :=
      .idle rfl rfl rfl rfl (hsim.returns hc hp)
    cases hsim with
    | idle h1 => rw [hc] at h1; cases h1
    | off h1 h2 h3 h4 h5 h6 h7 =>
      rw [hc] at h1; cases h1
      subst h3
      have hs' := hk.set hth (self_threads hb) (klen_set _ _ _) rfl hk.world
        (by rw [hk.log]; simp [KSys.finish, h2]) hidle
      rw [h2]
      exact ⟨σ, hh, hs'⟩
    | on h1 h2 h3 h4 h5 h6 h7 h8 h9 =>
      rename_i c1 c' gs own
      rw [hc] at h1; cases h1
      rw [hp] at h5
      have hmid : ∀ {σ1 : Sys V}, σ1.world = σ.world → (∀ (j : Nat), j ≠ i → σ1.threads[j]? = σ.threads[j]?) →
          σ1.threads.length = σ.threads.length → σ1.log = (i, c', some rs) :: σ.log → σ1.threads[i]? = some .idle →
          Sim cfg (τ.finish i { th with call := none, prog := .done [], subject := none, kept := c.keeps cfg rs ++ th.kept }
            c (some rs)) σ1 := by
        intro σ1 a1 a2 a3 a4 a5
        refine hk.set (b' := .idle) hth (fun j => ?_) (klen_set _ _ _) a3 (a1.trans hk.world)
          (by rw [a4]; simp [KSys.finish, h2, hk.log]) hidle
        split
        · next e => rw [e, a5]
        · next e => exact a2 j e
      have fin0 : Sim cfg (τ.finish i { th with call := none, prog := .done [], subject := none, kept := c.keeps cfg rs ++ th.kept }
            c (some rs)) (σ.finish i c' (some rs)) := hmid rfl (fun j hj => by
              show (σ.setThread i .idle).threads[j]? = _
              rw [setThread_threads σ i .idle j hb, if_neg hj]) (len_set _ _ _) rfl (by
              show (σ.setThread i .idle).threads[i]? = _
              rw [setThread_threads σ i .idle i hb, if_pos rfl])
      obtain ⟨σ1, b1, r1, r2, r3, r4, r5, r6, r7, r8⟩ := release_history gs hb h5 hh fun σ1 b1 a1 a2 a3 a4 => by
        refine hP _ _ (fin0.near_mid (i := i) (a1.trans hk.world) (fun j hj => ?_) a3 (.inl a4)) hpk
        rw [a2 j hj]
        show _ = (σ.setThread i .idle).threads[j]?
        rw [setThread_threads σ i .idle j hb, if_neg hj]
      have fin := hmid (σ1 := σ1.finish i c' (some rs)) r5 (fun j hj => by
              show (σ1.setThread i .idle).threads[j]? = _
              rw [setThread_threads σ1 i .idle j r2, if_neg hj, r7 j hj]) ((len_set _ _ _).trans r8)
              (by show (i, c', some rs) :: σ1.log = _; rw [r6]) (by
              show (σ1.setThread i .idle).threads[i]? = _
              rw [setThread_threads σ1 i .idle i r2, if_pos rfl])
      rw [h2]
      exact ⟨_, .step (e := some (.ret i c' (some rs))) r1 (.ret r2 r3 (r4.trans h3)) rfl (hP _ _ fin.near hpk), fin⟩

theorem Sim.init (cfg : Config) (w : World V) (n : Nat) : Sim cfg (KSys.init w n) (Sys.init w n) := by
  refine ⟨rfl, rfl, by simp [Sys.init, KSys.init], fun i k b h1 h2 => ?_⟩
  have h1 := List.mem_of_getElem? h1
  have h2 := List.mem_of_getElem? h2
  rw [KSys.init, List.mem_replicate] at h1
  rw [Sys.init, List.mem_replicate] at h2
  rw [h1.2, h2.2]
  exact .idle rfl rfl rfl rfl (List.Perm.refl _)

/-- Whole histories. -/
theorem sim_history (hbl : Sys.Blind may) (hP : ∀ (τ : KSys V) (σ : Sys V), Near τ σ → PK τ → P σ) {w : World V} {n : Nat}
    {order : List Nat} (ho : Enumerates w order) {τ : KSys V} {h : List (Event V)}
    (hh : (KSys.init w n).History (Config.of w order) (KSys.keeping may) PK h τ) :
    ∃ σ, (Sys.init w n).History (Config.of w order) may P h σ ∧ Sim (Config.of w order) τ σ ∧
      Basics (Config.of w order) σ ∧ KGood (Config.of w order) τ := by
  induction hh with
  | refl hp => exact ⟨_, .refl (hP _ _ (Sim.init (Config.of w order) w n).near hp), .init _ w n, .init ho n, .init w n⟩
  | step hprev hs he hp ih =>
    obtain ⟨σ, h1, h2, h3, h4⟩ := ih
    obtain ⟨σ', g1, g2⟩ := sim_step hbl hP h2 h4 hs he hp h1
    exact ⟨σ', g1, g2, (Basics.init ho n).sched (History.sched g1).1, h4.step h2 h3 hs⟩

/-- Every schedule has a history. -/
theorem khistory_of {mayK : KSys V → Nat → KCall V → Prop} {τ τ' : KSys V}
    (h : τ.SchedWhile cfg mayK PK τ') : ∃ l, τ.History cfg mayK PK l τ' := by
  induction h with
  | refl h => exact ⟨[], .refl h⟩
  | step hprev hs hp ih =>
    obtain ⟨l, hl⟩ := ih
    obtain ⟨e, he⟩ := kstep_shows hs
    exact ⟨_, .step hl hs he hp⟩

theorem KSys.Sched.always {mayK : KSys V → Nat → KCall V → Prop} {τ τ' : KSys V} (h : τ.Sched cfg mayK τ') :
    τ.SchedWhile cfg mayK (fun _ => True) τ' := by
  induction h with
  | refl => exact .refl trivial
  | step _ hs ih => exact .step ih hs trivial

/-- Whole schedules. -/
theorem sim_sched (hbl : Sys.Blind may) {w : World V} {n : Nat} {order : List Nat} (ho : Enumerates w order) {τ : KSys V}
    (hh : (KSys.init w n).Sched (Config.of w order) (KSys.keeping may) τ) :
    ∃ σ, (Sys.init w n).Sched (Config.of w order) may σ ∧ Sim (Config.of w order) τ σ ∧
      Basics (Config.of w order) σ ∧ KGood (Config.of w order) τ := by
  obtain ⟨l, hl⟩ := khistory_of hh.always
  obtain ⟨σ, h1, h2⟩ := sim_history (P := fun _ => True) hbl (fun _ _ _ _ => trivial) ho hl
  exact ⟨σ, (History.sched h1).1, h2⟩

end Xecs
