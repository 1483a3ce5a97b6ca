import Verif.Proofs.KeepingSim
/-
The entities of kept handles are alive.
-/
set_option autoImplicit false
namespace Xecs
variable {V : Type} {cfg : Config}

/-- Along the program: handles that are kept at the end are those of ids in `K`, the ids found to be alive since the
guard on the entity table was taken. -/
def Prog.Sure (G : List (Ret V) → List Keep) : List Nat → List Guard → Prog V → Prop
  | K, _, .done rs => ∀ id, .handle id ∈ G rs → id ∈ K
  | _, _, .panic => True
  | K, held, .acq l m p => Sure G K ((l, m) :: held) p
  | K, held, .rel l m p => Sure G (if l = .em then [] else K) (held.erase (l, m)) p
  | K, held, .act a f => ∀ r, Sure G K held (f r) ∨
      ∃ id, a = .has id ∧ r = .bool true ∧ (Lock.em, Mode.ref) ∈ held ∧ Sure G (id :: K) held (f r)

theorem Prog.sure_none {G : List (Ret V) → List Keep} (hG : ∀ rs id, Keep.handle id ∉ G rs) (p : Prog V) :
    ∀ (K : List Nat) (held : List Guard), Sure G K held p := by
  induction p with
  | done rs => intro K held id h; exact absurd h (hG rs id)
  | panic => intro K held; trivial
  | acq l m p ih => intro K held; exact ih _ _
  | rel l m p ih => intro K held; exact ih _ _
  | act a f ih => intro K held r; exact .inl (ih r _ _)

theorem KCall.sure (c : KCall V) (held : List Guard) : (c.prog cfg).Sure (c.keeps cfg) [] held := by
  cases c with
  | openHandle id =>
    intro r
    dsimp only [prog]
    split
    · exact .inr ⟨id, rfl, rfl, by simp, fun id' h => by simpa [keeps] using h⟩
    · exact .inl trivial
  | createHandle =>
    intro r
    refine .inl ?_
    cases r with
    | id id =>
      intro r
      cases r with
      | bool b =>
        cases b
        · exact .inl trivial
        · exact .inr ⟨id, rfl, rfl, by simp, fun id' h => by simpa [keeps] using h⟩
      | _ => exact .inl trivial
    | _ => trivial
  | createHandles n bs => exact Prog.sure_none (fun rs id => by simp only [keeps]; split <;> simp_all) _ _ _
  | openStore t m => exact Prog.sure_none (fun rs id => by simp only [keeps]; split <;> simp) _ _ _
  | openRes t m => exact Prog.sure_none (fun rs id => by simp only [keeps]; split <;> simp) _ _ _
  | openView q => exact Prog.sure_none (fun rs id => by simp [keeps]) _ _ _
  | _ => exact Prog.sure_none (fun rs id => by simp [keeps]) _ _ _

/-- Invariants of clients that keep things. -/
structure KGood (cfg : Config) (τ : KSys V) : Prop where
  excl : KExcl τ
  alive : ∀ (i : Nat) (k : KThread V), τ.threads[i]? = some k → ∀ id, Keep.handle id ∈ k.kept →
    τ.world.em.has id = .ok true
  sure : ∀ (i : Nat) (k : KThread V) (c : KCall V), τ.threads[i]? = some k → k.call = some c →
    ∃ K, k.prog.Sure (c.keeps cfg) K k.held ∧ (K ≠ [] → (Lock.em, Mode.ref) ∈ k.held) ∧
      ∀ id ∈ K, τ.world.em.has id = .ok true

theorem KGood.init (w : World V) (n : Nat) : KGood cfg (KSys.init w n) := by
  have : ∀ (i : Nat) (th : KThread V), (KSys.init w n).threads[i]? = some th → th = .idle := by
    intro i th h
    have := List.mem_of_getElem? h
    rw [KSys.init, List.mem_replicate] at this
    exact this.2
  refine ⟨.init w n, fun i k h id hid => ?_, fun i k c h hc => ?_⟩
  · rw [this i k h] at hid; simp [KThread.idle] at hid
  · rw [this i k h] at hc; simp [KThread.idle] at hc

theorem mem_leaves {c : KCall V} {kept : List Keep} {x : Keep} (h : x ∈ c.leaves kept) : x ∈ kept := by
  cases c <;> first | exact h | exact List.mem_of_mem_erase h

/-- What the kept guards are after a normal return. -/
theorem SimT.returns {k : KThread V} {b : Thread V} (h : SimT cfg k b) {c : KCall V} (hc : k.call = some c)
    {rs : List (Ret V)} (hp : k.prog = .done rs) :
    k.held.Perm ((c.keeps cfg rs ++ k.kept).flatMap (Keep.guards cfg)) := by
  have key : ∀ {own : List Guard}, k.held.Perm (own ++ k.keptGuards cfg) → k.prog.Tidy (c.gains cfg) own →
      k.held.Perm ((c.keeps cfg rs ++ k.kept).flatMap (Keep.guards cfg)) := by
    intro own h1 h2
    rw [hp] at h2
    rw [List.flatMap_append]
    exact h1.trans (List.Perm.append_right _ h2)
  cases h with
  | idle h1 => rw [hc] at h1; cases h1
  | off h1 h2 h3 h4 h5 h6 h7 => rw [hc] at h1; cases h1; exact key h6 h7
  | on h1 h2 h3 h4 h5 h6 h7 => rw [hc] at h1; cases h1; exact key h6 h7

theorem pairwise_kept {k : KThread V} {b : Thread V} (h : SimT cfg k b)
    (hp : k.held.Pairwise fun g h => ¬ Guard.clash g h) : (k.keptGuards cfg).Pairwise fun g h => ¬ Guard.clash g h := by
  have sym : ∀ {x y : Guard}, ¬ x.clash y → ¬ y.clash x := fun h hc => h (clash_symm hc)
  have key : ∀ {own : List Guard}, k.held.Perm (own ++ k.keptGuards cfg) →
      (k.keptGuards cfg).Pairwise fun g h => ¬ Guard.clash g h := by
    intro own h1
    have := hp.perm h1 sym
    exact (List.pairwise_append.1 this).2.1
  cases h with
  | idle h1 h2 h3 h4 h5 => exact hp.perm h5 sym
  | off h1 h2 h3 h4 h5 h6 h7 => exact key h6
  | on h1 h2 h3 h4 h5 h6 h7 => exact key h6

theorem KGood.step {τ τ' : KSys V} {σ : Sys V} {may : KSys V → Nat → KCall V → Prop} (hg : KGood cfg τ) (h : Sim cfg τ σ)
    (hb : Basics cfg σ) (hs : τ.Step cfg may τ') : KGood cfg τ' := by
  have em : ∀ {j : Nat} {kj : KThread V}, τ.threads[j]? = some kj → (Lock.em, Mode.ref) ∈ kj.held →
      τ'.world.em = τ.world.em := fun hj hm => (h.stable hb hg.excl hs hj hm (.inl rfl)).symm
  have handle : ∀ {j : Nat} {kj : KThread V}, τ.threads[j]? = some kj → ∀ {id : Nat}, Keep.handle id ∈ kj.kept →
      (Lock.em, Mode.ref) ∈ kj.held := by
    intro j kj hj id hid
    obtain ⟨b, _, hsim⟩ := h.partner hj
    exact hsim.kept (List.mem_flatMap.2 ⟨_, hid, by simp [Keep.guards]⟩)
  have alive : ∀ {j : Nat} {kj : KThread V}, τ.threads[j]? = some kj → ∀ {id : Nat}, Keep.handle id ∈ kj.kept →
      τ'.world.em.has id = .ok true := by
    intro j kj hj id hid
    rw [em hj (handle hj hid)]
    exact hg.alive j kj hj id hid
  have key : ∀ {i : Nat} {th' : KThread V}, KExcl τ' →
      (∀ (j : Nat), τ'.threads[j]? = if j = i then some th' else τ.threads[j]?) →
      (∀ id, Keep.handle id ∈ th'.kept → τ'.world.em.has id = .ok true) →
      (∀ c, th'.call = some c → ∃ K, th'.prog.Sure (c.keeps cfg) K th'.held ∧ (K ≠ [] → (Lock.em, Mode.ref) ∈ th'.held) ∧
        ∀ id ∈ K, τ'.world.em.has id = .ok true) → KGood cfg τ' := by
    intro i th' hx hth h1 h2
    refine ⟨hx, fun j k hj id hid => ?_, fun j k c hj hc => ?_⟩
    · rw [hth] at hj
      split at hj
      · simp at hj; subst hj; exact h1 id hid
      · exact alive hj hid
    · rw [hth] at hj
      split at hj
      · simp at hj; subst hj; exact h2 c hc
      · obtain ⟨K, s1, s2, s3⟩ := hg.sure j k c hj hc
        refine ⟨K, s1, s2, fun id hid => ?_⟩
        have hne : K ≠ [] := by intro h'; rw [h'] at hid; simp at hid
        rw [em hj (s2 hne)]
        exact s3 id hid
  have hs0 := hs
  cases hs with
  | start hi hc hperm hmay =>
    rename_i i th c
    have hth := fun j => kset_threads τ i { th with
        call := some c, prog := c.prog cfg, subject := c.subject, kept := c.leaves th.kept } j hi
    refine key (hg.excl.shrink hi hth (hg.excl.own i th hi) fun _ h => h) hth (fun id hid => ?_) fun c' hc' => ?_
    · exact alive hi (mem_leaves hid)
    · simp only [Option.some.injEq] at hc'; subst hc'
      exact ⟨[], c.sure _, fun h => absurd rfl h, fun _ h => by simp at h⟩
  | acq hi hp hf =>
    rename_i i th l m p
    have hth := fun j => kset_threads τ i { th with prog := p, held := (l, m) :: th.held } j hi
    refine key (hg.excl.grow hi hth hf rfl) hth (fun id hid => alive hi hid) fun c hc => ?_
    obtain ⟨K, s1, s2, s3⟩ := hg.sure i th c hi hc
    rw [hp] at s1
    exact ⟨K, s1, fun hk => List.mem_cons_of_mem _ (s2 hk), s3⟩
  | rel hi hp =>
    rename_i i th l m p
    have hth := fun j => kset_threads τ i { th with prog := p, held := th.held.erase (l, m) } j hi
    refine key (hg.excl.shrink hi hth ((hg.excl.own i th hi).sublist List.erase_sublist) (List.erase_subset)) hth
      (fun id hid => alive hi hid) fun c hc => ?_
    obtain ⟨K, s1, s2, s3⟩ := hg.sure i th c hi hc
    rw [hp] at s1
    refine ⟨_, s1, fun hk => ?_, fun id hid => ?_⟩
    · split at hk
      · exact absurd rfl hk
      · next hl =>
        exact (List.mem_erase_of_ne (by intro e; exact hl (congrArg Prod.fst e).symm)).2 (s2 hk)
    · split at hid
      · simp at hid
      · exact s3 id hid
  | act hi hp hr =>
    rename_i i th a f w r
    have hth := fun j => kset_threads { τ with world := w } i
      { th with prog := f r, subject := a.subjectAfter r th.subject } j hi
    refine key (hg.excl.shrink hi hth (hg.excl.own i th hi) fun _ h => h) hth (fun id hid => alive hi hid) fun c hc => ?_
    obtain ⟨K, s1, s2, s3⟩ := hg.sure i th c hi hc
    rw [hp] at s1
    rcases s1 r with k | ⟨id, rfl, rfl, hin, k⟩
    · refine ⟨K, k, s2, fun id hid => ?_⟩
      have hne : K ≠ [] := by intro h'; rw [h'] at hid; simp at hid
      rw [em hi (s2 hne)]; exact s3 id hid
    · refine ⟨id :: K, k, fun _ => hin, fun id' hid => ?_⟩
      rw [em hi hin]
      rcases List.mem_cons.1 hid with rfl | hid
      · rcases bindM_cases hr with ⟨w1, b, e1, e2⟩ | ⟨e, e1, e2⟩
        · simp only [World.exist, M.read, Prod.mk.injEq] at e1
          simp only [M.pure_apply, Prod.mk.injEq, Except.ok.injEq, Ret.bool.injEq] at e2
          rw [e1.2, e2.2]
        · simp at e2
      · exact s3 id' hid
  | fault hi hp hr hc =>
    rename_i i th a f w e c
    have hth := fun j => kfinish_threads { τ with world := w } i
      { th with call := none, prog := .done [], held := th.kept.flatMap (Keep.guards cfg), subject := none } c none j hi
    obtain ⟨b, _, hsim⟩ := h.partner hi
    exact key (hg.excl.shrink hi hth (pairwise_kept hsim (hg.excl.own i th hi)) hsim.kept) hth
      (fun id hid => alive hi hid) fun c hc => by cases hc
  | panic hi hp hc =>
    rename_i i th c
    have hth := fun j => kfinish_threads τ i
      { th with call := none, prog := .done [], held := th.kept.flatMap (Keep.guards cfg), subject := none } c none j hi
    obtain ⟨b, _, hsim⟩ := h.partner hi
    exact key (hg.excl.shrink hi hth (pairwise_kept hsim (hg.excl.own i th hi)) hsim.kept) hth
      (fun id hid => alive hi hid) fun c hc => by cases hc
  | ret hi hp hc =>
    rename_i i th c rs
    have hth := fun j => kfinish_threads τ i
      { th with call := none, prog := .done [], subject := none, kept := c.keeps cfg rs ++ th.kept } c (some rs) j hi
    refine key (hg.excl.shrink hi hth (hg.excl.own i th hi) fun _ h => h) hth (fun id hid => ?_) fun c hc => by cases hc
    rcases List.mem_append.1 hid with hid | hid
    · obtain ⟨K, s1, s2, s3⟩ := hg.sure i th c hi hc
      rw [hp] at s1
      exact s3 id (s1 id hid)
    · exact alive hi hid

end Xecs
