import Verif.Proofs.KeepingOrder
import Verif.Proofs.KeepingPlay
/-
Clients that keep things and take locks in order never wait in a circle.
-/
set_option autoImplicit false
namespace Xecs
variable {V : Type}

theorem before_strict (rank : Lock → Nat × Nat) : Strict (Lock.Before rank) where
  irrefl a := by simp [Lock.Before]
  trans a b c h1 h2 := by simp only [Lock.Before] at *; omega

namespace Prog
variable {lt : Lock → Lock → Prop} {cfg : Config}

theorem ord_openGroup (hs : ∀ t k, lt (.store t) (.group k)) {k : Kind} {ma mb : Mode} {a b : Nat}
    (hab : lt (.store a) (.store b)) {p : Prog V} (hp : ∀ H, Ord lt H p) :
    Ord lt (fun _ => False) (openQuery cfg (.group k ma mb a b) p) := by
  simp only [openQuery]
  split
  · refine ord_store (fun _ h => False.elim h) (ord_store ?_ ?_)
    · rintro g (rfl | h)
      · exact hab
      · exact False.elim h
    · have hH : ∀ g, (g = (Lock.store b, mb) ∨ g = (Lock.store a, ma) ∨ False) → ∀ k, lt g.1 (.group k) := by
        rintro g (rfl | rfl | h) j
        · exact hs _ _
        · exact hs _ _
        · exact False.elim h
      split
      · rename_i pos _
        exact ord_visitGroups hH (ord_visitGroups hH (p := .acq (.group pos) .ref _)
          ⟨fun g hg => hH g hg _, hp _⟩ _) _
      · exact ord_visitGroups hH (p := .panic) trivial _
  · trivial

theorem ord_openQuery {q : Query} (h1 : q.Groupless)
    (h2 : q.accesses.Pairwise fun x y => lt (.store x.1) (.store y.1)) {p : Prog V} (hp : ∀ H, Ord lt H p) :
    Ord lt (fun _ => False) (openQuery cfg q p) := by
  rw [openQuery_groupless q _ h1]
  exact ord_stores hp _ _ h2 fun g h => False.elim h

theorem ord_kcall (hS : ∀ t, lt .em (.store t)) {c : KCall V}
    (hcall : ∀ c', c = .call c' → Ord lt (fun _ => False) (c'.prog cfg))
    (hvia : ∀ id s, c = .viaHandle id s → Changes cfg lt (fun _ => False) s ∨ Sys.plain s = true)
    (hview : ∀ q, c = .openView q → Ord (V := V) lt (fun _ => False) (openQuery cfg q (.act (.collect q) fun r => .done [r]))) :
    Ord lt (fun _ => False) (c.prog cfg) := by
  cases c with
  | call c => exact hcall c rfl
  | openHandle id =>
    refine ⟨fun _ h => False.elim h, fun r => ?_⟩
    dsimp only; split <;> trivial
  | createHandle =>
    refine ⟨fun _ h => False.elim h, fun r => ?_⟩
    cases r with
    | id id =>
      refine ⟨?_, fun r => ?_⟩
      · rintro g ⟨h1, rfl | h2⟩
        · exact absurd rfl h1
        · exact False.elim h2
      · dsimp only; split <;> trivial
    | _ => trivial
  | createHandles n bs =>
    refine ⟨fun _ h => False.elim h, fun r => ?_⟩
    cases r with
    | range a b =>
      refine Ord.mono (H := fun _ => False) (p := .acq .em .ref _) ⟨fun _ h => False.elim h, ?_⟩ ?_
      · refine Ord.mono (H := fun g => g = (.em, .ref)) ?_ fun g hg => hg.resolve_right fun h => h
        exact ord_batches (fun g hg t => by rw [hg]; exact hS t) a b (p := .done [.range a b]) trivial bs
      · rintro g ⟨h1, rfl | h2⟩
        · exact absurd rfl h1
        · exact h2
    | _ => trivial
  | openStore t m =>
    simp only [KCall.prog]; split
    · exact ⟨fun _ h => False.elim h, trivial⟩
    · trivial
  | openRes t m =>
    simp only [KCall.prog]; split
    · exact ⟨fun _ h => False.elim h, trivial⟩
    · trivial
  | openView q => exact hview q rfl
  | viaHandle id s => exact ord_script (fun _ h => False.elim h) id s [] (hvia id s rfl) fun rs => trivial
  | viaHandles a b bs => exact ord_batches (fun _ h => False.elim h) a b (p := .done [.range a b]) trivial bs
  | storeGet t id => simp only [KCall.prog]; split <;> first | trivial | exact fun _ => trivial
  | storeSet t id v => simp only [KCall.prog]; split <;> first | trivial | exact fun _ => trivial
  | storeLen t => simp only [KCall.prog]; split <;> first | trivial | exact fun _ => trivial
  | resGet t => simp only [KCall.prog]; split <;> first | trivial | exact fun _ => trivial
  | resSet t v => simp only [KCall.prog]; split <;> first | trivial | exact fun _ => trivial
  | drop k => exact ord_releaseAll (p := .done []) trivial _

theorem groupsFirst_rank {ρ : Nat → Nat} (hg : ∀ g ∈ cfg.groups, ρ g.a < ρ g.b) {B : Guard → Prop}
    (hB : ∀ g, B g → g.1 = .em) : GroupsFirst (fun g => g ∈ cfg.groups) (Lock.Before (Lock.groupsFirst ρ)) B where
  baseG g h k := by rw [hB g h]; exact .inl Nat.zero_lt_one
  baseS g h t := by rw [hB g h]; exact .inl (Nat.zero_lt_succ 1)
  groups j k h := .inr ⟨rfl, h⟩
  stores _ _ _ := ⟨.inl (Nat.lt_succ_self 1), .inl (Nat.lt_succ_self 1)⟩
  pair g h := .inr ⟨rfl, hg g h⟩

theorem ord_kupdating {ρ : Nat → Nat} (hg : ∀ g ∈ cfg.groups, ρ g.a < ρ g.b) {c : KCall V} {σ : Sys V} {i : Nat}
    (h : ∀ c', c.plain = some c' → Sys.updating cfg ρ σ i c') :
    Ord (Lock.Before (Lock.groupsFirst ρ)) (fun _ => False) (c.prog cfg) := by
  have hS : ∀ t, Lock.Before (Lock.groupsFirst ρ) .em (.store t) := fun t => .inl (Nat.zero_lt_succ 1)
  have hpair : ∀ {l : List (Nat × Mode)}, (l.Pairwise fun x y => ρ x.1 < ρ y.1) →
      l.Pairwise fun x y => Lock.Before (Lock.groupsFirst ρ) (.store x.1) (.store y.1) :=
    fun h => h.imp fun h => .inr ⟨rfl, h⟩
  refine ord_kcall hS ?_ (fun _ _ _ => .inl ((groupsFirst_rank hg fun _ h => False.elim h).changes _)) ?_
  · rintro c' rfl
    have hc := h c' rfl
    refine ord_call hS (fun _ _ _ => .inl ((groupsFirst_rank hg fun g h => by rw [h]).changes _))
      (fun _ _ => .inl ((groupsFirst_rank hg fun g h => by rw [h]).changes _)) ?_ ?_
    · rintro id rfl
      exact ord_remove (groupsFirst_rank hg fun _ h => False.elim h) (List.Pairwise.imp (fun h => .inr ⟨rfl, h⟩) hc) id
    · rintro q rfl; exact ord_query hc.1 (hpair hc.2)
  · rintro q rfl
    have hc := h (.query q) rfl
    exact ord_openQuery hc.1 (hpair hc.2) fun H r => trivial

theorem ord_kscanning {ρ : Nat → Nat} {c : KCall V} {σ : Sys V} {i : Nat}
    (h : ∀ c', c.plain = some c' → Sys.scanning ρ σ i c') :
    Ord (Lock.Before (Lock.storesFirst ρ)) (fun _ => False) (c.prog cfg) := by
  have hS : ∀ t, Lock.Before (Lock.storesFirst ρ) .em (.store t) := fun t => .inl Nat.zero_lt_one
  have hG : ∀ t k, Lock.Before (Lock.storesFirst ρ) (.store t) (.group k) := fun t k => .inl (Nat.lt_add_of_pos_right (k := 2) Nat.two_pos)
  have hpair : ∀ {l : List (Nat × Mode)}, (l.Pairwise fun x y => ρ x.1 < ρ y.1) →
      l.Pairwise fun x y => Lock.Before (Lock.storesFirst ρ) (.store x.1) (.store y.1) :=
    fun h => h.imp fun h => .inr ⟨rfl, h⟩
  refine ord_kcall hS ?_ ?_ ?_
  · rintro c' rfl
    have hc := h c' rfl
    refine ord_call hS ?_ ?_ ?_ ?_
    · rintro id s rfl; exact .inr hc
    · rintro s rfl; exact .inr hc
    · rintro id rfl; exact False.elim hc
    · rintro q rfl
      cases q with
      | group k ma mb a b => exact ord_groupQuery hG (show Lock.Before _ (.store a) (.store b) from .inr ⟨rfl, (hc : ρ a < ρ b)⟩)
      | _ => exact ord_query hc.1 (hpair hc.2)
  · rintro id s rfl; exact .inr (h (.on id s) rfl)
  · rintro q rfl
    have hc := h (.query q) rfl
    cases q with
    | group k ma mb a b => exact ord_openGroup hG (show Lock.Before _ (.store a) (.store b) from .inr ⟨rfl, (hc : ρ a < ρ b)⟩) fun H r => trivial
    | _ => exact ord_openQuery hc.1 (hpair hc.2) fun H r => trivial

theorem shyly_of_scanning {ρ : Nat → Nat} {c : ApiCall V} {σ : Sys V} {i : Nat} (h : Sys.scanning ρ σ i c) :
    c.shyly = true := by
  cases c with
  | remove id => exact False.elim h
  | on id s => exact h
  | create s => exact h
  | _ => rfl

end Prog

/-! ### The invariant -/

/-- A thread that keeps things and respects the order. -/
structure KThOrd (cfg : Config) (shy : Lock → Prop) (lt : Lock → Lock → Prop) (th : KThread V) : Prop where
  ord : ∃ H, (∀ g ∈ th.held, H g) ∧ th.prog.OrdS shy lt H
  once : ∀ l m, ¬ shy l → th.held.count (l, m) ≤ 1
  only : ∀ g ∈ th.held, shy g.1 → g.2 = .ref
  idle : th.call = none → ∃ rs, th.prog = .done rs
  kept : ∃ own, th.held.Perm (own ++ th.keptGuards cfg)
  rest : th.call = none → th.held.Perm (th.keptGuards cfg)

/-- All threads. -/
def KAllOrd (cfg : Config) (shy : Lock → Prop) (lt : Lock → Lock → Prop) (τ : KSys V) : Prop :=
  ∀ (i : Nat) th, τ.threads[i]? = some th → KThOrd cfg shy lt th

variable {cfg : Config} {shy : Lock → Prop} {lt : Lock → Lock → Prop}

theorem SimT.owns {k : KThread V} {b : Thread V} (h : SimT cfg k b) :
    (∃ own, k.held.Perm (own ++ k.keptGuards cfg)) ∧ (k.call = none → k.held.Perm (k.keptGuards cfg)) := by
  cases h with
  | idle h1 h2 h3 h4 h5 => exact ⟨⟨[], h5⟩, fun _ => h5⟩
  | off h1 h2 h3 h4 h5 h6 => exact ⟨⟨_, h6⟩, fun e => by rw [h1] at e; cases e⟩
  | on h1 h2 h3 h4 h5 h6 => exact ⟨⟨_, h6⟩, fun e => by rw [h1] at e; cases e⟩

/-- The part of the invariant that has to be carried through the steps. -/
structure KThOrd' (shy : Lock → Prop) (lt : Lock → Lock → Prop) (th : KThread V) : Prop where
  ord : ∃ H, (∀ g ∈ th.held, H g) ∧ th.prog.OrdS shy lt H
  once : ∀ l m, ¬ shy l → th.held.count (l, m) ≤ 1
  only : ∀ g ∈ th.held, shy g.1 → g.2 = .ref
  idle : th.call = none → ∃ rs, th.prog = .done rs

theorem kset {τ : KSys V} {i : Nat} {th k' : KThread V} (hi : τ.threads[i]? = some th)
    {P : KThread V → Prop} (h : ∀ (j : Nat) k, τ.threads[j]? = some k → P k) (hk : P k') :
    ∀ (j : Nat) k, (τ.setThread i k').threads[j]? = some k → P k := by
  intro j k hj
  simp only [KSys.setThread, List.getElem?_set] at hj
  split at hj
  · split at hj
    · cases hj; exact hk
    · cases hj
  · exact h j k hj

theorem kord_step (hlt : Strict lt) {may : KSys V → Nat → KCall V → Prop} {τ τ' : KSys V}
    (hm : ∀ i c th, may τ i c → τ.threads[i]? = some th → (c.prog cfg).OrdS shy lt (fun g => g ∈ th.keptGuards cfg))
    (hown : ∀ (i : Nat) th, τ.threads[i]? = some th →
      (∃ own, th.held.Perm (own ++ th.keptGuards cfg)) ∧ (th.call = none → th.held.Perm (th.keptGuards cfg)))
    (h : ∀ (i : Nat) th, τ.threads[i]? = some th → KThOrd' shy lt th) (hs : τ.Step cfg may τ') :
    ∀ (i : Nat) th, τ'.threads[i]? = some th → KThOrd' shy lt th := by
  have stop : ∀ {i : Nat} {th : KThread V} {rs : List (Ret V)}, τ.threads[i]? = some th →
      KThOrd' shy lt { th with call := none, prog := .done rs, held := th.kept.flatMap (Keep.guards cfg), subject := none } := by
    intro i th rs hi
    obtain ⟨⟨own, ho⟩, _⟩ := hown i th hi
    have ht := h i th hi
    refine ⟨⟨fun _ => True, fun _ _ => trivial, trivial⟩, fun l m hl => ?_, fun g hg => ?_, fun _ => ⟨rs, rfl⟩⟩
    · have := ht.once l m hl
      rw [ho.count_eq, List.count_append] at this
      exact Nat.le_trans (Nat.le_add_left _ _) this
    · exact ht.only g (ho.symm.subset (List.mem_append_right _ hg))
  cases hs with
  | start h1 h2 h3 h4 =>
    rename_i i th c
    refine kset h1 h ⟨⟨_, ?_, hm _ _ _ h4 h1⟩, (h i th h1).once, (h i th h1).only, fun e => by cases e⟩
    exact fun g hg => ((hown i th h1).2 h2).subset hg
  | acq h1 h2 h3 =>
    rename_i i th l m p
    obtain ⟨⟨H, a1, a2⟩, b1, b2, c⟩ := h i th h1
    rw [h2] at a2
    refine kset h1 h ⟨⟨_, ?_, a2.2.2⟩, ?_, ?_, ?_⟩
    · intro g hg
      rcases List.mem_cons.1 hg with rfl | hg
      · exact .inl rfl
      · exact .inr (a1 g hg)
    · intro l' m' hl
      rw [List.count_cons]
      split
      · rename_i e
        have e := eq_of_beq e
        cases e
        have : th.held.count (l, m) = 0 := List.count_eq_zero.2 fun hin => hlt.irrefl _ (a2.2.1 hl _ (a1 _ hin) hl)
        omega
      · have := b1 l' m' hl; omega
    · intro g hg hs
      rcases List.mem_cons.1 hg with rfl | hg
      · exact a2.1 hs
      · exact b2 g hg hs
    · intro e
      obtain ⟨rs, hp⟩ := c e
      rw [h2] at hp; cases hp
  | rel h1 h2 =>
    rename_i i th l m p
    obtain ⟨⟨H, a1, a2⟩, b1, b2, c⟩ := h i th h1
    rw [h2] at a2
    -- what is held besides shy locks
    refine kset h1 h ⟨⟨fun g => (shy g.1) ∨ (g ≠ (l, m) ∧ H g), ?_, ?_⟩, ?_, ?_, ?_⟩
    · intro g hg
      by_cases hs : shy g.1
      · exact .inl hs
      · refine .inr ⟨?_, a1 g (List.mem_of_mem_erase hg)⟩
        rintro rfl
        have h3 := List.count_pos_iff.2 hg
        rw [List.count_erase_self] at h3
        have := b1 l m hs
        omega
    · have : ∀ (p : Prog V) (H : Guard → Prop), p.OrdS shy lt H → p.OrdS shy lt fun g => shy g.1 ∨ H g := by
        intro p
        induction p with
        | done _ => intros; trivial
        | panic => intros; trivial
        | acq l m p ih =>
          intro H h
          refine ⟨h.1, fun hl g hg hs => h.2.1 hl g (hg.resolve_left hs) hs, (ih _ h.2.2).mono ?_⟩
          rintro g (h | h | h)
          · exact .inr (.inl h)
          · exact .inl h
          · exact .inr (.inr h)
        | rel l m p ih =>
          intro H h
          refine (ih _ h).mono ?_
          rintro g ⟨h1, h | h⟩
          · exact .inl h
          · exact .inr ⟨h1, h⟩
        | act a f ih => intro H h r; exact ih r H (h r)
      exact this p _ a2
    · intro l' m' hl
      have := b1 l' m' hl
      exact Nat.le_trans (List.erase_sublist.count_le _) this
    · exact fun g hg => b2 g (List.mem_of_mem_erase hg)
    · intro e
      obtain ⟨rs, hp⟩ := c e
      rw [h2] at hp; cases hp
  | act h1 h2 h3 =>
    rename_i i th a f w r
    obtain ⟨⟨H, a1, a2⟩, b1, b2, c⟩ := h i th h1
    rw [h2] at a2
    refine kset (τ := { τ with world := w }) h1 h ⟨⟨H, a1, a2 r⟩, b1, b2, ?_⟩
    intro e
    obtain ⟨rs, hp⟩ := c e
    rw [h2] at hp; cases hp
  | fault h1 h2 h3 h4 => exact kset (τ := { τ with world := _ }) h1 h (stop h1)
  | panic h1 h2 h3 => exact kset h1 h (stop h1)
  | ret h1 h2 h3 =>
    rename_i i th c rs
    obtain ⟨_, b1, b2, _⟩ := h i th h1
    exact kset h1 h ⟨⟨fun _ => True, fun _ _ => trivial, trivial⟩, b1, b2, fun _ => ⟨[], rfl⟩⟩

theorem kord_sched {w : World V} {n : Nat} {order : List Nat} (ho : Enumerates w order) (hlt : Strict lt)
    {may : KSys V → Nat → KCall V → Prop} {τ : KSys V}
    (hm : ∀ (τ : KSys V) i c th, may τ i c → τ.threads[i]? = some th →
      (c.prog (Config.of w order)).OrdS shy lt (fun g => g ∈ th.keptGuards (Config.of w order)))
    (hs : (KSys.init w n).Sched (Config.of w order) may τ) : KAllOrd (Config.of w order) shy lt τ := by
  have own : ∀ {τ : KSys V}, (KSys.init w n).Sched (Config.of w order) may τ → ∀ (i : Nat) th, τ.threads[i]? = some th →
      (∃ own, th.held.Perm (own ++ th.keptGuards (Config.of w order))) ∧
        (th.call = none → th.held.Perm (th.keptGuards (Config.of w order))) := by
    intro τ hs i th hi
    obtain ⟨σ, _, h2, _⟩ := kreach ho hs
    obtain ⟨b, _, hb⟩ := h2.partner hi
    exact hb.owns
  have key : ∀ (i : Nat) th, τ.threads[i]? = some th → KThOrd' shy lt th := by
    induction hs with
    | refl =>
      intro i th hi
      have := List.mem_of_getElem? hi
      rw [KSys.init, List.mem_replicate] at this
      rw [this.2]
      exact ⟨⟨fun _ => True, fun _ _ => trivial, trivial⟩, by simp [KThread.idle], by simp [KThread.idle], fun _ => ⟨[], rfl⟩⟩
    | step hprev hst ih => exact kord_step hlt (hm _) (own hprev) ih hst
  intro i th hi
  have h1 := key i th hi
  have h2 := own hs i th hi
  exact ⟨h1.ord, h1.once, h1.only, h1.idle, h2.1, h2.2⟩

/-! ### No circle -/

theorem KAllOrd.no_circle (hlt : Strict lt) {τ : KSys V} (h : KAllOrd cfg shy lt τ) (S : Nat → Prop) : ¬ τ.Circle S := by
  rintro ⟨⟨i0, hi0⟩, hS⟩
  -- the lock a thread waits for
  let want : KThread V → Option Lock := fun th => match th.prog with | .acq l _ _ => some l | _ => none
  -- those of the circle
  have hex : ∃ L : List Lock, ∀ l, l ∈ L ↔ ∃ i th, S i ∧ τ.threads[i]? = some th ∧ want th = some l := by
    have : ∀ (ts : List (KThread V)) (k : Nat), ∃ L : List Lock,
        ∀ l, l ∈ L ↔ ∃ (i : Nat) (th : KThread V), S (k + i) ∧ ts[i]? = some th ∧ want th = some l := by
      intro ts
      induction ts with
      | nil => exact fun k => ⟨[], fun l => by simp⟩
      | cons th ts ih =>
        intro k
        obtain ⟨L, hL⟩ := ih (k + 1)
        have shift : ∀ l, l ∈ L ↔ ∃ (i : Nat) (th' : KThread V), S (k + (i + 1)) ∧ ts[i]? = some th' ∧ want th' = some l := by
          intro l
          rw [hL l]
          constructor
          · rintro ⟨i, t, a, b⟩; exact ⟨i, t, by rwa [show k + (i + 1) = k + 1 + i by omega], b⟩
          · rintro ⟨i, t, a, b⟩; exact ⟨i, t, by rwa [show k + 1 + i = k + (i + 1) by omega], b⟩
        by_cases hk : S k
        · refine ⟨(want th).toList ++ L, fun l => ?_⟩
          rw [List.mem_append, shift]
          constructor
          · rintro (h | ⟨i, t, a, b, c⟩)
            · exact ⟨0, th, hk, rfl, by simpa using h⟩
            · exact ⟨i + 1, t, a, by simpa using b, c⟩
          · rintro ⟨i, t, a, b, c⟩
            cases i with
            | zero => simp at b; subst b; exact .inl (by simp [c])
            | succ i => exact .inr ⟨i, t, a, by simpa using b, c⟩
        · refine ⟨L, fun l => ?_⟩
          rw [shift]
          constructor
          · rintro ⟨i, t, a, b, c⟩; exact ⟨i + 1, t, a, by simpa using b, c⟩
          · rintro ⟨i, t, a, b, c⟩
            cases i with
            | zero => exact absurd a hk
            | succ i => exact ⟨i, t, a, by simpa using b, c⟩
    obtain ⟨L, hL⟩ := this τ.threads 0
    exact ⟨L, fun l => by rw [hL l]; simp⟩
  obtain ⟨L, hL⟩ := hex
  have hne : L ≠ [] := by
    obtain ⟨j, _, thi, thj, l, m, p, h1, _, _, h2, _⟩ := hS i0 hi0
    exact List.ne_nil_of_mem ((hL l).2 ⟨i0, thi, hi0, h1, by simp only [want, h2]⟩)
  obtain ⟨l, hl, hmax⟩ := hlt.maximal L hne
  -- nobody in the circle waits for a thread holding this lock
  have none_holds : ∀ j thj m, S j → τ.threads[j]? = some thj → (l, m) ∈ thj.held → shy l := by
    intro j thj m hj htj hm
    refine Classical.byContradiction fun hsh => ?_
    obtain ⟨k, _, thj', _, l', m', p', h1, _, _, h2, _⟩ := hS j hj
    rw [htj] at h1; cases h1
    obtain ⟨⟨H, a1, a2⟩, _⟩ := h j thj htj
    rw [h2] at a2
    have hl' : l' ∈ L := (hL l').2 ⟨j, thj, hj, htj, by simp only [want, h2]⟩
    by_cases hs' : shy l'
    · -- a lock that is only read does not block
      obtain ⟨k, hk, thj', thk, l2, m2, p2, e1, e2, _, e3, e4⟩ := hS j hj
      rw [htj] at e1; cases e1
      rw [h2] at e3; cases e3
      rcases e4 with ⟨g, hg, hc⟩ | ⟨_, p3, hp3⟩
      · have hm1 := a2.1 hs'
        obtain ⟨gl, gm⟩ := g
        simp only [Guard.clash] at hc
        have := (h k thk e2).only (gl, gm) hg (by rw [← hc.1]; exact hs')
        rcases hc.2 with hc | hc
        · rw [hm1] at hc; cases hc
        · simp only at this; rw [this] at hc; cases hc
      · obtain ⟨⟨H', b1, b2⟩, _⟩ := h k thk e2
        rw [hp3] at b2
        have := b2.1 hs'; cases this
    · exact hmax l' hl' (a2.2.1 hs' _ (a1 _ hm) hsh)
  have notshy : ∀ i thi m p, S i → τ.threads[i]? = some thi → thi.prog = .acq l m p → ¬ shy l := by
    intro i thi m p hi hti hp hs
    obtain ⟨k, hk, thi', thk, l2, m2, p2, e1, e2, _, e3, e4⟩ := hS i hi
    rw [hti] at e1; cases e1
    rw [hp] at e3; cases e3
    obtain ⟨⟨H, a1, a2⟩, _⟩ := h i thi hti
    rw [hp] at a2
    rcases e4 with ⟨g, hg, hc⟩ | ⟨_, p3, hp3⟩
    · have hm1 := a2.1 hs
      obtain ⟨gl, gm⟩ := g
      simp only [Guard.clash] at hc
      have := (h k thk e2).only (gl, gm) hg (by rw [← hc.1]; exact hs)
      rcases hc.2 with hc | hc
      · rw [hm1] at hc; cases hc
      · simp only at this; rw [this] at hc; cases hc
    · obtain ⟨⟨H', b1, b2⟩, _⟩ := h k thk e2
      rw [hp3] at b2
      have := b2.1 hs; cases this
  have final : ∀ i thi m p, S i → τ.threads[i]? = some thi → thi.prog = .acq l m p →
      ∃ j thj p', S j ∧ τ.threads[j]? = some thj ∧ m = .ref ∧ thj.prog = .acq l .mut p' := by
    intro i thi m p hi hti hp
    obtain ⟨k, hk, thi', thk, l2, m2, p2, e1, e2, _, e3, e4⟩ := hS i hi
    rw [hti] at e1; cases e1
    rw [hp] at e3; cases e3
    rcases e4 with ⟨g, hg, hc⟩ | ⟨hm, p3, hp3⟩
    · obtain ⟨gl, gm⟩ := g
      simp only [Guard.clash] at hc
      obtain ⟨rfl, _⟩ := hc
      exact absurd (none_holds k thk gm hk e2 hg) (notshy i thi m p hi hti hp)
    · exact ⟨k, thk, p3, hk, e2, hm, hp3⟩
  obtain ⟨i, thi, hi, hti, hw⟩ := (hL l).1 hl
  cases hp : thi.prog with
  | acq l' m p =>
    have : l' = l := by simp only [want, hp] at hw; exact Option.some.inj hw
    subst this
    obtain ⟨j, thj, p', hj, htj, _, hpj⟩ := final i thi m p hi hti hp
    obtain ⟨_, _, _, _, _, e, _⟩ := final j thj .mut p' hj htj hpj
    cases e
  | _ => simp only [want, hp] at hw; cases hw

end Xecs
