import Verif.Proofs.KeepingCircle
/-
Clients that keep things, take locks in order and then only drop what they keep come to rest.
-/
set_option autoImplicit false
namespace Xecs
variable {V : Type}

/-! ### The calls of ordered clients -/

theorem kord_updating {w : World V} {order : List Nat} {ρ : Nat → Nat} (hg : ∀ g ∈ w.groups, ρ g.tyA < ρ g.tyB)
    (τ : KSys V) (i : Nat) (c : KCall V) (th : KThread V) (hc : KSys.updating (Config.of w order) ρ τ i c)
    (hi : τ.threads[i]? = some th) :
    (c.prog (Config.of w order)).OrdS (fun _ => False) (Lock.Before (Lock.groupsFirst ρ))
      (fun g => g ∈ th.keptGuards (Config.of w order)) := by
  have h1 := Prog.ord_kupdating (cfg := Config.of w order) (by
    intro g hgm
    obtain ⟨g', h1, rfl⟩ := List.mem_map.1 hgm
    exact hg g' h1) hc.1
  refine (h1.add (S := fun l _ => l ∈ c.locks (Config.of w order)) (B := fun g => g ∈ th.keptGuards (Config.of w order))
    (fun _ _ _ h => False.elim h) ?_ (Prog.takes_kcall c fun l hl _ _ => hl)).mono fun g hg => .inr hg
  intro g hg l _ hl _ _
  obtain ⟨k, hk, hgk⟩ := List.mem_flatMap.1 hg
  exact hc.2 l hl th hi k hk g hgk

theorem kord_scanning {cfg : Config} {ρ : Nat → Nat} (τ : KSys V) (i : Nat) (c : KCall V) (th : KThread V)
    (hc : KSys.scanning cfg ρ τ i c) (hi : τ.threads[i]? = some th) :
    (c.prog cfg).OrdS (fun l => l.isGroup = true) (Lock.Before (Lock.storesFirst ρ)) (fun g => g ∈ th.keptGuards cfg) := by
  have h1 := Prog.ord_kscanning (cfg := cfg) hc.1
  refine (h1.add (S := fun l m => l ∈ c.locks cfg ∧ (l.isGroup = true → m = .ref))
    (B := fun g => g ∈ th.keptGuards cfg) (fun _ _ h => h.2) ?_
    (Prog.takes_kcall c fun l hl m hm => ⟨hl, hm fun c' h => Prog.shyly_of_scanning (hc.1 c' h)⟩)).mono fun g hg => .inr hg
  intro g hg l _ hl h1 h2
  obtain ⟨k, hk, hgk⟩ := List.mem_flatMap.1 hg
  exact hc.2 l hl.1 (by simpa using h1) th hi k hk g hgk (by simpa using h2)

theorem KSys.dropping_updating {cfg : Config} {ρ : Nat → Nat} (τ : KSys V) (i : Nat) (c : KCall V)
    (h : KSys.dropping τ i c) : KSys.updating cfg ρ τ i c := by
  obtain ⟨k, rfl⟩ := h
  exact ⟨fun c' h => by simp [KCall.plain] at h, fun l hl => by simp [KCall.locks] at hl⟩

theorem KSys.dropping_scanning {cfg : Config} {ρ : Nat → Nat} (τ : KSys V) (i : Nat) (c : KCall V)
    (h : KSys.dropping τ i c) : KSys.scanning cfg ρ τ i c := by
  obtain ⟨k, rfl⟩ := h
  exact ⟨fun c' h => by simp [KCall.plain] at h, fun l hl => by simp [KCall.locks] at hl⟩

theorem KSys.Sched.policy {cfg : Config} {may may' : KSys V → Nat → KCall V → Prop}
    (hm : ∀ σ i c, may σ i c → may' σ i c) {σ σ' : KSys V} (h : σ.Sched cfg may σ') : σ.Sched cfg may' σ' := by
  induction h with
  | refl => exact .refl
  | step _ hs ih =>
    refine .step ih ?_
    cases hs with
    | start h1 h2 h3 h4 => exact .start h1 h2 h3 (hm _ _ _ h4)
    | acq h1 h2 h3 => exact .acq h1 h2 h3
    | rel h1 h2 => exact .rel h1 h2
    | act h1 h2 h3 => exact .act h1 h2 h3
    | fault h1 h2 h3 h4 => exact .fault h1 h2 h3 h4
    | panic h1 h2 h3 => exact .panic h1 h2 h3
    | ret h1 h2 h3 => exact .ret h1 h2 h3

/-! ### Calls end, and what is kept runs out -/

/-- `t` is what remains of thread `u` after one step of a client that only drops things. -/
inductive KThread.After : KThread V → KThread V → Prop
  | go {t u : KThread V} : t.call = u.call → t.kept = u.kept → t.prog.After u.prog → After t u
  | fin {t u : KThread V} {c : KCall V} : t.call = none → u.call = some c → ((∃ k, c = .drop k) → t.kept = u.kept) → After t u
  | begin {t u : KThread V} {k : Keep} : t.call = some (.drop k) → u.call = none → t.kept.length < u.kept.length → After t u

theorem KThread.After.acc_none : ∀ (n : Nat) (t : KThread V), t.kept.length = n → t.call = none → Acc After t := by
  have step : ∀ n : Nat, (∀ m, m < n → ∀ t : KThread V, t.kept.length = m → t.call = none → Acc After t) →
      ∀ t : KThread V, t.kept.length = n → t.call = none → Acc After t := by
    intro n ihn
    -- dropping, with less kept
    have drop : ∀ m, m < n → ∀ p : Prog V, ∀ (t : KThread V) (k : Keep), t.prog = p → t.kept.length = m →
        t.call = some (.drop k) → Acc After t := by
      intro m hm p
      induction (Prog.After.acc p) with
      | intro p _ ih =>
        intro t k hp hk hc
        refine ⟨_, fun y hy => ?_⟩
        cases hy with
        | go h1 h2 h3 => exact ih _ (hp ▸ h3) y k rfl (by rw [h2]; exact hk) (h1.trans hc)
        | fin h1 h2 h3 =>
          rw [hc] at h2; cases h2
          exact ihn m hm y (by rw [h3 ⟨_, rfl⟩]; exact hk) h1
        | «begin» h1 h2 h3 => rw [hc] at h2; cases h2
    have idle : ∀ p : Prog V, ∀ t : KThread V, t.prog = p → t.kept.length = n → t.call = none → Acc After t := by
      intro p
      induction (Prog.After.acc p) with
      | intro p _ ih =>
        intro t hp hk hc
        refine ⟨_, fun y hy => ?_⟩
        cases hy with
        | go h1 h2 h3 => exact ih _ (hp ▸ h3) y rfl (by rw [h2]; exact hk) (h1.trans hc)
        | fin h1 h2 h3 => rw [hc] at h2; cases h2
        | «begin» h1 h2 h3 => exact drop _ (hk ▸ h3) _ y _ rfl rfl h1
    exact fun t hk hc => idle _ t rfl hk hc
  intro n
  induction n using Nat.strongRecOn with
  | _ n ih => exact step n ih

theorem KThread.After.acc (t : KThread V) : Acc After t := by
  have key : ∀ p : Prog V, ∀ t : KThread V, t.prog = p → t.call ≠ none → Acc After t := by
    intro p
    induction (Prog.After.acc p) with
    | intro p _ ih =>
      intro t hp hc
      refine ⟨_, fun y hy => ?_⟩
      cases hy with
      | go h1 h2 h3 => exact ih _ (hp ▸ h3) y rfl (by rw [h1]; exact hc)
      | fin h1 h2 h3 => exact acc_none _ y rfl h1
      | «begin» h1 h2 h3 => exact absurd h2 hc
  by_cases hc : t.call = none
  · exact acc_none _ t rfl hc
  · exact key _ t rfl hc

/-- One element of a list makes a step. -/
inductive OneStep {α : Type} (R : α → α → Prop) : List α → List α → Prop
  | mk {l : List α} {i : Nat} {t u : α} : l[i]? = some u → R t u → OneStep R (l.set i t) l

theorem OneStep.acc {α : Type} {R : α → α → Prop} (h : ∀ a, Acc R a) : ∀ l : List α, Acc (OneStep R) l
  | [] => ⟨_, fun y hy => by cases hy with | mk h _ => simp at h⟩
  | u :: l => by
    have key : ∀ (u : α), Acc R u → ∀ l, Acc (OneStep R) l → Acc (OneStep R) (u :: l) := by
      intro u hu
      induction hu with
      | intro u hu' ihu =>
        intro l hl
        induction hl with
        | intro l hl' ihl =>
          refine ⟨_, fun y hy => ?_⟩
          cases hy with
          | mk h1 h2 =>
            rename_i i t v
            cases i with
            | zero => simp at h1; subst h1; exact ihu _ h2 l ⟨_, hl'⟩
            | succ i => simp only [List.set_cons_succ]; exact ihl _ (.mk (by simpa using h1) h2)
    exact key u (h u) l (OneStep.acc h l)

/-- Clients that only drop things come to an end. -/
theorem kstep_acc {cfg : Config} (τ : KSys V) : Acc (fun τ' τ : KSys V => τ.Step cfg KSys.dropping τ') τ := by
  have key : ∀ l : List (KThread V), Acc (OneStep KThread.After) l → ∀ τ : KSys V, τ.threads = l →
      Acc (fun τ' τ : KSys V => τ.Step cfg KSys.dropping τ') τ := by
    intro l hl
    induction hl with
    | intro l _ ih =>
      intro τ hτ
      refine ⟨_, fun τ' hs => ?_⟩
      subst hτ
      cases hs with
      | start h1 h2 h3 h4 =>
        rename_i i th c
        obtain ⟨k, rfl⟩ := h4
        refine ih _ (.mk h1 (.begin (k := k) (t := { th with
          call := some (.drop k), prog := (KCall.drop k).prog cfg, subject := (KCall.drop k : KCall V).subject,
          kept := (KCall.drop k : KCall V).leaves th.kept }) rfl h2 ?_)) _ rfl
        have hk : k ∈ th.kept := h3
        show (th.kept.erase k).length < th.kept.length
        rw [List.length_erase_of_mem hk]
        have := List.length_pos_of_mem hk
        omega
      | acq h1 h2 h3 =>
        rename_i i th l m p
        have : Prog.After p th.prog := by rw [h2]; exact .acq _ _ _
        exact ih _ (.mk h1 (.go (t := { th with prog := p, held := (l, m) :: th.held }) rfl rfl this)) _ rfl
      | rel h1 h2 =>
        rename_i i th l m p
        have : Prog.After p th.prog := by rw [h2]; exact .rel _ _ _
        exact ih _ (.mk h1 (.go (t := { th with prog := p, held := th.held.erase (l, m) }) rfl rfl this)) _ rfl
      | act h1 h2 h3 =>
        rename_i i th a f w r
        have : Prog.After (f r) th.prog := by rw [h2]; exact .act r rfl
        exact ih _ (.mk h1 (.go (t := { th with prog := f r, subject := a.subjectAfter r th.subject }) rfl rfl this)) _ rfl
      | fault h1 h2 h3 h4 =>
        rename_i i th a f w e c
        exact ih _ (.mk h1 (.fin (t := { th with
          call := none, prog := .done [], held := th.kept.flatMap (Keep.guards cfg), subject := none }) rfl h4 fun _ => rfl)) _ rfl
      | panic h1 h2 h4 =>
        rename_i i th c
        exact ih _ (.mk h1 (.fin (t := { th with
          call := none, prog := .done [], held := th.kept.flatMap (Keep.guards cfg), subject := none }) rfl h4 fun _ => rfl)) _ rfl
      | ret h1 h2 h4 =>
        rename_i i th c rs
        refine ih _ (.mk h1 (.fin (t := { th with
          call := none, prog := .done [], subject := none, kept := c.keeps cfg rs ++ th.kept }) rfl h4 ?_)) _ rfl
        rintro ⟨k, rfl⟩; rfl
  exact key _ (OneStep.acc KThread.After.acc _) τ rfl

/-- A thread executing a call can do its next step, unless it waits for a lock. -/
theorem krunning_step {cfg : Config} {may : KSys V → Nat → KCall V → Prop} {τ : KSys V} {i : Nat} {th : KThread V}
    (hi : τ.threads[i]? = some th) (hc : th.call ≠ none) (hf : ∀ l m p, th.prog = .acq l m p → τ.Free l m) :
    ∃ τ', τ.Step cfg may τ' := by
  obtain ⟨c, hc⟩ := Option.ne_none_iff_exists'.1 hc
  cases hp : th.prog with
  | done rs => exact ⟨_, .ret hi hp hc⟩
  | panic => exact ⟨_, .panic hi hp hc⟩
  | acq l m p => exact ⟨_, .acq hi hp (hf l m p hp)⟩
  | rel l m p => exact ⟨_, .rel hi hp⟩
  | act a f =>
    rcases hw : a.run τ.world with ⟨w, e | r⟩
    · exact ⟨_, .fault hi hp hw hc⟩
    · exact ⟨_, .act hi hp hw⟩

theorem kdrains {cfg : Config} {shy : Lock → Prop} {lt : Lock → Lock → Prop} (hlt : Strict lt) {τ : KSys V}
    (hd : ∀ τ', τ.Sched cfg KSys.dropping τ' → KAllOrd cfg shy lt τ') :
    ∃ τ', τ.Sched cfg KSys.dropping τ' ∧ τ'.AtRest := by
  have key : ∀ τ1 : KSys V, Acc (fun τ' τ : KSys V => τ.Step cfg KSys.dropping τ') τ1 → τ.Sched cfg KSys.dropping τ1 →
      ∃ τ', τ.Sched cfg KSys.dropping τ' ∧ τ'.AtRest := by
    intro τ1 ha
    induction ha with
    | intro τ1 _ ih =>
      intro hs
      by_cases hq : τ1.AtRest
      · exact ⟨τ1, hs, hq⟩
      have : ∃ τ2, τ1.Step cfg KSys.dropping τ2 := by
        by_cases hk : ∃ th ∈ τ1.threads, th.call = none ∧ th.kept ≠ []
        · obtain ⟨th, hth, hc, hk⟩ := hk
          obtain ⟨i, hi⟩ := List.getElem?_of_mem hth
          obtain ⟨k, ks, e⟩ := List.exists_cons_of_ne_nil hk
          exact ⟨_, .start hi hc (c := .drop k) (show k ∈ th.kept by rw [e]; simp) ⟨k, rfl⟩⟩
        · have rest : ∀ th ∈ τ1.threads, th.call = none → th.kept = [] := fun th hth hc =>
            Classical.byContradiction fun h => hk ⟨th, hth, hc, h⟩
          have hrun : ∃ (i : Nat) (th : KThread V), τ1.threads[i]? = some th ∧ th.call ≠ none :=
            Classical.byContradiction fun hn => hq fun th hth => by
              obtain ⟨i, hi⟩ := List.getElem?_of_mem hth
              have hc : th.call = none := Classical.byContradiction fun hc => hn ⟨i, th, hi, hc⟩
              exact ⟨hc, rest th hth hc⟩
          obtain ⟨i0, th0, hi0, hc0⟩ := hrun
          have hord := hd τ1 hs
          have hno := hord.no_circle hlt fun i => ∃ th, τ1.threads[i]? = some th ∧ th.call ≠ none
          refine Classical.byContradiction fun hst => hno ⟨⟨i0, th0, hi0, hc0⟩, ?_⟩
          rintro i ⟨th, hi, hc⟩
          refine Classical.byContradiction fun hw => hst (krunning_step hi hc fun l m p hp => ?_)
          intro thj hj g hg hcl
          obtain ⟨j, hj'⟩ := List.getElem?_of_mem hj
          refine hw ⟨j, ⟨thj, hj', fun hcj => ?_⟩, th, thj, l, m, p, hi, hj', hc, hp, .inl ⟨g, hg, hcl⟩⟩
          have hp := ((hord j thj hj').rest hcj).subset hg
          rw [KThread.keptGuards, rest thj hj hcj] at hp
          simp at hp
      obtain ⟨τ2, h2⟩ := this
      exact ih τ2 h2 (.step hs h2)
  exact key τ (kstep_acc τ) .refl

end Xecs
