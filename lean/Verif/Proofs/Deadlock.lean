import Verif.Proofs.Guards
import Verif.Spec.Threads
/-
Deadlock freedom by lock order.
-/
set_option autoImplicit false
namespace Xecs
variable {V : Type}

/-- A strict order. -/
structure Strict {α : Type} (lt : α → α → Prop) : Prop where
  irrefl : ∀ a, ¬ lt a a
  trans : ∀ a b c, lt a b → lt b c → lt a c

theorem Strict.maximal {α : Type} {lt : α → α → Prop} (h : Strict lt) :
    ∀ (l : List α), l ≠ [] → ∃ x ∈ l, ∀ y ∈ l, ¬ lt x y
  | [], hn => absurd rfl hn
  | [a], _ => ⟨a, by simp, by simpa using h.irrefl a⟩
  | a :: b :: l, _ => by
    obtain ⟨x, hx, hm⟩ := h.maximal (b :: l) (by simp)
    by_cases hxa : lt x a
    · refine ⟨a, by simp, fun y hy hay => ?_⟩
      rcases List.mem_cons.1 hy with rfl | hy
      · exact h.irrefl _ hay
      · exact hm y hy (h.trans _ _ _ hxa hay)
    · refine ⟨x, List.mem_cons_of_mem _ hx, fun y hy hxy => ?_⟩
      rcases List.mem_cons.1 hy with rfl | hy
      · exact hxa hxy
      · exact hm y hy hxy

namespace Prog

/-- Holding at most the guards `H`, the program takes each lock only when it follows all locks it holds. -/
def Ord (lt : Lock → Lock → Prop) : (Guard → Prop) → Prog V → Prop
  | _, .done _ => True
  | _, .panic => True
  | H, .acq l m p => (∀ g, H g → lt g.1 l) ∧ Ord lt (fun g => g = (l, m) ∨ H g) p
  | H, .rel l m p => Ord lt (fun g => g ≠ (l, m) ∧ H g) p
  | H, .act _ f => ∀ r, Ord lt H (f r)

theorem Ord.mono {lt : Lock → Lock → Prop} {p : Prog V} : ∀ {H H' : Guard → Prop}, Ord lt H p → (∀ l, H' l → H l) →
    Ord lt H' p := by
  induction p with
  | done _ => intros; trivial
  | panic => intros; trivial
  | acq l m p ih =>
    intro H H' h hh
    exact ⟨fun l' hl => h.1 l' (hh l' hl), ih h.2 fun l' hl => hl.imp (fun h => h) (hh l')⟩
  | rel l m p ih =>
    intro H H' h hh
    exact ih (H := fun g => g ≠ (l, m) ∧ H g) h fun l' hl => ⟨hl.1, hh l' hl.2⟩
  | act a f ih =>
    intro H H' h hh r
    exact ih r (h r) hh

end Prog

/-- The state of a thread that respects the order. -/
structure ThOrd (lt : Lock → Lock → Prop) (th : Thread V) : Prop where
  ord : ∃ H, (∀ g ∈ th.held, H g) ∧ th.prog.Ord lt H
  nodup : th.held.Nodup
  idle : th.call = none → th.held = [] ∧ ∃ rs, th.prog = .done rs

/-- All threads respect the order. -/
def AllOrd (lt : Lock → Lock → Prop) (σ : Sys V) : Prop := ∀ (i : Nat) th, σ.threads[i]? = some th → ThOrd lt th

theorem ThOrd.idle' {lt : Lock → Lock → Prop} : ThOrd lt (Thread.idle (V := V)) :=
  ⟨⟨fun _ => False, by simp [Thread.idle], trivial⟩, by simp [Thread.idle], fun _ => ⟨rfl, [], rfl⟩⟩

theorem AllOrd.init {lt : Lock → Lock → Prop} (w : World V) (n : Nat) : AllOrd lt (Sys.init w n) := by
  intro i th hi
  have := List.mem_of_getElem? hi
  rw [Sys.init, List.mem_replicate] at this
  rw [this.2]; exact .idle'

theorem AllOrd.set {lt : Lock → Lock → Prop} {σ σ' : Sys V} {i : Nat} {th : Thread V} (h : AllOrd lt σ)
    (hj : ∀ j, σ'.threads[j]? = if j = i then some th else σ.threads[j]?) (ht : ThOrd lt th) : AllOrd lt σ' := by
  intro j thj hthj
  rw [hj] at hthj
  split at hthj
  · cases hthj; exact ht
  · exact h j thj hthj

theorem AllOrd.step {lt : Lock → Lock → Prop} (hlt : Strict lt) {cfg : Config} {may : Sys V → Nat → ApiCall V → Prop}
    {σ σ' : Sys V} (hm : ∀ σ i c, may σ i c → (c.prog cfg).Ord lt (fun _ => False)) (h : AllOrd lt σ)
    (hs : σ.Step cfg may σ') : AllOrd lt σ' := by
  cases hs with
  | start h1 h2 h3 =>
    exact h.set (fun j => setThread_threads σ _ _ j h1)
      ⟨⟨fun _ => False, by simp, hm _ _ _ h3⟩, by simp, fun h => by simp at h⟩
  | acq h1 h2 h3 =>
    rename_i i th l m p
    obtain ⟨⟨H, a1, a2⟩, b, c⟩ := h i th h1
    rw [h2] at a2
    refine h.set (fun j => setThread_threads σ _ _ j h1) ⟨⟨_, ?_, a2.2⟩, ?_, ?_⟩
    · intro g hg
      rcases List.mem_cons.1 hg with rfl | hg
      · exact .inl rfl
      · exact .inr (a1 g hg)
    · simp only [List.nodup_cons]
      exact ⟨fun hl => hlt.irrefl _ (a2.1 _ (a1 _ hl)), b⟩
    · intro hc
      obtain ⟨_, rs, hp⟩ := c hc
      rw [h2] at hp; cases hp
  | rel h1 h2 =>
    rename_i i th l m p
    obtain ⟨⟨H, a1, a2⟩, b, c⟩ := h i th h1
    rw [h2] at a2
    refine h.set (fun j => setThread_threads σ _ _ j h1) ⟨⟨_, ?_, a2⟩, b.erase _, ?_⟩
    · intro g hg
      rw [b.mem_erase_iff] at hg
      exact ⟨hg.1, a1 g hg.2⟩
    · intro hc
      obtain ⟨_, rs, hp⟩ := c hc
      rw [h2] at hp; cases hp
  | act h1 h2 h3 =>
    rename_i i th a f w r
    obtain ⟨⟨H, a1, a2⟩, b, c⟩ := h i th h1
    rw [h2] at a2
    refine h.set (fun j => setThread_threads { σ with world := w } _ _ j h1) ⟨⟨H, a1, a2 r⟩, b, ?_⟩
    intro hc
    obtain ⟨_, rs, hp⟩ := c hc
    rw [h2] at hp; cases hp
  | fault h1 h2 h3 h4 => exact h.set (fun j => setThread_threads { σ with world := _ } _ _ j h1) .idle'
  | panic h1 h2 h3 => exact h.set (fun j => setThread_threads σ _ _ j h1) .idle'
  | ret h1 h2 h3 => exact h.set (fun j => setThread_threads σ _ _ j h1) .idle'

/-- A thread executing a call that is not waiting can do a step. -/
theorem running_step {cfg : Config} {may : Sys V → Nat → ApiCall V → Prop} {σ : Sys V} {i : Nat} (hr : σ.Running i)
    (hb : ¬ σ.Blocked i) : ∃ σ', σ.Step cfg may σ' ∧ ∀ j, j ≠ i → σ'.threads[j]? = σ.threads[j]? := by
  obtain ⟨th, hi, hc⟩ := hr
  obtain ⟨c, hc⟩ := Option.ne_none_iff_exists'.1 hc
  have key : ∀ {σ1 : Sys V} {th'}, σ1.threads = σ.threads → ∀ j, j ≠ i → (σ1.setThread i th').threads[j]? = σ.threads[j]? := by
    intro σ1 th' h1 j hj
    rw [setThread_threads σ1 i th' j (h1 ▸ hi), if_neg hj, h1]
  cases hp : th.prog with
  | done rs => exact ⟨_, .ret hi hp hc, key rfl⟩
  | panic => exact ⟨_, .panic hi hp hc, key rfl⟩
  | acq l m p =>
    refine ⟨_, .acq hi hp ?_, key rfl⟩
    exact Classical.byContradiction fun hf => hb ⟨th, l, m, p, hi, hp, .inl hf⟩
  | rel l m p => exact ⟨_, .rel hi hp, key rfl⟩
  | act a f =>
    rcases hw : a.run σ.world with ⟨w, e | r⟩
    · exact ⟨_, .fault hi hp hw hc, key rfl⟩
    · exact ⟨_, .act hi hp hw, key rfl⟩

/-- Threads that respect a lock order do not deadlock. -/
theorem AllOrd.no_deadlock {lt : Lock → Lock → Prop} (hlt : Strict lt) {σ : Sys V} (h : AllOrd lt σ) : ¬ σ.Deadlock := by
  rintro ⟨⟨i0, th0, hi0, hc0⟩, hall⟩
  -- the locks waited for
  let want : Thread V → Option Lock := fun th => match th.prog with | .acq l _ _ => some l | _ => none
  have hwant : ∀ (i : Nat) th, σ.threads[i]? = some th → th.call ≠ none → ∃ l m p, th.prog = .acq l m p ∧
      (¬ σ.Free l m ∨ (m = .ref ∧ ∃ thj ∈ σ.threads, ∃ p', thj.prog = .acq l .mut p')) := by
    intro i th hi hc
    obtain ⟨th', l, m, p, h1, h2, h3⟩ := hall i ⟨th, hi, hc⟩
    rw [hi] at h1; cases h1
    exact ⟨l, m, p, h2, h3⟩
  have hne : σ.threads.filterMap want ≠ [] := by
    obtain ⟨l, m, p, hp, _⟩ := hwant i0 th0 hi0 hc0
    exact List.ne_nil_of_mem (List.mem_filterMap.2 ⟨th0, List.mem_of_getElem? hi0, show want th0 = some l by
      simp only [want, hp]⟩)
  obtain ⟨l, hl, hmax⟩ := hlt.maximal _ hne
  obtain ⟨th, hth, hw⟩ := List.mem_filterMap.1 hl
  -- nobody holds the last lock
  have hnone : ∀ thj ∈ σ.threads, ∀ m, (l, m) ∉ thj.held := by
    intro thj hj m hm
    obtain ⟨j, hj⟩ := List.getElem?_of_mem hj
    obtain ⟨⟨H, a1, a2⟩, _, a3⟩ := h j thj hj
    have hcj : thj.call ≠ none := fun e => by rw [(a3 e).1] at hm; cases hm
    obtain ⟨lj, mj, pj, hpj, _⟩ := hwant j thj hj hcj
    rw [hpj] at a2
    exact hmax lj (List.mem_filterMap.2 ⟨thj, List.mem_of_getElem? hj, by simp only [want, hpj]⟩) (a2.1 _ (a1 _ hm))
  have hfree : ∀ m, σ.Free l m := by
    intro m thj hj g hg hcl
    obtain ⟨gl, gm⟩ := g
    have : gl = l := by simp only [Guard.clash] at hcl; exact hcl.1.symm
    subst this
    exact hnone thj hj gm hg
  have hrun : ∀ thj ∈ σ.threads, ∀ m p, thj.prog = .acq l m p →
      ¬ σ.Free l m ∨ (m = .ref ∧ ∃ thk ∈ σ.threads, ∃ p', thk.prog = .acq l .mut p') := by
    intro thj hj m p hp
    obtain ⟨j, hj⟩ := List.getElem?_of_mem hj
    have hcj : thj.call ≠ none := fun e => by
      obtain ⟨_, rs, hq⟩ := (h j thj hj).idle e
      rw [hp] at hq; cases hq
    obtain ⟨l', m', p', hp', hb⟩ := hwant j thj hj hcj
    rw [hp] at hp'; cases hp'
    exact hb
  cases hp : th.prog with
  | acq l' m p =>
    have : l' = l := by simp only [want, hp] at hw; exact Option.some.inj hw
    subst this
    rcases hrun th hth m p hp with hb | ⟨_, thk, hk, p', hpk⟩
    · exact hb (hfree m)
    · rcases hrun thk hk .mut p' hpk with hb | ⟨e, _⟩
      · exact hb (hfree .mut)
      · cases e
  | _ => simp only [want, hp] at hw; cases hw


/-! ### Calls end -/

/-- `p` is what remains of `q` after one step. -/
inductive Prog.After : Prog V → Prog V → Prop
  | acq (l m p) : After p (.acq l m p)
  | rel (l m p) : After p (.rel l m p)
  | act {a f p} (r) : p = f r → After p (.act a f)

theorem Prog.After.acc (p : Prog V) : Acc After p := by
  induction p with
  | done rs => exact ⟨_, fun y h => nomatch h⟩
  | panic => exact ⟨_, fun y h => nomatch h⟩
  | acq l m p ih => exact ⟨_, fun y h => by cases h; exact ih⟩
  | rel l m p ih => exact ⟨_, fun y h => by cases h; exact ih⟩
  | act a f ih => exact ⟨_, fun y h => by cases h with | act r e => rw [e]; exact ih _⟩

/-- `t` is what remains of thread `u` after one step. -/
inductive Thread.After : Thread V → Thread V → Prop
  | go {t u : Thread V} : t.call = u.call → t.prog.After u.prog → After t u
  | fin {t u : Thread V} : t.call = none → u.call ≠ none → (∃ rs, t.prog = .done rs) → After t u

theorem Thread.After.acc_idle (t : Thread V) (h : ∃ rs, t.prog = .done rs) (hc : t.call = none) : Acc After t := by
  refine ⟨_, fun y hy => ?_⟩
  cases hy with
  | go _ h' => obtain ⟨rs, e⟩ := h; rw [e] at h'; cases h'
  | fin h1 h2 _ => exact absurd hc h2

theorem Thread.After.acc (t : Thread V) : Acc After t := by
  have key : ∀ p : Prog V, ∀ t : Thread V, t.prog = p → Acc After t := by
    intro p
    induction (Prog.After.acc p) with
    | intro p _ ih =>
      intro t ht
      refine ⟨_, fun y hy => ?_⟩
      cases hy with
      | go h1 h2 => exact ih _ (ht ▸ h2) y rfl
      | fin h1 h2 h3 => exact acc_idle y h3 h1
  exact key _ t rfl

/-- One thread of a list does a step. -/
inductive OneAfter : List (Thread V) → List (Thread V) → Prop
  | mk {l : List (Thread V)} {i : Nat} {t u : Thread V} : l[i]? = some u → t.After u → OneAfter (l.set i t) l

theorem OneAfter.acc : ∀ l : List (Thread V), Acc OneAfter l
  | [] => ⟨_, fun y hy => by cases hy with | mk h _ => simp at h⟩
  | u :: l => by
    have key : ∀ (u : Thread V), Acc Thread.After u → ∀ l, Acc OneAfter l → Acc OneAfter (u :: l) := by
      intro u hu
      induction hu with
      | intro u hu' ihu =>
        intro l hl
        induction hl with
        | intro l hl' ihl =>
          refine ⟨_, fun y hy => ?_⟩
          cases hy with
          | mk h1 h2 =>
            rename_i i t v
            cases i with
            | zero => simp at h1; subst h1; exact ihu _ h2 l ⟨_, hl'⟩
            | succ i => simp only [List.set_cons_succ]; exact ihl _ (.mk (by simpa using h1) h2)
    exact key u (Thread.After.acc u) l (OneAfter.acc l)

/-- Without new calls every schedule ends. -/
theorem step_acc {cfg : Config} (σ : Sys V) : Acc (fun σ' σ : Sys V => σ.Step cfg Sys.nothing σ') σ := by
  have key : ∀ l : List (Thread V), Acc OneAfter l → ∀ σ : Sys V, σ.threads = l →
      Acc (fun σ' σ : Sys V => σ.Step cfg Sys.nothing σ') σ := by
    intro l hl
    induction hl with
    | intro l _ ih =>
      intro σ hσ
      refine ⟨_, fun σ' hs => ?_⟩
      subst hσ
      cases hs with
      | start _ _ h => exact False.elim h
      | acq h1 h2 h3 =>
        rename_i i th l m p
        have : Prog.After p th.prog := by rw [h2]; exact .acq _ _ _
        exact ih _ (.mk h1 (.go (t := { th with prog := p, held := (l, m) :: th.held }) rfl this)) _ rfl
      | rel h1 h2 =>
        rename_i i th l m p
        have : Prog.After p th.prog := by rw [h2]; exact .rel _ _ _
        exact ih _ (.mk h1 (.go (t := { th with prog := p, held := th.held.erase (l, m) }) rfl this)) _ rfl
      | act h1 h2 h3 =>
        rename_i i th a f w r
        have : Prog.After (f r) th.prog := by rw [h2]; exact .act r rfl
        exact ih _ (.mk h1 (.go (t := { th with prog := f r, subject := a.subjectAfter r th.subject }) rfl this)) _ rfl
      | fault h1 h2 h3 h4 => exact ih _ (.mk h1 (.fin (t := .idle) rfl (by rw [h4]; simp) ⟨_, rfl⟩)) _ rfl
      | panic h1 h2 h4 => exact ih _ (.mk h1 (.fin (t := .idle) rfl (by rw [h4]; simp) ⟨_, rfl⟩)) _ rfl
      | ret h1 h2 h4 => exact ih _ (.mk h1 (.fin (t := .idle) rfl (by rw [h4]; simp) ⟨_, rfl⟩)) _ rfl
  exact key _ (OneAfter.acc _) σ rfl

/-! ### Which calls respect an order -/

namespace Prog
variable {lt : Lock → Lock → Prop}

theorem ord_store {cfg : Config} {H : Guard → Prop} {t : Nat} {m : Mode} {p : Prog V} (h1 : ∀ g, H g → lt g.1 (.store t))
    (h2 : Ord lt (fun g => g = (.store t, m) ∨ H g) p) : Ord lt H (store cfg t m p) := by
  unfold store
  split
  · exact ⟨h1, h2⟩
  · trivial

theorem ord_rel {H : Guard → Prop} {l : Lock} {m : Mode} {p : Prog V} (h : Ord lt H p) : Ord lt H (.rel l m p) :=
  Ord.mono (p := p) h fun _ hg => hg.2

/-- The base guards and write guards on the groups `ks`. -/
def WithGroups (B : Guard → Prop) (ks : List Nat) : Guard → Prop := fun g => B g ∨ ∃ k ∈ ks, g = (.group k, .mut)

/-- The conditions on a lock order: groups by position, then the storages of the groups in `P`; the two storages of
each such group in order. -/
structure GroupsFirst (P : Shape → Prop) (lt : Lock → Lock → Prop) (B : Guard → Prop) : Prop where
  baseG : ∀ g, B g → ∀ k, lt g.1 (.group k)
  baseS : ∀ g, B g → ∀ t, lt g.1 (.store t)
  groups : ∀ j k, j < k → lt (.group j) (.group k)
  stores : ∀ g, P g → ∀ k, lt (.group k) (.store g.a) ∧ lt (.group k) (.store g.b)
  pair : ∀ g, P g → lt (.store g.a) (.store g.b)

section
variable {cfg : Config} {P : Shape → Prop} {B : Guard → Prop} (hB : GroupsFirst P lt B)
include hB

theorem ord_lockGroups (t : Nat) : ∀ (gs : List (Nat × Shape)) (ks : List Nat) {p : Prog V},
    (gs.Pairwise fun x y => x.1 < y.1) → (∀ k ∈ ks, ∀ x ∈ gs, k < x.1) →
    Ord lt (WithGroups B (ks ++ (gs.filter fun x => x.2.touches t).map Prod.fst)) p →
    Ord lt (WithGroups B ks) (lockGroups t gs p)
  | [], ks, p, _, _, h => by simpa [lockGroups] using h
  | (k, g) :: rest, ks, p, hp, hk, h => by
    have hlt : ∀ g', WithGroups B ks g' → lt g'.1 (.group k) := by
      rintro g' (hg | ⟨j, hj, rfl⟩)
      · exact hB.baseG _ hg _
      · exact hB.groups _ _ (hk j hj (k, g) (by simp))
    rw [List.pairwise_cons] at hp
    refine ⟨hlt, ?_⟩
    refine Ord.mono (H := WithGroups B ks) (p := if g.touches t then _ else _) ?_ ?_
    · split
      · rename_i ht
        refine ⟨hlt, ?_⟩
        refine Ord.mono (ord_lockGroups t rest (ks ++ [k]) hp.2 ?_ ?_) ?_
        · intro j hj x hx
          rcases List.mem_append.1 hj with hj | hj
          · exact hk j hj x (List.mem_cons_of_mem _ hx)
          · simp only [List.mem_singleton] at hj; subst hj; exact hp.1 x hx
        · simpa [ht] using h
        · rintro g' (rfl | hg | ⟨j, hj, rfl⟩)
          · exact .inr ⟨k, by simp, rfl⟩
          · exact .inl hg
          · exact .inr ⟨j, by simp [hj], rfl⟩
      · rename_i ht
        refine ord_lockGroups t rest ks hp.2 (fun j hj x hx => hk j hj x (List.mem_cons_of_mem _ hx)) ?_
        simpa [ht] using h
    · rintro g' ⟨h1, rfl | h2⟩
      · exact absurd rfl h1
      · exact h2

theorem ord_groupLoop (a : Nat → Act V) : ∀ (gs : List (Nat × Shape)) {p : Prog V}, (∀ x ∈ gs, P x.2) →
    (gs.map Prod.fst).Nodup → Ord lt B p → Ord lt (WithGroups B (gs.map Prod.fst)) (groupLoop cfg a gs p)
  | [], p, _, _, h => h.mono fun g hg => hg.elim (fun h => h) fun ⟨k, hk, _⟩ => by simp at hk
  | (k, g) :: rest, p, hg, hn, h => by
    have hst : ∀ g', WithGroups B (((k, g) :: rest).map Prod.fst) g' → lt g'.1 (.store g.a) ∧ lt g'.1 (.store g.b) := by
      rintro g' (hb | ⟨j, hj, rfl⟩)
      · exact ⟨hB.baseS _ hb _, hB.baseS _ hb _⟩
      · exact hB.stores g (hg (k, g) (by simp)) j
    simp only [List.map_cons, List.nodup_cons] at hn
    refine ord_store (fun g' hg' => (hst g' hg').1) (ord_store ?_ fun _ => ?_)
    · rintro g' (rfl | hg')
      · exact hB.pair g (hg (k, g) (by simp))
      · exact (hst g' hg').2
    · refine Ord.mono (H := WithGroups B (rest.map Prod.fst)) (p := groupLoop cfg a rest p) ?_ ?_
      · exact ord_groupLoop a rest (fun x hx => hg x (List.mem_cons_of_mem _ hx)) hn.2 h
      · rintro g' ⟨h1, h2, h3, rfl | rfl | h4 | ⟨j, hj, rfl⟩⟩
        · exact absurd rfl h3
        · exact absurd rfl h2
        · exact .inl h4
        · refine .inr ⟨j, ?_, rfl⟩
          simp only [List.map_cons, List.mem_cons] at hj
          rcases hj with rfl | hj
          · exact absurd rfl h1
          · exact hj

omit hB in
theorem indexed_pairwise (cfg : Config) : cfg.indexed.Pairwise fun x y => x.1 < y.1 := by
  rw [Config.indexed, List.mapIdx_eq_zipIdx_map, List.pairwise_map]
  rw [List.pairwise_iff_getElem]
  intro i j hi hj hij
  simpa using hij

omit hB in
theorem indexed_mem {cfg : Config} {x : Nat × Shape} (h : x ∈ cfg.indexed) : cfg.groups[x.1]? = some x.2 := by
  rw [Config.indexed, List.mem_mapIdx] at h
  obtain ⟨i, hi, rfl⟩ := h
  simp [hi]

omit hB in
theorem nodup_of_pairwise {l : List (Nat × Shape)} (h : l.Pairwise fun x y => x.1 < y.1) : (l.map Prod.fst).Nodup := by
  rw [List.Nodup, List.pairwise_map]
  exact h.imp fun h => Nat.ne_of_lt h

theorem ord_attach (id t : Nat) (v : V) (hP : ∀ g ∈ cfg.groups, g.touches t = true → P g) {p : Prog V} (h : Ord lt B p) : Ord lt B (attach cfg id t v p) := by
  unfold attach
  split
  · refine ⟨fun g hg => hB.baseS g hg t, fun _ => ?_⟩
    refine Ord.mono (H := B) (p := lockGroups t cfg.indexed _) ?_ ?_
    · have := ord_lockGroups hB t cfg.indexed [] (p := groupLoop cfg (fun k => .groupAdd k id) (touching cfg t) p)
        (indexed_pairwise cfg) (by simp) ?_
      · exact this.mono fun g hg => .inl hg
      · refine ord_groupLoop hB _ _ (fun x hx => ?_) (nodup_of_pairwise ((indexed_pairwise cfg).filter _)) h
        exact hP _ (List.mem_of_getElem? (indexed_mem (List.mem_filter.1 hx).1)) (List.mem_filter.1 hx).2
    · rintro g ⟨h1, rfl | h2⟩
      · exact absurd rfl h1
      · exact h2
  · trivial

theorem ord_detach (id t : Nat) (hP : ∀ g ∈ cfg.groups, g.touches t = true → P g) {p : Ret V → Prog V} (h : ∀ r, Ord lt B (p r)) : Ord lt B (detach cfg id t p) := by
  unfold detach
  split
  · have := ord_lockGroups hB t cfg.indexed [] (p := groupLoop cfg (fun k => .groupRemove k id) (touching cfg t)
      (.acq (.store t) .mut <| .act (.detachStore t id) fun r => .rel (.store t) .mut (p r)))
        (indexed_pairwise cfg) (by simp) ?_
    · exact this.mono fun g hg => .inl hg
    · refine ord_groupLoop hB _ _ (fun x hx => ?_) (nodup_of_pairwise ((indexed_pairwise cfg).filter _)) ?_
      · exact hP _ (List.mem_of_getElem? (indexed_mem (List.mem_filter.1 hx).1)) (List.mem_filter.1 hx).2
      · refine ⟨fun g hg => hB.baseS g hg t, fun r => ?_⟩
        refine Ord.mono (p := p r) (h r) ?_
        rintro g ⟨h1, rfl | h2⟩
        · exact absurd rfl h1
        · exact h2
  · trivial

end

theorem ord_read {cfg : Config} {B : Guard → Prop} (hB : ∀ g, B g → ∀ t, lt g.1 (.store t)) (t id : Nat)
    {p : Ret V → Prog V} (h : ∀ r, Ord lt B (p r)) : Ord lt B (read cfg t id p) := by
  unfold read
  split
  · refine ⟨fun g hg => hB g hg t, fun r => Ord.mono (p := p r) (h r) ?_⟩
    rintro g ⟨h1, rfl | h2⟩
    · exact absurd rfl h1
    · exact h2
  · exact h _

theorem ord_write {cfg : Config} {B : Guard → Prop} (hB : ∀ g, B g → ∀ t, lt g.1 (.store t)) (t id : Nat) (v : V)
    {p : Ret V → Prog V} (h : ∀ r, Ord lt B (p r)) : Ord lt B (write cfg t id v p) := by
  unfold write
  split
  · refine ⟨fun g hg => hB g hg t, fun r => Ord.mono (p := p r) (h r) ?_⟩
    rintro g ⟨h1, rfl | h2⟩
    · exact absurd rfl h1
    · exact h2
  · exact h _

/-- The groups of the types that the script attaches or detaches are locked in order. -/
def Changes (cfg : Config) (lt : Lock → Lock → Prop) (B : Guard → Prop) (ops : List (HOp V)) : Prop :=
  ∃ P, GroupsFirst P lt B ∧ ∀ o ∈ ops, ∀ t, (o = .detach t ∨ ∃ v, o = .attach t v) →
    ∀ g ∈ cfg.groups, g.touches t = true → P g

theorem Changes.tail {cfg : Config} {B : Guard → Prop} {o : HOp V} {ops : List (HOp V)} (h : Changes cfg lt B (o :: ops)) :
    Changes cfg lt B ops := by
  obtain ⟨P, h1, h2⟩ := h
  exact ⟨P, h1, fun o ho => h2 o (List.mem_cons_of_mem _ ho)⟩

theorem GroupsFirst.changes {cfg : Config} {B : Guard → Prop} (h : GroupsFirst (fun g => g ∈ cfg.groups) lt B)
    (ops : List (HOp V)) : Changes cfg lt B ops := ⟨_, h, fun _ _ _ _ _ hg _ => hg⟩

theorem ord_script {cfg : Config} {B : Guard → Prop} (hB : ∀ g, B g → ∀ t, lt g.1 (.store t)) (id : Nat) :
    ∀ (ops : List (HOp V)) (acc : List (Ret V)) {p : List (Ret V) → Prog V}, (Changes cfg lt B ops ∨ Sys.plain ops = true) →
    (∀ rs, Ord lt B (p rs)) → Ord lt B (script cfg id ops acc p)
  | [], acc, p, _, h => h acc
  | .attach t v :: ops, acc, p, hg, h => by
    rcases hg with hg | hg
    · obtain ⟨P, h1, h2⟩ := hg
      exact ord_attach h1 id t v (h2 _ (by simp) t (.inr ⟨v, rfl⟩))
        (ord_script hB id ops _ (.inl (Changes.tail ⟨P, h1, h2⟩)) h)
    · simp [Sys.plain] at hg
  | .detach t :: ops, acc, p, hg, h => by
    rcases hg with hg | hg
    · obtain ⟨P, h1, h2⟩ := hg
      exact ord_detach h1 id t (h2 _ (by simp) t (.inl rfl)) fun r => ord_script hB id ops _ (.inl (Changes.tail ⟨P, h1, h2⟩)) h
    · simp [Sys.plain] at hg
  | .read t :: ops, acc, p, hg, h => 
    ord_read hB t id fun r => ord_script hB id ops _ (hg.imp (fun h => h.tail) fun h => by simpa [Sys.plain] using h) h
  | .write t v :: ops, acc, p, hg, h =>
    ord_write hB t id v fun r => ord_script hB id ops _ (hg.imp (fun h => h.tail) fun h => by simpa [Sys.plain] using h) h

theorem ord_handle {cfg : Config} (hB : ∀ t, lt .em (.store t)) (id : Nat) (ops : List (HOp V)) (acc : List (Ret V))
    (hg : Changes cfg lt (fun g => g = (.em, .ref)) ops ∨ Sys.plain ops = true) :
    Ord lt (fun _ => False) (handle cfg id ops acc) := by
  refine ⟨fun _ h => False.elim h, fun r => ?_⟩
  refine Ord.mono (H := fun g => g = (.em, .ref)) ?_ fun g hg => hg.resolve_right fun h => h
  dsimp only
  split
  · exact ord_script (fun g hg t => by rw [hg]; exact hB t) id ops acc hg fun rs => trivial
  · trivial

theorem ord_batches {cfg : Config} {B : Guard → Prop} (hB : ∀ g, B g → ∀ t, lt g.1 (.store t)) (start stop : Nat)
    {p : Prog V} (h : Ord lt B p) : ∀ bs : List (Nat × List V), Ord lt B (batches cfg start stop bs p)
  | [] => h
  | (t, vs) :: rest => by
    unfold batches
    split
    · refine ord_store (fun g hg => hB g hg t) fun r => ?_
      refine Ord.mono (p := batches cfg start stop rest p) (ord_batches hB start stop h rest) ?_
      rintro g ⟨h1, rfl | h2⟩
      · exact absurd rfl h1
      · exact h2
    · trivial

theorem ord_releaseAll {H : Guard → Prop} {p : Prog V} (h : Ord lt H p) : ∀ gs : List Guard, Ord lt H (releaseAll gs p)
  | [] => h
  | (l, m) :: rest => ord_rel (ord_releaseAll h rest)

theorem ord_scanGroups {cfg : Config} {P : Shape → Prop} {B : Guard → Prop} (hB : GroupsFirst P lt B) (id : Nat) :
    ∀ (gs acc : List (Nat × Shape)) {p : List (Nat × Shape) → Prog V},
    (gs.Pairwise fun x y => x.1 < y.1) → (acc.Pairwise fun x y => x.1 < y.1) → (∀ x ∈ acc, ∀ y ∈ gs, x.1 < y.1) →
    (∀ x ∈ gs, P x.2) → (∀ x ∈ acc, P x.2) →
    (∀ acc', (acc'.Pairwise fun x y => x.1 < y.1) → (∀ x ∈ acc', P x.2) →
      Ord lt (WithGroups B (acc'.map Prod.fst)) (p acc')) →
    Ord lt (WithGroups B (acc.map Prod.fst)) (scanGroups cfg id gs acc p)
  | [], acc, p, _, ha, _, _, hm, h => h acc ha hm
  | (k, g) :: rest, acc, p, hp, ha, hk, hg, hm, h => by
    rw [List.pairwise_cons] at hp
    have hlt : ∀ g', WithGroups B (acc.map Prod.fst) g' → lt g'.1 (.group k) := by
      rintro g' (hg | ⟨j, hj, rfl⟩)
      · exact hB.baseG _ hg _
      · obtain ⟨x, hx, rfl⟩ := List.mem_map.1 hj
        exact hB.groups _ _ (hk x hx (k, g) (by simp))
    have hk' := hB.stores g (hg (k, g) (by simp))
    have hst : ∀ g', WithGroups B (acc.map Prod.fst) g' → lt g'.1 (.store g.a) ∧ lt g'.1 (.store g.b) := by
      rintro g' (hb | ⟨j, hj, rfl⟩)
      · exact ⟨hB.baseS _ hb _, hB.baseS _ hb _⟩
      · exact hk' j
    refine ⟨hlt, ord_store ?_ (ord_store ?_ fun r => ?_)⟩
    · rintro g' (rfl | h')
      · exact (hk' _).1
      · exact (hst _ h').1
    · rintro g' (rfl | rfl | h')
      · exact hB.pair g (hg (k, g) (by simp))
      · exact (hk' _).2
      · exact (hst _ h').2
    · refine Ord.mono (H := WithGroups B (acc.map Prod.fst)) (p := match r with | .bool true => _ | _ => _) ?_ ?_
      · split
        · refine ⟨hlt, ?_⟩
          refine Ord.mono (ord_scanGroups hB id rest (acc ++ [(k, g)]) hp.2 ?_ ?_ (fun x hx => hg x (List.mem_cons_of_mem _ hx)) ?_ h) ?_
          · rw [List.pairwise_append]
            refine ⟨ha, by simp, ?_⟩
            intro x hx y hy
            simp only [List.mem_singleton] at hy; subst hy
            exact hk x hx _ (by simp)
          · intro x hx y hy
            rcases List.mem_append.1 hx with hx | hx
            · exact hk x hx y (List.mem_cons_of_mem _ hy)
            · simp only [List.mem_singleton] at hx; subst hx; exact hp.1 y hy
          · intro x hx
            rcases List.mem_append.1 hx with hx | hx
            · exact hm x hx
            · simp only [List.mem_singleton] at hx; subst hx; exact hg _ (by simp)
          · rintro g' (rfl | hg' | ⟨j, hj, rfl⟩)
            · exact .inr ⟨k, by simp, rfl⟩
            · exact .inl hg'
            · exact .inr ⟨j, by rw [List.map_append]; exact List.mem_append.2 (.inl hj), rfl⟩
        · exact ord_scanGroups hB id rest acc hp.2 ha (fun x hx y hy => hk x hx y (List.mem_cons_of_mem _ hy))
            (fun x hx => hg x (List.mem_cons_of_mem _ hx)) hm h
      · rintro g' ⟨h1, h2, h3, rfl | rfl | rfl | h4⟩
        · exact absurd rfl h3
        · exact absurd rfl h2
        · exact absurd rfl h1
        · exact h4

/-- Write guards on the storages `ts`. -/
def Stores (ts : List Nat) : Guard → Prop := fun g => ∃ t ∈ ts, g = (.store t, .mut)

theorem ord_eraseStores (id : Nat) {p : Prog V} (h : Ord lt (fun _ => False) p) :
    ∀ ts : List Nat, Ord lt (Stores ts) (eraseStores id ts p)
  | [] => h.mono fun g hg => by obtain ⟨t, ht, _⟩ := hg; cases ht
  | t :: rest => by
    intro r
    refine Ord.mono (p := eraseStores id rest p) (ord_eraseStores id h rest) ?_
    rintro g ⟨h1, u, hu, rfl⟩
    rcases List.mem_cons.1 hu with rfl | hu
    · exact absurd rfl h1
    · exact ⟨u, hu, rfl⟩

theorem ord_scanStores (id : Nat) : ∀ (ts acc : List Nat) {p : List Nat → Prog V},
    (ts.Pairwise fun t u => lt (.store t) (.store u)) → (∀ t ∈ acc, ∀ u ∈ ts, lt (.store t) (.store u)) →
    (∀ acc', Ord lt (Stores acc') (p acc')) → Ord lt (Stores acc) (scanStores id ts acc p)
  | [], acc, p, _, _, h => h acc
  | t :: rest, acc, p, hp, hk, h => by
    rw [List.pairwise_cons] at hp
    have hlt : ∀ g, Stores acc g → lt g.1 (.store t) := by
      rintro g ⟨u, hu, rfl⟩; exact hk u hu t (by simp)
    refine ⟨hlt, fun r => ?_⟩
    refine Ord.mono (H := Stores acc) (p := match r with | .bool true => _ | _ => _) ?_ ?_
    · split
      · refine ⟨hlt, ?_⟩
        refine Ord.mono (ord_scanStores id rest (acc ++ [t]) hp.2 ?_ h) ?_
        · intro u hu x hx
          rcases List.mem_append.1 hu with hu | hu
          · exact hk u hu x (List.mem_cons_of_mem _ hx)
          · simp only [List.mem_singleton] at hu; subst hu; exact hp.1 x hx
        · rintro g (rfl | ⟨u, hu, rfl⟩)
          · exact ⟨t, by simp, rfl⟩
          · exact ⟨u, by simp [hu], rfl⟩
      · exact ord_scanStores id rest acc hp.2 (fun u hu x hx => hk u hu x (List.mem_cons_of_mem _ hx)) h
    · rintro g ⟨h1, rfl | h2⟩
      · exact absurd rfl h1
      · exact h2

theorem ord_remove {cfg : Config} (hB : GroupsFirst (fun g => g ∈ cfg.groups) lt fun _ => False)
    (ho : cfg.order.Pairwise fun t u => lt (.store t) (.store u)) (id : Nat) :
    Ord (V := V) lt (fun _ => False) (remove cfg id) := by
  refine ⟨fun _ h => False.elim h, fun r => ?_⟩
  dsimp only
  split
  · refine Ord.mono (H := fun _ => False) (p := scanGroups cfg id cfg.indexed [] _) ?_ ?_
    · have hmem : ∀ x ∈ cfg.indexed, x.2 ∈ cfg.groups := fun x hx => List.mem_of_getElem? (indexed_mem hx)
      refine Ord.mono (ord_scanGroups hB id cfg.indexed [] (indexed_pairwise cfg) (by simp) (by simp) hmem (by simp) ?_)
        fun g h => .inl h
      intro acc h1 h2
      refine ord_groupLoop hB _ acc h2 (nodup_of_pairwise h1) ?_
      refine Ord.mono (ord_scanStores id cfg.order [] ho (by simp) fun ts => ord_eraseStores id ?_ ts) fun g h => False.elim h
      exact ⟨fun _ h => False.elim h, fun _ => trivial⟩
    · rintro g ⟨h1, rfl | h2⟩
      · exact absurd rfl h1
      · exact h2
  · trivial

/-! ### Queries -/

theorem openQuery_groupless {cfg : Config} (q : Query) : ∀ (p : Prog V), q.Groupless →
    openQuery cfg q p = q.accesses.foldr (fun x p => store cfg x.1 x.2 p) p := by
  induction q with
  | comp m t => intro p _; rfl
  | with2 a b iha ihb => intro p h; simp only [openQuery, iha _ h.1, ihb _ h.2, Query.accesses, List.foldr_append]
  | with3 a b c iha ihb ihc =>
    intro p h; simp only [openQuery, iha _ h.1, ihb _ h.2.1, ihc _ h.2.2, Query.accesses, List.foldr_append]
  | with4 a b c d iha ihb ihc ihd =>
    intro p h
    simp only [openQuery, iha _ h.1, ihb _ h.2.1, ihc _ h.2.2.1, ihd _ h.2.2.2, Query.accesses, List.foldr_append]
  | with5 a b c d e iha ihb ihc ihd ihe =>
    intro p h
    simp only [openQuery, iha _ h.1, ihb _ h.2.1, ihc _ h.2.2.1, ihd _ h.2.2.2.1, ihe _ h.2.2.2.2, Query.accesses,
      List.foldr_append]
  | withoutL a b iha ihb => intro p h; simp only [openQuery, iha _ h.1, ihb _ h.2, Query.accesses, List.foldr_append]
  | withoutR a b iha ihb => intro p h; simp only [openQuery, iha _ h.1, ihb _ h.2, Query.accesses, List.foldr_append]
  | group k ma mb a b => intro p h; exact False.elim h

theorem ord_stores {cfg : Config} {p : Prog V} (hp : ∀ H, Ord lt H p) : ∀ (l : List (Nat × Mode)) (H : Guard → Prop),
    (l.Pairwise fun x y => lt (.store x.1) (.store y.1)) → (∀ g, H g → ∀ x ∈ l, lt g.1 (.store x.1)) →
    Ord lt H (l.foldr (fun x p => store cfg x.1 x.2 p) p)
  | [], H, _, _ => hp H
  | x :: l, H, h1, h2 => by
    rw [List.pairwise_cons] at h1
    refine ord_store (fun g hg => h2 g hg x (by simp)) (ord_stores hp l _ h1.2 ?_)
    rintro g (rfl | hg) y hy
    · exact h1.1 y hy
    · exact h2 g hg y (List.mem_cons_of_mem _ hy)

theorem ord_collect {cfg : Config} (q : Query) (H : Guard → Prop) : Ord (V := V) lt H (.act (.collect q) fun r =>
      releaseAll (queryGuards cfg q) (.done [r])) :=
  fun r => ord_releaseAll (p := .done [r]) trivial _

theorem ord_query {cfg : Config} {q : Query} (h1 : q.Groupless)
    (h2 : q.accesses.Pairwise fun x y => lt (.store x.1) (.store y.1)) :
    Ord (V := V) lt (fun _ => False) ((ApiCall.query q).prog cfg) := by
  rw [ApiCall.prog, openQuery_groupless q _ h1]
  exact ord_stores (fun H => ord_collect q H) _ _ h2 fun g h => False.elim h

theorem ord_visitGroups {H : Guard → Prop} (hH : ∀ g, H g → ∀ k, lt g.1 (.group k)) {p : Prog V} (h : Ord lt H p) :
    ∀ ks : List Nat, Ord lt H (visitGroups ks p)
  | [] => h
  | k :: rest => by
    refine ⟨fun g hg => hH g hg k, ?_⟩
    refine Ord.mono (p := visitGroups rest p) (ord_visitGroups hH h rest) ?_
    rintro g ⟨h1, rfl | h2⟩
    · exact absurd rfl h1
    · exact h2

theorem ord_groupQuery {cfg : Config} (hs : ∀ t k, lt (.store t) (.group k)) {k : Kind} {ma mb : Mode} {a b : Nat}
    (hab : lt (.store a) (.store b)) :
    Ord (V := V) lt (fun _ => False) ((ApiCall.query (.group k ma mb a b)).prog cfg) := by
  simp only [ApiCall.prog, openQuery]
  split
  · refine ord_store (fun _ h => False.elim h) (ord_store ?_ ?_)
    · rintro g (rfl | h)
      · exact hab
      · exact False.elim h
    · have hH : ∀ g, (g = (Lock.store b, mb) ∨ g = (Lock.store a, ma) ∨ False) → ∀ k, lt g.1 (.group k) := by
        rintro g (rfl | rfl | h) j
        · exact hs _ _
        · exact hs _ _
        · exact False.elim h
      split
      · rename_i pos _
        exact ord_visitGroups hH (ord_visitGroups hH (p := .acq (.group pos) .ref _)
          ⟨fun g hg => hH g hg _, ord_collect _ _⟩ _) _
      · exact ord_visitGroups hH (p := .panic) trivial _
  · trivial

/-! ### The two orders -/

/-- The entity table, then the groups, then the storages. -/
def updateOrder (ρ : Nat → Nat) : Lock → Lock → Prop
  | .em, .group _ => True
  | .em, .store _ => True
  | .group j, .group k => j < k
  | .group _, .store _ => True
  | .store t, .store u => ρ t < ρ u
  | _, _ => False

theorem updateOrder_strict (ρ : Nat → Nat) : Strict (updateOrder ρ) where
  irrefl a := by cases a <;> simp [updateOrder]
  trans a b c h1 h2 := by
    cases a <;> cases b <;> cases c <;> simp only [updateOrder] at * <;> omega

/-- The entity table, then the storages, then the groups. -/
def scanOrder (ρ : Nat → Nat) : Lock → Lock → Prop
  | .em, .group _ => True
  | .em, .store _ => True
  | .store _, .group _ => True
  | .store t, .store u => ρ t < ρ u
  | _, _ => False

theorem scanOrder_strict (ρ : Nat → Nat) : Strict (scanOrder ρ) where
  irrefl a := by cases a <;> simp [scanOrder]
  trans a b c h1 h2 := by
    cases a <;> cases b <;> cases c <;> simp only [scanOrder] at * <;> omega

theorem groupsFirst {cfg : Config} {ρ : Nat → Nat} (hg : ∀ g ∈ cfg.groups, ρ g.a < ρ g.b) {B : Guard → Prop}
    (hB : ∀ g, B g → g.1 = .em) : GroupsFirst (fun g => g ∈ cfg.groups) (updateOrder ρ) B where
  baseG g h k := by rw [hB g h]; trivial
  baseS g h t := by rw [hB g h]; trivial
  groups j k h := h
  stores _ _ _ := ⟨trivial, trivial⟩
  pair g h := hg g h

/-- Calls that take at most one lock. -/
theorem ord_single {l : Lock} {m : Mode} {a : Act V} {f : Ret V → Prog V} (h : ∀ r, ∃ rs, f r = .rel l m (.done rs)) :
    Ord lt (fun _ => False) (.acq l m (.act a f)) := by
  refine ⟨fun _ h => False.elim h, fun r => ?_⟩
  obtain ⟨rs, e⟩ := h r
  rw [e]; trivial

theorem ord_call {cfg : Config} (hS : ∀ t, lt .em (.store t)) {c : ApiCall V}
    (hon : ∀ id s, c = .on id s → Changes cfg lt (fun g => g = (.em, .ref)) s ∨ Sys.plain s = true)
    (hcr : ∀ s, c = .create s → Changes cfg lt (fun g => g = (.em, .ref)) s ∨ Sys.plain s = true)
    (hrm : ∀ id, c = .remove id → Ord (V := V) lt (fun _ => False) (remove cfg id))
    (hq : ∀ q, c = .query q → Ord (V := V) lt (fun _ => False) ((ApiCall.query q).prog cfg)) :
    Ord lt (fun _ => False) (c.prog cfg) := by
  cases c with
  | create s =>
    refine ⟨fun _ h => False.elim h, fun r => ?_⟩
    cases r with
    | id id =>
      refine Ord.mono (p := handle cfg id s _) (ord_handle hS id s _ (hcr s rfl)) ?_
      rintro g ⟨h1, rfl | h2⟩
      · exact absurd rfl h1
      · exact h2
    | _ => trivial
  | on id s => exact ord_handle hS id s [] (hon id s rfl)
  | createMany n bs =>
    refine ⟨fun _ h => False.elim h, fun r => ?_⟩
    cases r with
    | range a b =>
      refine Ord.mono (H := fun _ => False) (p := .acq .em .ref _) ⟨fun _ h => False.elim h, ?_⟩ ?_
      · refine Ord.mono (H := fun g => g = (.em, .ref)) ?_ fun g hg => hg.resolve_right fun h => h
        exact ord_batches (fun g hg t => by rw [hg]; exact hS t) a b (p := .rel .em .ref (.done [.range a b])) trivial bs
      · rintro g ⟨h1, rfl | h2⟩
        · exact absurd rfl h1
        · exact h2
    | _ => trivial
  | fill start stop bs =>
    refine ⟨fun _ h => False.elim h, ?_⟩
    refine Ord.mono (H := fun g => g = (.em, .ref)) ?_ fun g hg => hg.resolve_right fun h => h
    exact ord_batches (fun g hg t => by rw [hg]; exact hS t) start stop
      (p := .rel .em .ref (.done [.range start stop])) trivial bs
  | remove id => exact hrm id rfl
  | exist id => exact ord_single fun r => ⟨_, rfl⟩
  | read t id => exact ord_read (fun _ h => False.elim h) t id fun _ => trivial
  | write t id v => exact ord_write (fun _ h => False.elim h) t id v fun _ => trivial
  | count t =>
    rw [ApiCall.prog]; split
    · exact ord_single fun r => ⟨_, rfl⟩
    · trivial
  | resRead t =>
    rw [ApiCall.prog]; split
    · exact ord_single fun r => ⟨_, rfl⟩
    · trivial
  | resWrite t v =>
    rw [ApiCall.prog]; split
    · exact ord_single fun r => ⟨_, rfl⟩
    · trivial
  | query q => exact hq q rfl

theorem ord_updating {cfg : Config} {ρ : Nat → Nat} (hg : ∀ g ∈ cfg.groups, ρ g.a < ρ g.b) (σ : Sys V) (i : Nat)
    (c : ApiCall V) (h : Sys.updating cfg ρ σ i c) : Ord (updateOrder ρ) (fun _ => False) (c.prog cfg) := by
  refine ord_call (fun _ => trivial) (fun _ _ _ => .inl (GroupsFirst.changes ?_ _))
    (fun _ _ => .inl (GroupsFirst.changes ?_ _)) ?_ ?_
  · exact groupsFirst hg fun g h => by rw [h]
  · exact groupsFirst hg fun g h => by rw [h]
  · rintro id rfl; exact ord_remove (groupsFirst hg fun _ h => False.elim h) h id
  · rintro q rfl; exact ord_query h.1 h.2

theorem ord_scanning {cfg : Config} {ρ : Nat → Nat} (σ : Sys V) (i : Nat)
    (c : ApiCall V) (h : Sys.scanning ρ σ i c) : Ord (scanOrder ρ) (fun _ => False) (c.prog cfg) := by
  refine ord_call (fun _ => trivial) ?_ ?_ ?_ ?_
  · rintro id s rfl; exact .inr h
  · rintro s rfl; exact .inr h
  · rintro id rfl; exact False.elim h
  · rintro q rfl
    cases q with
    | group k ma mb a b => exact ord_groupQuery (fun _ _ => trivial) h
    | _ => exact ord_query h.1 h.2

end Prog

/-- Reachable states of ordered clients. -/
theorem ord_sched {lt : Lock → Lock → Prop} (hlt : Strict lt) {cfg : Config} {may : Sys V → Nat → ApiCall V → Prop}
    (hm : ∀ σ i c, may σ i c → (c.prog cfg).Ord lt (fun _ => False)) {w : World V} {n : Nat} {σ : Sys V}
    (h : (Sys.init w n).Sched cfg may σ) : AllOrd lt σ :=
  h.inv (P := AllOrd lt) (.init w n) fun _ _ h hs => h.step hlt hm hs

theorem freeb_iff {σ : Sys V} {l : Lock} {m : Mode} : σ.freeb l m = true ↔ σ.Free l m := by
  simp only [Sys.freeb, Sys.Free, List.all_eq_true, decide_eq_true_eq]

theorem deadlock_of {σ : Sys V} (h : σ.deadlockb = true) : σ.Deadlock := by
  simp only [Sys.deadlockb, Bool.and_eq_true, List.any_eq_true, List.all_eq_true] at h
  obtain ⟨⟨th, hth, hc⟩, h2⟩ := h
  refine ⟨?_, ?_⟩
  · obtain ⟨i, hi⟩ := List.getElem?_of_mem hth
    exact ⟨i, th, hi, fun e => by rw [e] at hc; cases hc⟩
  · rintro i ⟨th, hi, hc⟩
    have := h2 th (List.mem_of_getElem? hi)
    simp only [Bool.or_eq_true, Option.isNone_iff_eq_none] at this
    rcases this with h | h
    · exact absurd h hc
    · split at h
      · rename_i l m p hp
        refine ⟨th, l, m, p, hi, hp, ?_⟩
        simp only [Bool.or_eq_true, Bool.not_eq_true', Bool.and_eq_true, beq_iff_eq, List.any_eq_true] at h
        rcases h with h | ⟨h, thj, hj, h'⟩
        · exact .inl fun hf => by rw [freeb_iff.2 hf] at h; cases h
        · refine .inr ⟨h, thj, hj, ?_⟩
          split at h'
          · rename_i l' p' hp'
            have := eq_of_beq h'; subst this
            exact ⟨p', hp'⟩
          · cases h'
      · cases h

theorem Sys.Sched.policy {cfg : Config} {may may' : Sys V → Nat → ApiCall V → Prop}
    (hm : ∀ σ i c, may σ i c → may' σ i c) {σ σ' : Sys V} (h : σ.Sched cfg may σ') : σ.Sched cfg may' σ' := by
  induction h with
  | refl => exact .refl
  | step _ hs ih =>
    refine .step ih ?_
    cases hs with
    | start h1 h2 h3 => exact .start h1 h2 (hm _ _ _ h3)
    | acq h1 h2 h3 => exact .acq h1 h2 h3
    | rel h1 h2 => exact .rel h1 h2
    | act h1 h2 h3 => exact .act h1 h2 h3
    | fault h1 h2 h3 h4 => exact .fault h1 h2 h3 h4
    | panic h1 h2 h3 => exact .panic h1 h2 h3
    | ret h1 h2 h3 => exact .ret h1 h2 h3

/-- Clients that never deadlock finish their calls. -/
theorem drains {cfg : Config} {σ : Sys V} (hd : ∀ σ', σ.Sched cfg Sys.nothing σ' → ¬ σ'.Deadlock) :
    ∃ σ', σ.Sched cfg Sys.nothing σ' ∧ σ'.Quiet := by
  have key : ∀ σ1 : Sys V, Acc (fun σ' σ : Sys V => σ.Step cfg Sys.nothing σ') σ1 → σ.Sched cfg Sys.nothing σ1 →
      ∃ σ', σ.Sched cfg Sys.nothing σ' ∧ σ'.Quiet := by
    intro σ1 ha
    induction ha with
    | intro σ1 _ ih =>
      intro hs
      by_cases hq : σ1.Quiet
      · exact ⟨σ1, hs, hq⟩
      · have hrun : ∃ i, σ1.Running i := Classical.byContradiction fun hn => hq fun th hth => by
          obtain ⟨i, hi⟩ := List.getElem?_of_mem hth
          exact Classical.byContradiction fun hc => hn ⟨i, th, hi, hc⟩
        have : ∃ i, σ1.Running i ∧ ¬ σ1.Blocked i := Classical.byContradiction fun hn => hd σ1 hs
          ⟨hrun, fun i hi => Classical.byContradiction fun hb => hn ⟨i, hi, hb⟩⟩
        obtain ⟨i, h1, h2⟩ := this
        obtain ⟨σ2, h3, _⟩ := running_step (cfg := cfg) (may := Sys.nothing) h1 h2
        exact ih σ2 h3 (.step hs h3)
  exact key σ (step_acc σ) .refl

end Xecs
