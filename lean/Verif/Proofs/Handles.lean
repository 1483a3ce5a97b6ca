import Verif.Proofs.Local
import Verif.Proofs.RobustEm
/-
What the read guard on the entity table that a handle holds protects.
-/
set_option autoImplicit false
namespace Xecs
variable {V : Type}

theorem matches_of {w : World V} {order : List Nat} (h : Enumerates w order) : Matches (Config.of w order) w :=
  ⟨rfl, fun t => h.2 t, h.1, fun _ => rfl⟩

theorem Sys.AboutTo.thread {σ : Sys V} {i : Nat} {a : Act V} (h : σ.AboutTo i a) :
    ∃ th f, σ.threads[i]? = some th ∧ th.prog = .act a f := by
  simp only [Sys.AboutTo, Option.bind_eq_some_iff] at h
  obtain ⟨th, h1, h2⟩ := h
  cases hp : th.prog with
  | act b f => rw [hp] at h2; simp [Prog.work] at h2; subst h2; exact ⟨th, f, h1, hp⟩
  | _ => rw [hp] at h2; simp [Prog.work] at h2

/-- The types registered in a history. -/
def regTypes : List (Spec.Op V × Spec.Out V) → List Nat
  | [] => []
  | (.register t, _) :: tr => t :: regTypes tr
  | _ :: tr => regTypes tr

theorem registered_iff {tr : List (Spec.Op V × Spec.Out V)} {t : Nat} :
    Hist.registered t tr = true ↔ t ∈ regTypes tr := by
  induction tr with
  | nil => simp [Hist.registered, regTypes]
  | cons x tr ih =>
    obtain ⟨op, o⟩ := x
    cases op with
    | register u =>
      simp only [Hist.registered, regTypes, Bool.or_eq_true, beq_iff_eq, List.mem_cons, ih]
      exact or_congr ⟨Eq.symm, Eq.symm⟩ Iff.rfl
    | _ => simpa only [Hist.registered, regTypes] using ih

theorem enumerates_of {tr : List (Spec.Op V × Spec.Out V)} {w : World V} (h : Wild tr w) {order : List Nat}
    (hn : order.Nodup) (ho : ∀ t, t ∈ order ↔ Hist.registered t tr = true) : Enumerates w order := by
  refine ⟨hn, fun t => ?_⟩
  rw [ho]
  have := wild_stTags h t
  simp only [stTags] at this
  simp only [World.hasRegistered]
  cases hc : w.comps t <;> rw [hc] at this <;> cases hr : Hist.registered t tr <;> simp [hr] at this ⊢

/-- Invariants that hold in every schedule. -/
structure Basics (cfg : Config) (σ : Sys V) : Prop where
  excl : Excl σ
  safe : AllSafe cfg σ
  mat : Matches cfg σ.world
  idle : ∀ th ∈ σ.threads, th.call = none → th = .idle

/-- Threads between calls are idle. -/
theorem idle_step {cfg : Config} {may : Sys V → Nat → ApiCall V → Prop} {σ σ' : Sys V}
    (h : ∀ th ∈ σ.threads, th.call = none → th = .idle) (hs : σ.Step cfg may σ') :
    ∀ th ∈ σ'.threads, th.call = none → th = .idle := by
  have key : ∀ {i : Nat} {th' : Thread V} {w : World V}, (th'.call = none → th' = .idle) →
      ∀ th ∈ ({ σ with world := w }.setThread i th').threads, th.call = none → th = .idle := by
    intro i th' w h' th hth hc
    rcases List.mem_or_eq_of_mem_set hth with h1 | h1
    · exact h th h1 hc
    · subst h1; exact h' hc
  cases hs with
  | start h1 h2 h3 => exact key (w := σ.world) (by simp)
  | acq h1 h2 h3 =>
    refine key (w := σ.world) fun hc => ?_
    have := h _ (List.mem_of_getElem? h1) hc
    subst this; simp [Thread.idle] at h2
  | rel h1 h2 =>
    refine key (w := σ.world) fun hc => ?_
    have := h _ (List.mem_of_getElem? h1) hc
    subst this; simp [Thread.idle] at h2
  | act h1 h2 h3 =>
    refine key fun hc => ?_
    have := h _ (List.mem_of_getElem? h1) hc
    subst this; simp [Thread.idle] at h2
  | fault h1 h2 h3 h4 => exact key fun _ => rfl
  | panic h1 h2 h3 => exact key (w := σ.world) fun _ => rfl
  | ret h1 h2 h3 => exact key (w := σ.world) fun _ => rfl

theorem Basics.init {w : World V} {order : List Nat} (h : Enumerates w order) (n : Nat) :
    Basics (Config.of w order) (Sys.init w n) := ⟨.init w n, .init _ w n, matches_of h, fun _ hth _ => (List.mem_replicate.1 hth).2⟩

theorem Basics.step {cfg : Config} {may : Sys V → Nat → ApiCall V → Prop} {σ σ' : Sys V} (h : Basics cfg σ)
    (hs : σ.Step cfg may σ') : Basics cfg σ' := ⟨h.excl.step hs, h.safe.step hs, h.mat.step hs, idle_step h.idle hs⟩

theorem Basics.sched {cfg : Config} {may : Sys V → Nat → ApiCall V → Prop} {σ σ' : Sys V} (h : Basics cfg σ)
    (hs : σ.Sched cfg may σ') : Basics cfg σ' := hs.inv h fun _ _ h hs => h.step hs

/-- A thread that works holds what it needs. -/
theorem Basics.covers {cfg : Config} {σ : Sys V} (h : Basics cfg σ) {i : Nat} {th : Thread V} {a : Act V}
    {f : Ret V → Prog V} (hi : σ.threads[i]? = some th) (hp : th.prog = .act a f) {g : Guard}
    (hg : g ∈ a.footprint cfg) : Covers th.held g := by
  have := h.safe i th hi
  rw [hp] at this
  exact this.1 g hg

/-- While some thread holds a read guard on the entity table, no work modifies it. -/
theorem Basics.em_kept {cfg : Config} {σ : Sys V} (h : Basics cfg σ) {i j : Nat} {th thj : Thread V} {a : Act V}
    {f : Ret V → Prog V} (hi : σ.threads[i]? = some th) (hp : th.prog = .act a f)
    (hj : σ.threads[j]? = some thj) (hh : (Lock.em, Mode.ref) ∈ thj.held) :
    (a.run σ.world).1.em = σ.world.em := by
  apply (run_frame h.mat.groups (r := (a.run σ.world).2) rfl).em
  intro hm
  have hc : (Lock.em, Mode.mut) ∈ th.held := by
    rcases h.covers hi hp hm with h1 | h1 <;> exact h1
  by_cases hij : i = j
  · subst hij
    rw [hi] at hj; simp at hj; subst hj
    have hpw := h.excl.own i th hi
    obtain ⟨p, hp', e1⟩ := List.getElem_of_mem hc
    obtain ⟨q, hq', e2⟩ := List.getElem_of_mem hh
    rw [List.pairwise_iff_getElem] at hpw
    rcases Nat.lt_trichotomy p q with hlt | heq | hgt
    · exact hpw p q hp' hq' hlt (by rw [e1, e2]; exact ⟨rfl, .inl rfl⟩)
    · subst heq; rw [e1] at e2; simp at e2
    · exact hpw q p hq' hp' hgt (by rw [e1, e2]; exact ⟨rfl, .inr rfl⟩)
  · exact h.excl.cross i j th thj hi hj hij _ hc _ hh ⟨rfl, .inl rfl⟩

/-- A step while some thread holds a read guard on the entity table leaves the table alone. -/
theorem Basics.em_step {cfg : Config} {may : Sys V → Nat → ApiCall V → Prop} {σ σ' : Sys V} (h : Basics cfg σ)
    (hs : σ.Step cfg may σ') {j : Nat} (hj : σ.HoldsHandle j) : σ'.world.em = σ.world.em := by
  obtain ⟨thj, hj, hh⟩ := hj
  cases hs with
  | act h1 h2 h3 =>
    have := h.em_kept h1 h2 hj hh
    rw [h3] at this; exact this
  | fault h1 h2 h3 _ =>
    have := h.em_kept h1 h2 hj hh
    rw [h3] at this; exact this
  | _ => rfl

/-! ### Work through a handle concerns a live entity -/

/-- Along the program: whenever work is done through a handle, the id is in `K`, the set of ids found to be
alive since the guard on the entity table was taken. -/
def Prog.Knows : List Nat → List Guard → Prog V → Prop
  | _, _, .done _ => True
  | _, _, .panic => True
  | K, held, .acq l m p => Knows K ((l, m) :: held) p
  | K, held, .rel l m p => Knows (if l = .em then [] else K) (held.erase (l, m)) p
  | K, held, .act a f => (∀ id, a.through = some id → id ∈ K) ∧ (∀ r,
      Knows K held (f r) ∨ ∃ id, a = .has id ∧ r = .bool true ∧ (Lock.em, Mode.ref) ∈ held ∧ Knows (id :: K) held (f r))

namespace Prog

theorem knows_store {cfg : Config} {K : List Nat} {held : List Guard} {t : Nat} {m : Mode} {p : Prog V}
    (h : ∀ held, Knows K held p) : Knows K held (store cfg t m p) := by
  unfold store
  split
  · exact h _
  · trivial

theorem knows_rel {K : List Nat} {held : List Guard} {l : Lock} {m : Mode} {p : Prog V} (hl : l ≠ .em)
    (h : ∀ held, Knows K held p) : Knows K held (.rel l m p) := by
  simp only [Knows, hl, if_false]; exact h _

theorem knows_relEm {K : List Nat} {held : List Guard} {m : Mode} {p : Prog V}
    (h : ∀ held, Knows [] held p) : Knows K held (.rel .em m p) := by
  simp only [Knows, if_true]; exact h _

theorem knows_lockGroups {K : List Nat} (t : Nat) (gs : List (Nat × Shape)) : ∀ {held : List Guard} {p : Prog V},
    (∀ held, Knows K held p) → Knows K held (lockGroups t gs p) := by
  induction gs with
  | nil => intro held p h; exact h _
  | cons x rest ih =>
    intro held p h
    obtain ⟨k, g⟩ := x
    simp only [lockGroups]
    refine knows_rel (held := _ :: held) (by simp) fun _ => ?_
    split
    · exact ih h
    · exact ih h

theorem knows_groupLoop {cfg : Config} {K : List Nat} {id : Nat} (hid : id ∈ K) (a : Nat → Act V)
    (ha : ∀ k, (a k).through = some id) (gs : List (Nat × Shape)) : ∀ {held : List Guard} {p : Prog V},
    (∀ held, Knows K held p) → Knows K held (groupLoop cfg a gs p) := by
  induction gs with
  | nil => intro held p h; exact h _
  | cons x rest ih =>
    intro held p h
    obtain ⟨k, g⟩ := x
    simp only [groupLoop, groupStep]
    refine knows_store fun _ => knows_store fun _ => ⟨?_, fun r => .inl ?_⟩
    · intro id' hid'; rw [ha] at hid'; simp at hid'; subst hid'; exact hid
    · exact knows_rel (by simp) fun _ => knows_rel (by simp) fun _ => knows_rel (by simp) fun _ => ih h

theorem knows_attach {cfg : Config} {K : List Nat} {held : List Guard} {id t : Nat} {v : V} {p : Prog V}
    (hid : id ∈ K) (h : ∀ held, Knows K held p) : Knows K held (attach cfg id t v p) := by
  unfold attach
  split
  · refine ⟨fun id' h' => ?_, fun _ => .inl (knows_rel (by simp) fun _ => knows_lockGroups _ _ fun _ =>
      knows_groupLoop hid _ (fun _ => rfl) _ h)⟩
    simp [Act.through] at h'; subst h'; exact hid
  · trivial

theorem knows_detach {cfg : Config} {K : List Nat} {held : List Guard} {id t : Nat} {p : Ret V → Prog V}
    (hid : id ∈ K) (h : ∀ r held, Knows K held (p r)) : Knows K held (detach cfg id t p) := by
  unfold detach
  split
  · refine knows_lockGroups _ _ fun _ => knows_groupLoop hid _ (fun _ => rfl) _ fun _ => ?_
    refine ⟨fun id' h' => ?_, fun r => .inl (knows_rel (by simp) (h r))⟩
    simp [Act.through] at h'; subst h'; exact hid
  · trivial

theorem knows_read {cfg : Config} {K : List Nat} {held : List Guard} {id t : Nat} {p : Ret V → Prog V}
    (h : ∀ r held, Knows K held (p r)) : Knows K held (read cfg t id p) := by
  unfold read
  split
  · exact ⟨fun id' h' => by simp [Act.through] at h', fun r => .inl (knows_rel (by simp) (h r))⟩
  · exact h _ _

theorem knows_write {cfg : Config} {K : List Nat} {held : List Guard} {id t : Nat} {v : V} {p : Ret V → Prog V}
    (h : ∀ r held, Knows K held (p r)) : Knows K held (write cfg t id v p) := by
  unfold write
  split
  · exact ⟨fun id' h' => by simp [Act.through] at h', fun r => .inl (knows_rel (by simp) (h r))⟩
  · exact h _ _

theorem knows_script {cfg : Config} {K : List Nat} {id : Nat} (hid : id ∈ K) (ops : List (HOp V)) :
    ∀ {held : List Guard} {acc : List (Ret V)} {p : List (Ret V) → Prog V},
    (∀ rs held, Knows K held (p rs)) → Knows K held (script cfg id ops acc p) := by
  induction ops with
  | nil => intro held acc p h; exact h _ _
  | cons o ops ih =>
    intro held acc p h
    cases o with
    | attach t v => exact knows_attach hid fun _ => ih h
    | detach t => exact knows_detach hid fun _ _ => ih h
    | read t => exact knows_read fun _ _ => ih h
    | write t v => exact knows_write fun _ _ => ih h

theorem knows_handle {cfg : Config} {held : List Guard} {id : Nat} (ops : List (HOp V)) (acc : List (Ret V)) :
    Knows [] held (handle cfg id ops acc) := by
  refine ⟨fun id' h' => by simp [Act.through] at h', fun r => ?_⟩
  dsimp only
  split
  · exact .inr ⟨id, rfl, rfl, by simp, knows_script (by simp) ops fun _ _ => trivial⟩
  · exact .inl trivial

theorem knows_batches {cfg : Config} {K : List Nat} {start stop : Nat} (bs : List (Nat × List V)) :
    ∀ {held : List Guard} {p : Prog V}, (∀ held, Knows K held p) → Knows K held (batches cfg start stop bs p) := by
  induction bs with
  | nil => intro held p h; exact h _
  | cons b bs ih =>
    intro held p h
    obtain ⟨t, vs⟩ := b
    simp only [batches]
    split
    · exact knows_store fun _ => ⟨fun id' h' => by simp [Act.through] at h',
        fun r => .inl (knows_rel (by simp) fun _ => ih h)⟩
    · trivial

theorem knows_groupLoop' {cfg : Config} {K : List Nat} (a : Nat → Act V)
    (ha : ∀ k, (a k).through = none) (gs : List (Nat × Shape)) : ∀ {held : List Guard} {p : Prog V},
    (∀ held, Knows K held p) → Knows K held (groupLoop cfg a gs p) := by
  induction gs with
  | nil => intro held p h; exact h _
  | cons x rest ih =>
    intro held p h
    obtain ⟨k, g⟩ := x
    simp only [groupLoop, groupStep]
    refine knows_store fun _ => knows_store fun _ => ⟨?_, fun r => .inl ?_⟩
    · intro id' hid'; rw [ha] at hid'; simp at hid'
    · exact knows_rel (by simp) fun _ => knows_rel (by simp) fun _ => knows_rel (by simp) fun _ => ih h

theorem knows_scanGroups {cfg : Config} {K : List Nat} {id : Nat} (gs : List (Nat × Shape)) :
    ∀ {held : List Guard} {acc : List (Nat × Shape)} {p : List (Nat × Shape) → Prog V},
    (∀ acc held, Knows K held (p acc)) → Knows K held (scanGroups cfg id gs acc p) := by
  induction gs with
  | nil => intro held acc p h; exact h _ _
  | cons x rest ih =>
    intro held acc p h
    obtain ⟨k, g⟩ := x
    simp only [scanGroups]
    show Knows _ _ _
    refine knows_store fun _ => knows_store fun _ => ⟨fun id' h' => by simp [Act.through] at h', fun r => .inl ?_⟩
    refine knows_rel (by simp) fun _ => knows_rel (by simp) fun _ => knows_rel (by simp) fun _ => ?_
    split
    · exact ih h
    · exact ih h

theorem knows_scanStores {K : List Nat} {id : Nat} (ts : List Nat) :
    ∀ {held : List Guard} {acc : List Nat} {p : List Nat → Prog V},
    (∀ acc held, Knows K held (p acc)) → Knows K held (scanStores id ts acc p) := by
  induction ts with
  | nil => intro held acc p h; exact h _ _
  | cons t rest ih =>
    intro held acc p h
    simp only [scanStores]
    show Knows _ _ _
    refine ⟨fun id' h' => by simp [Act.through] at h', fun r => .inl (knows_rel (by simp) fun _ => ?_)⟩
    split
    · exact ih h
    · exact ih h

theorem knows_eraseStores {K : List Nat} {id : Nat} (ts : List Nat) : ∀ {held : List Guard} {p : Prog V},
    (∀ held, Knows K held p) → Knows K held (eraseStores id ts p) := by
  induction ts with
  | nil => intro held p h; exact h _
  | cons t rest ih =>
    intro held p h
    exact ⟨fun id' h' => by simp [Act.through] at h', fun r => .inl (knows_rel (by simp) fun _ => ih h)⟩

theorem knows_remove {cfg : Config} {held : List Guard} {id : Nat} : Knows [] held (remove cfg id : Prog V) := by
  refine ⟨fun id' h' => by simp [Act.through] at h', fun r => .inl ?_⟩
  dsimp only
  split
  · refine knows_relEm fun _ => ?_
    refine knows_scanGroups _ fun _ _ => knows_groupLoop' _ (fun _ => rfl) _ fun _ =>
      knows_scanStores _ fun _ _ => knows_eraseStores _ fun _ => ?_
    exact ⟨fun id' h' => by simp [Act.through] at h', fun r => .inl trivial⟩
  · trivial

theorem knows_visitGroups {K : List Nat} (ks : List Nat) : ∀ {held : List Guard} {p : Prog V},
    (∀ held, Knows K held p) → Knows K held (visitGroups ks p) := by
  induction ks with
  | nil => intro held p h; exact h _
  | cons k ks ih => intro held p h; exact knows_rel (by simp) fun _ => ih h

theorem knows_openQuery {cfg : Config} {K : List Nat} (q : Query) : ∀ {held : List Guard} {p : Prog V},
    (∀ held, Knows K held p) → Knows K held (openQuery cfg q p) := by
  induction q with
  | comp m t => intro held p h; exact knows_store h
  | with2 a b iha ihb => intro held p h; exact iha fun _ => ihb h
  | withoutL a b iha ihb => intro held p h; exact iha fun _ => ihb h
  | withoutR a b iha ihb => intro held p h; exact iha fun _ => ihb h
  | with3 a b c iha ihb ihc => intro held p h; exact iha fun _ => ihb fun _ => ihc h
  | with4 a b c d iha ihb ihc ihd => intro held p h; exact iha fun _ => ihb fun _ => ihc fun _ => ihd h
  | with5 a b c d e iha ihb ihc ihd ihe =>
    intro held p h; exact iha fun _ => ihb fun _ => ihc fun _ => ihd fun _ => ihe h
  | group k ma mb a b =>
    intro held p h
    simp only [openQuery]
    split
    · refine knows_store fun _ => knows_store fun _ => ?_
      split
      · exact knows_visitGroups _ fun _ => knows_visitGroups _ fun _ => h _
      · exact knows_visitGroups _ fun _ => trivial
    · trivial

theorem knows_releaseAll {p : Prog V} (h : ∀ K held, Knows K held p) (gs : List Guard) :
    ∀ {K : List Nat} {held : List Guard}, Knows K held (releaseAll gs p) := by
  induction gs with
  | nil => intro K held; exact h _ _
  | cons g gs ih => intro K held; exact ih

theorem knows_call {cfg : Config} {held : List Guard} (c : ApiCall V) : Knows [] held (c.prog cfg) := by
  cases c with
  | create script =>
    refine ⟨fun id' h' => by simp [Act.through] at h', fun r => .inl ?_⟩
    dsimp only
    split
    · exact knows_relEm fun _ => knows_handle _ _
    · trivial
  | on id script => exact knows_handle _ _
  | createMany n bs =>
    refine ⟨fun id' h' => by simp [Act.through] at h', fun r => .inl ?_⟩
    dsimp only
    split
    · exact knows_relEm fun _ => knows_batches (held := _ :: _) _ fun _ => trivial
    · trivial
  | fill start stop bs => exact knows_batches (held := _ :: _) _ fun _ => trivial
  | remove id => exact knows_remove
  | exist id => exact ⟨fun id' h' => by simp [Act.through] at h', fun r => .inl trivial⟩
  | read t id => exact knows_read fun _ _ => trivial
  | write t id v => exact knows_write fun _ _ => trivial
  | count t =>
    simp only [ApiCall.prog]
    split
    · exact ⟨fun id' h' => by simp [Act.through] at h', fun r => .inl trivial⟩
    · trivial
  | resRead t =>
    simp only [ApiCall.prog]
    split
    · exact ⟨fun id' h' => by simp [Act.through] at h', fun r => .inl trivial⟩
    · trivial
  | resWrite t v =>
    simp only [ApiCall.prog]
    split
    · exact ⟨fun id' h' => by simp [Act.through] at h', fun r => .inl trivial⟩
    · trivial
  | query q =>
    simp only [ApiCall.prog]
    refine knows_openQuery q fun _ => ⟨fun id' h' => by simp [Act.through] at h', fun r => .inl ?_⟩
    exact knows_releaseAll (p := .done [r]) (fun _ _ => trivial) _

end Prog

/-- Each thread knows some ids to be alive, and works through handles on these only. -/
def Informed (σ : Sys V) : Prop :=
  ∀ (i : Nat) th, σ.threads[i]? = some th → ∃ K, Prog.Knows K th.held th.prog ∧
    (K ≠ [] → (Lock.em, Mode.ref) ∈ th.held) ∧ ∀ id ∈ K, σ.world.em.has id = .ok true

theorem Informed.init (w : World V) (n : Nat) : Informed (Sys.init w n) := by
  intro i th h
  have := List.mem_of_getElem? h
  rw [Sys.init, List.mem_replicate] at this
  rw [this.2]
  exact ⟨[], trivial, fun h => absurd rfl h, fun _ h => by simp at h⟩

theorem Informed.step {cfg : Config} {may : Sys V → Nat → ApiCall V → Prop} {σ σ' : Sys V} (hb : Basics cfg σ)
    (h : Informed σ) (hs : σ.Step cfg may σ') : Informed σ' := by
  have others : ∀ {i : Nat} {th' : Thread V} {σ' : Sys V}, σ.Step cfg may σ' →
      (∀ j, σ'.threads[j]? = if j = i then some th' else σ.threads[j]?) →
      (∃ K, Prog.Knows K th'.held th'.prog ∧ (K ≠ [] → (Lock.em, Mode.ref) ∈ th'.held) ∧
        ∀ id ∈ K, σ'.world.em.has id = .ok true) → Informed σ' := by
    intro i th' σ' hs hth hi j thj hj
    rw [hth] at hj
    split at hj
    · simp at hj; subst hj; exact hi
    · obtain ⟨K, h1, h2, h3⟩ := h j thj hj
      refine ⟨K, h1, h2, fun id hid => ?_⟩
      have hne : K ≠ [] := by intro h'; rw [h'] at hid; simp at hid
      rw [hb.em_step hs ⟨thj, hj, h2 hne⟩]
      exact h3 id hid
  have fresh : ∃ K, Prog.Knows K (Thread.idle : Thread V).held (Thread.idle : Thread V).prog ∧
      (K ≠ [] → (Lock.em, Mode.ref) ∈ (Thread.idle : Thread V).held) ∧
        ∀ id ∈ K, σ'.world.em.has id = .ok true :=
    ⟨[], trivial, fun h => absurd rfl h, fun _ h => by simp at h⟩
  have hs0 := hs
  cases hs with
  | start h1 _ _ =>
    refine others hs0 (fun j => setThread_threads σ _ _ j h1) ?_
    exact ⟨[], Prog.knows_call _, fun h => absurd rfl h, fun _ h => by simp at h⟩
  | acq h1 h2 h3 =>
    rename_i i th l m p
    refine others hs0 (fun j => setThread_threads σ _ _ j h1) ?_
    obtain ⟨K, k1, k2, k3⟩ := h _ _ h1
    rw [h2] at k1
    exact ⟨K, k1, fun hk => List.mem_cons_of_mem _ (k2 hk), k3⟩
  | rel h1 h2 =>
    rename_i i th l m p
    refine others hs0 (fun j => setThread_threads σ _ _ j h1) ?_
    obtain ⟨K, k1, k2, k3⟩ := h _ _ h1
    rw [h2] at k1
    refine ⟨_, k1, fun hk => ?_, fun id hid => ?_⟩
    · split at hk
      · exact absurd rfl hk
      · next hl =>
        exact (List.mem_erase_of_ne (by intro e; exact hl (congrArg Prod.fst e).symm)).2 (k2 hk)
    · split at hid
      · simp at hid
      · exact k3 id hid
  | act h1 h2 h3 =>
    rename_i i th a f w r
    refine others hs0 (fun j => setThread_threads { σ with world := _ } _ _ j h1) ?_
    obtain ⟨K, k1, k2, k3⟩ := h _ _ h1
    rw [h2] at k1
    have hem : K ≠ [] → w.em = σ.world.em := fun hk => hb.em_step hs0 ⟨th, h1, k2 hk⟩
    rcases k1.2 r with k | ⟨id, rfl, rfl, hin, k⟩
    · refine ⟨K, k, k2, fun id hid => ?_⟩
      have hne : K ≠ [] := by intro h'; rw [h'] at hid; simp at hid
      show w.em.has id = _
      rw [hem hne]; exact k3 id hid
    · refine ⟨id :: K, k, fun _ => hin, fun id' hid => ?_⟩
      show w.em.has id' = _
      have hw : w.em = σ.world.em := hb.em_step hs0 ⟨th, h1, hin⟩
      rw [hw]
      rcases List.mem_cons.1 hid with rfl | hid
      · rcases bindM_cases h3 with ⟨w1, b, e1, e2⟩ | ⟨e, e1, e2⟩
        · simp only [World.exist, M.read, Prod.mk.injEq] at e1
          simp only [M.pure_apply, Prod.mk.injEq, Except.ok.injEq, Ret.bool.injEq] at e2
          rw [e1.2, e2.2]
        · simp at e2
      · exact k3 id' hid
  | fault h1 _ _ _ => exact others hs0 (fun j => setThread_threads { σ with world := _ } _ _ j h1) fresh
  | panic h1 _ _ => exact others hs0 (fun j => setThread_threads σ _ _ j h1) fresh
  | ret h1 _ _ => exact others hs0 (fun j => setThread_threads σ _ _ j h1) fresh

end Xecs
