import Verif.Spec.Threads
/-
Guards: exclusion, and the guards held whenever work is done.
-/
set_option autoImplicit false
namespace Xecs
variable {V : Type}

/-! ### Setting one thread -/

theorem setThread_threads (σ : Sys V) (i : Nat) (th : Thread V) (j : Nat) {th0 : Thread V}
    (h : σ.threads[i]? = some th0) :
    (σ.setThread i th).threads[j]? = if j = i then some th else σ.threads[j]? := by
  simp only [Sys.setThread, List.getElem?_set]
  have hl := (List.getElem?_eq_some_iff.1 h).1
  by_cases hij : j = i
  · subst hij; simp [hl]
  · have : ¬ i = j := fun h => hij h.symm
    simp [hij, this]

/-- A step changes one thread. -/
theorem Sys.Step.threads {cfg : Config} {may : Sys V → Nat → ApiCall V → Prop} {σ σ' : Sys V}
    (h : σ.Step cfg may σ') : ∃ (i : Nat) (th th' : Thread V), σ.threads[i]? = some th ∧
      ∀ (j : Nat), σ'.threads[j]? = if j = i then some th' else σ.threads[j]? := by
  cases h with
  | start h1 _ _ => exact ⟨_, _, _, h1, fun j => setThread_threads σ _ _ j h1⟩
  | acq h1 _ _ => exact ⟨_, _, _, h1, fun j => setThread_threads σ _ _ j h1⟩
  | rel h1 _ => exact ⟨_, _, _, h1, fun j => setThread_threads σ _ _ j h1⟩
  | act h1 _ _ => exact ⟨_, _, _, h1, fun j => setThread_threads { σ with world := _ } _ _ j h1⟩
  | fault h1 _ _ _ => exact ⟨_, _, _, h1, fun j => setThread_threads { σ with world := _ } _ _ j h1⟩
  | panic h1 _ _ => exact ⟨_, _, _, h1, fun j => setThread_threads σ _ _ j h1⟩
  | ret h1 _ _ => exact ⟨_, _, _, h1, fun j => setThread_threads σ _ _ j h1⟩

/-! ### Exclusion -/

/-- Exclusion, in a form convenient for induction. -/
structure Excl (σ : Sys V) : Prop where
  own : ∀ (i : Nat) th, σ.threads[i]? = some th → th.held.Pairwise fun g h => ¬ Guard.clash g h
  cross : ∀ (i j : Nat) thi thj, σ.threads[i]? = some thi → σ.threads[j]? = some thj → i ≠ j →
    ∀ g ∈ thi.held, ∀ h ∈ thj.held, ¬ Guard.clash g h

theorem clash_symm {g h : Guard} (hc : g.clash h) : h.clash g := ⟨hc.1.symm, hc.2.symm⟩

/-- Shrinking one thread's guards keeps exclusion. -/
theorem Excl.shrink {σ σ' : Sys V} (h : Excl σ) {i : Nat} {th th' : Thread V} (hi : σ.threads[i]? = some th)
    (hth : ∀ j, σ'.threads[j]? = if j = i then some th' else σ.threads[j]?)
    (hs : th'.held.Sublist th.held) : Excl σ' := by
  constructor
  · intro j thj hj
    rw [hth] at hj
    by_cases hji : j = i
    · simp only [hji, if_true, Option.some.injEq] at hj; subst hj
      exact (h.own i th hi).sublist hs
    · simp only [hji, if_false] at hj; exact h.own j thj hj
  · intro a b tha thb ha hb hab g hg g' hg'
    rw [hth] at ha hb
    by_cases hai : a = i
    · simp only [hai, if_true, Option.some.injEq] at ha; subst ha
      have hbi : b ≠ i := fun e => hab (hai.trans e.symm)
      simp only [hbi, if_false] at hb
      exact h.cross i b th thb hi hb (fun e => hbi e.symm) g (hs.subset hg) g' hg'
    · simp only [hai, if_false] at ha
      by_cases hbi : b = i
      · simp only [hbi, if_true, Option.some.injEq] at hb; subst hb
        exact h.cross a i tha th ha hi hai g hg g' (hs.subset hg')
      · simp only [hbi, if_false] at hb
        exact h.cross a b tha thb ha hb hab g hg g' hg'

theorem Excl.step {cfg : Config} {may : Sys V → Nat → ApiCall V → Prop} {σ σ' : Sys V} (h : Excl σ)
    (hs : σ.Step cfg may σ') : Excl σ' := by
  cases hs with
  | start h1 _ _ => exact h.shrink h1 (fun j => setThread_threads σ _ _ j h1) (List.nil_sublist _)
  | rel h1 _ => exact h.shrink h1 (fun j => setThread_threads σ _ _ j h1) (List.erase_sublist)
  | act h1 _ _ => exact h.shrink h1 (fun j => setThread_threads { σ with world := _ } _ _ j h1) (List.Sublist.refl _)
  | fault h1 _ _ _ =>
    exact h.shrink h1 (fun j => setThread_threads { σ with world := _ } _ _ j h1) (List.nil_sublist _)
  | panic h1 _ _ => exact h.shrink h1 (fun j => setThread_threads σ _ _ j h1) (List.nil_sublist _)
  | ret h1 _ _ => exact h.shrink h1 (fun j => setThread_threads σ _ _ j h1) (List.nil_sublist _)
  | acq h1 h2 h3 =>
    rename_i i th l m p
    have hth := fun j => setThread_threads σ i { th with prog := p, held := (l, m) :: th.held } j h1
    have hmem : ∀ (j : Nat) thj, σ.threads[j]? = some thj → thj ∈ σ.threads := fun j thj hj => List.mem_of_getElem? hj
    constructor
    · intro j thj hj
      rw [hth] at hj
      by_cases hji : j = i
      · simp only [hji, if_true, Option.some.injEq] at hj; subst hj
        rw [List.pairwise_cons]
        exact ⟨fun g hg => h3 th (hmem i th h1) g hg, h.own i th h1⟩
      · simp only [hji, if_false] at hj; exact h.own j thj hj
    · intro a b tha thb ha hb hab g hg g' hg'
      rw [hth] at ha hb
      by_cases hai : a = i
      · simp only [hai, if_true, Option.some.injEq] at ha; subst ha
        have hbi : b ≠ i := fun e => hab (hai.trans e.symm)
        simp only [hbi, if_false] at hb
        rcases List.mem_cons.1 hg with rfl | hg
        · exact h3 thb (hmem b thb hb) g' hg'
        · exact h.cross i b th thb h1 hb (fun e => hbi e.symm) g hg g' hg'
      · simp only [hai, if_false] at ha
        by_cases hbi : b = i
        · simp only [hbi, if_true, Option.some.injEq] at hb; subst hb
          rcases List.mem_cons.1 hg' with rfl | hg'
          · exact fun hc => h3 tha (hmem a tha ha) g hg (clash_symm hc)
          · exact h.cross a i tha th ha h1 hai g hg g' hg'
        · simp only [hbi, if_false] at hb
          exact h.cross a b tha thb ha hb hab g hg g' hg'

theorem Excl.init (w : World V) (n : Nat) : Excl (Sys.init w n) := by
  have : ∀ (i : Nat) th, (Sys.init w n).threads[i]? = some th → th.held = [] := by
    intro i th h
    have := List.mem_of_getElem? h
    rw [Sys.init, List.mem_replicate] at this
    rw [this.2]; rfl
  constructor
  · intro i th h; rw [this i th h]; exact List.Pairwise.nil
  · intro i j thi thj h _ _ g hg; rw [this i thi h] at hg; simp at hg

theorem Excl.exclusive {σ : Sys V} (h : Excl σ) : σ.Exclusive := by
  intro i j p q thi thj g g' hi hj hp hq hne
  by_cases hij : i = j
  · subst hij
    rw [hi] at hj; simp at hj; subst hj
    have hpq : p ≠ q := fun e => hne (by rw [e])
    have hpw := List.pairwise_iff_getElem.1 (h.own i thi hi)
    obtain ⟨hp', rfl⟩ := List.getElem?_eq_some_iff.1 hp
    obtain ⟨hq', rfl⟩ := List.getElem?_eq_some_iff.1 hq
    rcases Nat.lt_or_ge p q with hlt | hge
    · exact hpw p q hp' hq' hlt
    · exact fun hc => hpw q p hq' hp' (by omega) (clash_symm hc)
  · exact h.cross i j thi thj hi hj hij g (List.mem_of_getElem? hp) g' (List.mem_of_getElem? hq)

/-! ### Guards held when work is done -/

namespace Prog

/-- All along the program, work is done only under the guards it needs, guards are dropped only if held,
and none is left at the end. -/
def Safe (cfg : Config) : List Guard → Prog V → Prop
  | held, .done _ => held = []
  | _, .panic => True
  | held, .acq l m p => Safe cfg ((l, m) :: held) p
  | held, .rel l m p => (l, m) ∈ held ∧ Safe cfg (held.erase (l, m)) p
  | held, .act a f => (∀ g ∈ a.footprint cfg, Covers held g) ∧ ∀ r, Safe cfg held (f r)

theorem Safe.perm {cfg : Config} {p : Prog V} : ∀ {held held' : List Guard}, held.Perm held' →
    Safe cfg held p → Safe cfg held' p := by
  induction p with
  | done rs => intro h h' hp hs; simp only [Safe] at *; subst hs; exact hp.nil_eq.symm
  | panic => intro _ _ _ _; trivial
  | acq l m p ih => intro h h' hp hs; exact ih (hp.cons _) hs
  | rel l m p ih => intro h h' hp hs; exact ⟨hp.subset hs.1, ih (hp.erase _) hs.2⟩
  | act a f ih =>
    intro h h' hp hs
    refine ⟨fun g hg => ?_, fun r => ih r hp (hs.2 r)⟩
    rcases hs.1 g hg with h1 | h1
    · exact .inl (hp.subset h1)
    · exact .inr (hp.subset h1)

theorem safe_rel {cfg : Config} {held : List Guard} {l : Lock} {m : Mode} {p : Prog V}
    (h : Safe cfg held p) : Safe cfg ((l, m) :: held) (.rel l m p) := by
  refine ⟨by simp, ?_⟩
  simpa using h

theorem safe_store {cfg : Config} {held : List Guard} {t : Nat} {m : Mode} {p : Prog V}
    (h : Safe cfg ((.store t, m) :: held) p) : Safe cfg held (store cfg t m p) := by
  unfold store
  split
  · exact h
  · trivial

/-- The guards of the groups in a list. -/
def groupGuards (gs : List (Nat × Shape)) : List Guard := gs.map fun x => (.group x.1, .mut)

theorem safe_lockGroups {cfg : Config} (t : Nat) (gs : List (Nat × Shape)) : ∀ {held : List Guard} {p : Prog V},
    Safe cfg (groupGuards (gs.filter fun x => x.2.touches t) ++ held) p →
    Safe cfg held (lockGroups t gs p) := by
  induction gs with
  | nil => intro held p h; exact h
  | cons x rest ih =>
    intro held p h
    obtain ⟨k, g⟩ := x
    simp only [lockGroups]
    show Safe cfg _ _
    refine safe_rel ?_
    split
    next hg =>
      apply ih
      rw [List.filter_cons_of_pos (by exact hg)] at h
      refine h.perm ?_
      exact List.perm_middle.symm
    next hg =>
      apply ih
      rw [List.filter_cons_of_neg (by exact hg)] at h
      exact h

theorem footprint_pair {cfg : Config} {m : Mode} {k : Nat} {g : Shape} (h : cfg.groups[k]? = some g) :
    Act.footprint.pair cfg m k = [(.group k, m), (.store g.a, g.modeA), (.store g.b, g.modeB)] := by
  simp [Act.footprint.pair, h]

theorem mem_indexed {cfg : Config} {x : Nat × Shape} (h : x ∈ cfg.indexed) : cfg.groups[x.1]? = some x.2 := by
  simp only [Config.indexed, List.mem_mapIdx] at h
  obtain ⟨i, hi, rfl⟩ := h
  exact List.getElem?_eq_getElem hi

theorem safe_groupLoop {cfg : Config} (a : Nat → Act V)
    (ha : ∀ k, (a k).footprint cfg = Act.footprint.pair cfg .mut k) (gs : List (Nat × Shape)) :
    (∀ x ∈ gs, cfg.groups[x.1]? = some x.2) → ∀ {held : List Guard} {p : Prog V},
    Safe cfg held p → Safe cfg (groupGuards gs ++ held) (groupLoop cfg a gs p) := by
  induction gs with
  | nil => intro _ held p h; exact h
  | cons x rest ih =>
    intro hx held p h
    obtain ⟨k, g⟩ := x
    have hk : cfg.groups[k]? = some g := hx (k, g) (by simp)
    simp only [groupLoop, groupStep, groupGuards, List.map_cons, List.cons_append]
    refine safe_store (safe_store ⟨?_, fun _ => safe_rel (safe_rel (safe_rel ?_))⟩)
    · intro y hy
      rw [ha, footprint_pair hk] at hy
      left
      simp only [List.mem_cons, List.not_mem_nil, or_false] at hy ⊢
      rcases hy with rfl | rfl | rfl <;> simp
    · exact ih (fun x hx' => hx x (List.mem_cons_of_mem _ hx')) h

theorem touching_indexed {cfg : Config} {t : Nat} : ∀ x ∈ touching cfg t, cfg.groups[x.1]? = some x.2 :=
  fun _ hx => mem_indexed (List.mem_filter.1 hx).1

theorem safe_attach {cfg : Config} {held : List Guard} {id t : Nat} {v : V} {p : Prog V}
    (h : Safe cfg held p) : Safe cfg held (attach cfg id t v p) := by
  unfold attach
  split
  · refine ⟨by intro g hg; simp [Act.footprint] at hg; subst hg; left; simp, fun _ => safe_rel ?_⟩
    apply safe_lockGroups
    exact safe_groupLoop _ (fun k => rfl) _ touching_indexed h
  · trivial

theorem safe_detach {cfg : Config} {held : List Guard} {id t : Nat} {p : Ret V → Prog V}
    (h : ∀ r, Safe cfg held (p r)) : Safe cfg held (detach cfg id t p) := by
  unfold detach
  split
  · apply safe_lockGroups
    apply safe_groupLoop _ (fun k => rfl) _ touching_indexed
    exact ⟨by intro g hg; simp [Act.footprint] at hg; subst hg; left; simp, fun r => safe_rel (h r)⟩
  · trivial

theorem safe_read {cfg : Config} {held : List Guard} {id t : Nat} {p : Ret V → Prog V}
    (h : ∀ r, Safe cfg held (p r)) : Safe cfg held (read cfg t id p) := by
  unfold read
  split
  · exact ⟨by intro g hg; simp [Act.footprint] at hg; subst hg; left; simp, fun r => safe_rel (h r)⟩
  · exact h _

theorem safe_write {cfg : Config} {held : List Guard} {id t : Nat} {v : V} {p : Ret V → Prog V}
    (h : ∀ r, Safe cfg held (p r)) : Safe cfg held (write cfg t id v p) := by
  unfold write
  split
  · exact ⟨by intro g hg; simp [Act.footprint] at hg; subst hg; left; simp, fun r => safe_rel (h r)⟩
  · exact h _

theorem safe_script {cfg : Config} {held : List Guard} {id : Nat} (ops : List (HOp V)) :
    ∀ {acc : List (Ret V)} {p : List (Ret V) → Prog V},
    (∀ rs, Safe cfg held (p rs)) → Safe cfg held (script cfg id ops acc p) := by
  induction ops with
  | nil => intro acc p h; exact h _
  | cons o ops ih =>
    intro acc p h
    cases o with
    | attach t v => exact safe_attach (ih h)
    | detach t => exact safe_detach fun r => ih h
    | read t => exact safe_read fun r => ih h
    | write t v => exact safe_write fun r => ih h

theorem safe_handle {cfg : Config} {id : Nat} (ops : List (HOp V)) (acc : List (Ret V)) :
    Safe cfg [] (handle cfg id ops acc) := by
  refine ⟨by intro g hg; simp [Act.footprint] at hg; subst hg; left; simp, fun r => ?_⟩
  dsimp only
  split
  · exact safe_script ops fun rs => safe_rel rfl
  · trivial

theorem safe_batches {cfg : Config} {held : List Guard} {start stop : Nat} (bs : List (Nat × List V)) :
    ∀ {p : Prog V}, Safe cfg held p → Safe cfg held (batches cfg start stop bs p) := by
  induction bs with
  | nil => intro p h; exact h
  | cons b bs ih =>
    intro p h
    obtain ⟨t, vs⟩ := b
    simp only [batches]
    split
    · refine safe_store ⟨by intro g hg; simp [Act.footprint] at hg; subst hg; left; simp, fun r => safe_rel (ih h)⟩
    · trivial

theorem safe_scanGroups {cfg : Config} {id : Nat} (gs : List (Nat × Shape)) :
    (∀ x ∈ gs, cfg.groups[x.1]? = some x.2) →
    ∀ {held : List Guard} {acc : List (Nat × Shape)} {p : List (Nat × Shape) → Prog V},
    (∀ x ∈ acc, cfg.groups[x.1]? = some x.2) →
    (∀ acc, (∀ x ∈ acc, cfg.groups[x.1]? = some x.2) → Safe cfg (groupGuards acc ++ held) (p acc)) →
    Safe cfg (groupGuards acc ++ held) (scanGroups cfg id gs acc p) := by
  induction gs with
  | nil => intro _ held acc p ha h; exact h acc ha
  | cons x rest ih =>
    intro hx held acc p ha h
    obtain ⟨k, g⟩ := x
    have hk : cfg.groups[k]? = some g := hx (k, g) (by simp)
    have hrest := fun x hx' => hx x (List.mem_cons_of_mem _ hx')
    simp only [scanGroups]
    show Safe cfg _ _
    refine safe_store (safe_store ⟨?_, fun r => safe_rel (safe_rel (safe_rel ?_))⟩)
    · intro y hy
      simp only [Act.footprint, hk, List.mem_cons, List.not_mem_nil, or_false] at hy
      left
      rcases hy with rfl | rfl | rfl <;> simp
    · split
      · show Safe cfg _ _
        have := ih hrest (held := held) (acc := acc ++ [(k, g)]) (p := p) (by
          intro x hx'
          rcases List.mem_append.1 hx' with h1 | h1
          · exact ha x h1
          · simp at h1; subst h1; exact hk) h
        refine this.perm ?_
        simp only [groupGuards, List.map_append, List.map_cons, List.map_nil, List.append_assoc]
        exact List.perm_middle
      · exact ih hrest ha h

/-- The guards of the storages in a list. -/
def storeGuards (ts : List Nat) : List Guard := ts.map fun t => (.store t, .mut)

theorem safe_scanStores {cfg : Config} {id : Nat} (ts : List Nat) :
    ∀ {held : List Guard} {acc : List Nat} {p : List Nat → Prog V},
    (∀ acc, Safe cfg (storeGuards acc ++ held) (p acc)) →
    Safe cfg (storeGuards acc ++ held) (scanStores id ts acc p) := by
  induction ts with
  | nil => intro held acc p h; exact h acc
  | cons t rest ih =>
    intro held acc p h
    simp only [scanStores]
    show Safe cfg _ _
    refine ⟨by intro g hg; simp [Act.footprint] at hg; subst hg; left; simp, fun r => safe_rel ?_⟩
    split
    · show Safe cfg _ _
      have := ih (held := held) (acc := acc ++ [t]) (p := p) h
      refine this.perm ?_
      simp only [storeGuards, List.map_append, List.map_cons, List.map_nil, List.append_assoc]
      exact List.perm_middle
    · exact ih h

theorem safe_eraseStores {cfg : Config} {id : Nat} {held : List Guard} {p : Prog V} (h : Safe cfg held p)
    (ts : List Nat) : Safe cfg (storeGuards ts ++ held) (eraseStores id ts p) := by
  induction ts with
  | nil => exact h
  | cons t rest ih =>
    simp only [eraseStores, storeGuards, List.map_cons, List.cons_append]
    exact ⟨by intro g hg; simp [Act.footprint] at hg; subst hg; left; simp, fun r => safe_rel ih⟩

theorem safe_remove {cfg : Config} {id : Nat} : Safe cfg [] (remove cfg id : Prog V) := by
  refine ⟨by intro g hg; simp [Act.footprint] at hg; subst hg; left; simp, fun r => ?_⟩
  dsimp only
  split
  · apply safe_rel
    refine safe_scanGroups (acc := []) (held := []) cfg.indexed (fun x hx => mem_indexed hx) (by simp) ?_
    intro acc hacc
    apply safe_groupLoop _ (fun k => rfl) _ hacc
    refine safe_scanStores (acc := []) (held := []) cfg.order ?_
    intro ts
    apply safe_eraseStores
    refine ⟨by intro g hg; simp [Act.footprint] at hg; subst hg; left; simp, fun r => safe_rel rfl⟩
  · trivial

theorem safe_visitGroups {cfg : Config} {held : List Guard} {p : Prog V} (h : Safe cfg held p) (ks : List Nat) :
    Safe cfg held (visitGroups ks p) := by
  induction ks with
  | nil => exact h
  | cons k ks ih => exact safe_rel ih

theorem safe_openQuery {cfg : Config} (q : Query) : ∀ {held : List Guard} {p : Prog V},
    Safe cfg (queryGuards cfg q ++ held) p → Safe cfg held (openQuery cfg q p) := by
  induction q with
  | comp m t => intro held p h; exact safe_store h
  | with2 a b iha ihb =>
    intro held p h
    refine iha (ihb (h.perm ?_))
    simp only [queryGuards, List.append_assoc]
    exact List.perm_append_comm_assoc _ _ _
  | withoutL a b iha ihb =>
    intro held p h
    refine iha (ihb (h.perm ?_))
    simp only [queryGuards, List.append_assoc]
    exact List.perm_append_comm_assoc _ _ _
  | withoutR a b iha ihb =>
    intro held p h
    refine iha (ihb (h.perm ?_))
    simp only [queryGuards, List.append_assoc]
    exact List.perm_append_comm_assoc _ _ _
  | with3 a b c iha ihb ihc =>
    intro held p h
    refine iha (ihb (ihc (h.perm ?_)))
    simp only [queryGuards, List.append_assoc]
    rw [List.perm_iff_count]; intro x; simp only [List.count_append]; omega
  | with4 a b c d iha ihb ihc ihd =>
    intro held p h
    refine iha (ihb (ihc (ihd (h.perm ?_))))
    simp only [queryGuards, List.append_assoc]
    rw [List.perm_iff_count]; intro x; simp only [List.count_append]; omega
  | with5 a b c d e iha ihb ihc ihd ihe =>
    intro held p h
    refine iha (ihb (ihc (ihd (ihe (h.perm ?_)))))
    simp only [queryGuards, List.append_assoc]
    rw [List.perm_iff_count]; intro x; simp only [List.count_append]; omega
  | group k ma mb a b =>
    intro held p h
    simp only [openQuery]
    split
    · apply safe_store; apply safe_store
      split
      next pos hpos =>
        apply safe_visitGroups; apply safe_visitGroups
        show Safe cfg _ _
        simp only [queryGuards, hpos] at h
        refine h.perm ?_
        rw [List.perm_iff_count]; intro x
        simp only [List.count_append, List.count_cons, List.count_nil]; omega
      next hpos => exact safe_visitGroups (show Safe cfg _ .panic from trivial) _
    · trivial

theorem safe_releaseAll {cfg : Config} {held : List Guard} {p : Prog V} (h : Safe cfg held p) (gs : List Guard) :
    Safe cfg (gs ++ held) (releaseAll gs p) := by
  induction gs with
  | nil => exact h
  | cons g gs ih => exact safe_rel ih

/-- Every call is well-behaved. -/
theorem safe_call {cfg : Config} (c : ApiCall V) : Safe cfg [] (c.prog cfg) := by
  cases c with
  | create script =>
    refine ⟨by intro g hg; simp [Act.footprint] at hg; subst hg; left; simp, fun r => ?_⟩
    dsimp only
    split
    · exact safe_rel (safe_handle _ _)
    · trivial
  | on id script => exact safe_handle _ _
  | createMany n bs =>
    refine ⟨by intro g hg; simp [Act.footprint] at hg; subst hg; left; simp, fun r => ?_⟩
    dsimp only
    split
    · exact safe_rel (safe_batches (held := [(.em, .ref)]) bs (safe_rel rfl))
    · trivial
  | fill start stop bs =>
    exact safe_batches (held := [(.em, .ref)]) bs (safe_rel rfl)
  | remove id => exact safe_remove
  | exist id => exact ⟨by intro g hg; simp [Act.footprint] at hg; subst hg; left; simp, fun r => safe_rel rfl⟩
  | read t id => exact safe_read fun r => rfl
  | write t id v => exact safe_write fun r => rfl
  | count t =>
    simp only [ApiCall.prog]
    split
    · exact ⟨by intro g hg; simp [Act.footprint] at hg; subst hg; left; simp, fun r => safe_rel rfl⟩
    · rfl
  | resRead t =>
    simp only [ApiCall.prog]
    split
    · exact ⟨by intro g hg; simp [Act.footprint] at hg; subst hg; left; simp, fun r => safe_rel rfl⟩
    · rfl
  | resWrite t v =>
    simp only [ApiCall.prog]
    split
    · exact ⟨by intro g hg; simp [Act.footprint] at hg; subst hg; left; simp, fun r => safe_rel rfl⟩
    · rfl
  | query q =>
    simp only [ApiCall.prog]
    apply safe_openQuery
    rw [List.append_nil]
    refine ⟨fun g hg => .inl hg, fun r => ?_⟩
    have := safe_releaseAll (cfg := cfg) (held := []) (p := (Prog.done [r] : Prog V)) rfl (queryGuards cfg q)
    rwa [List.append_nil] at this

end Prog

/-- Every thread is well-behaved. -/
def AllSafe (cfg : Config) (σ : Sys V) : Prop :=
  ∀ (i : Nat) th, σ.threads[i]? = some th → Prog.Safe cfg th.held th.prog

theorem AllSafe.init (cfg : Config) (w : World V) (n : Nat) : AllSafe cfg (Sys.init w n) := by
  intro i th h
  have := List.mem_of_getElem? h
  rw [Sys.init, List.mem_replicate] at this
  rw [this.2]; rfl

theorem AllSafe.step {cfg : Config} {may : Sys V → Nat → ApiCall V → Prop} {σ σ' : Sys V} (h : AllSafe cfg σ)
    (hs : σ.Step cfg may σ') : AllSafe cfg σ' := by
  have key : ∀ {i : Nat} {th th' : Thread V} {σ' : Sys V}, (∀ j, σ'.threads[j]? = if j = i then some th' else σ.threads[j]?) →
      Prog.Safe cfg th'.held th'.prog → AllSafe cfg σ' := by
    intro i _ th' σ' hth hsafe j thj hj
    rw [hth] at hj
    split at hj
    · simp at hj; subst hj; exact hsafe
    · exact h j thj hj
  cases hs with
  | start h1 _ _ => exact key (th := Thread.idle) (fun j => setThread_threads σ _ _ j h1) (Prog.safe_call _)
  | acq h1 h2 h3 =>
    refine key (th := Thread.idle) (fun j => setThread_threads σ _ _ j h1) ?_
    have := h _ _ h1; rw [h2] at this; exact this
  | rel h1 h2 =>
    refine key (th := Thread.idle) (fun j => setThread_threads σ _ _ j h1) ?_
    have := h _ _ h1; rw [h2] at this; exact this.2
  | act h1 h2 h3 =>
    refine key (th := Thread.idle) (fun j => setThread_threads { σ with world := _ } _ _ j h1) ?_
    have := h _ _ h1; rw [h2] at this; exact this.2 _
  | fault h1 _ _ _ =>
    exact key (th := Thread.idle) (fun j => setThread_threads { σ with world := _ } _ _ j h1)
      (show Prog.Safe cfg [] (.done []) from rfl)
  | panic h1 _ _ =>
    exact key (th := Thread.idle) (fun j => setThread_threads σ _ _ j h1) (show Prog.Safe cfg [] (.done []) from rfl)
  | ret h1 _ _ =>
    exact key (th := Thread.idle) (fun j => setThread_threads σ _ _ j h1) (show Prog.Safe cfg [] (.done []) from rfl)

/-- Induction over schedules. -/
theorem Sys.Sched.inv {cfg : Config} {may : Sys V → Nat → ApiCall V → Prop} {σ0 σ : Sys V} {P : Sys V → Prop}
    (h : σ0.Sched cfg may σ) (h0 : P σ0) (hs : ∀ σ σ', P σ → σ.Step cfg may σ' → P σ') : P σ := by
  induction h with
  | refl => exact h0
  | step _ h ih => exact hs _ _ ih h

end Xecs
