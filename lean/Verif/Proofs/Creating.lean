import Verif.Proofs.Handles
/-
Concurrent creation of entities.
-/
set_option autoImplicit false
namespace Xecs
variable {V : Type}

/-- Does not change the entity table. -/
def Act.leavesEm : Act V → Prop
  | .allocate => False
  | .allocateN _ => False
  | .emRemove _ => False
  | _ => True

/-- The program never changes the entity table. -/
def Prog.NoEm : Prog V → Prop
  | .done _ => True
  | .panic => True
  | .acq _ _ p => NoEm p
  | .rel _ _ p => NoEm p
  | .act a f => a.leavesEm ∧ ∀ r, NoEm (f r)

/-- The program returns `x` first; if `b` is false it returns nothing but `x`, and does nothing but ask whether
ids of `x` are in use. -/
def Prog.Gives (b : Bool) (x : Ret V) : Prog V → Prop
  | .done rs => rs.head? = some x ∧ (b = false → rs = [x])
  | .panic => b = true
  | .acq _ _ p => Gives b x p
  | .rel _ _ p => Gives b x p
  | .act a f => a.leavesEm ∧ ((b = true ∧ ∀ r, Gives b x (f r)) ∨
      ∃ id ∈ x.ids, a = .has id ∧ Gives b x (f (.bool true)))

/-- The program allocates ids, then returns them. -/
def Prog.Allocates (c : ApiCall V) (b : Bool) : Prog V → Prop
  | .acq _ _ p => Allocates c b p
  | .rel _ _ p => Allocates c b p
  | .act .allocate f => (∃ s, c = .create s) ∧ ∀ id, Gives b (.id id) (f (.id id))
  | .act (.allocateN n) f => (∃ bs, c = .createMany n bs) ∧
      ∀ a, Gives b (.range a (a + n)) (f (.range a (a + n)))
  | _ => False

namespace Prog

/-- A property of programs that holds of all programs built without changing the entity table. -/
structure Robust (P : Prog V → Prop) : Prop where
  panic : P .panic
  acq : ∀ l m p, P p → P (.acq l m p)
  rel : ∀ l m p, P p → P (.rel l m p)
  act : ∀ a f, Act.leavesEm a → (∀ r, P (f r)) → P (.act a f)

theorem robust_noEm : Robust (NoEm (V := V)) := ⟨trivial, fun _ _ _ h => h, fun _ _ _ h => h, fun _ _ h h' => ⟨h, h'⟩⟩

theorem robust_gives (x : Ret V) : Robust (Gives true x) :=
  ⟨rfl, fun _ _ _ h => h, fun _ _ _ h => h, fun _ _ h h' => ⟨h, .inl ⟨rfl, h'⟩⟩⟩

section
variable {P : Prog V → Prop} (hP : Robust P)
include hP

theorem robust_store {cfg : Config} {t : Nat} {m : Mode} {p : Prog V} (h : P p) : P (store cfg t m p) := by
  unfold store
  split
  · exact hP.acq _ _ _ h
  · exact hP.panic

theorem robust_lockGroups (t : Nat) (gs : List (Nat × Shape)) {p : Prog V} (h : P p) : P (lockGroups t gs p) := by
  induction gs with
  | nil => exact h
  | cons x rest ih =>
    obtain ⟨k, g⟩ := x
    simp only [lockGroups]
    refine hP.acq _ _ _ (hP.rel _ _ _ ?_)
    split
    · exact hP.acq _ _ _ ih
    · exact ih

theorem robust_groupLoop {cfg : Config} (a : Nat → Act V) (ha : ∀ k, (a k).leavesEm) (gs : List (Nat × Shape))
    {p : Prog V} (h : P p) : P (groupLoop cfg a gs p) := by
  induction gs with
  | nil => exact h
  | cons x rest ih =>
    obtain ⟨k, g⟩ := x
    exact robust_store hP (robust_store hP (hP.act _ _ (ha k) fun _ =>
      hP.rel _ _ _ (hP.rel _ _ _ (hP.rel _ _ _ ih))))

theorem robust_attach {cfg : Config} {id t : Nat} {v : V} {p : Prog V} (h : P p) : P (attach cfg id t v p) := by
  unfold attach
  split
  · exact hP.acq _ _ _ (hP.act _ _ trivial fun _ => hP.rel _ _ _ (robust_lockGroups hP _ _
      (robust_groupLoop hP (fun k => .groupAdd k id) (fun _ => trivial) _ h)))
  · exact hP.panic

theorem robust_detach {cfg : Config} {id t : Nat} {p : Ret V → Prog V} (h : ∀ r, P (p r)) :
    P (detach cfg id t p) := by
  unfold detach
  split
  · exact robust_lockGroups hP _ _ (robust_groupLoop hP (fun k => .groupRemove k id) (fun _ => trivial) _
      (hP.acq _ _ _ (hP.act _ _ trivial fun r => hP.rel _ _ _ (h r))))
  · exact hP.panic

theorem robust_read {cfg : Config} {id t : Nat} {p : Ret V → Prog V} (h : ∀ r, P (p r)) :
    P (read cfg t id p) := by
  unfold read
  split
  · exact hP.acq _ _ _ (hP.act _ _ trivial fun r => hP.rel _ _ _ (h r))
  · exact h _

theorem robust_write {cfg : Config} {id t : Nat} {v : V} {p : Ret V → Prog V} (h : ∀ r, P (p r)) :
    P (write cfg t id v p) := by
  unfold write
  split
  · exact hP.acq _ _ _ (hP.act _ _ trivial fun r => hP.rel _ _ _ (h r))
  · exact h _

theorem robust_script {cfg : Config} {id : Nat} {x : Ret V} (ops : List (HOp V)) :
    ∀ {acc : List (Ret V)} {p : List (Ret V) → Prog V}, acc.head? = some x →
    (∀ rs, rs.head? = some x → P (p rs)) → P (script cfg id ops acc p) := by
  induction ops with
  | nil => intro acc p ha h; exact h _ ha
  | cons o ops ih =>
    intro acc p ha h
    have hacc : ∀ r, (acc ++ [r]).head? = some x := by intro r; cases acc <;> simp_all
    cases o with
    | attach t v => exact robust_attach hP (ih (hacc _) h)
    | detach t => exact robust_detach hP fun r => ih (hacc _) h
    | read t => exact robust_read hP fun r => ih (hacc _) h
    | write t v => exact robust_write hP fun r => ih (hacc _) h

theorem robust_script' {cfg : Config} {id : Nat} (ops : List (HOp V)) :
    ∀ {acc : List (Ret V)} {p : List (Ret V) → Prog V},
    (∀ rs, P (p rs)) → P (script cfg id ops acc p) := by
  induction ops with
  | nil => intro acc p h; exact h _
  | cons o ops ih =>
    intro acc p h
    cases o with
    | attach t v => exact robust_attach hP (ih h)
    | detach t => exact robust_detach hP fun r => ih h
    | read t => exact robust_read hP fun r => ih h
    | write t v => exact robust_write hP fun r => ih h

theorem robust_batches {cfg : Config} {start stop : Nat} (bs : List (Nat × List V)) {p : Prog V} (h : P p) :
    P (batches cfg start stop bs p) := by
  induction bs with
  | nil => exact h
  | cons b bs ih =>
    obtain ⟨t, vs⟩ := b
    simp only [batches]
    split
    · exact robust_store hP (hP.act _ _ trivial fun _ => hP.rel _ _ _ ih)
    · exact hP.panic

theorem robust_visitGroups (ks : List Nat) {p : Prog V} (h : P p) : P (visitGroups ks p) := by
  induction ks with
  | nil => exact h
  | cons k ks ih => exact hP.acq _ _ _ (hP.rel _ _ _ ih)

theorem robust_openQuery {cfg : Config} (q : Query) : ∀ {p : Prog V}, P p → P (openQuery cfg q p) := by
  induction q with
  | comp m t => intro p h; exact robust_store hP h
  | with2 a b iha ihb => intro p h; exact iha (ihb h)
  | withoutL a b iha ihb => intro p h; exact iha (ihb h)
  | withoutR a b iha ihb => intro p h; exact iha (ihb h)
  | with3 a b c iha ihb ihc => intro p h; exact iha (ihb (ihc h))
  | with4 a b c d iha ihb ihc ihd => intro p h; exact iha (ihb (ihc (ihd h)))
  | with5 a b c d e iha ihb ihc ihd ihe => intro p h; exact iha (ihb (ihc (ihd (ihe h))))
  | group k ma mb a b =>
    intro p h
    simp only [openQuery]
    split
    · refine robust_store hP (robust_store hP ?_)
      split
      · exact robust_visitGroups hP _ (robust_visitGroups hP _ (hP.acq _ _ _ h))
      · exact robust_visitGroups hP _ hP.panic
    · exact hP.panic

theorem robust_releaseAll (gs : List Guard) {p : Prog V} (h : P p) : P (releaseAll gs p) := by
  induction gs with
  | nil => exact h
  | cons g gs ih => exact hP.rel _ _ _ ih

end

theorem noEm_call {cfg : Config} {c : ApiCall V} (h1 : ∀ s, c ≠ .create s) (h2 : ∀ n bs, c ≠ .createMany n bs)
    (h3 : ∀ id, c ≠ .remove id) : NoEm (c.prog cfg) := by
  have hP := robust_noEm (V := V)
  cases c with
  | create s => exact absurd rfl (h1 s)
  | createMany n bs => exact absurd rfl (h2 n bs)
  | remove id => exact absurd rfl (h3 id)
  | on id script =>
    refine hP.acq _ _ _ (hP.act _ _ trivial fun r => ?_)
    split
    · exact robust_script' hP _ fun rs => hP.rel _ _ _ trivial
    · exact hP.panic
  | fill start stop bs => exact hP.acq _ _ _ (robust_batches hP _ (hP.rel _ _ _ trivial))
  | exist id => exact hP.acq _ _ _ (hP.act _ _ trivial fun r => hP.rel _ _ _ trivial)
  | read t id => exact robust_read hP fun r => trivial
  | write t id v => exact robust_write hP fun r => trivial
  | count t =>
    simp only [ApiCall.prog]
    split
    · exact hP.acq _ _ _ (hP.act _ _ trivial fun r => hP.rel _ _ _ trivial)
    · trivial
  | resRead t =>
    simp only [ApiCall.prog]
    split
    · exact hP.acq _ _ _ (hP.act _ _ trivial fun r => hP.rel _ _ _ trivial)
    · trivial
  | resWrite t v =>
    simp only [ApiCall.prog]
    split
    · exact hP.acq _ _ _ (hP.act _ _ trivial fun r => hP.rel _ _ _ trivial)
    · trivial
  | query q =>
    exact robust_openQuery hP q (hP.act _ _ trivial fun r => robust_releaseAll hP _ trivial)

theorem allocates_create {cfg : Config} (s : List (HOp V)) :
    Allocates (.create s) (!s.isEmpty) ((ApiCall.create s).prog cfg) := by
  refine ⟨⟨s, rfl⟩, fun id => ?_⟩
  show Gives _ _ (Prog.handle cfg id s [.id id])
  cases s with
  | nil =>
    refine ⟨trivial, .inr ⟨id, by simp [Ret.ids], rfl, ?_⟩⟩
    exact ⟨rfl, fun _ => rfl⟩
  | cons o s =>
    have hP := robust_gives (Ret.id (V := V) id)
    show Gives true _ _
    refine hP.acq _ _ _ (hP.act _ _ trivial fun r => ?_)
    split
    · refine robust_script hP _ (x := .id id) rfl fun rs hrs => hP.rel _ _ _ ⟨hrs, by simp⟩
    · exact hP.panic

theorem allocates_createMany {cfg : Config} (n : Nat) (bs : List (Nat × List V)) :
    Allocates (.createMany n bs) (!bs.isEmpty) ((ApiCall.createMany n bs).prog cfg) := by
  refine ⟨⟨bs, rfl⟩, fun a => ?_⟩
  cases bs with
  | nil => exact ⟨rfl, fun _ => rfl⟩
  | cons b bs =>
    have hP := robust_gives (Ret.range (V := V) a (a + n))
    show Gives true _ _
    exact hP.rel _ _ _ (hP.acq _ _ _ (robust_batches hP _ (hP.rel _ _ _ ⟨rfl, by simp⟩)))

end Prog

/-- Is the call one that creates entities? -/
def ApiCall.creates : ApiCall V → Bool
  | .create _ => true
  | .createMany _ _ => true
  | _ => false

/-- Does a creating call go on to attach components? -/
def ApiCall.more : ApiCall V → Bool
  | .create s => !s.isEmpty
  | .createMany _ bs => !bs.isEmpty
  | _ => true

/-- The form of what a creating call returns first. -/
def ApiCall.form : ApiCall V → Ret V → Prop
  | .create _, x => ∃ id, x = .id id
  | .createMany n _, x => ∃ a, x = .range a (a + n)
  | _, _ => False

/-- The ids pending. -/
def pids : Option (Ret V) → List Nat
  | some x => x.ids
  | none => []

/-- Where a thread is in a creating call. -/
def ThreadOk (pend : Option (Ret V)) (th : Thread V) : Prop :=
  match th.call with
  | none => pend = none
  | some c => if c.creates then
      match pend with
      | none => Prog.Allocates c c.more th.prog
      | some x => c.form x ∧ Prog.Gives c.more x th.prog
    else pend = none ∧ Prog.NoEm th.prog

theorem threadOk_start {cfg : Config} {c : ApiCall V} (h3 : ∀ id, c ≠ .remove id) (held : List Guard)
    (sub : Option Nat) : ThreadOk none ⟨some c, c.prog cfg, held, sub⟩ := by
  unfold ThreadOk
  cases c with
  | create s => exact Prog.allocates_create s
  | createMany n bs => exact Prog.allocates_createMany n bs
  | remove id => exact absurd rfl (h3 id)
  | _ =>
    refine ⟨rfl, ?_⟩
    dsimp only
    apply Prog.noEm_call <;> simp

/-- What holds of the entity table, the pending and the issued ids; `E` are the ids in use at the start. -/
structure Fresh (E : List Nat) (pend : Nat → Option (Ret V)) (σ : Sys V) : Prop where
  inv : ∃ free, σ.world.em.Inv free
  old : ∀ id ∈ E, id ∈ σ.world.em.entities
  threads : ∀ i th, σ.threads[i]? = some th → ThreadOk (pend i) th
  nodup : ∀ i, (pids (pend i)).Nodup
  new : ∀ i, ∀ id ∈ pids (pend i), id ∈ σ.world.em.entities ∧ id ∉ E ∧ id ∉ σ.issued
  disj : ∀ i j, i ≠ j → ∀ id ∈ pids (pend i), id ∉ pids (pend j)
  issuedNodup : σ.issued.Nodup
  issuedNew : ∀ id ∈ σ.issued, id ∈ σ.world.em.entities ∧ id ∉ E
  log : ∀ x ∈ σ.log, x.2.1.creates = true → (∀ rs, x.2.2 = some rs → ∃ y, rs.head? = some y ∧ x.2.1.form y) ∧
    (x.2.1.more = false → ∃ y, x.2.2 = some [y] ∧ x.2.1.form y)

theorem em_not_guards {cfg : Config} (q : Query) {m : Mode} : (Lock.em, m) ∉ Prog.queryGuards cfg q := by
  induction q with
  | comp m t => simp [Prog.queryGuards]
  | with2 a b iha ihb => simp [Prog.queryGuards, iha, ihb]
  | withoutL a b iha ihb => simp [Prog.queryGuards, iha, ihb]
  | withoutR a b iha ihb => simp [Prog.queryGuards, iha, ihb]
  | with3 a b c iha ihb ihc => simp [Prog.queryGuards, iha, ihb, ihc]
  | with4 a b c d iha ihb ihc ihd => simp [Prog.queryGuards, iha, ihb, ihc, ihd]
  | with5 a b c d e iha ihb ihc ihd ihe => simp [Prog.queryGuards, iha, ihb, ihc, ihd, ihe]
  | group k ma mb a b =>
    simp only [Prog.queryGuards]
    split <;> simp

theorem leavesEm_foot {cfg : Config} {w : World V} (hc : cfg.groups = w.groups.map Group.shape) {a : Act V}
    (h : a.leavesEm) : (a.run w).1.em = w.em := by
  apply (run_frame hc (r := (a.run w).2) rfl).em
  intro hm
  cases a with
  | allocate => exact h
  | allocateN n => exact h
  | emRemove id => exact h
  | collect q => 
    simp only [Act.footprint] at hm
    exact em_not_guards q hm
  | groupAdd k id => simp only [Act.footprint, Act.footprint.pair] at hm; split at hm <;> simp at hm
  | groupRemove k id => simp only [Act.footprint, Act.footprint.pair] at hm; split at hm <;> simp at hm
  | groupErase k id => simp only [Act.footprint, Act.footprint.pair] at hm; split at hm <;> simp at hm
  | groupHas k id => simp only [Act.footprint] at hm; split at hm <;> simp at hm
  | _ => simp [Act.footprint] at hm

theorem allocate_run {w : World V} {free : List Nat} (h : w.em.Inv free) :
    ∃ em free' id, (Act.allocate : Act V).run w = ({ w with em := em }, .ok (.id id)) ∧ em.Inv free' ∧
      em.entities = w.em.entities ++ [id] ∧ id ∉ w.em.entities := by
  cases free with
  | nil =>
    obtain ⟨em, h1, h2, _, h4⟩ := EntityManager.allocate_nil h
    refine ⟨em, [], _, ?_, h2, h4, fun hm => ?_⟩
    · simp only [Act.run, M.crit, World.allocate, bind, Except.bind, h1]; rfl
    · have := (h.ent _ hm).2.1; omega
  | cons f fs =>
    obtain ⟨em, h1, h2, _, h4⟩ := EntityManager.allocate_cons h
    refine ⟨em, fs, _, ?_, h2, h4, fun hm => ?_⟩
    · simp only [Act.run, M.crit, World.allocate, bind, Except.bind, h1]; rfl
    · exact (h.ent _ hm).2.2 (by simp)

theorem has_run {w : World V} {free : List Nat} (h : w.em.Inv free) {id : Nat} (hid : id ∈ w.em.entities) :
    (Act.has id : Act V).run w = (w, .ok (.bool true)) := by
  have := h.mem_entities.1 hid
  have hh := EntityManager.has_live h this.1 this.2.1 this.2.2
  simp only [Act.run, World.exist, M.read, bind, hh]; rfl

theorem allocateN_run {w : World V} {free : List Nat} (h : w.em.Inv free) (n : Nat) :
    ∃ em a, (Act.allocateN n : Act V).run w = ({ w with em := em }, .ok (.range a (a + n))) ∧ em.Inv free ∧
      em.entities = w.em.entities ++ List.range' a n ∧ ∀ id ∈ List.range' a n, id ∉ w.em.entities := by
  obtain ⟨h1, h2, _, h4⟩ := EntityManager.allocateN_spec h n
  refine ⟨_, w.em.flags.length, rfl, h2, h4, fun id hid hm => ?_⟩
  have := (h.ent _ hm).2.1
  rw [List.mem_range'_1] at hid; omega

/-- The pending ids after thread `i`'s change. -/
def setPend (pend : Nat → Option (Ret V)) (i : Nat) (x : Option (Ret V)) : Nat → Option (Ret V) :=
  fun j => if j = i then x else pend j

theorem Fresh.update {E : List Nat} {pend : Nat → Option (Ret V)} {σ σ' : Sys V} (h : Fresh E pend σ) {i : Nat}
    {th' : Thread V} {x : Option (Ret V)}
    (hth : ∀ (j : Nat), σ'.threads[j]? = if j = i then some th' else σ.threads[j]?)
    (hinv : ∃ free, σ'.world.em.Inv free)
    (hsub : ∀ id ∈ σ.world.em.entities, id ∈ σ'.world.em.entities) (hok : ThreadOk x th')
    (hnd : (pids x).Nodup)
    (hnew : ∀ id ∈ pids x, id ∈ pids (pend i) ∨ (id ∉ σ.world.em.entities ∧ id ∈ σ'.world.em.entities))
    (hlog : σ'.log = σ.log) : Fresh E (setPend pend i x) σ' := by
  have hiss : σ'.issued = σ.issued := by simp [Sys.issued, hlog]
  refine ⟨hinv, fun id hid => hsub id (h.old id hid), ?_, ?_, ?_, ?_, by rw [hiss]; exact h.issuedNodup, ?_, ?_⟩
  · intro j th hj
    rw [hth] at hj
    by_cases hji : j = i
    · simp [hji] at hj; subst hj; simp [setPend, hji, hok]
    · simp [hji] at hj; simp [setPend, hji]; exact h.threads j th hj
  · intro j
    by_cases hji : j = i
    · simpa [setPend, hji] using hnd
    · simpa [setPend, hji] using h.nodup j
  · intro j id hid
    rw [hiss]
    by_cases hji : j = i
    · simp [setPend, hji] at hid
      rcases hnew id hid with h1 | ⟨h1, h2⟩
      · have := h.new i id h1; exact ⟨hsub _ this.1, this.2⟩
      · exact ⟨h2, fun he => h1 (h.old id he), fun he => h1 (h.issuedNew id he).1⟩
    · simp [setPend, hji] at hid
      have := h.new j id hid; exact ⟨hsub _ this.1, this.2⟩
  · intro j k hjk id hid hid'
    by_cases hji : j = i
    · have hki : ¬ k = i := fun h => hjk (hji.trans h.symm)
      simp [setPend, hji] at hid
      simp [setPend, hki] at hid'
      rcases hnew id hid with h1 | ⟨h1, _⟩
      · exact h.disj i k (fun h => hki h.symm) id h1 hid'
      · exact h1 (h.new k id hid').1
    · simp [setPend, hji] at hid
      by_cases hki : k = i
      · simp [setPend, hki] at hid'
        rcases hnew id hid' with h1 | ⟨h1, _⟩
        · exact h.disj j i hji id hid h1
        · exact h1 (h.new j id hid).1
      · simp [setPend, hki] at hid'
        exact h.disj j k hjk id hid hid'
  · rw [hiss]; intro id hid; have := h.issuedNew id hid; exact ⟨hsub _ this.1, this.2⟩
  · rw [hlog]; exact h.log

theorem Fresh.finish {E : List Nat} {pend : Nat → Option (Ret V)} {σ : Sys V} (h : Fresh E pend σ) {i : Nat}
    {th : Thread V} (hi : σ.threads[i]? = some th) {c : ApiCall V} {r : Option (List (Ret V))}
    (hids : issuedBy (c, r) = [] ∨ issuedBy (c, r) = pids (pend i))
    (hlog : c.creates = true → (∀ rs, r = some rs → ∃ y, rs.head? = some y ∧ c.form y) ∧
      (c.more = false → ∃ y, r = some [y] ∧ c.form y)) :
    Fresh E (setPend pend i none) (σ.finish i c r) := by
  have h1 := h.update (i := i) (th' := .idle) (x := none) (σ' := σ.setThread i .idle)
    (fun j => setThread_threads σ i .idle j hi) h.inv (fun _ h => h) rfl (by simp [pids]) (by simp [pids]) rfl
  have hiss : (σ.finish i c r).issued = issuedBy (c, r) ++ σ.issued := rfl
  have hsub : ∀ id ∈ issuedBy (c, r), id ∈ pids (pend i) := by
    rcases hids with h | h <;> rw [h] <;> simp
  refine ⟨h1.inv, h1.old, h1.threads, h1.nodup, ?_, h1.disj, ?_, ?_, ?_⟩
  · intro j id hid
    have := h1.new j id hid
    refine ⟨this.1, this.2.1, ?_⟩
    rw [hiss, List.mem_append]
    rintro (h2 | h2)
    · have hji : ¬ j = i := by
        intro hji; simp [setPend, hji, pids] at hid
      simp [setPend, hji] at hid
      exact h.disj j i hji id hid (hsub _ h2)
    · exact this.2.2 h2
  · rw [hiss]
    refine List.nodup_append.2 ⟨?_, h.issuedNodup, ?_⟩
    · rcases hids with h2 | h2 <;> rw [h2]
      · simp
      · exact h.nodup i
    · intro a ha b hb hab
      subst hab
      exact (h.new i a (hsub a ha)).2.2 hb
  · rw [hiss]
    intro id hid
    rcases List.mem_append.1 hid with h2 | h2
    · have := h.new i id (hsub id h2); exact ⟨this.1, this.2.1⟩
    · exact h.issuedNew id h2
  · intro x hx
    rcases List.mem_cons.1 hx with rfl | hx
    · exact hlog
    · exact h.log x hx

theorem issuedBy_of {c : ApiCall V} (h : c.creates = true) {x : Ret V} {rs : List (Ret V)} (hx : rs.head? = some x) :
    issuedBy (c, some rs) = x.ids := by
  cases rs with
  | nil => simp at hx
  | cons y rs => simp at hx; subst hx; cases c <;> simp_all [ApiCall.creates, issuedBy]

theorem issuedBy_not {c : ApiCall V} (h : c.creates = false) {r : Option (List (Ret V))} :
    issuedBy (c, r) = [] := by
  cases c <;> simp_all [ApiCall.creates, issuedBy]

theorem issuedBy_none (c : ApiCall V) : issuedBy (c, none) = [] := by
  cases c <;> simp [issuedBy]

theorem gives_form_ids {c : ApiCall V} {x : Ret V} (h : c.form x) (hc : c.creates = true) :
    (∃ s id, c = .create s ∧ x = .id id) ∨ (∃ n bs a, c = .createMany n bs ∧ x = .range a (a + n)) := by
  cases c <;> simp_all [ApiCall.form, ApiCall.creates]

theorem Fresh.step {cfg : Config} {E : List Nat} {pend : Nat → Option (Ret V)} {σ σ' : Sys V} (h : Fresh E pend σ)
    (hb : Basics cfg σ) (hs : σ.Step cfg Sys.noRemoval σ') : ∃ pend', Fresh E pend' σ' := by
  obtain ⟨free, hinv⟩ := h.inv
  cases hs with
  | start h1 h2 h3 =>
    rename_i i th c
    refine ⟨_, h.update (x := none) (fun j => setThread_threads σ _ _ j h1) h.inv (fun _ h => h)
      (threadOk_start h3 _ _) (by simp [pids]) (by simp [pids]) rfl⟩
  | acq h1 h2 h3 =>
    rename_i i th l m p
    refine ⟨_, h.update (x := pend i) (fun j => setThread_threads σ _ _ j h1) h.inv (fun _ h => h)
      ?_ (h.nodup i) (fun _ h => .inl h) rfl⟩
    have := h.threads i th h1
    unfold ThreadOk at this ⊢
    rw [h2] at this
    exact this
  | rel h1 h2 =>
    rename_i i th l m p
    refine ⟨_, h.update (x := pend i) (fun j => setThread_threads σ _ _ j h1) h.inv (fun _ h => h)
      ?_ (h.nodup i) (fun _ h => .inl h) rfl⟩
    have := h.threads i th h1
    unfold ThreadOk at this ⊢
    rw [h2] at this
    exact this
  | panic h1 h2 h3 =>
    rename_i i th c
    refine ⟨_, h.finish h1 (.inl (issuedBy_none c)) fun hc => ?_⟩
    have := h.threads i th h1
    simp only [ThreadOk, h3, hc, if_true, h2] at this
    split at this
    · exact absurd this id
    · have hm := this.2
      simp only [Prog.Gives] at hm
      simp [hm]
  | ret h1 h2 h3 =>
    rename_i i th c rs
    have := h.threads i th h1
    simp only [ThreadOk, h3, h2] at this
    by_cases hc : c.creates = true
    · simp only [hc, if_true] at this
      cases hp : pend i with
      | none => rw [hp] at this; exact absurd this id
      | some x =>
        rw [hp] at this
        obtain ⟨hf, hx, hn⟩ := this
        refine ⟨_, h.finish h1 (.inr ?_) fun _ => ⟨fun rs' hrs => ?_, fun hm => ⟨x, by rw [hn hm], hf⟩⟩⟩
        · rw [issuedBy_of hc hx, hp]; rfl
        · cases hrs; exact ⟨x, hx, hf⟩
    · exact ⟨_, h.finish h1 (.inl (issuedBy_not (by simpa using hc))) fun h => absurd h hc⟩
  | fault h1 h2 h3 h4 =>
    rename_i i th a f w e c
    have hok := h.threads i th h1
    simp only [ThreadOk, h4, h2] at hok
    by_cases hc : c.creates = true
    · simp only [hc, if_true] at hok
      cases hp : pend i with
      | none =>
        rw [hp] at hok
        cases a with
        | allocate => obtain ⟨_, _, _, hr, _⟩ := allocate_run hinv; rw [hr] at h3; simp at h3
        | allocateN n => obtain ⟨_, _, hr, _⟩ := allocateN_run hinv n; rw [hr] at h3; simp at h3
        | _ => exact absurd hok id
      | some x =>
        rw [hp] at hok
        obtain ⟨hf, hl, hok⟩ := hok
        have hem : w.em = σ.world.em := by
          have := leavesEm_foot hb.mat.groups (w := σ.world) hl
          rw [h3] at this; exact this
        have hw : Fresh E pend { σ with world := w } := by
          refine ⟨⟨free, by rw [hem]; exact hinv⟩, ?_, h.threads, h.nodup, ?_, h.disj, h.issuedNodup, ?_, h.log⟩
          · simp only [hem]; exact h.old
          · simp only [hem]; exact h.new
          · simp only [hem]; exact h.issuedNew
        rcases hok with ⟨hm, _⟩ | ⟨id, hid, ha, _⟩
        · exact ⟨_, hw.finish (th := th) h1 (.inl (issuedBy_none c)) fun _ => by simp [hm]⟩
        · subst ha
          have hm : id ∈ σ.world.em.entities := (h.new i id (by rw [hp]; exact hid)).1
          rw [has_run hinv hm] at h3; simp at h3
    · simp only [hc] at hok
      have hl := hok.2.1
      have hem : w.em = σ.world.em := by
        have := leavesEm_foot hb.mat.groups (w := σ.world) hl
        rw [h3] at this; exact this
      have hw : Fresh E pend { σ with world := w } := by
        refine ⟨⟨free, by rw [hem]; exact hinv⟩, ?_, h.threads, h.nodup, ?_, h.disj, h.issuedNodup, ?_, h.log⟩
        · simp only [hem]; exact h.old
        · simp only [hem]; exact h.new
        · simp only [hem]; exact h.issuedNew
      exact ⟨_, hw.finish (th := th) h1 (.inl (issuedBy_none c)) fun h => absurd h hc⟩
  | act h1 h2 h3 =>
    rename_i i th a f w r
    have hok := h.threads i th h1
    have hthr : ∀ (th' : Thread V) (j : Nat), ({ σ with world := w }.setThread i th').threads[j]? =
      if j = i then some th' else σ.threads[j]? := fun th' j => setThread_threads { σ with world := w } i th' j h1
    cases hcall : th.call with
    | none =>
      have := hb.idle th (List.mem_of_getElem? h1) hcall
      subst this; simp [Thread.idle] at h2
    | some c =>
      simp only [ThreadOk, hcall, h2] at hok
      by_cases hc : c.creates = true
      · simp only [hc, if_true] at hok
        cases hp : pend i with
        | none =>
          rw [hp] at hok
          cases a with
          | allocate =>
            obtain ⟨em, free', id, hr, hinv', hent, hnew⟩ := allocate_run hinv
            rw [hr] at h3; simp only [Prod.mk.injEq, Except.ok.injEq] at h3
            obtain ⟨hw, hr⟩ := h3; subst hw; subst hr
            obtain ⟨⟨s, hs⟩, hg⟩ := hok
            refine ⟨_, h.update (x := some (.id id)) (hthr _) ⟨free', hinv'⟩ ?_ ?_ ?_ ?_ rfl⟩
            · show ∀ id ∈ _, id ∈ em.entities
              rw [hent]; intro id hid; simp [hid]
            · simp only [ThreadOk, hcall, hc, if_true]
              exact ⟨by rw [hs]; exact ⟨id, rfl⟩, hg id⟩
            · simp [pids, Ret.ids]
            · intro id' hid'
              simp [pids, Ret.ids] at hid'; subst hid'
              exact .inr ⟨hnew, by show _ ∈ em.entities; rw [hent]; simp⟩
          | allocateN n =>
            obtain ⟨em, a, hr, hinv', hent, hnew⟩ := allocateN_run hinv n
            rw [hr] at h3; simp only [Prod.mk.injEq, Except.ok.injEq] at h3
            obtain ⟨hw, hr⟩ := h3; subst hw; subst hr
            obtain ⟨⟨s, hs⟩, hg⟩ := hok
            refine ⟨_, h.update (x := some (.range a (a + n))) (hthr _) ⟨free, hinv'⟩ ?_ ?_ ?_ ?_ rfl⟩
            · show ∀ id ∈ _, id ∈ em.entities
              rw [hent]; intro id hid; simp [hid]
            · simp only [ThreadOk, hcall, hc, if_true]
              exact ⟨by rw [hs]; exact ⟨a, rfl⟩, hg a⟩
            · simp only [pids, Ret.ids]; exact List.nodup_range'
            · intro id' hid'
              simp only [pids, Ret.ids, Nat.add_sub_cancel_left] at hid'
              exact .inr ⟨hnew _ hid', by show _ ∈ em.entities; rw [hent]; exact List.mem_append_right _ hid'⟩
          | _ => exact absurd hok id
        | some x =>
          rw [hp] at hok
          obtain ⟨hf, hl, hok⟩ := hok
          have hem : w.em = σ.world.em := by
            have := leavesEm_foot hb.mat.groups (w := σ.world) hl
            rw [h3] at this; exact this
          refine ⟨_, h.update (x := some x) (hthr _) ⟨free, by show w.em.Inv _; rw [hem]; exact hinv⟩ ?_ ?_
            (by rw [← hp]; exact h.nodup i) (fun id hid => .inl (by rw [hp]; exact hid)) rfl⟩
          · show ∀ id ∈ _, id ∈ w.em.entities
            rw [hem]; exact fun _ h => h
          · simp only [ThreadOk, hcall, hc, if_true]
            refine ⟨hf, ?_⟩
            rcases hok with ⟨_, hg⟩ | ⟨id, hid, ha, hg⟩
            · exact hg r
            · subst ha
              have hm : id ∈ σ.world.em.entities := (h.new i id (by rw [hp]; exact hid)).1
              rw [has_run hinv hm] at h3; simp only [Prod.mk.injEq, Except.ok.injEq] at h3
              rw [← h3.2]; exact hg
      · simp only [hc] at hok
        obtain ⟨hp, hl, hok⟩ := hok
        have hem : w.em = σ.world.em := by
          have := leavesEm_foot hb.mat.groups (w := σ.world) hl
          rw [h3] at this; exact this
        refine ⟨_, h.update (x := none) (hthr _) ⟨free, by show w.em.Inv _; rw [hem]; exact hinv⟩ ?_ ?_
          (by simp [pids]) (by simp [pids]) rfl⟩
        · show ∀ id ∈ _, id ∈ w.em.entities
          rw [hem]; exact fun _ h => h
        · simp only [ThreadOk, hcall, hc]
          exact ⟨trivial, hok r⟩

theorem fresh_sched {w : World V} {free : List Nat} (hf : w.em.Inv free) {order : List Nat} (ho : Enumerates w order)
    {n : Nat} {σ : Sys V} (h : (Sys.init w n).Sched (Config.of w order) Sys.noRemoval σ) :
    ∃ pend, Fresh w.em.entities pend σ := by
  have key : Basics (Config.of w order) σ ∧ ∃ pend, Fresh w.em.entities pend σ := by
    refine h.inv (P := fun σ => Basics (Config.of w order) σ ∧ ∃ pend, Fresh w.em.entities pend σ)
      ⟨Basics.init ho n, fun _ => none, ⟨free, hf⟩, fun _ h => h, ?_, by simp [pids], by simp [pids], by simp [pids],
        by simp [Sys.issued, Sys.init], by simp [Sys.issued, Sys.init], by simp [Sys.init]⟩ ?_
    · intro i th hi
      have := List.mem_of_getElem? hi
      rw [Sys.init, List.mem_replicate] at this
      rw [this.2]; rfl
    · rintro σ σ' ⟨hb, pend, hp⟩ hs
      exact ⟨hb.step hs, hp.step hb hs⟩
  exact key.2

end Xecs
