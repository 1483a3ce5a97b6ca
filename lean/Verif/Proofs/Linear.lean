import Verif.Proofs.LinearRun
/-
Each call is a sequence of moments at which something takes effect.
-/
set_option autoImplicit false
namespace Xecs
open Spec World
variable {V : Type}

/-! ### Moments that need not look at the world -/

/-- Something takes effect that concerns a type that is not registered, or a resource that does not exist. -/
inductive Skip (cfg : Config) : Phase V → Phase V → Prop
  | opRead {c : ApiCall V} {id t : Nat} {ops : List (HOp V)} {rs : List (Ret V)} : cfg.registered t = false →
      Skip cfg (.chain c id (.read t :: ops) rs) (.chain c id ops (rs ++ [.val none]))
  | opWrite {c : ApiCall V} {id t : Nat} {v : V} {ops : List (HOp V)} {rs : List (Ret V)} : cfg.registered t = false →
      Skip cfg (.chain c id (.write t v :: ops) rs) (.chain c id ops (rs ++ [.bool false]))
  | read {t id : Nat} : cfg.registered t = false → Skip cfg (.called (.read t id)) (.over (.read t id) [.val none])
  | write {t id : Nat} {v : V} : cfg.registered t = false →
      Skip cfg (.called (.write t id v)) (.over (.write t id v) [.bool false])
  | count {t : Nat} : cfg.registered t = false → Skip cfg (.called (.count t)) (.over (.count t) [.count none])
  | resRead {t : Nat} : cfg.res t = false → Skip cfg (.called (.resRead t)) (.over (.resRead t) [.val none])
  | resWrite {t : Nat} {v : V} : cfg.res t = false →
      Skip cfg (.called (.resWrite t v)) (.over (.resWrite t v) [.bool false])
  | fill {start stop : Nat} {bs : List (Nat × List V)} :
      Skip cfg (.called (.fill start stop bs)) (.batch (.fill start stop bs) start stop bs)

/-- Any number of them. -/
inductive Skips (cfg : Config) : Phase V → Phase V → Prop
  | refl {p : Phase V} : Skips cfg p p
  | step {p p' p'' : Phase V} : Skip cfg p p' → Skips cfg p' p'' → Skips cfg p p''

theorem Skips.one {cfg : Config} {p p' : Phase V} (h : Skip cfg p p') : Skips cfg p p' := .step h .refl

/-- The contents match the configuration. -/
structure Suits (cfg : Config) (a : Shared V) : Prop where
  reg : ∀ t, cfg.registered t = false → a.registered t = false ∧ ∀ e, a.value t e = none
  res : ∀ t, cfg.res t = false → a.res t = none

theorem Skip.point {cfg : Config} {a : Shared V} (hs : Suits cfg a) (life : Prop) {p p' : Phase V} (h : Skip cfg p p') :
    Point life a p a p' := by
  cases h with
  | opRead ht =>
    rename_i c id t ops rs
    have := Point.op (life := life) (a := a) (c := c) (id := id) (o := .read t) (ops := ops) (rs := rs)
    simpa [HOp.effect, (hs.reg t ht).2] using this
  | opWrite ht =>
    rename_i c id t v ops rs
    have := Point.op (life := life) (a := a) (c := c) (id := id) (o := .write t v) (ops := ops) (rs := rs)
    simpa [HOp.effect, (hs.reg t ht).2] using this
  | read ht =>
    rename_i t id
    have := Point.read (life := life) (a := a) (t := t) (id := id)
    simpa [(hs.reg t ht).2] using this
  | write ht =>
    rename_i t id v
    have := Point.write (life := life) (a := a) (t := t) (id := id) (v := v)
    simpa [(hs.reg t ht).2] using this
  | count ht =>
    rename_i t
    have := Point.count (life := life) (a := a) (t := t) (l := []) .nil (by simp [(hs.reg t ht).2])
    simpa [(hs.reg t ht).1] using this
  | resRead ht =>
    rename_i t
    have := Point.resRead (life := life) (a := a) (t := t)
    simpa [hs.res t ht] using this
  | resWrite ht =>
    rename_i t v
    have := Point.resWrite (life := life) (a := a) (t := t) (v := v)
    simpa [hs.res t ht] using this
  | fill => exact .fill

theorem Point.call {life : Prop} {a a' : Shared V} {p p' : Phase V} (h : Point life a p a' p') : p'.call = p.call := by
  cases h <;> rfl

theorem Skip.call {cfg : Config} {p p' : Phase V} (h : Skip cfg p p') : p'.call = p.call := by
  cases h <;> rfl

theorem Skips.call {cfg : Config} {p p' : Phase V} (h : Skips cfg p p') : p'.call = p.call := by
  induction h with
  | refl => rfl
  | step h _ ih => exact ih.trans h.call

/-- Has something taken effect? -/
def Phase.begun : Phase V → Prop
  | .called _ => False
  | .idle => False
  | _ => True

theorem Skip.begun {cfg : Config} {p p' : Phase V} (h : Skip cfg p p') : p'.begun := by
  cases h <;> trivial

theorem Skips.begun {cfg : Config} {p p' : Phase V} (h : Skips cfg p p') : p.begun → p'.begun := by
  induction h with
  | refl => exact fun h => h
  | step h _ ih => exact fun _ => ih h.begun

/-- What the client guarantees before the call takes effect: the entity named is alive. -/
def Phase.Needs (a : Shared V) : Phase V → Prop
  | .called (.on id _) => a.alive id = true
  | .called (.remove id) => a.alive id = true
  | _ => True

/-! ### Programs -/

namespace Prog

/-- From this phase on, the program does what its call is supposed to do. -/
def Follows (life : Prop) (cfg : Config) : Prog V → Phase V → Prop
  | .done rs, ph => ph.result = some rs
  | .panic, _ => True
  | .acq _ _ p, ph => Follows life cfg p ph
  | .rel _ _ p, ph => Follows life cfg p ph
  | .act a f, ph => ∀ s s' r, a.Effect life s s' r → (life → ph.Needs s) →
      ∃ ph' ph'', ((ph' = ph ∧ s' = s) ∨ Point life s ph s' ph') ∧ Skips cfg ph' ph'' ∧ ph''.begun ∧
        Follows life cfg (f r) ph''

section
variable {life : Prop} {cfg : Config}

/-- A piece of work that leaves the phase as it is. -/
def Stays (life : Prop) (ph : Phase V) (a : Act V) : Prop :=
  ∀ s s' r, a.Effect life s s' r → s' = s ∨ Point life s ph s' ph

theorem follows_act {ph : Phase V} {a : Act V} {f : Ret V → Prog V} (hb : ph.begun) (ha : Stays life ph a)
    (hf : ∀ r, Follows life cfg (f r) ph) : Follows life cfg (.act a f) ph := by
  intro s s' r he _
  rcases ha s s' r he with h | h
  · exact ⟨ph, ph, .inl ⟨rfl, h⟩, .refl, hb, hf r⟩
  · exact ⟨ph, ph, .inr h, .refl, hb, hf r⟩

theorem follows_store {ph : Phase V} {t : Nat} {m : Mode} {p : Prog V} (h : Follows life cfg p ph) :
    Follows life cfg (store cfg t m p) ph := by
  unfold store
  split
  · exact h
  · trivial

theorem follows_lockGroups {ph : Phase V} (t : Nat) (gs : List (Nat × Shape)) : ∀ {p : Prog V},
    Follows life cfg p ph → Follows life cfg (lockGroups t gs p) ph := by
  induction gs with
  | nil => exact fun h => h
  | cons x gs ih =>
    obtain ⟨k, g⟩ := x
    intro p h
    show Follows life cfg (if g.touches t then .acq (.group k) .mut (lockGroups t gs p) else lockGroups t gs p) ph
    split
    · exact ih h
    · exact ih h

theorem follows_groupLoop {ph : Phase V} (hb : ph.begun) {a : Nat → Act V} (ha : ∀ k, Stays life ph (a k))
    (gs : List (Nat × Shape)) : ∀ {p : Prog V},
    Follows life cfg p ph → Follows life cfg (groupLoop cfg a gs p) ph := by
  induction gs with
  | nil => exact fun h => h
  | cons x gs ih =>
    obtain ⟨k, g⟩ := x
    intro p h
    exact follows_store (follows_store (follows_act hb (ha k) fun _ => ih h))

theorem stays_groupAdd (ph : Phase V) (id k : Nat) : Stays life ph (.groupAdd k id) := fun _ _ _ h => .inl h.1
theorem stays_groupRemove (ph : Phase V) (id k : Nat) : Stays life ph (.groupRemove k id) := fun _ _ _ h => .inl h.1
theorem stays_groupErase (c : ApiCall V) (id k : Nat) : Stays life (.removing c id) (.groupErase k id) := by
  rintro s s' r ⟨_, d, rfl⟩; exact .inr .drop
theorem stays_storeErase (c : ApiCall V) (id t : Nat) : Stays life (.removing c id) (.storeErase t id) := by
  rintro s s' r ⟨_, d, rfl⟩; exact .inr .drop

theorem follows_script {c : ApiCall V} {id : Nat} {p : List (Ret V) → Prog V}
    (hp : ∀ rs, Follows life cfg (p rs) (.chain c id [] rs)) (ops : List (HOp V)) : ∀ acc,
    ∃ ph, Skips cfg (.chain c id ops acc) ph ∧ Follows life cfg (script cfg id ops acc p) ph := by
  induction ops with
  | nil => exact fun acc => ⟨_, .refl, hp acc⟩
  | cons o ops ih =>
    intro acc
    cases o with
    | attach t v =>
      refine ⟨_, .refl, ?_⟩
      simp only [script, attach]
      split
      · rintro s s' r ⟨_, rfl⟩ _
        obtain ⟨ph, h1, h2⟩ := ih (acc ++ [.unit])
        have hb := h1.begun trivial
        exact ⟨_, ph, .inr .op, h1, hb, follows_lockGroups _ _ (follows_groupLoop hb (stays_groupAdd ph id) _ h2)⟩
      · trivial
    | detach t =>
      refine ⟨_, .refl, ?_⟩
      simp only [script, detach]
      split
      · refine follows_lockGroups _ _ (follows_groupLoop (ph := .chain c id (.detach t :: ops) acc) trivial (stays_groupRemove _ id) _ ?_)
        rintro s s' r ⟨rfl, rfl⟩ _
        obtain ⟨ph, h1, h2⟩ := ih (acc ++ [.val (s.value t id)])
        exact ⟨_, ph, .inr .op, h1, h1.begun trivial, h2⟩
      · trivial
    | read t =>
      simp only [script, read]
      by_cases ht : cfg.registered t = true
      · refine ⟨_, .refl, ?_⟩
        rw [if_pos ht]
        rintro s s' r ⟨rfl, rfl⟩ _
        obtain ⟨ph, h1, h2⟩ := ih (acc ++ [.val (s'.value t id)])
        exact ⟨_, ph, .inr .op, h1, h1.begun trivial, h2⟩
      · rw [if_neg ht]
        obtain ⟨ph, h1, h2⟩ := ih (acc ++ [.val none])
        exact ⟨ph, .step (.opRead (by simpa using ht)) h1, h2⟩
    | write t v =>
      simp only [script, write]
      by_cases ht : cfg.registered t = true
      · refine ⟨_, .refl, ?_⟩
        rw [if_pos ht]
        rintro s s' r ⟨rfl, rfl⟩ _
        obtain ⟨ph, h1, h2⟩ := ih (acc ++ [.bool (s.value t id).isSome])
        exact ⟨_, ph, .inr .op, h1, h1.begun trivial, h2⟩
      · rw [if_neg ht]
        obtain ⟨ph, h1, h2⟩ := ih (acc ++ [.bool false])
        exact ⟨ph, .step (.opWrite (by simpa using ht)) h1, h2⟩

theorem follows_handle {c : ApiCall V} {id : Nat} {ops : List (HOp V)} {acc : List (Ret V)} {ph : Phase V}
    (h : ∀ s, (life → ph.Needs s) → ph = .chain c id ops acc ∨ Point life s ph s (.chain c id ops acc)) :
    Follows life cfg (handle cfg id ops acc) ph := by
  rintro s s' r ⟨rfl, b, rfl, _⟩ hn
  have h' : ((Phase.chain c id ops acc = ph ∧ s' = s') ∨ Point life s' ph s' (.chain c id ops acc)) :=
    (h s' hn).imp (fun h => ⟨h.symm, rfl⟩) fun h => h
  cases b with
  | false => exact ⟨_, _, h', .refl, trivial, trivial⟩
  | true =>
    obtain ⟨ph', h1, h2⟩ := follows_script (life := life) (cfg := cfg) (c := c) (id := id)
      (p := fun rs => .rel .em .ref (.done rs)) (fun rs => rfl) ops acc
    exact ⟨_, ph', h', h1, h1.begun trivial, h2⟩

theorem follows_batches {c : ApiCall V} {start stop : Nat} {p : Prog V}
    (hp : Follows life cfg p (.batch c start stop [])) (bs : List (Nat × List V)) :
    Follows life cfg (batches cfg start stop bs p) (.batch c start stop bs) := by
  induction bs with
  | nil => exact hp
  | cons x bs ih =>
    obtain ⟨t, vs⟩ := x
    simp only [batches]
    split
    · refine follows_store ?_
      rintro s s' r ⟨_, hl, hv, ha, rfl⟩ _
      exact ⟨_, _, .inr (.batch hl hv ha), .refl, trivial, ih⟩
    · trivial

theorem follows_scanGroups {ph : Phase V} (hb : ph.begun) (id : Nat) (gs : List (Nat × Shape)) :
    ∀ {acc : List (Nat × Shape)} {p : List (Nat × Shape) → Prog V}, (∀ l, Follows life cfg (p l) ph) →
    Follows life cfg (scanGroups cfg id gs acc p) ph := by
  induction gs with
  | nil => exact fun h => h _
  | cons x gs ih =>
    obtain ⟨k, g⟩ := x
    intro acc p h
    refine follows_store (follows_store (follows_act hb (fun _ _ _ h => .inl h.1) fun r => ?_))
    show Follows life cfg (match r with
        | .bool true => .acq (.group k) .mut (scanGroups cfg id gs (acc ++ [(k, g)]) p)
        | _ => scanGroups cfg id gs acc p) ph
    split
    · exact ih h
    · exact ih h

theorem follows_scanStores {ph : Phase V} (hb : ph.begun) (id : Nat) (ts : List Nat) :
    ∀ {acc : List Nat} {p : List Nat → Prog V}, (∀ l, Follows life cfg (p l) ph) →
    Follows life cfg (scanStores id ts acc p) ph := by
  induction ts with
  | nil => exact fun h => h _
  | cons t ts ih =>
    intro acc p h
    refine follows_act hb (fun _ _ _ h => .inl h.1) fun r => ?_
    show Follows life cfg (match r with
        | .bool true => .acq (.store t) .mut (scanStores id ts (acc ++ [t]) p)
        | _ => scanStores id ts acc p) ph
    split
    · exact ih h
    · exact ih h

theorem follows_eraseStores {c : ApiCall V} (id : Nat) (ts : List Nat) : ∀ {p : Prog V},
    Follows life cfg p (.removing c id) → Follows life cfg (eraseStores id ts p) (.removing c id) := by
  induction ts with
  | nil => exact fun h => h
  | cons t ts ih => exact fun h => follows_act trivial (stays_storeErase c id t) fun _ => ih h

theorem follows_visitGroups {ph : Phase V} (ks : List Nat) : ∀ {p : Prog V},
    Follows life cfg p ph → Follows life cfg (visitGroups ks p) ph := by
  induction ks with
  | nil => exact fun h => h
  | cons k ks ih => exact fun h => ih h

theorem follows_openQuery {ph : Phase V} (q : Query) : ∀ {p : Prog V},
    Follows life cfg p ph → Follows life cfg (openQuery cfg q p) ph := by
  induction q with
  | comp m t => exact fun h => follows_store h
  | with2 a b iha ihb => exact fun h => iha (ihb h)
  | with3 a b c iha ihb ihc => exact fun h => iha (ihb (ihc h))
  | with4 a b c d iha ihb ihc ihd => exact fun h => iha (ihb (ihc (ihd h)))
  | with5 a b c d e iha ihb ihc ihd ihe => exact fun h => iha (ihb (ihc (ihd (ihe h))))
  | withoutL a b iha ihb => exact fun h => iha (ihb h)
  | withoutR a b iha ihb => exact fun h => iha (ihb h)
  | group k ma mb a b =>
    intro p h
    simp only [openQuery]
    split
    · refine follows_store (follows_store ?_)
      split
      · exact follows_visitGroups _ (follows_visitGroups _ h)
      · exact follows_visitGroups _ trivial
    · trivial

theorem follows_releaseAll {ph : Phase V} (gs : List Guard) : ∀ {p : Prog V},
    Follows life cfg p ph → Follows life cfg (releaseAll gs p) ph := by
  induction gs with
  | nil => exact fun h => h
  | cons x gs ih => obtain ⟨l, m⟩ := x; exact fun h => ih h

theorem follows_call (life : Prop) (cfg : Config) (c : ApiCall V) :
    ∃ ph, Skips cfg (.called c) ph ∧ Follows life cfg (c.prog cfg) ph := by
  cases c with
  | create sc =>
    refine ⟨_, .refl, ?_⟩
    rintro s s' r ⟨id, al, rfl, rfl, h⟩ _
    exact ⟨_, _, .inr (.create h), .refl, trivial, follows_handle fun _ _ => .inl rfl⟩
  | on id sc => exact ⟨_, .refl, follows_handle fun s hn => .inr (.on hn)⟩
  | createMany n bs =>
    refine ⟨_, .refl, ?_⟩
    rintro s s' r ⟨start, al, rfl, rfl, h⟩ _
    exact ⟨_, _, .inr (.createMany h), .refl, trivial, follows_batches (p := .rel .em .ref (.done [.range start (start + n)])) rfl bs⟩
  | fill start stop bs =>
    exact ⟨_, .one .fill, follows_batches (c := .fill start stop bs) (p := .rel .em .ref (.done [.range start stop])) rfl bs⟩
  | remove id =>
    refine ⟨_, .refl, ?_⟩
    rintro s s' r ⟨rfl, b, rfl, _⟩ hn
    refine ⟨.removing (.remove id) id, .removing (.remove id) id, .inr (.remove hn), .refl, trivial, ?_⟩
    cases b with
    | false => trivial
    | true =>
      refine follows_scanGroups (ph := .removing (.remove id) id) trivial id _ fun gs =>
        follows_groupLoop (ph := .removing (.remove id) id) trivial (stays_groupErase _ id) _ ?_
      refine follows_scanStores (ph := .removing (.remove id) id) trivial id _ fun ts => follows_eraseStores id _ ?_
      rintro s s' r ⟨rfl, al, rfl, h⟩ _
      exact ⟨_, _, .inr (.gone h), .refl, trivial, rfl⟩
  | exist id =>
    refine ⟨_, .refl, ?_⟩
    rintro s s' r ⟨rfl, b, rfl, h⟩ _
    exact ⟨_, _, .inr (.exist h), .refl, trivial, rfl⟩
  | read t id =>
    simp only [ApiCall.prog, read]
    by_cases ht : cfg.registered t = true
    · refine ⟨_, .refl, ?_⟩
      rw [if_pos ht]
      rintro s s' r ⟨rfl, rfl⟩ _
      exact ⟨_, _, .inr .read, .refl, trivial, rfl⟩
    · rw [if_neg ht]
      exact ⟨_, .one (.read (by simpa using ht)), rfl⟩
  | write t id v =>
    simp only [ApiCall.prog, write]
    by_cases ht : cfg.registered t = true
    · refine ⟨_, .refl, ?_⟩
      rw [if_pos ht]
      rintro s s' r ⟨rfl, rfl⟩ _
      exact ⟨_, _, .inr .write, .refl, trivial, rfl⟩
    · rw [if_neg ht]
      exact ⟨_, .one (.write (by simpa using ht)), rfl⟩
  | count t =>
    simp only [ApiCall.prog]
    by_cases ht : cfg.registered t = true
    · refine ⟨_, .refl, ?_⟩
      rw [if_pos ht]
      rintro s s' r ⟨rfl, l, h1, h2, rfl⟩ _
      exact ⟨_, _, .inr (.count h1 h2), .refl, trivial, rfl⟩
    · rw [if_neg ht]
      exact ⟨_, .one (.count (by simpa using ht)), rfl⟩
  | resRead t =>
    simp only [ApiCall.prog]
    by_cases ht : cfg.res t = true
    · refine ⟨_, .refl, ?_⟩
      rw [if_pos ht]
      rintro s s' r ⟨rfl, rfl⟩ _
      exact ⟨_, _, .inr .resRead, .refl, trivial, rfl⟩
    · rw [if_neg ht]
      exact ⟨_, .one (.resRead (by simpa using ht)), rfl⟩
  | resWrite t v =>
    simp only [ApiCall.prog]
    by_cases ht : cfg.res t = true
    · refine ⟨_, .refl, ?_⟩
      rw [if_pos ht]
      rintro s s' r ⟨rfl, rfl⟩ _
      exact ⟨_, _, .inr .resWrite, .refl, trivial, rfl⟩
    · rw [if_neg ht]
      exact ⟨_, .one (.resWrite (by simpa using ht)), rfl⟩
  | query q =>
    refine ⟨_, .refl, follows_openQuery q ?_⟩
    rintro s s' r ⟨rfl, h⟩ _
    exact ⟨_, _, .inr (.query h), .refl, trivial, follows_releaseAll _ rfl⟩

end
end Prog

/-! ### Work that fails -/

theorem critM_error {α : Type} {f : World V → R (World V × α)} {x : M V α} {g : α → Ret V} {w w' : World V} {e : Fault}
    (h : (do pure (g (← M.crit f x)) : M V (Ret V)) w = (w', .error e)) : f w = .error e ∧ w' = (x w).1 := by
  rcases bindM_cases h with ⟨w1, a, _, h2⟩ | ⟨e', h1, h2⟩
  · simp [M.pure_apply] at h2
  · cases h2
    simp only [M.crit] at h1
    split at h1
    · cases (Prod.mk.inj h1).2
    · next heq => simp only [Prod.mk.injEq, Except.error.injEq] at h1; obtain ⟨h3, rfl⟩ := h1; exact ⟨heq, h3.symm⟩

/-- A piece of work that fails leaves the contents as they were, or it has had its effect. -/
theorem run_fail {life : Prop} {w w' : World V} (h : Fit w) {a : Act V} {e : Fault}
    (hb : ∀ start stop t vs, a = .batchStore start stop t vs → ∀ e, start ≤ e → e < stop → w.value t e = none)
    (hl : life → ∃ s, Rel w s ∧ ∀ id, a = .emRemove id → s.live id = true ∧ ∀ t, s.has t id = false)
    (ha : life → ∀ start stop t vs, a = .batchStore start stop t vs → ∀ e, start ≤ e → e < stop → w.shared.alive e = true)
    (hr : a.run w = (w', .error e)) :
    Fit w' ∧ (w'.shared = w.shared ∨ ∃ r, a.Effect life w.shared w'.shared r) := by
  have same : w' = w → Fit w' ∧ (w'.shared = w.shared ∨ ∃ r, a.Effect life w.shared w'.shared r) := by
    rintro rfl; exact ⟨h, .inl rfl⟩
  have evo : Evo Same w w' → Fit w' ∧ (w'.shared = w.shared ∨ ∃ r, a.Effect life w.shared w'.shared r) := by
    intro he; obtain ⟨h1, h2⟩ := h.same he; exact ⟨h1, .inl h2⟩
  have read : ∀ {α : Type} {f : World V → R α} {g : α → Ret V},
      (do pure (g (← M.read f)) : M V (Ret V)) w = (w', .error e) → w' = w := by
    intro α f g h
    rcases bindM_cases h with ⟨w1, a, h1, h2⟩ | ⟨e', h1, _⟩
    · simp [M.pure_apply] at h2
    · simp only [M.read, Prod.mk.injEq] at h1; exact h1.1.symm
  cases a with
  | batchStore start stop t vs =>
    rcases bindM_cases hr with ⟨w1, a, h1, h2⟩ | ⟨e', h1, _⟩
    · simp [M.pure_apply] at h2
    · rcases bindM_cases h1 with ⟨w1, a, h3, h4⟩ | ⟨e', h3, _⟩
      · obtain ⟨h5, h6⟩ := M.assert_iff.1 h3
        subst h5
        rcases crit_cases h4 with ⟨_, _, h3⟩ | ⟨h5, _⟩
        · cases h3
        cases hc : w1.comps t with
        | none => exact same (h5.trans (by simp only [batchStoreX, onStore, hc]; rfl))
        | some st =>
          obtain ⟨hty, hwf⟩ := h.st t st hc
          have hdis : ∀ e ∈ List.range' start (stop - start), e ∉ st.set.entities := by
            intro e he
            rw [List.mem_range'_1] at he
            have := hb _ _ _ _ rfl e he.1 (by omega)
            rw [h.value hc] at this
            exact (SparseSet.lookup_none hwf).1 this
          obtain ⟨S', e1, _⟩ := SparseSet.addBatch_spec hwf (es := List.range' start (stop - start)) (vs := vs)
            (by rw [List.length_range']; exact (beq_iff_eq.1 h6).symm) List.nodup_range' hdis
          have : batchStore start stop t vs w1 = .ok (w1.setSet t S', ()) := by
            simp only [batchStore, hc, unwrapR, downcast, hty, if_true, R.bind_ok, e1]
          simp only [M.crit, this] at h4
          cases (Prod.mk.inj h4).2
      · simp only [M.assert] at h3
        exact same (Prod.mk.inj h3).1.symm
  | has id => exact same (read hr)
  | allocate =>
    obtain ⟨h1, rfl⟩ := critM_error hr
    refine ⟨h.of_em _, .inr ⟨.id 0, 0, _, rfl, shared_em w _, fun l => ?_⟩⟩
    obtain ⟨s, hs, _⟩ := hl l
    obtain ⟨w2, s2, id2, e1, _⟩ := allocate_run' hs
    rw [hr] at e1
    cases (Prod.mk.inj e1).2
  | allocateN n => obtain ⟨h1, _⟩ := critM_error hr; cases h1
  | emRemove id =>
    obtain ⟨h1, rfl⟩ := critM_error (g := fun _ => .unit) hr
    refine ⟨h.of_em _, .inr ⟨.unit, rfl, _, shared_em w _, fun l => ?_⟩⟩
    obtain ⟨s, hs, h2⟩ := hl l
    obtain ⟨w2, s2, e1, _⟩ := emRemove_run hs (h2 id rfl).1 (h2 id rfl).2
    rw [hr] at e1
    cases (Prod.mk.inj e1).2
  | attachStore t id v =>
    obtain ⟨h1, rfl⟩ := critM_error (g := fun _ => .unit) hr
    cases hc : w.comps t with
    | none => exact same (by simp only [attachStoreX, onStore, hc]; rfl)
    | some st =>
      obtain ⟨hty, hwf⟩ := h.st t st hc
      simp only [attachStore, hc, unwrapR, downcast, hty, if_true, R.bind_ok] at h1
      by_cases hm : id ∈ st.set.entities
      · obtain ⟨S, e1, _⟩ := SparseSet.add_present hwf v hm
        rw [e1] at h1; cases h1
      · obtain ⟨S, e1, _⟩ := SparseSet.add_absent hwf v hm
        rw [e1] at h1; cases h1
  | detachStore t id =>
    obtain ⟨h1, rfl⟩ := critM_error hr
    cases hc : w.comps t with
    | none => exact same (by simp only [detachStoreX, onStore, hc]; rfl)
    | some st =>
      obtain ⟨hty, hwf⟩ := h.st t st hc
      simp only [detachStore, hc, unwrapR, downcast, hty, if_true, R.bind_ok] at h1
      cases he : st.set.remove id with
      | error e => exact same (detachStoreX_state hc hwf he)
      | ok p => rw [he] at h1; cases h1
  | storeHas t id => exact same (read hr)
  | storeErase t id =>
    obtain ⟨h1, rfl⟩ := critM_error (g := fun _ => .unit) hr
    obtain ⟨h2, h3⟩ := h.less (storeEraseX_evo t id w)
    exact ⟨h2, .inr ⟨.unit, rfl, h3⟩⟩
  | storeRead t id => exact same (read hr)
  | storeWrite t id v => obtain ⟨h1, h2⟩ := critM_error hr; exact same h2
  | storeCount t => exact same (read hr)
  | groupAdd k id => obtain ⟨h1, rfl⟩ := critM_error (g := fun _ => .unit) hr; exact evo (groupAddX_evo k id w)
  | groupRemove k id => obtain ⟨h1, rfl⟩ := critM_error (g := fun _ => .unit) hr; exact evo (groupRemoveX_evo k id w)
  | groupHas k id => exact same (read hr)
  | groupErase k id =>
    obtain ⟨h1, rfl⟩ := critM_error (g := fun _ => .unit) hr
    obtain ⟨h2, h3⟩ := h.less (groupEraseX_evo k id w)
    exact ⟨h2, .inr ⟨.unit, rfl, h3⟩⟩
  | resRead t => exact same (read hr)
  | resWrite t v => obtain ⟨h1, h2⟩ := critM_error hr; exact same h2
  | collect q => exact same (read hr)

end Xecs
