import Verif.Spec.Keeping
import Verif.Proofs.Handles
import Verif.Proofs.LinearSys
/-
Clients that keep things can do no more to the world than clients that do not: every schedule of Model/Keeping is
matched by one of Model/Threads with the same worlds, calls and returns.
-/
set_option autoImplicit false
namespace Xecs
variable {V : Type}

namespace Prog

/-- Drop `gs` before returning. -/
def andThen (gs : List Guard) : Prog V → Prog V
  | .done rs => releaseAll gs (.done rs)
  | .panic => .panic
  | .acq l m p => .acq l m (andThen gs p)
  | .rel l m p => .rel l m (andThen gs p)
  | .act a f => .act a fun r => andThen gs (f r)

theorem andThen_nil (p : Prog V) : p.andThen [] = p := by
  induction p with
  | done rs => rfl
  | panic => rfl
  | acq l m p ih => simp only [andThen, ih]
  | rel l m p ih => simp only [andThen, ih]
  | act a f ih => simp only [andThen, ih]

variable {gs : List Guard}

theorem andThen_store (cfg : Config) (t : Nat) (m : Mode) (p : Prog V) :
    (store cfg t m p).andThen gs = store cfg t m (p.andThen gs) := by
  unfold store; split <;> rfl

theorem andThen_lockGroups (t : Nat) (l : List (Nat × Shape)) (p : Prog V) :
    (lockGroups t l p).andThen gs = lockGroups t l (p.andThen gs) := by
  induction l with
  | nil => rfl
  | cons x l ih =>
    obtain ⟨k, g⟩ := x
    simp only [lockGroups, andThen]
    split <;> simp only [andThen, ih]

theorem andThen_groupLoop (cfg : Config) (a : Nat → Act V) (l : List (Nat × Shape)) (p : Prog V) :
    (groupLoop cfg a l p).andThen gs = groupLoop cfg a l (p.andThen gs) := by
  induction l with
  | nil => rfl
  | cons x l ih =>
    obtain ⟨k, g⟩ := x
    simp only [groupLoop, groupStep, andThen_store, andThen, ih]

theorem andThen_attach (cfg : Config) (id t : Nat) (v : V) (p : Prog V) :
    (attach cfg id t v p).andThen gs = attach cfg id t v (p.andThen gs) := by
  unfold attach
  split
  · simp only [andThen, andThen_lockGroups, andThen_groupLoop]
  · rfl

theorem andThen_detach (cfg : Config) (id t : Nat) (p : Ret V → Prog V) :
    (detach cfg id t p).andThen gs = detach cfg id t fun r => (p r).andThen gs := by
  unfold detach
  split
  · simp only [andThen, andThen_lockGroups, andThen_groupLoop]
  · rfl

theorem andThen_read (cfg : Config) (t id : Nat) (p : Ret V → Prog V) :
    (read cfg t id p).andThen gs = read cfg t id fun r => (p r).andThen gs := by
  unfold read; split <;> rfl

theorem andThen_write (cfg : Config) (t id : Nat) (v : V) (p : Ret V → Prog V) :
    (write cfg t id v p).andThen gs = write cfg t id v fun r => (p r).andThen gs := by
  unfold write; split <;> rfl

theorem andThen_script (cfg : Config) (id : Nat) (ops : List (HOp V)) : ∀ (acc : List (Ret V)) (p : List (Ret V) → Prog V),
    (script cfg id ops acc p).andThen gs = script cfg id ops acc fun rs => (p rs).andThen gs := by
  induction ops with
  | nil => intro acc p; rfl
  | cons o ops ih =>
    intro acc p
    cases o with
    | attach t v => simp only [script, andThen_attach, ih]
    | detach t => simp only [script, andThen_detach, ih]
    | read t => simp only [script, andThen_read, ih]
    | write t v => simp only [script, andThen_write, ih]

theorem andThen_batches (cfg : Config) (start stop : Nat) (bs : List (Nat × List V)) (p : Prog V) :
    (batches cfg start stop bs p).andThen gs = batches cfg start stop bs (p.andThen gs) := by
  induction bs with
  | nil => rfl
  | cons b bs ih =>
    obtain ⟨t, vs⟩ := b
    simp only [batches]
    split
    · simp only [andThen_store, andThen, ih]
    · rfl

theorem andThen_visitGroups (l : List Nat) (p : Prog V) :
    (visitGroups l p).andThen gs = visitGroups l (p.andThen gs) := by
  induction l with
  | nil => rfl
  | cons k l ih => simp only [visitGroups, andThen, ih]

theorem andThen_openQuery (cfg : Config) (q : Query) : ∀ (p : Prog V),
    (openQuery cfg q p).andThen gs = openQuery cfg q (p.andThen gs) := by
  induction q with
  | comp m t => intro p; exact andThen_store _ _ _ _
  | with2 a b iha ihb => intro p; simp only [openQuery, iha, ihb]
  | withoutL a b iha ihb => intro p; simp only [openQuery, iha, ihb]
  | withoutR a b iha ihb => intro p; simp only [openQuery, iha, ihb]
  | with3 a b c iha ihb ihc => intro p; simp only [openQuery, iha, ihb, ihc]
  | with4 a b c d iha ihb ihc ihd => intro p; simp only [openQuery, iha, ihb, ihc, ihd]
  | with5 a b c d e iha ihb ihc ihd ihe => intro p; simp only [openQuery, iha, ihb, ihc, ihd, ihe]
  | group k ma mb a b =>
    intro p
    simp only [openQuery]
    split
    · simp only [andThen_store]
      split
      · simp only [andThen_visitGroups, andThen]
      · simp only [andThen_visitGroups, andThen]
    · rfl

/-- Of the guards `own` taken by the program, only such are dropped, and at the end exactly those in `G` remain. -/
def Tidy (G : List (Ret V) → List Guard) : List Guard → Prog V → Prop
  | own, .done rs => own.Perm (G rs)
  | _, .panic => True
  | own, .acq l m p => Tidy G ((l, m) :: own) p
  | own, .rel l m p => (l, m) ∈ own ∧ Tidy G (own.erase (l, m)) p
  | own, .act _ f => ∀ r, Tidy G own (f r)

theorem Tidy.perm {G : List (Ret V) → List Guard} {p : Prog V} : ∀ {own own' : List Guard}, own.Perm own' →
    Tidy G own p → Tidy G own' p := by
  induction p with
  | done rs => intro o o' hp h; exact hp.symm.trans h
  | panic => intro _ _ _ _; trivial
  | acq l m p ih => intro o o' hp h; exact ih (hp.cons _) h
  | rel l m p ih => intro o o' hp h; exact ⟨hp.subset h.1, ih (hp.erase _) h.2⟩
  | act a f ih => intro o o' hp h r; exact ih r hp (h r)

theorem perm_of_releaseAll {cfg : Config} {rs : List (Ret V)} : ∀ {gs own : List Guard},
    Safe cfg own (releaseAll gs (.done rs)) → own.Perm gs := by
  intro gs
  induction gs with
  | nil => intro own h; rw [show own = [] from h]
  | cons g gs ih =>
    intro own h
    obtain ⟨l, m⟩ := g
    have := ih h.2
    exact (List.perm_cons_erase h.1).trans (this.cons _)

theorem tidy_of_safe {cfg : Config} {p : Prog V} : ∀ {own : List Guard}, Safe cfg own (p.andThen gs) →
    Tidy (fun _ => gs) own p := by
  induction p with
  | done rs => intro own h; exact perm_of_releaseAll h
  | panic => intro _ _; trivial
  | acq l m p ih => intro own h; exact ih (own := (l, m) :: own) h
  | rel l m p ih => intro own h; exact ⟨h.1, ih h.2⟩
  | act a f ih => intro own h r; exact ih r (h.2 r)

theorem tidy_store {cfg : Config} {G : List (Ret V) → List Guard} {own : List Guard} {t : Nat} {m : Mode} {p : Prog V}
    (h : Tidy G ((.store t, m) :: own) p) : Tidy G own (store cfg t m p) := by
  unfold store
  split
  · exact h
  · trivial

theorem tidy_batches {cfg : Config} {G : List (Ret V) → List Guard} {own : List Guard} {start stop : Nat}
    (bs : List (Nat × List V)) {p : Prog V} (h : Tidy G own p) : Tidy G own (batches cfg start stop bs p) := by
  induction bs with
  | nil => exact h
  | cons b bs ih =>
    obtain ⟨t, vs⟩ := b
    simp only [batches]
    split
    · refine tidy_store fun r => ⟨by simp, ?_⟩
      simpa using ih
    · trivial

theorem tidy_releaseAll {G : List (Ret V) → List Guard} {p : Prog V} (h : Tidy G [] p) (gs : List Guard) :
    Tidy G gs (releaseAll gs p) := by
  induction gs with
  | nil => exact h
  | cons g gs ih => exact ⟨by simp, by simpa using ih⟩

/-- A program that only takes and drops guards. -/
def Mute : Prog V → Prop
  | .done _ => True
  | .panic => True
  | .acq _ _ p => Mute p
  | .rel _ _ p => Mute p
  | .act _ _ => False

theorem mute_releaseAll (gs : List Guard) (rs : List (Ret V)) : Mute (releaseAll gs (.done rs) : Prog V) := by
  induction gs with
  | nil => trivial
  | cons g gs ih => exact ih

end Prog

namespace KCall

/-- The guard a call goes through. -/
def via (cfg : Config) : KCall V → List Guard
  | viaHandle _ _ => [(.em, .ref)]
  | viaHandles _ _ _ => [(.em, .ref)]
  | storeGet t _ => if cfg.registered t then [(.store t, .ref)] else []
  | storeLen t => if cfg.registered t then [(.store t, .ref)] else []
  | storeSet t _ _ => if cfg.registered t then [(.store t, .mut)] else []
  | resGet t => if cfg.res t then [(.res t, .ref)] else []
  | resSet t _ => if cfg.res t then [(.res t, .mut)] else []
  | _ => []

/-- The guards it leaves with the client. -/
def gains (cfg : Config) (c : KCall V) (rs : List (Ret V)) : List Guard := (c.keeps cfg rs).flatMap (Keep.guards cfg)

/-- The guards a drop starts with. -/
def spare (cfg : Config) : KCall V → List Guard
  | drop k => k.guards cfg
  | _ => []

theorem tidy {cfg : Config} (c : KCall V) : Prog.Tidy (c.gains cfg) (c.spare cfg) (c.prog cfg) := by
  cases c with
  | call c =>
    have := Prog.tidy_of_safe (gs := []) (by rw [Prog.andThen_nil]; exact Prog.safe_call (cfg := cfg) c)
    exact this
  | openHandle id =>
    intro r
    dsimp only [prog]
    split
    · exact List.Perm.refl _
    · trivial
  | createHandle =>
    intro r
    dsimp only [prog]
    split
    · refine ⟨by simp, ?_⟩
      intro r
      dsimp only
      split
      · simp [Prog.Tidy, gains, keeps, Keep.guards, spare]
      · trivial
    · trivial
  | createHandles n bs =>
    intro r
    dsimp only [prog]
    split
    · refine ⟨by simp, ?_⟩
      exact Prog.tidy_batches (own := (Lock.em, Mode.ref) :: _) _ (by simp [Prog.Tidy, gains, keeps, Keep.guards, spare])
    · trivial
  | openStore t m =>
    simp only [prog]
    split
    · next h => simp [Prog.Tidy, gains, keeps, Keep.guards, spare, h]
    · next h => simp [Prog.Tidy, gains, keeps, spare, h]
  | openRes t m =>
    simp only [prog]
    split
    · next h => simp [Prog.Tidy, gains, keeps, Keep.guards, spare, h]
    · next h => simp [Prog.Tidy, gains, keeps, spare, h]
  | openView q =>
    have h := Prog.safe_call (cfg := cfg) (V := V) (.query q)
    have e : (ApiCall.query q).prog cfg = ((openView q).prog cfg : Prog V).andThen (Prog.queryGuards cfg q) := by
      simp only [ApiCall.prog, prog, Prog.andThen_openQuery, Prog.andThen]
    rw [e] at h
    have := Prog.tidy_of_safe h
    have hg : (openView q : KCall V).gains cfg = fun _ => Prog.queryGuards cfg q := by
      funext rs; simp [gains, keeps, Keep.guards]
    rw [hg]; exact this
  | viaHandle id s =>
    have := Prog.tidy_of_safe (gs := []) (cfg := cfg) (own := []) (p := (viaHandle id s).prog cfg) (by
      rw [Prog.andThen_nil]; exact Prog.safe_script s fun rs => rfl)
    exact this
  | viaHandles x y bs =>
    exact Prog.tidy_batches (own := (viaHandles x y bs : KCall V).spare cfg) bs (by simp [Prog.Tidy, gains, keeps, spare])
  | storeGet t id => simp only [prog]; split <;> simp [Prog.Tidy, gains, keeps, spare]
  | storeSet t id v => simp only [prog]; split <;> simp [Prog.Tidy, gains, keeps, spare]
  | storeLen t => simp only [prog]; split <;> simp [Prog.Tidy, gains, keeps, spare]
  | resGet t => simp only [prog]; split <;> simp [Prog.Tidy, gains, keeps, spare]
  | resSet t v => simp only [prog]; split <;> simp [Prog.Tidy, gains, keeps, spare]
  | drop k => exact Prog.tidy_releaseAll (G := gains cfg (drop k)) (p := .done []) (List.Perm.refl []) _

theorem mute {cfg : Config} {c : KCall V} (h : c.plain = none) : (c.prog cfg).Mute := by
  cases c with
  | openStore t m => simp only [prog]; split <;> trivial
  | openRes t m => simp only [prog]; split <;> trivial
  | drop k => exact Prog.mute_releaseAll _ _
  | _ => simp [plain] at h

theorem subject_plain {c : KCall V} {c' : ApiCall V} (h : c.plain = some c') : c'.subject = c.subject := by
  cases c <;> simp [plain] at h <;> subst h <;> rfl

theorem subject_mute {c : KCall V} (h : c.plain = none) : c.subject = none := by
  cases c <;> simp [plain] at h <;> rfl

theorem leaves_of {c : KCall V} {c' : ApiCall V} (h : c.plain = some c') (kept : List Keep) : c.leaves kept = kept := by
  cases c <;> simp [plain] at h <;> rfl

theorem spare_of {cfg : Config} {c : KCall V} {c' : ApiCall V} (h : c.plain = some c') : c.spare cfg = [] := by
  cases c <;> simp [plain] at h <;> rfl

/-- How the plain call gets to where the call starts: directly, after taking the guard, or after taking the guard and
finding the entity alive. -/
theorem entry {cfg : Config} {c : KCall V} {c' : ApiCall V} (h : c.plain = some c') :
    ∃ gs, (c.via cfg = [] ∧ c'.prog cfg = (c.prog cfg).andThen gs) ∨
      (∃ l m, c.via cfg = [(l, m)] ∧ c'.prog cfg = .acq l m ((c.prog cfg).andThen gs)) ∨
      (∃ id s f, c = viaHandle id s ∧ c.via cfg = [(.em, .ref)] ∧ c'.prog cfg = .acq .em .ref (.act (.has id) f) ∧
        f (.bool true) = (c.prog cfg).andThen gs) := by
  cases c <;> simp only [plain, Option.some.injEq, reduceCtorEq] at h <;> subst h
  case call c => exact ⟨[], .inl ⟨rfl, (Prog.andThen_nil _).symm⟩⟩
  case openHandle id =>
    refine ⟨[(.em, .ref)], .inl ⟨rfl, ?_⟩⟩
    simp only [ApiCall.prog, Prog.handle, prog, Prog.andThen]
    congr 2
    funext r
    cases r with
    | bool b => cases b <;> rfl
    | _ => rfl
  case createHandle =>
    refine ⟨[(.em, .ref)], .inl ⟨rfl, ?_⟩⟩
    simp only [ApiCall.prog, Prog.handle, prog, Prog.andThen]
    congr 2
    funext r
    cases r with
    | id id =>
      simp only [Prog.andThen]
      congr 3
      funext r
      cases r with
      | bool b => cases b <;> rfl
      | _ => rfl
    | _ => rfl
  case createHandles n bs =>
    refine ⟨[(.em, .ref)], .inl ⟨rfl, ?_⟩⟩
    simp only [ApiCall.prog, prog, Prog.andThen]
    congr 2
    funext r
    cases r with
    | range start stop => simp only [Prog.andThen, Prog.andThen_batches]; rfl
    | _ => rfl
  case openView q =>
    refine ⟨Prog.queryGuards cfg q, .inl ⟨rfl, ?_⟩⟩
    simp only [ApiCall.prog, prog, Prog.andThen_openQuery, Prog.andThen]
  case viaHandle id s =>
    refine ⟨[(.em, .ref)], .inr (.inr ⟨id, s, _, rfl, rfl, rfl, ?_⟩)⟩
    simp only [prog, Prog.andThen_script]; rfl
  case viaHandles x y bs =>
    refine ⟨[(.em, .ref)], .inr (.inl ⟨.em, .ref, rfl, ?_⟩)⟩
    simp only [ApiCall.prog, prog, Prog.andThen_batches]; rfl
  case storeGet t id =>
    by_cases hr : cfg.registered t
    · refine ⟨[(.store t, .ref)], .inr (.inl ⟨.store t, .ref, by simp [via, hr], ?_⟩)⟩
      simp only [ApiCall.prog, Prog.read, prog, hr, if_true]; rfl
    · refine ⟨[], .inl ⟨by simp [via, hr], ?_⟩⟩
      simp only [ApiCall.prog, Prog.read, prog, hr]; rfl
  case storeSet t id v =>
    by_cases hr : cfg.registered t
    · refine ⟨[(.store t, .mut)], .inr (.inl ⟨.store t, .mut, by simp [via, hr], ?_⟩)⟩
      simp only [ApiCall.prog, Prog.write, prog, hr, if_true]; rfl
    · refine ⟨[], .inl ⟨by simp [via, hr], ?_⟩⟩
      simp only [ApiCall.prog, Prog.write, prog, hr]; rfl
  case storeLen t =>
    by_cases hr : cfg.registered t
    · refine ⟨[(.store t, .ref)], .inr (.inl ⟨.store t, .ref, by simp [via, hr], ?_⟩)⟩
      simp only [ApiCall.prog, prog, hr, if_true]; rfl
    · refine ⟨[], .inl ⟨by simp [via, hr], ?_⟩⟩
      simp only [ApiCall.prog, prog, hr]; rfl
  case resGet t =>
    by_cases hr : cfg.res t
    · refine ⟨[(.res t, .ref)], .inr (.inl ⟨.res t, .ref, by simp [via, hr], ?_⟩)⟩
      simp only [ApiCall.prog, prog, hr, if_true]; rfl
    · refine ⟨[], .inl ⟨by simp [via, hr], ?_⟩⟩
      simp only [ApiCall.prog, prog, hr]; rfl
  case resSet t v =>
    by_cases hr : cfg.res t
    · refine ⟨[(.res t, .mut)], .inr (.inl ⟨.res t, .mut, by simp [via, hr], ?_⟩)⟩
      simp only [ApiCall.prog, prog, hr, if_true]; rfl
    · refine ⟨[], .inl ⟨by simp [via, hr], ?_⟩⟩
      simp only [ApiCall.prog, prog, hr]; rfl

/-- The client keeps the guard the call goes through. -/
theorem via_kept {cfg : Config} {c : KCall V} {kept : List Keep} (h : c.Permitted cfg kept) :
    ∀ g ∈ c.via cfg, Covers (kept.flatMap (Keep.guards cfg)) g := by
  have key : ∀ {g : Guard}, (∃ k ∈ kept, g ∈ k.guards cfg ∨ (g.1, Mode.mut) ∈ k.guards cfg) →
      Covers (kept.flatMap (Keep.guards cfg)) g := by
    rintro g ⟨k, hk, h1 | h1⟩
    · exact .inl (List.mem_flatMap.2 ⟨k, hk, h1⟩)
    · exact .inr (List.mem_flatMap.2 ⟨k, hk, h1⟩)
  intro g hg
  cases c <;> simp only [via] at hg
  case viaHandle id s =>
    simp only [List.mem_singleton] at hg; subst hg
    exact key ⟨_, h, .inl (by simp [Keep.guards])⟩
  case viaHandles x y bs =>
    simp only [List.mem_singleton] at hg; subst hg
    exact key ⟨_, h, .inl (by simp [Keep.guards])⟩
  case storeGet t id =>
    split at hg <;> simp only [List.mem_singleton, List.not_mem_nil] at hg
    subst hg; exact key h
  case storeLen t =>
    split at hg <;> simp only [List.mem_singleton, List.not_mem_nil] at hg
    subst hg; exact key h
  case storeSet t id v =>
    split at hg <;> simp only [List.mem_singleton, List.not_mem_nil] at hg
    subst hg
    obtain ⟨k, hk, h1⟩ := h
    exact key ⟨k, hk, .inl h1⟩
  case resGet t =>
    split at hg <;> simp only [List.mem_singleton, List.not_mem_nil] at hg
    subst hg; exact key h
  case resSet t v =>
    split at hg <;> simp only [List.mem_singleton, List.not_mem_nil] at hg
    subst hg
    obtain ⟨k, hk, h1⟩ := h
    exact key ⟨k, hk, .inl h1⟩
  all_goals exact absurd hg (by simp)

end KCall

end Xecs
