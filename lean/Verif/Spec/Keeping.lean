import Verif.Model.Keeping
import Verif.Spec.Linear
/-
Vocabulary for clients that keep handles, guards and iterators across calls.
-/
set_option autoImplicit false
namespace Xecs
variable {V : Type}

/-- The call of Model/Threads that has the same effect and the same results -- the handle or guard it goes through is
taken for this call only, and nothing is kept. `none`: the call has no effect on the world and no results but guards. -/
def KCall.plain : KCall V → Option (ApiCall V)
  | .call c => some c
  | .openHandle id => some (.on id [])
  | .createHandle => some (.create [])
  | .createHandles n batches => some (.createMany n batches)
  | .openStore _ _ => none
  | .openView q => some (.query q)
  | .openRes _ _ => none
  | .viaHandle id script => some (.on id script)
  | .viaHandles start stop batches => some (.fill start stop batches)
  | .storeGet t id => some (.read t id)
  | .storeSet t id v => some (.write t id v)
  | .storeLen t => some (.count t)
  | .resGet t => some (.resRead t)
  | .resSet t v => some (.resWrite t v)
  | .drop _ => none

namespace KSys

/-- What the threads are doing, without the guards: for judging which calls clients may make. -/
def shadow (σ : KSys V) : Sys V :=
  { world := σ.world
    threads := σ.threads.map fun th =>
      { call := th.call.bind KCall.plain, prog := th.prog, held := [], subject := th.subject }
    log := [] }

/-- The clients of Model/Threads that may make the calls `may`, when they also keep things: a call is allowed if the
corresponding plain call is; taking and dropping guards is always allowed. -/
def keeping (may : Sys V → Nat → ApiCall V → Prop) (σ : KSys V) (i : Nat) (c : KCall V) : Prop :=
  ∀ c', c.plain = some c' → may σ.shadow i c'

/-- No two guards exist that may not coexist (`Sys.Exclusive`). -/
def Exclusive (σ : KSys V) : Prop :=
  ∀ (i j p q : Nat) (thi thj : KThread V) (g h : Guard), σ.threads[i]? = some thi → σ.threads[j]? = some thj →
    thi.held[p]? = some g → thj.held[q]? = some h → (i, p) ≠ (j, q) → ¬ g.clash h

/-- Thread number `i` is about to do the piece of work `a`. -/
def AboutTo (i : Nat) (a : Act V) (σ : KSys V) : Prop :=
  (σ.threads[i]?.bind fun th => th.prog.work) = some a

/-- Thread number `i` keeps `k`. -/
def Keeps (i : Nat) (k : Keep) (σ : KSys V) : Prop := ∃ th, σ.threads[i]? = some th ∧ k ∈ th.kept

/-- Thread number `i` keeps the guard `g`, by itself or in something. -/
def KeepsGuard (cfg : Config) (i : Nat) (g : Guard) (σ : KSys V) : Prop :=
  ∃ th, σ.threads[i]? = some th ∧ ∃ k ∈ th.kept, g ∈ k.guards cfg

/-- Is every thread between calls? -/
def Quiet (σ : KSys V) : Prop := ∀ th ∈ σ.threads, th.call = none

/-- The call thread `i` is executing. -/
def running (σ : KSys V) (i : Nat) : Option (KCall V) := σ.threads[i]?.bind fun th => th.call

/-- The finished calls in terms of plain calls, latest first. -/
def answers (σ : KSys V) : List (Nat × ApiCall V × Option (List (Ret V))) :=
  σ.log.filterMap fun x => x.2.1.plain.map fun c => (x.1, c, x.2.2)

/-- The ids handed out so far by finished calls. -/
def issued (σ : KSys V) : List EntityId := σ.answers.flatMap fun x => issuedBy x.2

/-- `Sys.BatchesFit`. -/
def BatchesFit (σ : KSys V) : Prop :=
  ∀ i start stop t vs, σ.AboutTo i (.batchStore start stop t vs) → ∀ e, start ≤ e → e < stop → σ.world.value t e = none

/-- Any number of steps, with `P` holding all along. -/
inductive SchedWhile (cfg : Config) (may : KSys V → Nat → KCall V → Prop) (P : KSys V → Prop) (σ : KSys V) :
    KSys V → Prop
  | refl : P σ → SchedWhile cfg may P σ σ
  | step {σ' σ'' : KSys V} : SchedWhile cfg may P σ σ' → Step cfg may σ' σ'' → P σ'' →
      SchedWhile cfg may P σ σ''

/-- What is observed of a step from `σ` to `σ'`, in terms of plain calls: a call, a return, or nothing. -/
def Shows (σ σ' : KSys V) : Option (Event V) → Prop
  | some (.call i c) => ∃ k, k.plain = some c ∧ σ.running i = none ∧ σ'.running i = some k
  | some (.ret i c r) => ∃ k, k.plain = some c ∧ σ'.log = (i, k, r) :: σ.log
  | none => (σ'.log = σ.log ∧ ∀ i, (σ'.running i).bind KCall.plain = (σ.running i).bind KCall.plain) ∨
      ∃ i k r, k.plain = none ∧ σ'.log = (i, k, r) :: σ.log

/-- A schedule with what is observed of it, latest event first; `P` holds all along. -/
inductive History (cfg : Config) (may : KSys V → Nat → KCall V → Prop) (P : KSys V → Prop) (σ : KSys V) :
    List (Event V) → KSys V → Prop
  | refl : P σ → History cfg may P σ [] σ
  | step {h : List (Event V)} {σ' σ'' : KSys V} {e : Option (Event V)} : History cfg may P σ h σ' →
      Step cfg may σ' σ'' → Shows σ' σ'' e → P σ'' → History cfg may P σ (e.toList ++ h) σ''

end KSys

/-- A condition on calls that looks only at the world, at which calls are running on which entities, and to which
entities batches of components are about to be attached. -/
def Sys.Blind (may : Sys V → Nat → ApiCall V → Prop) : Prop :=
  ∀ (σ σ' : Sys V) (i : Nat) (c : ApiCall V), σ.world = σ'.world →
    σ.threads.map (fun th => (th.call, th.subject, th.prog.fills)) =
      σ'.threads.map (fun th => (th.call, th.subject, th.prog.fills)) →
    may σ i c → may σ' i c

/-! ### Running a given schedule

As in Spec/Threads: concrete schedules are computed. -/

instance (cfg : Config) (kept : List Keep) (c : KCall V) : Decidable (c.Permitted cfg kept) := by
  cases c <;> (unfold KCall.Permitted; infer_instance)

/-- One choice of a scheduler: let thread `i` start a call, or let it do its next step. -/
inductive KChoice (V : Type) where
  | start (i : Nat) (c : KCall V)
  | go (i : Nat)

/-- Is the lock free, as a Boolean. -/
def KSys.freeb (σ : KSys V) (l : Lock) (m : Mode) : Bool :=
  σ.threads.all fun th => th.held.all fun g => decide (¬ Guard.clash (l, m) g)

/-- `KSys.keeping`, as a Boolean. -/
def KSys.keepingb (mayb : Sys V → Nat → ApiCall V → Bool) (σ : KSys V) (i : Nat) (c : KCall V) : Bool :=
  match c.plain with
  | some c' => mayb σ.shadow i c'
  | none => true

/-- `KSys.Keeps`, as a Boolean. -/
def KSys.keepsb (i : Nat) (k : Keep) (σ : KSys V) : Bool :=
  match σ.threads[i]? with
  | some th => th.kept.contains k
  | none => false

/-- Perform a choice; `none` if it is not possible. -/
def KSys.perform (cfg : Config) (mayb : KSys V → Nat → KCall V → Bool) (σ : KSys V) : KChoice V → Option (KSys V)
  | .start i c =>
    match σ.threads[i]? with
    | none => none
    | some th =>
      match th.call with
      | some _ => none
      | none =>
        if c.Permitted cfg th.kept ∧ mayb σ i c = true then
          some (σ.setThread i { th with
            call := some c, prog := c.prog cfg, subject := c.subject, kept := c.leaves th.kept })
        else none
  | .go i =>
    match σ.threads[i]? with
    | none => none
    | some th =>
      match th.prog with
      | .acq l m p =>
        if σ.freeb l m then some (σ.setThread i { th with prog := p, held := (l, m) :: th.held }) else none
      | .rel l m p => some (σ.setThread i { th with prog := p, held := th.held.erase (l, m) })
      | .act a f =>
        match a.run σ.world with
        | (w, .ok r) =>
          some ({ σ with world := w }.setThread i
            { th with prog := f r, subject := a.subjectAfter r th.subject })
        | (w, .error _) =>
          match th.call with
          | some c => some ({ σ with world := w }.finish i { th with
              call := none, prog := .done [], held := th.kept.flatMap (Keep.guards cfg), subject := none } c none)
          | none => none
      | .panic =>
        match th.call with
        | some c => some (σ.finish i { th with
            call := none, prog := .done [], held := th.kept.flatMap (Keep.guards cfg), subject := none } c none)
        | none => none
      | .done rs =>
        match th.call with
        | some c => some (σ.finish i { th with
            call := none, prog := .done [], subject := none, kept := c.keeps cfg rs ++ th.kept } c (some rs))
        | none => none

/-- Perform a list of choices. -/
def KSys.performAll (cfg : Config) (mayb : KSys V → Nat → KCall V → Bool) : KSys V → List (KChoice V) → Option (KSys V)
  | σ, [] => some σ
  | σ, c :: cs => (σ.perform cfg mayb c).bind fun σ' => KSys.performAll cfg mayb σ' cs

/-- Does `P` hold in every state met when performing a list of choices? -/
def KSys.allAlong (cfg : Config) (mayb : KSys V → Nat → KCall V → Bool) (P : KSys V → Bool) :
    KSys V → List (KChoice V) → Bool
  | σ, [] => P σ
  | σ, c :: cs => P σ && match σ.perform cfg mayb c with
    | some σ' => KSys.allAlong cfg mayb P σ' cs
    | none => false

/-- `n` steps of thread `i`. -/
def kgoes (i n : Nat) : List (KChoice V) := List.replicate n (.go i)

end Xecs
