import Verif.Spec.Alone
import Verif.Spec.Phases
/-
Clients that only start calls that would succeed if nothing else happened.
-/
set_option autoImplicit false
namespace Xecs
variable {V : Type}

/-- Disciplined clients that start a call only if it would return normally, were it executed alone in the world as it
is now. -/
def Sys.prudent (cfg : Config) (σ : Sys V) (i : Nat) (c : ApiCall V) : Prop :=
  σ.disciplined cfg i c ∧ ∃ rs, (c.alone cfg.order σ.world).2 = .ok rs

/-- Before each `detach` of a type through the handle of an entity the same call attaches the type; or, when the call is
made, the entity or one with a higher id has a component of the type. -/
def Sys.Secure (σ : Sys V) (c : ApiCall V) : Prop :=
  ∀ before t after, c.chain = some (before ++ HOp.detach t :: after) →
    (∃ v, HOp.attach t v ∈ before) ∨ ∃ id e, c.subject = some id ∧ id ≤ e ∧ (σ.world.value t e).isSome = true

/-- Considerate clients that start a call only if it would return normally, were it executed alone in the world as it
is now; whose calls are secure (which is the case if they find the components they detach); and whose queries name no
non-owning group. -/
def Sys.careful (cfg : Config) (σ : Sys V) (i : Nat) (c : ApiCall V) : Prop :=
  σ.considerate cfg i c ∧ σ.Secure c ∧ (∃ rs, (c.alone cfg.order σ.world).2 = .ok rs) ∧
  (∀ q, c = .query q → Hist.NoNon q)

/-- As a Boolean. -/
def Sys.prudentb (cfg : Config) (disciplinedb : Sys V → Nat → ApiCall V → Bool) (σ : Sys V) (i : Nat) (c : ApiCall V) :
    Bool :=
  disciplinedb σ i c &&
  (match (c.alone cfg.order σ.world).2 with
   | .ok _ => true
   | .error _ => false)

/-- `Secure`, as a Boolean. -/
def Sys.secureb (σ : Sys V) (id : Option EntityId) : List TypeId → List (HOp V) → Bool
  | _, [] => true
  | ts, .attach t _ :: ops => secureb σ id (t :: ts) ops
  | ts, .detach t :: ops =>
    (ts.contains t || (match id with
     | some id => (match σ.world.comps t with
       | some st => st.set.entities.any fun e => decide (id ≤ e) && (σ.world.value t e).isSome
       | none => false)
     | none => false)) && secureb σ id ts ops
  | ts, _ :: ops => secureb σ id ts ops

/-- As a Boolean, except for the consideration. -/
def Sys.carefulb (cfg : Config) (considerateb : Sys V → Nat → ApiCall V → Bool) (σ : Sys V) (i : Nat) (c : ApiCall V) :
    Bool :=
  considerateb σ i c && σ.secureb c.subject [] (c.chain.getD []) &&
  (match (c.alone cfg.order σ.world).2 with
   | .ok _ => true
   | .error _ => false) &&
  (match c with
   | .query q => noNonb q
   | _ => true)
where
  noNonb : Query → Bool
    | .comp _ _ => true
    | .with2 a b => noNonb a && noNonb b
    | .with3 a b c => noNonb a && noNonb b && noNonb c
    | .with4 a b c d => noNonb a && noNonb b && noNonb c && noNonb d
    | .with5 a b c d e => noNonb a && noNonb b && noNonb c && noNonb d && noNonb e
    | .withoutL a b => noNonb a && noNonb b
    | .withoutR a b => noNonb a && noNonb b
    | .group k _ _ _ _ => k != .non

end Xecs
