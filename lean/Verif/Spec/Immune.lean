import Verif.Spec.Linear
import Verif.Spec.Keeping
/-
Calls that no other thread can make panic (C68).
-/
set_option autoImplicit false
namespace Xecs
variable {V : Type}

/-- Attaching components of a registered type that belongs to no full-owning group, reading and writing. (Groups that should
not exist are excluded: those with a type not registered, left behind by a `make_group` that panicked, and partial-owning
groups of a type with itself, for which see C44.) -/
def HOp.immune (cfg : Config) : HOp V → Prop
  | .attach t _ => cfg.registered t = true ∧ ∀ g ∈ cfg.groups, g.touches t = true →
      cfg.registered g.a = true ∧ cfg.registered g.b = true ∧ (g.kind = .non ∨ (g.kind = .part ∧ g.a ≠ g.b))
  | .detach _ => False
  | .read _ => True
  | .write _ _ => True

/-- The types are registered, and there are as many components as entities. -/
def wellFormed (cfg : Config) (n : Nat) (batches : List (TypeId × List V)) : Prop :=
  ∀ b ∈ batches, cfg.registered b.1 = true ∧ b.2.length = n

/-- The query names no group, its types are registered, and it does not ask for a component mutably that it asks for
twice. -/
def Query.plain (cfg : Config) (q : Query) : Prop :=
  Hist.Parts (fun t => cfg.registered t = true) (fun _ _ _ => False) q ∧ q.Conflictless

/-- The calls that no other thread can make panic: reading, writing and counting components, using resources, queries
without groups, and creating ranges of entities with batches of components. -/
def ApiCall.immune (cfg : Config) : ApiCall V → Prop
  | .read _ _ => True
  | .write _ _ _ => True
  | .count _ => True
  | .resRead _ => True
  | .resWrite _ _ => True
  | .query q => q.plain cfg
  | .createMany n batches => wellFormed cfg n batches
  | .fill start stop batches => wellFormed cfg (stop - start) batches
  | _ => False

/-- The same for clients that keep things; here also the use of handles and guards that were kept, and dropping them. -/
def KCall.immune (cfg : Config) : KCall V → Prop
  | .call c => c.immune cfg
  | .openHandle _ => False
  | .createHandle => False
  | .createHandles n batches => wellFormed cfg n batches
  | .openView q => q.plain cfg
  | .viaHandle _ script => ∀ o ∈ script, o.immune cfg
  | .viaHandles start stop batches => wellFormed cfg (stop - start) batches
  | _ => True

end Xecs
