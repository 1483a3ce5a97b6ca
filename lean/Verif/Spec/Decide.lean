import Verif.Spec.Results
/-
Deciding the side conditions of the query theorems on concrete histories.
-/
set_option autoImplicit false
namespace Xecs
open Spec Hist
variable {V : Type}

/-- Deciding `Parts`. -/
def decParts (pc : TypeId → Prop) (pg : Kind → TypeId → TypeId → Prop) [dc : ∀ t, Decidable (pc t)]
    [dg : ∀ k a b, Decidable (pg k a b)] : (q : Query) → Decidable (Parts pc pg q)
  | .comp _ t => dc t
  | .group k _ _ a b => dg k a b
  | .with2 a b => @instDecidableAnd _ _ (decParts pc pg a) (decParts pc pg b)
  | .with3 a b c => @instDecidableAnd _ _ (decParts pc pg a) (@instDecidableAnd _ _ (decParts pc pg b) (decParts pc pg c))
  | .with4 a b c d => @instDecidableAnd _ _ (decParts pc pg a) (@instDecidableAnd _ _ (decParts pc pg b)
      (@instDecidableAnd _ _ (decParts pc pg c) (decParts pc pg d)))
  | .with5 a b c d e => @instDecidableAnd _ _ (decParts pc pg a) (@instDecidableAnd _ _ (decParts pc pg b)
      (@instDecidableAnd _ _ (decParts pc pg c) (@instDecidableAnd _ _ (decParts pc pg d) (decParts pc pg e))))
  | .withoutL a b => @instDecidableAnd _ _ (decParts pc pg a) (decParts pc pg b)
  | .withoutR a b => @instDecidableAnd _ _ (decParts pc pg a) (decParts pc pg b)

instance (tr : List (Op V × Out V)) (q : Query) : Decidable (Exists tr q) := decParts _ _ q
instance (tr : List (Op V × Out V)) (q : Query) : Decidable (Unmoved tr q) := decParts _ _ q
instance (tr : List (Op V × Out V)) (q : Query) : Decidable (Undisturbed tr q) := decParts _ _ q
instance (tr : List (Op V × Out V)) (q : Query) : Decidable (Unbatched tr q) := decParts _ _ q
instance (q : Query) : Decidable q.Groupless := decParts _ _ q
instance (x y : TypeId × Mode) : Decidable (Query.Clash x y) := inferInstanceAs (Decidable (_ ∧ _))
instance (q : Query) : Decidable q.Conflictless := inferInstanceAs (Decidable (List.Pairwise _ _))
instance (l m : Loc) : Decidable (Compatible l m) := inferInstanceAs (Decidable (_ → _))

end Xecs
