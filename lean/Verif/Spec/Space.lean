import Verif.Spec.Ids
/-
How much room a world takes: specification for property C71.
-/
set_option autoImplicit false
namespace Xecs
open Spec World
/-- The lists and counters of the world stay within the following bounds: the entity table has room for `ids` ids and
lists `n` entities; no storage has an index for more than `ids` ids or more than `n` components; the positions it
has recorded (counted from one) and the lengths of the groups are at most `n`. -/
structure Room {V : Type} (ids n : Nat) (w : World V) : Prop where
  flags : w.em.flags.length ≤ ids + 1
  table : w.em.entities.length = n
  index : ∀ t st, w.comps t = some st → st.set.indices.length ≤ ids + 1
  dense : ∀ t st, w.comps t = some st → st.set.entities.length ≤ n ∧ st.set.data.length ≤ n
  places : ∀ t st (e : Nat) i, w.comps t = some st → st.set.indices[e]? = some (some i) → i ≤ n
  groups : ∀ g, g ∈ w.groups → g.len ≤ n

end Xecs
