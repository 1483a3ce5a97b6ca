import Verif.Model.FineKeeping
import Verif.Spec.Fine
import Verif.Spec.Keeping
/-
As Spec/Fine, for clients that keep handles, guards and iterators.
-/
set_option autoImplicit false
namespace Xecs
variable {V : Type}

namespace KFSys

/-- Thread number `i` is in the middle of the piece of work `a`. -/
def Working (φ : KFSys V) (i : Nat) (a : Act V) : Prop := φ.sys.AboutTo i a ∧ (φ.rest i).isSome = true

/-- No thread is in the middle of a piece of work. -/
def AtRest (φ : KFSys V) : Prop := ∀ i, φ.rest i = none

/-- No thread is in the middle of modifying the data protected by `l`. -/
def Untouched (cfg : Config) (φ : KFSys V) (l : Lock) : Prop :=
  ∀ i a, φ.Working i a → (l, Mode.mut) ∉ a.footprint cfg

end KFSys
end Xecs
