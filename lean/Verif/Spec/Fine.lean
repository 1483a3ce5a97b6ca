import Verif.Model.Fine
import Verif.Spec.Threads
/-
What it means that statements implement a piece of work under its guards.
-/
set_option autoImplicit false
namespace Xecs
variable {V : Type}

/-- Two worlds with groups of the same kinds and types agree on all data that `foot` mentions. -/
def AgreeOn (foot : List Guard) (w w' : World V) : Prop :=
  w.groups.map Group.shape = w'.groups.map Group.shape ∧ ∀ g ∈ foot, Sys.SameAt w w' g.1

/-- Started in `w`, the statements touch only what `foot` mentions, and modify only what it mentions as modified: each
statement, in any world that agrees with the current one on `foot`, has the same effect on `foot`, goes on in the same
way, and changes nothing that is not mentioned as modified. -/
def Stm.Within {α : Type} (foot : List Guard) : Stm (World V) α → World V → Prop
  | .ret _, _ => True
  | .step u k, w => (∀ w', AgreeOn foot w w' → k w = k w' ∧ AgreeOn foot (u w) (u w') ∧
      w'.groups.map Group.shape = (u w').groups.map Group.shape ∧
      ∀ l, (l, Mode.mut) ∉ foot → Sys.SameAt w' (u w') l) ∧ (k w).Within foot (u w)

/-- The statements `impl a` implement the piece of work `a`, for all `a`: executed without interruption they have its
effect and result, and they stay within its footprint. -/
def Splits (cfg : Config) (impl : Act V → Stm (World V) (Ret V)) : Prop :=
  ∀ (a : Act V) (w : World V), cfg.groups = w.groups.map Group.shape →
    (impl a).run w = a.run w ∧ (impl a).Within (a.footprint cfg) w

namespace FSys

/-- Thread number `i` is in the middle of the piece of work `a`. -/
def Working (φ : FSys V) (i : Nat) (a : Act V) : Prop := φ.sys.AboutTo i a ∧ (φ.rest i).isSome = true

/-- No thread is in the middle of a piece of work. -/
def AtRest (φ : FSys V) : Prop := ∀ i, φ.rest i = none

/-- No thread is in the middle of modifying the data protected by `l`. -/
def Untouched (cfg : Config) (φ : FSys V) (l : Lock) : Prop :=
  ∀ i a, φ.Working i a → (l, Mode.mut) ∉ a.footprint cfg

end FSys
end Xecs
