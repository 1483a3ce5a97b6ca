import Verif.Spec.Ordered
/-
Clients that update some groups and query others.
-/
set_option autoImplicit false
namespace Xecs
variable {V : Type}

/-- The component type that comes or goes. -/
def HOp.changes : HOp V → Option TypeId
  | .attach t _ => some t
  | .detach t => some t
  | .read _ => none
  | .write _ _ => none

/-- What a query takes, in order: a storage, or (`none`) the groups. -/
def Query.stops : Query → List (Option TypeId)
  | .comp _ t => [some t]
  | .with2 a b => stops a ++ stops b
  | .with3 a b c => stops a ++ stops b ++ stops c
  | .with4 a b c d => stops a ++ stops b ++ stops c ++ stops d
  | .with5 a b c d e => stops a ++ stops b ++ stops c ++ stops d ++ stops e
  | .withoutL a b => stops a ++ stops b
  | .withoutR a b => stops a ++ stops b
  | .group _ _ _ a b => [some a, some b, none]

/-- The types are listed in ascending order; there is at most one group, and the types up to it are early -- numbered
below `n` --, those after it late. -/
def Query.Ascending (ρ : TypeId → Nat) (n : Nat) (q : Query) : Prop :=
  q.stops.Pairwise fun x y => match x, y with
    | some t, some u => ρ t < ρ u
    | some t, none => ρ t < n
    | none, some u => n ≤ ρ u
    | none, none => False

/-- Both types of the group are late, and in order. -/
def Shape.Late (ρ : TypeId → Nat) (n : Nat) (g : Shape) : Prop := n ≤ ρ g.a ∧ n ≤ ρ g.b ∧ ρ g.a < ρ g.b

/-- Clients for whom the component types are divided into early ones (numbered below `n`) and late ones. Queries list
their types in ascending order, and name a group only after early types, of which its own two are the last. Components
come and go only of types whose groups have late types only. Entities are removed only if all groups have late types only
and the world's (arbitrary) order of storages is ascending. Everything else is unrestricted. -/
def Sys.dividing (cfg : Config) (ρ : TypeId → Nat) (n : Nat) (_ : Sys V) (_ : Nat) (c : ApiCall V) : Prop :=
  match c with
  | .on _ script => ∀ o ∈ script, ∀ t, o.changes = some t → ∀ g ∈ cfg.groups, (t = g.a ∨ t = g.b) → g.Late ρ n
  | .create script => ∀ o ∈ script, ∀ t, o.changes = some t → ∀ g ∈ cfg.groups, (t = g.a ∨ t = g.b) → g.Late ρ n
  | .remove _ => (∀ g ∈ cfg.groups, g.Late ρ n) ∧ cfg.order.Pairwise fun t u => ρ t < ρ u
  | .query q => q.Ascending ρ n
  | _ => True

/-- The entity table, the storages of early types, the groups by age, the storages of late types, the resources. -/
def Lock.divided (ρ : TypeId → Nat) (n : Nat) : Lock → Nat × Nat
  | .em => (0, 0)
  | .store t => if ρ t < n then (1, ρ t) else (3, ρ t)
  | .group k => (2, k)
  | .res t => (4, ρ t)

/-- The clients of `Sys.dividing` that keep things, and take locks in order. -/
def KSys.dividing (cfg : Config) (ρ : TypeId → Nat) (n : Nat) (σ : KSys V) (i : Nat) (c : KCall V) : Prop :=
  keeping (Sys.dividing cfg ρ n) σ i c ∧ σ.Later cfg (Lock.divided ρ n) i c

end Xecs
