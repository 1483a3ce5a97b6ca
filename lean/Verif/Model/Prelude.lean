/-
Common vocabulary of the model: faults, the result monad, and the std operations on `Vec`/slices the
crate uses.
-/
set_option autoImplicit false
namespace Xecs

/-- How a Rust call can fail to return normally.
* `panic`    — a Rust panic (failed `assert!`, `unwrap`, `expect`, bounds-checked indexing);
* `ub`       — undefined behaviour (an unchecked access out of bounds, a downcast to a wrong type);
* `deadlock` — the calling thread blocks for ever on a lock it holds itself. -/
inductive Fault where
  | panic
  | ub
  | deadlock
  deriving DecidableEq, Repr

/-- Result of a model function: a value, or a fault. -/
abbrev R (α : Type _) := Except Fault α

/-- `EntityId = NonZeroUsize` (src/entity.rs:6). Modelled as a natural number; that it is not zero is a
hypothesis (`id ≠ 0`) where it matters. Simplification: unbounded instead of 64 bits. (A macro, not a
definition, so that arithmetic tactics see plain `Nat`.) -/
macro "EntityId" : term => `(Nat)

/-- `std::any::TypeId`. Distinct Rust types have distinct ids (trusted). -/
macro "TypeId" : term => `(Nat)

/-- `v[i]` on a `Vec`/slice: bounds-checked read, panics out of range. -/
def getR {α : Type _} (l : List α) (i : Nat) : R α :=
  match l[i]? with
  | some a => .ok a
  | none => .error .panic

/-- `v.get_unchecked(i)`: undefined behaviour out of range. -/
def getU {α : Type _} (l : List α) (i : Nat) : R α :=
  match l[i]? with
  | some a => .ok a
  | none => .error .ub

/-- `v[i] = a` on a `Vec`: bounds-checked write, panics out of range. -/
def setR {α : Type _} (l : List α) (i : Nat) (a : α) : R (List α) :=
  if i < l.length then .ok (l.set i a) else .error .panic

/-- `opt.unwrap()` / `opt.expect(..)`. -/
def unwrapR {α : Type _} : Option α → R α
  | some a => .ok a
  | none => .error .panic

/-- `slice::swap(i, j)`: exchanges two elements, panics if either index is out of range. -/
def swapR {α : Type _} (l : List α) (i j : Nat) : R (List α) := do
  let a ← getR l i
  let b ← getR l j
  .ok ((l.set i b).set j a)

/-- `Vec::swap_remove(i)`: returns element `i`, which is replaced by the last element; panics if `i` is
out of range. -/
def swapRemoveR {α : Type _} (l : List α) (i : Nat) : R (α × List α) := do
  let a ← getR l i
  let z ← unwrapR l.getLast?
  .ok (a, (l.set i z).dropLast)

/-- `assert!(b)`. -/
def assertR (b : Bool) : R Unit := if b then .ok () else .error .panic

/-- Code that works on a mutable `σ` one statement at a time: it is over, with a result or a fault, or does one
statement, which changes `σ`, and goes on with what it has seen. -/
inductive Stm (σ α : Type) where
  | ret (r : R α)
  | step (f : σ → σ) (k : σ → Stm σ α)

namespace Stm
variable {σ τ α β γ : Type}

/-- Execute the statements one after the other: given the value before, the value afterwards (also if a statement
faults: what the statements before it have changed stays changed) and the result. -/
def run : Stm σ α → σ → σ × R α
  | ret r, s => (s, r)
  | step f k, s => (k s).run (f s)

instance : CoeFun (Stm σ α) (fun _ => σ → σ × R α) := ⟨run⟩

/-- `m` and then, unless it has faulted, `f`. -/
def andThen (m : Stm σ α) (f : α → Stm σ β) : Stm σ β :=
  match m with
  | ret (.ok a) => f a
  | ret (.error e) => ret (.error e)
  | step g k => step g fun s => (k s).andThen f

instance : Monad (Stm σ) where
  pure a := ret (.ok a)
  bind := andThen

/-- Evaluate an expression. -/
def read (f : σ → R α) : Stm σ α := step (fun s => s) fun s => ret (f s)

/-- One assignment (or one call of a std method that checks its arguments before it changes anything). -/
def upd (f : σ → R σ) : Stm σ Unit :=
  step (fun s => match f s with | .ok s' => s' | .error _ => s)
    fun s => ret (match f s with | .ok _ => .ok () | .error e => .error e)

/-- Work on a part of a larger value. -/
def on (get : τ → σ) (put : τ → σ → τ) : Stm σ α → Stm τ α
  | ret r => ret r
  | step f k => step (fun t => put t (f (get t))) fun t => on get put (k (get t))

/-- `for x in xs { body(x) }`. -/
def forEach : List γ → (γ → Stm σ Unit) → Stm σ Unit
  | [], _ => pure ()
  | x :: xs, f => do f x; forEach xs f

end Stm

end Xecs
