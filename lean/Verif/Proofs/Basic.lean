import Verif.Model.Query
/-
Lemmas about the std operations of Model/Prelude.lean and about the result monads.
-/
set_option autoImplicit false
namespace Xecs
variable {α β : Type _}

@[simp] theorem ok_bind (a : α) (f : α → R β) : (Except.ok a >>= f) = f a := rfl
@[simp] theorem error_bind (e : Fault) (f : α → R β) :
    ((Except.error e : R α) >>= f) = Except.error e := rfl

theorem getR_some {l : List α} {i : Nat} {a : α} (h : l[i]? = some a) : getR l i = .ok a := by
  simp [getR, h]
theorem getR_none {l : List α} {i : Nat} (h : l[i]? = none) : getR l i = .error .panic := by
  simp [getR, h]
theorem getU_some {l : List α} {i : Nat} {a : α} (h : l[i]? = some a) : getU l i = .ok a := by
  simp [getU, h]
theorem setR_lt {l : List α} {i : Nat} (a : α) (h : i < l.length) : setR l i a = .ok (l.set i a) := by
  simp [setR, h]
@[simp] theorem unwrapR_some (a : α) : unwrapR (some a) = .ok a := rfl
@[simp] theorem unwrapR_none : unwrapR (none : Option α) = .error .panic := rfl
@[simp] theorem assertR_true : assertR true = .ok () := rfl
@[simp] theorem assertR_false : assertR false = .error .panic := rfl

/-- Pointwise description of `slice::swap`. -/
theorem swapR_ok {l : List α} {i j : Nat} (hi : i < l.length) (hj : j < l.length) :
    ∃ l', swapR l i j = .ok l' ∧ l'.length = l.length ∧
      ∀ k, l'[k]? = if k = j then l[i]? else if k = i then l[j]? else l[k]? := by
  refine ⟨(l.set i l[j]).set j l[i], ?_, by simp, ?_⟩
  · simp [swapR, getR_some (List.getElem?_eq_getElem hi), getR_some (List.getElem?_eq_getElem hj)]
  · intro k
    simp only [List.getElem?_set, List.length_set]
    grind

/-- Pointwise description of `Vec::swap_remove`. -/
theorem swapRemoveR_ok {l : List α} {i : Nat} (hi : i < l.length) :
    ∃ l', swapRemoveR l i = .ok (l[i], l') ∧ l'.length = l.length - 1 ∧
      ∀ k, l'[k]? = if k < l.length - 1 then (if k = i then l[l.length - 1]? else l[k]?) else none := by
  have hl : l.getLast? = some l[l.length - 1] := by
    rw [List.getLast?_eq_getElem?]; exact List.getElem?_eq_getElem _
  refine ⟨(l.set i l[l.length - 1]).dropLast, ?_, by simp, ?_⟩
  · simp [swapRemoveR, getR_some (List.getElem?_eq_getElem hi), hl]
  · intro k
    simp only [List.getElem?_dropLast, List.getElem?_set, List.length_set]
    grind

end Xecs
