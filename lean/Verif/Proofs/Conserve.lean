import Verif.Proofs.RobustTrace
import Verif.Proofs.ExactWorld
import Verif.Proofs.Guards
import Verif.Spec.Conserve
/-
No component value is duplicated or lost.
-/
set_option autoImplicit false
namespace Xecs
open Spec World Hist
variable {V : Type}

theorem perm_of_count {l l' : List V} (h : ∀ P : V → Bool, l.countP P = l'.countP P) : l.Perm l' := by
  classical
  exact List.perm_iff_count.2 fun a => h _

/-- What does not occur more often is a part. -/
theorem part_of_count {l l' : List V} (h : ∀ P : V → Bool, l.countP P ≤ l'.countP P) : ∃ rest : List V, (l ++ rest).Perm l' := by
  classical
  induction l generalizing l' with
  | nil => exact ⟨l', .refl _⟩
  | cons a l ih =>
    have ha : a ∈ l' := by
      have := h (· == a)
      rw [List.countP_cons_of_pos (by simp)] at this
      exact List.count_pos_iff.1 (show 0 < List.countP (· == a) l' by omega)
    have hp := List.perm_cons_erase ha
    obtain ⟨rest, hr⟩ := ih (l' := l'.erase a) (by
      intro P
      have h1 := h P
      rw [hp.countP_eq P, List.countP_cons, List.countP_cons] at h1
      omega)
    exact ⟨rest, (List.Perm.cons a hr).trans hp.symm⟩

/-! ### Lists -/

theorem countP_set' {P : V → Bool} {l : List V} {i : Nat} {a b : V} (h : l[i]? = some a) :
    (l.set i b).countP P + [a].countP P = l.countP P + [b].countP P := by
  induction l generalizing i with
  | nil => simp at h
  | cons x l ih =>
    cases i with
    | zero => simp at h; subst h; simp [List.countP_cons]; omega
    | succ i =>
      have := ih (i := i) (by simpa using h)
      simp only [List.set_cons_succ, List.countP_cons, List.countP_nil] at *
      omega

theorem swapR_count {P : V → Bool} {l l' : List V} {i j : Nat} (h : swapR l i j = .ok l') : l'.countP P = l.countP P := by
  simp only [swapR, bind_eq_ok] at h
  obtain ⟨a, ha, b, hb, h⟩ := h
  simp at h; subst h
  have ha := getR_ok ha
  have hb := getR_ok hb
  have h1 := countP_set' (P := P) (b := b) ha
  have h2 : (l.set i b)[j]? = some b := by
    by_cases hij : i = j
    · subst hij; simp [(List.getElem?_eq_some_iff.1 ha).1]
    · rw [List.getElem?_set_ne hij, hb]
  have h3 := countP_set' (P := P) (b := a) h2
  omega

theorem swapRemoveR_count {P : V → Bool} {l l' : List V} {i : Nat} {v : V} (h : swapRemoveR l i = .ok (v, l')) :
    l'.countP P + [v].countP P = l.countP P := by
  simp only [swapRemoveR, bind_eq_ok] at h
  obtain ⟨a, ha, z, hz, h⟩ := h
  simp at h; obtain ⟨rfl, rfl⟩ := h
  have ha := getR_ok ha
  have hz := unwrapR_ok hz
  have h1 := countP_set' (P := P) (b := z) ha
  have h2 : ((l.set i z).dropLast).countP P + [z].countP P = (l.set i z).countP P := by
    have hl : (l.set i z).getLast? = some z := by
      rw [List.getLast?_eq_getElem?] at hz ⊢
      simp only [List.length_set]
      by_cases hi : i = l.length - 1
      · subst hi; simp [(List.getElem?_eq_some_iff.1 ha).1]
      · rw [List.getElem?_set_ne hi, hz]
    obtain ⟨ys, hy⟩ := List.getLast?_eq_some_iff.1 hl
    rw [hy]; simp
  omega

/-! ### Storages -/

/-- Statements that leave `φ` alone, also if they fault. -/
def Stm.Keeps' {σ α : Type} (φ : σ → Nat) (m : Stm σ α) : Prop := ∀ s, φ (m s).1 = φ s

namespace Stm.Keeps'
variable {σ α β γ : Type} {φ : σ → Nat}

theorem bind {m : Stm σ α} {f : α → Stm σ β} (h : Stm.Keeps' φ m) (h' : ∀ a, Stm.Keeps' φ (f a)) : Stm.Keeps' φ (m >>= f) := by
  intro s
  rw [Stm.bind_apply]
  have := h s
  rcases hm : m s with ⟨s', _ | a⟩
  · rw [hm] at this; exact this
  · rw [hm] at this; exact (h' a s').trans this

theorem pure (a : α) : Stm.Keeps' φ (Pure.pure a : Stm σ α) := fun _ => rfl
theorem read (f : σ → R α) : Stm.Keeps' φ (Stm.read f) := fun _ => rfl
theorem upd {f : σ → R σ} (h : ∀ s s', f s = .ok s' → φ s' = φ s) : Stm.Keeps' φ (Stm.upd f) := by
  intro s
  rw [Stm.upd_apply]
  cases hf : f s with
  | ok s' => exact h s s' hf
  | error e => rfl

end Stm.Keeps'

/-- Statements that raise `φ` by at most `c`, also if they fault. -/
def Stm.Most {σ α : Type} (φ : σ → Nat) (c : Nat) (m : Stm σ α) : Prop := ∀ s, φ (m s).1 ≤ φ s + c

namespace Stm.Most
variable {σ α β γ : Type} {φ : σ → Nat} {c d : Nat}

theorem bind {m : Stm σ α} {f : α → Stm σ β} (h : Stm.Most φ c m) (h' : ∀ a, Stm.Most φ d (f a)) : Stm.Most φ (c + d) (m >>= f) := by
  intro s
  rw [Stm.bind_apply]
  have := h s
  rcases hm : m s with ⟨s', _ | a⟩
  · rw [hm] at this; show φ s' ≤ _; simp only at this; omega
  · rw [hm] at this; have h2 := h' a s'; show φ (f a s').1 ≤ _; simp only at this; omega

theorem mono {m : Stm σ α} (h : Stm.Most φ c m) (hcd : c ≤ d) : Stm.Most φ d m := fun s => by have := h s; omega
theorem pure (a : α) : Stm.Most φ 0 (Pure.pure a : Stm σ α) := fun _ => Nat.le_refl _
theorem read (f : σ → R α) : Stm.Most φ 0 (Stm.read f) := fun _ => Nat.le_refl _
theorem upd {f : σ → R σ} (h : ∀ s s', f s = .ok s' → φ s' ≤ φ s + c) : Stm.Most φ c (Stm.upd f) := by
  intro s
  rw [Stm.upd_apply]
  cases hf : f s with
  | ok s' => exact h s s' hf
  | error e => exact Nat.le_add_right _ _
theorem forEach {body : γ → Stm σ Unit} (h : ∀ c, Stm.Most φ 0 (body c)) (l : List γ) : Stm.Most φ 0 (Stm.forEach l body) := by
  induction l with
  | nil => exact pure ()
  | cons c l ih => exact bind (h c) fun _ => ih

end Stm.Most

namespace SparseSet

theorem enlarge_getElem? (l : List (Option Nat)) (e : Nat) : (enlarge l e)[e]? = some ((l[e]?).getD none) := by
  rw [(enlarge_spec l e).2]
  by_cases h : e < l.length
  · simp [h]
  · simp [h]

/-- How many stored values satisfy `P`. -/
def num (P : V → Bool) (s : SparseSet V) : Nat := s.data.countP P

/-- How much a value counts. -/
def one (P : V → Bool) (o : Option V) : Nat := o.toList.countP P

theorem swapByIndexX_num (P : V → Bool) (s : SparseSet V) (i j : Nat) : (swapByIndexX i j s).1.num P = s.num P := by
  have : Stm.Keeps' (num P) (swapByIndexX (V := V) i j) := by
    unfold swapByIndexX
    split
    · exact .pure _
    refine .bind (.read _) fun _ => .bind (.read _) fun _ => .bind (.read _) fun _ => .bind (.read _) fun _ =>
      .bind (.upd ?_) fun _ => .bind (.upd ?_) fun _ => .upd ?_
    · intro s s' h; simp only [bind_eq_ok] at h; obtain ⟨_, _, h⟩ := h; simp at h; subst h; rfl
    · intro s s' h; simp only [bind_eq_ok] at h; obtain ⟨_, _, h⟩ := h; simp at h; subst h; rfl
    · intro s s' h; simp only [bind_eq_ok] at h; obtain ⟨_, hd, h⟩ := h; simp at h; subst h; exact swapR_count hd
  exact this s

theorem remove_num (P : V → Bool) {s s' : SparseSet V} {id : Nat} {r : Option V} (h : s.remove id = .ok (s', r)) :
    s'.num P + one P r = s.num P := by
  unfold remove at h
  split at h
  · simp at h; obtain ⟨rfl, rfl⟩ := h; rfl
  simp only [bind_eq_ok] at h
  obtain ⟨o, _, h⟩ := h
  cases o with
  | none => simp at h; obtain ⟨rfl, rfl⟩ := h; rfl
  | some k =>
    simp only [bind_eq_ok] at h
    obtain ⟨_, _, _, _, _, _, _, _, ⟨_, _⟩, _, ⟨v, d⟩, hd, h⟩ := h
    simp at h; obtain ⟨rfl, rfl⟩ := h
    exact swapRemoveR_count hd

theorem removeX_most (P : V → Bool) (id : Nat) : Stm.Most (num P) 0 (removeX (V := V) id) := by
  unfold removeX
  refine .bind (c := 0) (d := 0) (.read _) fun b => ?_
  split
  · exact .pure _
  refine .bind (c := 0) (d := 0) (.read _) fun o => ?_
  cases o with
  | none => exact .pure _
  | some k =>
    refine .bind (c := 0) (d := 0) (.upd ?_) fun _ => .bind (c := 0) (d := 0) (.upd ?_) fun _ =>
      .bind (c := 0) (d := 0) (.upd ?_) fun _ => .bind (c := 0) (d := 0) (.read _) fun _ =>
      .bind (c := 0) (d := 0) (.upd ?_) fun _ => .pure _
    · intro s s' h; simp only [bind_eq_ok] at h; obtain ⟨_, _, _, _, _, _, h⟩ := h; simp at h; subst h; exact Nat.le_refl _
    · intro s s' h; simp only [bind_eq_ok] at h; obtain ⟨_, _, h⟩ := h; simp at h; subst h; exact Nat.le_refl _
    · intro s s' h; simp only [bind_eq_ok] at h; obtain ⟨_, _, h⟩ := h; simp at h; subst h; exact Nat.le_refl _
    · intro s s' h; simp only [bind_eq_ok] at h; obtain ⟨⟨v, d⟩, hd, h⟩ := h; simp at h; subst h
      have := swapRemoveR_count (P := P) hd
      show List.countP P d ≤ List.countP P s.data + 0
      omega

theorem removeUnwrapX_most (P : V → Bool) (id : Nat) : Stm.Most (num P) 0 (removeUnwrapX (V := V) id) :=
  .bind (c := 0) (d := 0) (removeX_most P id) fun _ => .bind (c := 0) (d := 0) (.read _) fun _ => .pure _

theorem one_some (P : V → Bool) (v : V) : one P (some v) = [v].countP P := rfl

theorem set_num {P : V → Bool} {l : List V} {i : Nat} {v : V} (h : i < l.length) :
    (l.set i v).countP P + one P l[i]? = l.countP P + one P (some v) := by
  have h1 : l[i]? = some l[i] := List.getElem?_eq_getElem h
  rw [h1]
  exact countP_set' h1

theorem add_num (P : V → Bool) {s s' : SparseSet V} {id : Nat} {v : V} (h : s.add id v = .ok s') :
    s'.num P + one P (s.lookup id) = s.num P + one P (some v) := by
  simp only [add, bind_eq_ok] at h
  obtain ⟨o, ho, h⟩ := h
  have ho := getR_ok ho
  cases o with
  | some k =>
    simp only [bind_eq_ok] at h
    obtain ⟨d, hd, h⟩ := h
    simp at h; subst h
    unfold setR at hd
    split at hd
    · rename_i hl
      simp at hd; subst hd
      have hi : s.indices[id]? = some (some k) := by
        rw [enlarge_getElem?] at ho
        cases hs : s.indices[id]? with
        | none => simp [hs] at ho
        | some x => simpa [hs] using ho
      have he : s.lookup id = s.data[k - 1]? := by simp [lookup, getIndex, hi]
      rw [he]
      exact set_num hl
    · cases hd
  | none =>
    simp only [bind_eq_ok] at h
    obtain ⟨ix, hix, h⟩ := h
    simp at h; subst h
    have he : s.lookup id = none := by
      have : s.indices[id]? ≠ none → s.indices[id]? = some none := by
        intro hn
        rw [enlarge_getElem?] at ho
        cases hs : s.indices[id]? with
        | none => exact absurd hs hn
        | some x => simpa [hs] using ho
      unfold lookup getIndex
      cases hs : s.indices[id]? with
      | none => rfl
      | some x => rw [hs] at this; simp at this; subst this; rfl
    rw [he]
    show List.countP P (s.data ++ [v]) + 0 = _
    rw [List.countP_append]; rfl

theorem addX_most (P : V → Bool) (id : Nat) (v : V) : Stm.Most (num P) (one P (some v)) (addX id v) := by
  unfold addX
  refine .mono (.bind (c := 0) (.upd ?_) fun _ => .bind (c := 0) (d := one P (some v)) (.read _) fun o => ?_) (by omega)
  · intro s s' h; simp at h; subst h; exact Nat.le_refl _
  cases o with
  | some k =>
    refine .upd fun s s' h => ?_
    simp only [bind_eq_ok] at h; obtain ⟨d, hd, h⟩ := h; simp at h; subst h
    unfold setR at hd
    split at hd
    · rename_i hl
      simp at hd; subst hd
      have := set_num (P := P) (v := v) hl
      show List.countP P (s.data.set (k - 1) v) ≤ List.countP P s.data + _
      omega
    · cases hd
  | none =>
    refine .mono (.bind (c := 0) (.upd ?_) fun _ => .bind (c := 0) (.upd ?_) fun _ => .upd (c := one P (some v)) ?_) (by omega)
    · intro s s' h; simp only [bind_eq_ok] at h; obtain ⟨_, _, h⟩ := h; simp at h; subst h; exact Nat.le_refl _
    · intro s s' h; simp at h; subst h; exact Nat.le_refl _
    · intro s s' h; simp at h; subst h
      show List.countP P (s.data ++ [v]) ≤ List.countP P s.data + _
      rw [List.countP_append]; exact Nat.le_refl _

theorem addBatch_num (P : V → Bool) {s s' : SparseSet V} {ids : List Nat} {vs : List V} (h : s.addBatch ids vs = .ok s') :
    s'.num P = s.num P + vs.countP P := by
  simp only [addBatch, bind_eq_ok] at h
  obtain ⟨_, _, _, _, h⟩ := h
  simp at h; subst h
  exact List.countP_append

theorem addBatchX_most (P : V → Bool) (ids : List Nat) (vs : List V) : Stm.Most (num P) (vs.countP P) (addBatchX ids vs) := by
  unfold addBatchX
  refine .mono (.bind (c := 0) (.read _) fun _ => .bind (c := 0) (.read _) fun _ => .bind (c := 0) (.upd ?_) fun _ =>
    .bind (c := vs.countP P) (d := 0) (.upd ?_) fun _ => .forEach (fun x => .bind (c := 0) (d := 0) (.upd ?_) fun _ => .upd ?_) _) (by omega)
  · intro s s' h; simp at h; subst h; exact Nat.le_refl _
  · intro s s' h; simp at h; subst h
    show List.countP P (s.data ++ vs) ≤ List.countP P s.data + _
    rw [List.countP_append]; exact Nat.le_refl _
  · intro s s' h; simp at h; subst h; exact Nat.le_refl _
  · intro s s' h; simp only [bind_eq_ok] at h; obtain ⟨_, _, h⟩ := h; simp at h; subst h; exact Nat.le_refl _

end SparseSet

/-! ### Worlds -/

/-- How many stored values of type `t` satisfy `P`. -/
def World.num (P : V → Bool) (t : Nat) (w : World V) : Nat := (w.held t).countP P

theorem num_setSet (P : V → Bool) (t u : Nat) (w : World V) {st : Storage V} (hs : w.comps u = some st) (S : SparseSet V) :
    (w.setSet u S).num P t + (if u = t then st.set.num P else 0) = w.num P t + (if u = t then S.num P else 0) := by
  unfold World.num World.held
  rw [setSet_comps]
  by_cases hu : u = t
  · subst hu; simp [hs, SparseSet.num]; omega
  · rw [if_neg (show t ≠ u from fun h => hu h.symm), if_neg hu, if_neg hu]

theorem Evo.num_eq {P : V → Bool} {w w' : World V} (h : Evo (fun S S' => S'.num P = S.num P) w w') (t : Nat) :
    w'.num P t = w.num P t := by
  unfold World.num World.held
  cases h1 : w.comps t with
  | none => rw [h.get_none h1]
  | some st =>
    obtain ⟨st', h2, _, h3⟩ := h.get h1
    rw [h2]; exact h3

theorem Evo.num_le {P : V → Bool} {w w' : World V} (h : Evo (fun S S' => S'.num P ≤ S.num P) w w') (t : Nat) :
    w'.num P t ≤ w.num P t := by
  unfold World.num World.held
  cases h1 : w.comps t with
  | none => rw [h.get_none h1]; exact Nat.le_refl _
  | some st =>
    obtain ⟨st', h2, _, h3⟩ := h.get h1
    rw [h2]; exact h3

theorem lax_eq (P : V → Bool) : Lax (fun S S' : SparseSet V => S'.num P = S.num P) :=
  ⟨fun _ => rfl, fun S i j => SparseSet.swapByIndexX_num P S i j, fun h h' => Eq.trans h' h⟩

theorem lax_le (P : V → Bool) : Lax (fun S S' : SparseSet V => S'.num P ≤ S.num P) :=
  ⟨fun _ => Nat.le_refl _, fun S i j => Nat.le_of_eq (SparseSet.swapByIndexX_num P S i j), fun h h' => Nat.le_trans h' h⟩

/-- A call that leaves the number of values alone. -/
def M.Even {α : Type} (φ : World V → Nat) (m : M V α) : Prop := ∀ w, φ (m w).1 = φ w

/-- A call that takes in at most `c`, and hands out `ret`. -/
def M.Pays {α : Type} (φ : World V → Nat) (c : Nat) (ret : α → Nat) (m : M V α) : Prop := ∀ w,
  match (m w).2 with
  | .ok a => φ (m w).1 + ret a ≤ φ w + c
  | .error _ => φ (m w).1 ≤ φ w + c

namespace M.Even
variable {α β γ : Type} {φ : World V → Nat}

theorem bind {m : M V α} {f : α → M V β} (h : M.Even φ m) (h' : ∀ a, M.Even φ (f a)) : M.Even φ (m >>= f) := by
  intro w
  rw [M.bind_apply]
  have := h w
  rcases hm : m w with ⟨w', _ | a⟩
  · rw [hm] at this; exact this
  · rw [hm] at this; exact (h' a w').trans this

theorem pure (a : α) : M.Even φ (Pure.pure a : M V α) := fun _ => rfl
theorem read (f : World V → R α) : M.Even φ (M.read f) := fun _ => rfl
theorem assert (b : Bool) : M.Even (V := V) φ (M.assert b) := fun _ => rfl
theorem forEach {body : γ → M V Unit} (h : ∀ c, M.Even φ (body c)) (l : List γ) : M.Even φ (M.forEach l body) := by
  induction l with
  | nil => exact pure ()
  | cons c l ih => exact bind (h c) fun _ => ih

theorem pays {m : M V α} (h : M.Even φ m) : M.Pays φ 0 (fun _ => 0) m := by
  intro w
  have := h w
  split
  · show φ (m w).1 + 0 ≤ φ w + 0; omega
  · omega

end M.Even

namespace M.Pays
variable {α β γ : Type} {φ : World V → Nat} {c d : Nat} {ret : α → Nat}

theorem bind {m : M V α} {f : α → M V β} {ret : β → Nat} (h : M.Pays φ c (fun _ => 0) m) (h' : ∀ a, M.Pays φ d ret (f a)) :
    M.Pays φ (c + d) ret (m >>= f) := by
  intro w
  rw [M.bind_apply]
  have h1 := h w
  rcases hm : m w with ⟨w', _ | a⟩
  · rw [hm] at h1; show φ w' ≤ _; simp only at h1; omega
  · rw [hm] at h1
    have h2 := h' a w'
    simp only at h1 ⊢
    split <;> rename_i h3 <;> rw [h3] at h2 <;> simp only at h2 <;> omega

theorem map {m : M V α} {ret : β → Nat} {g : α → β} (h : M.Pays φ c (fun a => ret (g a)) m) :
    M.Pays φ c ret (m >>= fun a => Pure.pure (g a)) := by
  intro w
  rw [M.bind_apply]
  have h1 := h w
  rcases hm : m w with ⟨w', _ | a⟩
  · rw [hm] at h1; exact h1
  · rw [hm] at h1; exact h1

theorem mono {m : M V α} (h : M.Pays φ c ret m) (hcd : c ≤ d) : M.Pays φ d ret m := by
  intro w
  have := h w
  split <;> rename_i h3 <;> rw [h3] at this <;> simp only at this <;> omega

theorem out {m : M V α} (h : M.Pays φ c ret m) (w : World V) : φ (m w).1 ≤ φ w + c := by
  have := h w
  split at this <;> omega

theorem ret_le {m : M V α} {ret ret' : α → Nat} (h : M.Pays φ c ret m) (hr : ∀ a, ret' a ≤ ret a) : M.Pays φ c ret' m := by
  intro w
  have := h w
  split <;> rename_i h3 <;> rw [h3] at this <;> simp only at this
  · have := hr ‹α›; omega
  · omega

theorem forEach {body : γ → M V Unit} (h : ∀ c, M.Pays φ 0 (fun _ => 0) (body c)) (l : List γ) :
    M.Pays φ 0 (fun _ => 0) (M.forEach l body) := by
  induction l with
  | nil => exact M.Even.pays (.pure ())
  | cons c l ih => exact bind (h c) fun _ => ih

end M.Pays

variable (P : V → Bool) (t : Nat)

theorem groupAdd_even (k id : Nat) : M.Even (num P t) (M.crit (groupAdd k id) (groupAddX k id)) := by
  rw [groupAdd_exact]
  exact fun w => (onPair_evo (lax_eq P) (addX_goes (lax_eq P) id) k w).num_eq t
theorem groupRemove_even (k id : Nat) : M.Even (num P t) (M.crit (groupRemove k id) (groupRemoveX k id)) := by
  rw [groupRemove_exact]
  exact fun w => (onPair_evo (lax_eq P) (removeX_goes (lax_eq P) id) k w).num_eq t
theorem groupMake_even (k : Nat) : M.Even (num P t) (M.crit (groupMake k) (groupMakeX k)) := by
  rw [groupMake_exact]
  exact fun w => (onPair_evo (lax_eq P) (makeX_goes (lax_eq P)) k w).num_eq t
theorem groupErase_pays (k id : Nat) : M.Pays (num P t) 0 (fun _ => 0) (M.crit (groupErase k id) (groupEraseX k id)) := by
  rw [groupErase_exact]
  intro w
  have := (onPair_evo (lax_le P) (eraseX_goes (lax_le P) fun S => SparseSet.removeUnwrapX_most P id S) k w).num_le t
  change (groupEraseX k id w).1.num P t ≤ _ at this
  split <;> exact this
theorem storeErase_pays (u id : Nat) : M.Pays (num P t) 0 (fun _ => 0) (M.crit (storeErase u id) (storeEraseX u id)) := by
  rw [storeErase_exact]
  intro w
  have : (storeEraseX u id w).1.num P t ≤ w.num P t := by
    unfold storeEraseX onRaw
    cases hs : unwrapR (w.comps u) with
    | error e => exact Nat.le_refl _
    | ok st =>
      refine Evo.num_le (P := P) ?_ t
      exact setSet_evo (fun _ => Nat.le_refl _) (unwrapR_ok hs) (SparseSet.removeUnwrapX_most P id _)
  split <;> exact this

/-- Work on one storage. -/
theorem onStore_pays {α : Type} {m : Stm (SparseSet V) α} {f : SparseSet V → R (SparseSet V × α)} (hd : m.Does f) (c : Nat) (ret : α → Nat) (u : Nat)
    (hm : m.Most (SparseSet.num P) c) (hf : ∀ s s' a, f s = .ok (s', a) → s'.num P + ret a ≤ s.num P + c) :
    M.Pays (num P t) (if u = t then c else 0) (fun a => if u = t then ret a else 0) (onStore u m) := by
  intro w
  unfold onStore
  cases hs : (do downcast (← unwrapR (w.comps u)) u : R (SparseSet V)) with
  | error e => exact Nat.le_add_right _ _
  | ok s =>
    simp only [bind_eq_ok, downcast] at hs
    obtain ⟨st, hst, hs⟩ := hs
    have hst := unwrapR_ok hst
    split at hs
    · simp at hs; subst hs
      have h1 := num_setSet P t u w hst (m st.set).1
      have h2 := hm st.set
      show match (m st.set).2 with
        | .ok a => (w.setSet u (m st.set).1).num P t + _ ≤ _
        | .error _ => (w.setSet u (m st.set).1).num P t ≤ _
      split
      · rename_i a ha
        have h3 : f st.set = .ok ((m st.set).1, a) := by
          cases hf' : f st.set with
          | error e => have := hd.error hf'; rw [ha] at this; cases this
          | ok p =>
            obtain ⟨s', a'⟩ := p
            have := hd.ok hf'
            rw [this] at ha ⊢
            cases ha; rfl
        have h4 := hf _ _ _ h3
        by_cases hu : u = t
        · simp only [if_pos hu] at h1 ⊢; omega
        · simp only [if_neg hu] at h1 ⊢; omega
      · by_cases hu : u = t
        · simp only [if_pos hu] at h1 ⊢; omega
        · simp only [if_neg hu] at h1 ⊢; omega
    · cases hs

theorem attachStore_pays (u id : Nat) (v : V) : M.Pays (num P t) (if u = t then SparseSet.one P (some v) else 0) (fun _ => 0)
    (M.crit (attachStore u id v) (attachStoreX u id v)) := by
  rw [attachStore_exact]
  refine (onStore_pays P t (SparseSet.addX_does id v) _ (fun _ => 0) u (SparseSet.addX_most P id v) ?_).ret_le (by intro a; split <;> simp)
  intro s s' a h
  simp only [bind_eq_ok] at h
  obtain ⟨s2, hs, h⟩ := h
  simp at h; subst h
  have := SparseSet.add_num P hs
  omega

theorem batchStore_pays (start stop u : Nat) (vs : List V) : M.Pays (num P t) (if u = t then vs.countP P else 0) (fun _ => 0)
    (M.crit (batchStore start stop u vs) (batchStoreX start stop u vs)) := by
  rw [batchStore_exact]
  refine (onStore_pays P t (SparseSet.addBatchX_does _ vs) _ (fun _ => 0) u (SparseSet.addBatchX_most P _ vs) ?_).ret_le (by intro a; split <;> simp)
  intro s s' a h
  simp only [bind_eq_ok] at h
  obtain ⟨s2, hs, h⟩ := h
  simp at h; subst h
  have := SparseSet.addBatch_num P hs
  omega

theorem detachStore_pays (u id : Nat) : M.Pays (num P t) 0 (fun r => if u = t then SparseSet.one P r else 0)
    (M.crit (detachStore u id) (detachStoreX u id)) := by
  rw [detachStore_exact]
  refine (onStore_pays P t (SparseSet.removeX_does id) 0 (SparseSet.one P) u (SparseSet.removeX_most P id) ?_).mono (by split <;> omega)
  intro s s' a h
  have := SparseSet.remove_num P h
  omega

theorem em_even {α : Type} (m : Stm EntityManager α) : M.Even (V := V) (num P t) (onTable m) := fun _ => rfl

theorem componentWrite_pays (u id : Nat) (v : V) : M.Pays (num P t) (if u = t then SparseSet.one P (some v) else 0) (fun _ => 0)
    (componentWrite u id v) := by
  intro w
  cases hc : componentWrite u id v w with
  | mk w' r =>
  cases r with
  | error e =>
    unfold componentWrite M.crit at hc
    split at hc
    · cases hc
    · cases hc; exact Nat.le_add_right _ _
  | ok b =>
    rcases componentWrite_inv hc with ⟨rfl, rfl⟩ | ⟨rfl, st, S, hst, _, hS, rfl⟩
    · exact Nat.le_add_right _ _
    · have h1 := num_setSet P t u w hst S
      have h2 : S.num P ≤ st.set.num P + SparseSet.one P (some v) := by
        simp only [SparseSet.setUnchecked, bind_eq_ok] at hS
        obtain ⟨o, _, k, _, x, hx, hS⟩ := hS
        simp at hS; subst hS
        have hx : st.set.data[k - 1]? = some x := by
          unfold getU at hx
          cases h : st.set.data[k - 1]? with
          | none => simp [h] at hx
          | some y => simp [h] at hx; rw [hx]
        have := countP_set' (P := P) (b := v) hx
        show List.countP P (st.set.data.set (k - 1) v) ≤ List.countP P st.set.data + _
        rw [SparseSet.one_some]
        omega
      show (w.setSet u S).num P t + 0 ≤ _
      by_cases hu : u = t
      · simp only [if_pos hu] at h1 ⊢; omega
      · simp only [if_neg hu] at h1 ⊢; omega


/-! ### Calls -/

theorem exist_even (id : Nat) : M.Even (V := V) (num P t) (World.exist id) := .read _
theorem entity_even (id : Nat) : M.Even (V := V) (num P t) (World.entity id) :=
  .bind (exist_even P t id) fun b => by split <;> exact .pure _

theorem entityAttach_pays (id u : Nat) (v : V) :
    M.Pays (num P t) (if u = t then SparseSet.one P (some v) else 0) (fun _ => 0) (World.entityAttach id u v) := by
  unfold World.entityAttach
  refine .mono (.bind (c := 0) (M.Even.read _).pays fun b => .bind (c := 0) (M.Even.assert b).pays fun _ =>
    .bind (attachStore_pays P t u id v) fun _ => .bind (c := 0) (d := 0) (M.Even.read _).pays fun ks =>
      (M.Even.forEach (fun k => groupAdd_even P t k id) ks).pays) (by omega)

theorem attach_pays (id u : Nat) (v : V) :
    M.Pays (num P t) (if u = t then SparseSet.one P (some v) else 0) (fun _ => 0) (World.attach id u v) := by
  unfold World.attach
  exact .mono (.bind (c := 0) (entity_even P t id).pays fun h => .bind (c := 0) (M.Even.read _).pays fun id =>
    entityAttach_pays P t id u v) (by omega)

theorem entityDetach_pays (id u : Nat) :
    M.Pays (V := V) (num P t) 0 (fun r => if u = t then SparseSet.one P r else 0) (World.entityDetach id u) := by
  unfold World.entityDetach
  exact .bind (c := 0) (d := 0) (M.Even.read _).pays fun b => .bind (c := 0) (d := 0) (M.Even.assert b).pays fun _ =>
    .bind (c := 0) (d := 0) (M.Even.read _).pays fun ks =>
      .bind (c := 0) (d := 0) (M.Even.forEach (fun k => groupRemove_even P t k id) ks).pays fun _ => detachStore_pays P t u id

theorem detach_pays (id u : Nat) :
    M.Pays (V := V) (num P t) 0 (fun r => if u = t then SparseSet.one P r else 0) (World.detach id u) := by
  unfold World.detach
  exact .bind (c := 0) (d := 0) (entity_even P t id).pays fun h => .bind (c := 0) (d := 0) (M.Even.read _).pays fun id =>
    entityDetach_pays P t id u

theorem attachBatch_pays (start stop u : Nat) (vs : List V) :
    M.Pays (num P t) (if u = t then vs.countP P else 0) (fun _ => 0) (World.attachBatch start stop u vs) := by
  unfold World.attachBatch
  exact .mono (.bind (c := 0) (M.Even.assert _).pays fun _ => batchStore_pays P t start stop u vs) (by omega)

theorem removeEntity_pays (order : List Nat) (id : Nat) :
    M.Pays (V := V) (num P t) 0 (fun _ => 0) (World.removeEntity order id) := by
  unfold World.removeEntity
  refine .bind (c := 0) (d := 0) (exist_even P t id).pays fun b => .bind (c := 0) (d := 0) (M.Even.assert _).pays fun _ =>
    .bind (c := 0) (d := 0) (M.Even.read _).pays fun ks => .bind (c := 0) (d := 0) (.forEach (fun k => groupErase_pays P t k id) ks) fun _ =>
    .bind (c := 0) (d := 0) (M.Even.read _).pays fun ts => .bind (c := 0) (d := 0) (.forEach (fun u => storeErase_pays P t u id) ts) fun _ => ?_
  rw [release_exact]
  exact (em_even P t _).pays

theorem createEntity_even : M.Even (V := V) (num P t) World.createEntity := by
  unfold World.createEntity
  refine .bind ?_ fun id => .bind (entity_even P t id) fun h => .read _
  rw [allocate_exact]
  exact em_even P t _

theorem createEntities_even (n : Nat) : M.Even (V := V) (num P t) (World.createEntities n) := fun _ => rfl

theorem register_even (u : Nat) : M.Even (V := V) (num P t) (World.register u) := by
  intro w
  simp only [World.register, M.bind_apply, M.read_apply, M.assert, M.crit, hasRegistered]
  cases hc : w.comps u with
  | some st => rfl
  | none =>
    show (w.insertStorage u).num P t = w.num P t
    unfold World.num World.held World.insertStorage
    by_cases hu : t = u
    · subst hu; simp [hc, SparseSet.new]
    · simp [hu]

theorem makeGroup_even (k : Kind) (a b : Nat) : M.Even (V := V) (num P t) (World.makeGroup k a b) := by
  unfold World.makeGroup
  exact .bind (.read _) fun _ => .bind (.assert _) fun _ => .bind (.read _) fun _ => .bind (.assert _) fun _ =>
    .bind (fun _ => rfl) fun pos => groupMake_even P t pos

theorem registerResource_even (u : Nat) (v : V) : M.Even (num P t) (World.registerResource u v) := fun _ => rfl

theorem resourceWrite_even (u : Nat) (v : V) : M.Even (num P t) (World.resourceWrite u v) := by
  intro w
  unfold World.resourceWrite M.crit
  dsimp only
  split
  · rename_i w' a h
    split at h
    · simp only [bind_eq_ok] at h
      obtain ⟨_, _, h⟩ := h
      cases h; rfl
    · cases h; rfl
  · rfl

/-- No call makes values out of nothing. -/
theorem exec_pays (op : Op V) (w : World V) :
    (exec op w).1.num P t + (op.returned t (exec op w).2).countP P ≤ w.num P t + (op.given t (exec op w).2).countP P := by
  have even : ∀ {α : Type} (m : M V α) (f : α → Out V), M.Even (num P t) m → (∀ r, op.returned t r = []) →
      exec op w = (m >>= fun a => pure (f a)) w →
      (exec op w).1.num P t + (op.returned t (exec op w).2).countP P ≤ w.num P t + (op.given t (exec op w).2).countP P := by
    intro α m f hm hr he
    rw [hr]
    have : (exec op w).1.num P t = w.num P t := by
      rw [he]; exact (M.Even.bind hm fun _ => .pure _) w
    simp [this]
  cases op with
  | register u => exact even _ (fun _ => .unit) (register_even P t u) (fun _ => rfl) rfl
  | createEntity => exact even _ .id (createEntity_even P t) (fun _ => rfl) rfl
  | createEntities n => exact even _ (fun r => .range r.1 r.2) (createEntities_even P t n) (fun _ => rfl) rfl
  | exist id => exact even _ .bool (exist_even P t id) (fun _ => rfl) rfl
  | makeGroup k a b => exact even _ (fun _ => .unit) (makeGroup_even P t (toKind k) a b) (fun _ => rfl) rfl
  | read u id => exact even _ .val (.read _) (fun _ => rfl) rfl
  | count u => exact even _ .count (.read _) (fun _ => rfl) rfl
  | registerResource u v => exact even _ (fun _ => .unit) (registerResource_even P t u v) (fun _ => rfl) rfl
  | resourceRead u => exact even _ .val (.read _) (fun _ => rfl) rfl
  | resourceWrite u v => exact even _ .bool (resourceWrite_even P t u v) (fun _ => rfl) rfl
  | removeEntity order id =>
    have h := (M.Pays.map (ret := fun _ => 0) (g := fun _ => (Out.unit : Out V)) (removeEntity_pays P t order id)).out w
    change (exec (.removeEntity order id) w).1.num P t ≤ _ at h
    have e : ∀ r, Op.returned t (.removeEntity order id) r = ([] : List V) := fun _ => rfl
    rw [e]
    simp only [List.countP_nil]; omega
  | attach id u v =>
    have h := (M.Pays.map (ret := fun _ => 0) (g := fun _ => (Out.unit : Out V)) (attach_pays P t id u v)).out w
    change (exec (.attach id u v) w).1.num P t ≤ _ at h
    have e : ∀ r, Op.returned t (.attach id u v) r = ([] : List V) := fun _ => rfl
    have e2 : ∀ r, (Op.given t (.attach id u v) r).countP P = if u = t then SparseSet.one P (some v) else 0 := by
      intro r; simp only [Op.given]; split <;> rfl
    rw [e, e2]
    simp only [List.countP_nil]; omega
  | attachBatch a b u vs =>
    have h := (M.Pays.map (ret := fun _ => 0) (g := fun _ => (Out.unit : Out V)) (attachBatch_pays P t a b u vs)).out w
    change (exec (.attachBatch a b u vs) w).1.num P t ≤ _ at h
    have e : ∀ r, Op.returned t (.attachBatch a b u vs) r = ([] : List V) := fun _ => rfl
    have e2 : ∀ r, (Op.given t (.attachBatch a b u vs) r).countP P = if u = t then vs.countP P else 0 := by
      intro r; simp only [Op.given]; split <;> rfl
    rw [e, e2]
    simp only [List.countP_nil]; omega
  | detach id u =>
    have h := detach_pays P t id u w
    show ((World.detach id u >>= fun a => pure (Out.val a)) w).1.num P t +
      (Op.returned t (.detach id u) ((World.detach id u >>= fun a => pure (Out.val a)) w).2).countP P ≤ _
    rw [M.bind_apply]
    rcases hm : World.detach id u w with ⟨w', e | r⟩
    · rw [hm] at h
      simp only at h ⊢
      show w'.num P t + 0 ≤ _
      omega
    · rw [hm] at h
      simp only at h ⊢
      show w'.num P t + (Op.returned t (.detach id u) (.ok (.val r))).countP P ≤ _
      have : (Op.returned t (.detach id u) (.ok (.val r))).countP P ≤ if u = t then SparseSet.one P r else 0 := by
        cases r with
        | none => exact Nat.zero_le _
        | some v => simp only [Op.returned]; split <;> exact Nat.le_refl _
      omega
  | write u id v =>
    have h := componentWrite_pays P t u id v w
    have hi : ∀ w' b, componentWrite u id v w = (w', .ok b) → b = false → w' = w := by
      intro w' b hb hf
      rcases componentWrite_inv hb with h | h
      · exact h.2
      · rw [hf] at h; cases h.1
    have hx : ∀ w' e, componentWrite u id v w = (w', .error e) → w' = w := by
      intro w' e he
      unfold componentWrite M.crit at he
      split at he
      · cases he
      · cases he; rfl
    show ((componentWrite u id v >>= fun a => pure (Out.bool a)) w).1.num P t + (Op.returned t (.write u id v) _).countP P ≤
      w.num P t + (Op.given t (.write u id v) ((componentWrite u id v >>= fun a => pure (Out.bool a)) w).2).countP P
    have e : ∀ r, Op.returned t (.write u id v) r = ([] : List V) := fun _ => rfl
    rw [e, M.bind_apply]
    rcases hm : componentWrite u id v w with ⟨w', f | b⟩
    · rw [hx _ _ hm]; simp
    · cases b with
      | false => rw [hi _ _ hm rfl]; simp [M.pure_apply]
      | true =>
        rw [hm] at h
        simp only at h
        show w'.num P t + 0 ≤ w.num P t + (if u = t then [v] else []).countP P
        have : (if u = t then [v] else []).countP P = if u = t then SparseSet.one P (some v) else 0 := by split <;> rfl
        omega

end Xecs
