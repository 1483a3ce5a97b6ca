import Verif.Model.Group
import Verif.Model.EntityManager
/-
The mutating methods written statement by statement (`...X` in the model) return the same results as the
versions that return a new value, and the same state unless they fault.
-/
set_option autoImplicit false
namespace Xecs

/-- The outcome `p` of a run statement by statement is the outcome `r` of the version that returns the new
state. -/
def Ends {σ α : Type} (p : σ × R α) : R (σ × α) → Prop
  | .ok r => p = (r.1, .ok r.2)
  | .error e => p.2 = .error e

/-- `x`, statement by statement, and `f`, which returns the new state, agree. -/
def Stm.Does {σ α : Type} (x : Stm σ α) (f : σ → R (σ × α)) : Prop := ∀ s, Ends (x s) (f s)

namespace Stm
variable {σ τ α β γ : Type}

theorem bind_apply {m : Stm σ α} {f : α → Stm σ β} {s : σ} : (m >>= f) s =
    match m s with | (s', .ok a) => f a s' | (s', .error e) => (s', .error e) := by
  show (m.andThen f).run s = _
  induction m generalizing s with
  | ret r => cases r <;> rfl
  | step g k ih => exact ih s
theorem pure_apply {a : α} {s : σ} : (pure a : Stm σ α) s = (s, .ok a) := rfl
theorem read_apply {f : σ → R α} {s : σ} : Stm.read f s = (s, f s) := rfl
theorem upd_apply {f : σ → R σ} {s : σ} : Stm.upd f s =
    match f s with | .ok s' => (s', .ok ()) | .error e => (s, .error e) := by
  show ((match f s with | .ok s' => s' | .error _ => s), (match f s with | .ok _ => Except.ok () | .error e => Except.error e)) = _
  cases f s <;> rfl
/-- Working on a part of a larger value. -/
theorem on_apply {get : τ → σ} {put : τ → σ → τ} {m : Stm σ α} {t : τ} {P : τ → Prop} (hP : ∀ t s, P t → P (put t s))
    (h1 : ∀ t s, P t → get (put t s) = s) (h2 : ∀ t s s', P t → put (put t s) s' = put t s')
    (h3 : ∀ t, P t → put t (get t) = t) (ht : P t) : Stm.on get put m t = (put t (m (get t)).1, (m (get t)).2) := by
  induction m generalizing t with
  | ret r => exact Prod.ext (h3 t ht).symm rfl
  | step f k ih =>
    show Stm.run (Stm.on get put (k (get t))) (put t (f (get t))) = (put t (Stm.run (k (get t)) (f (get t))).1, _)
    refine (ih (get t) (hP t _ ht)).trans ?_
    rw [h1 _ _ ht, h2 _ _ _ ht]
    rfl

theorem Does.ok {x : Stm σ α} {f : σ → R (σ × α)} (h : x.Does f) {s s' : σ} {a : α} (hf : f s = .ok (s', a)) :
    x s = (s', .ok a) := by
  have := h s
  rw [hf] at this
  exact this

theorem Does.error {x : Stm σ α} {f : σ → R (σ × α)} (h : x.Does f) {s : σ} {e : Fault} (hf : f s = .error e) :
    (x s).2 = .error e := by
  have := h s
  rw [hf] at this
  exact this

theorem Does.on {x : Stm σ α} {f : σ → R (σ × α)} (h : x.Does f) (get : τ → σ) (put : τ → σ → τ)
    (h1 : ∀ t s, get (put t s) = s) (h2 : ∀ t s s', put (put t s) s' = put t s') (h3 : ∀ t, put t (get t) = t) :
    (Stm.on get put x).Does (fun t => do let r ← f (get t); .ok (put t r.1, r.2)) := by
  intro t
  rw [on_apply (P := fun _ => True) (fun _ _ _ => trivial) (fun t s _ => h1 t s) (fun t s s' _ => h2 t s s')
    (fun t _ => h3 t) trivial]
  cases hf : f (get t) with
  | ok r =>
    rw [h.ok (s' := r.1) (a := r.2) hf]
    simp only [hf]
    rfl
  | error e =>
    simp only [hf]
    exact h.error hf

theorem Does.congr {x : Stm σ α} {f g : σ → R (σ × α)} (h : x.Does f) (hg : ∀ s, g s = f s) : x.Does g := by
  intro s
  rw [hg]
  exact h s

theorem does_pure (a : α) : (pure a : Stm σ α).Does (fun s => .ok (s, a)) := fun _ => rfl

/-- A piece of code, then the rest, from one state. -/
theorem Does.andThen {x : Stm σ β} {f : σ → R (σ × β)} (hx : x.Does f) {y : β → Stm σ α} {s : σ} {r : R (σ × α)}
    (h1 : ∀ s' b, f s = .ok (s', b) → Ends (y b s') r) (h2 : ∀ e, f s = .error e → r = .error e) : Ends ((x >>= y) s) r := by
  rw [bind_apply]
  cases hf : f s with
  | ok b =>
    rw [hx.ok (s' := b.1) (a := b.2) hf]
    exact h1 b.1 b.2 hf
  | error e =>
    have := hx.error hf
    rw [h2 e hf]
    rcases hxs : x s with ⟨s', _ | a⟩
    · rw [hxs] at this
      cases this
      rfl
    · rw [hxs] at this
      cases this

/-- A loop. -/
theorem does_forEach {x : γ → Stm σ Unit} {f : γ → σ → R σ} (h : ∀ c, (x c).Does (fun s => do .ok (← f c s, ()))) (l : List γ) :
    (Stm.forEach l x).Does (fun s => do .ok (← l.foldlM (fun s c => f c s) s, ())) := by
  induction l with
  | nil => exact fun _ => rfl
  | cons c l ih =>
    intro s
    simp only [List.foldlM_cons, bind_assoc]
    refine (h c).andThen (fun s' _ h1 => ?_) fun e h1 => ?_
    · cases hc : f c s with
      | error e => rw [hc] at h1; cases h1
      | ok s1 =>
        rw [hc] at h1
        cases h1
        exact ih s'
    · cases hc : f c s with
      | error e' => rw [hc] at h1; cases h1; rfl
      | ok s1 => rw [hc] at h1; cases h1

end Stm

theorem R.bind_ok {α β : Type} (a : α) (f : α → R β) : ((Except.ok a : R α) >>= f) = f a := rfl
theorem R.bind_error {α β : Type} (e : Fault) (f : α → R β) : ((Except.error e : R α) >>= f) = .error e := rfl

/-- Evaluate the statements up to the next one whose outcome is not known. -/
local macro "stm" : tactic => `(tactic| try simp only [R.bind_ok, R.bind_error, Stm.bind_apply, Stm.pure_apply, Stm.upd_apply, Stm.read_apply])

namespace SparseSet
variable {V : Type}
open Stm

theorem addX_does (e : EntityId) (v : V) :
    Stm.Does (addX e v) (fun s => do .ok (← s.add e v, ())) := by
  intro s
  simp only [addX, add, Stm.bind_apply, Stm.upd_apply, Stm.read_apply]
  generalize getR (enlarge s.indices e) e = o
  rcases o with _ | _ | i
  · rfl
  · stm
    generalize setR (enlarge s.indices e) e (some (s.entities.length + 1)) = o
    cases o <;> rfl
  · stm
    generalize setR s.data (i - 1) v = o
    cases o <;> rfl

theorem swapByIndexX_does (i j : Nat) :
    Stm.Does (swapByIndexX (V := V) i j) (fun s => do .ok (← s.swapByIndex i j, ())) := by
  intro s
  unfold swapByIndexX
  by_cases hij : i = j
  · simp only [if_pos hij, swapByIndex]
    rfl
  simp only [if_neg hij, swapByIndex, Stm.bind_apply, Stm.upd_apply, Stm.read_apply]
  by_cases h1 : i ≥ s.len
  · simp only [if_pos h1]; rfl
  by_cases h2 : j ≥ s.len
  · simp only [if_neg h1, if_pos h2]; rfl
  simp only [if_neg h1, if_neg h2]
  generalize getR s.entities i = o1
  rcases o1 with _ | a
  · rfl
  stm
  generalize getR s.entities j = o2
  rcases o2 with _ | b
  · rfl
  stm
  generalize swapR s.indices a b = o3
  rcases o3 with _ | x
  · rfl
  stm
  generalize swapR s.entities i j = o4
  rcases o4 with _ | y
  · rfl
  stm
  generalize swapR s.data i j = o5
  cases o5 <;> rfl

theorem removeX_does (e : EntityId) : Stm.Does (removeX (V := V) e) (fun s => s.remove e) := by
  intro s
  simp only [removeX, remove, Stm.bind_apply, Stm.upd_apply, Stm.read_apply]
  by_cases hl : s.indices.length < e
  · simp only [hl, decide_true, if_true]; rfl
  simp only [hl, decide_false, if_false, Bool.false_eq_true]
  stm
  generalize getR s.indices e = o1
  rcases o1 with _ | _ | i
  · rfl
  · rfl
  stm
  generalize getR s.entities (i - 1) = o1
  rcases o1 with _ | ei
  · rfl
  stm
  generalize unwrapR s.entities.getLast? = o2
  rcases o2 with _ | el
  · rfl
  stm
  generalize swapR s.indices ei el = o3
  rcases o3 with _ | x
  · rfl
  stm
  generalize setR x e none = o3
  rcases o3 with _ | y
  · rfl
  stm
  generalize swapRemoveR s.entities (i - 1) = o4
  rcases o4 with _ | z
  · rfl
  stm
  cases h5 : swapRemoveR s.data (i - 1) with
  | error e => rfl
  | ok z' =>
    stm
    rw [h5]
    rfl

theorem removeUnwrapX_does (e : EntityId) :
    Stm.Does (removeUnwrapX (V := V) e) (fun s => do .ok (← s.removeUnwrap e, ())) := by
  intro s
  refine (removeX_does e).andThen (fun s' r h => ?_) fun e' h => ?_
  · simp only [removeUnwrap, h, Stm.bind_apply, Stm.read_apply, R.bind_ok]
    generalize unwrapR r = o
    cases o <;> rfl
  · simp only [removeUnwrap, h]
    rfl

theorem addBatchLoop_fold (start : Nat) (l : List EntityId) : ∀ (k : Nat) (s : SparseSet V),
    (l.mapIdx fun index entity => (index + k, entity)).foldlM (m := R) (fun s x => do
      .ok { s with indices := ← setR (enlarge s.indices x.2) x.2 (some (start + x.1 + 1)) }) s =
    (do .ok { s with indices := ← addBatchLoop s.indices (start + k) l }) := by
  induction l with
  | nil => exact fun _ _ => rfl
  | cons e l ih =>
    intro k s
    simp only [List.mapIdx_cons, List.foldlM_cons, addBatchLoop, bind_assoc, Nat.zero_add]
    generalize setR (enlarge s.indices e) e (some (start + k + 1)) = o
    rcases o with _ | i
    · rfl
    stm
    have := ih (k + 1) { s with indices := i }
    simp only [Nat.add_right_comm _ 1 k, ← Nat.add_assoc] at this ⊢
    exact this

theorem addBatchX_does (es : List EntityId) (vs : List V) :
    Stm.Does (addBatchX es vs) (fun s => do .ok (← s.addBatch es vs, ())) := by
  intro s
  have hl := fun start : Nat => does_forEach (σ := SparseSet V) (x := fun x : Nat × Nat => do
      Stm.upd fun s => .ok { s with indices := enlarge s.indices x.2 }
      Stm.upd fun s => do .ok { s with indices := ← setR s.indices x.2 (some (start + x.1 + 1)) })
    (f := fun x s => do .ok { s with indices := ← setR (enlarge s.indices x.2) x.2 (some (start + x.1 + 1)) }) (fun x s => by
      simp only [Stm.bind_apply, Stm.upd_apply]
      generalize setR (enlarge s.indices x.2) x.2 (some (start + x.1 + 1)) = o
      cases o <;> rfl) (es.mapIdx fun index entity => (index, entity))
  simp only [addBatchX, addBatch, Stm.bind_apply, Stm.read_apply, Stm.upd_apply]
  generalize assertR (es.length == vs.length) = o
  rcases o with _ | _
  · rfl
  stm
  have h1 := hl s.entities.length { s with entities := s.entities ++ es, data := s.data ++ vs }
  have h2 := addBatchLoop_fold s.entities.length es 0 { s with entities := s.entities ++ es, data := s.data ++ vs }
  simp only [Nat.add_zero] at h2
  dsimp only at h1
  rw [h2] at h1
  revert h1
  generalize addBatchLoop s.indices s.entities.length es = o
  cases o <;> exact id

end SparseSet

namespace EntityManager
open Stm

theorem allocateX_does : Stm.Does allocateX (fun m => m.allocate) := by
  intro m
  simp only [allocateX, allocate, Stm.bind_apply, Stm.upd_apply, Stm.read_apply]
  generalize getR m.flags 0 = o1
  rcases o1 with _ | l | i
  · rfl
  · stm
    generalize getR m.flags l = o2
    rcases o2 with _ | n
    · rfl
    stm
    generalize setR m.flags l (.unavailable ((m.entities ++ [l]).length - 1)) = o3
    rcases o3 with _ | x
    · rfl
    stm
    generalize setR x 0 n = o4
    cases o4 <;> rfl
  · rfl

theorem removeX_does (id : EntityId) : Stm.Does (removeX id) (fun m => do .ok (← m.remove id, ())) := by
  intro m
  simp only [removeX, remove, Stm.bind_apply, Stm.upd_apply, Stm.read_apply]
  generalize getR m.flags id = o1
  rcases o1 with _ | l | i
  · rfl
  · rfl
  stm
  generalize unwrapR m.entities.getLast? = o2
  rcases o2 with _ | n
  · rfl
  stm
  generalize setR m.flags n (.unavailable i) = o3
  rcases o3 with _ | x
  · rfl
  stm
  generalize swapRemoveR m.entities i = o4
  rcases o4 with _ | y
  · rfl
  stm
  generalize getR x 0 = o5
  rcases o5 with _ | z
  · rfl
  stm
  generalize setR x id z = o6
  rcases o6 with _ | z2
  · rfl
  stm
  generalize setR z2 0 (.available id) = o7
  cases o7 <;> rfl

end EntityManager

namespace Group
variable {V : Type}
open Stm

theorem onA_does {α : Type} {x : Stm (SparseSet V) α} {f : SparseSet V → R (SparseSet V × α)} (h : x.Does f) :
    (onA x).Does (fun t => do let r ← f t.2.1; .ok ((t.1, r.1, t.2.2), r.2)) := h.on _ _ (fun _ _ => rfl) (fun _ _ _ => rfl) fun _ => rfl

theorem onB_does {α : Type} {x : Stm (SparseSet V) α} {f : SparseSet V → R (SparseSet V × α)} (h : x.Does f) :
    (onB x).Does (fun t => do let r ← f t.2.2; .ok ((t.1, t.2.1, r.1), r.2)) := h.on _ _ (fun _ _ => rfl) (fun _ _ _ => rfl) fun _ => rfl

theorem onA_apply {α : Type} (x : Stm (SparseSet V) α) (t : Trio V) :
    onA x t = ((t.1, (x t.2.1).1, t.2.2), (x t.2.1).2) :=
  on_apply (P := fun _ => True) (fun _ _ _ => trivial) (fun _ _ _ => rfl) (fun _ _ _ _ => rfl) (fun _ _ => rfl) trivial
theorem onB_apply {α : Type} (x : Stm (SparseSet V) α) (t : Trio V) :
    onB x t = ((t.1, t.2.1, (x t.2.2).1), (x t.2.2).2) :=
  on_apply (P := fun _ => True) (fun _ _ _ => trivial) (fun _ _ _ => rfl) (fun _ _ _ _ => rfl) (fun _ _ => rfl) trivial

theorem set_apply (g : Group) (t : Trio V) : (set g : Stm (Trio V) Unit) t = ((g, t.2), .ok ()) := rfl

/-- Both storages rearranged and the group changed. -/
theorem swapBoth (i j n : Nat) (g : Group) (t : Trio V) :
    Ends ((do onA (SparseSet.swapByIndexX i n); onB (SparseSet.swapByIndexX j n); set g : Stm (Trio V) Unit) t)
      (do let A ← t.2.1.swapByIndex i n; let B ← t.2.2.swapByIndex j n; .ok ((g, A, B), ())) := by
  refine (onA_does (SparseSet.swapByIndexX_does i n)).andThen (fun t1 _ h => ?_) fun e h => ?_
  · cases hA : t.2.1.swapByIndex i n with
    | error e => rw [hA] at h; cases h
    | ok A =>
      rw [hA] at h
      cases h
      refine (onB_does (SparseSet.swapByIndexX_does j n)).andThen (fun t1 _ h => ?_) fun e h => ?_
      · cases hB : t.2.2.swapByIndex j n with
        | error e => rw [hB] at h; cases h
        | ok B => rw [hB] at h; cases h; rfl
      · cases hB : t.2.2.swapByIndex j n with
        | ok B => rw [hB] at h; cases h
        | error e => rw [hB] at h; cases h; rfl
  · cases hA : t.2.1.swapByIndex i n with
    | ok B => rw [hA] at h; cases h
    | error e => rw [hA] at h; cases h; rfl

/-- The group changed and both storages rearranged. -/
theorem bothSwap (i j n : Nat) (g : Group) (t : Trio V) :
    Ends ((do set g; onA (SparseSet.swapByIndexX i n); onB (SparseSet.swapByIndexX j n) : Stm (Trio V) Unit) t)
      (do let A ← t.2.1.swapByIndex i n; let B ← t.2.2.swapByIndex j n; .ok ((g, A, B), ())) := by
  rw [Stm.bind_apply, set_apply]
  refine (onA_does (SparseSet.swapByIndexX_does i n)).andThen (fun t1 _ h => ?_) fun e h => ?_
  · cases hA : t.2.1.swapByIndex i n with
    | error e => rw [hA] at h; cases h
    | ok A =>
      rw [hA] at h
      cases h
      have := onB_does (SparseSet.swapByIndexX_does j n) (g, A, t.2.2)
      revert this
      cases hB : t.2.2.swapByIndex j n with
      | error e => simp only [hB]; exact id
      | ok B => simp only [hB]; exact id
  · cases hA : t.2.1.swapByIndex i n with
    | ok B => rw [hA] at h; cases h
    | error e => rw [hA] at h; cases h; rfl

/-- The first storage rearranged and the group changed. -/
theorem swapFirst (i n : Nat) (g : Group) (t : Trio V) :
    Ends ((do onA (SparseSet.swapByIndexX i n); set g : Stm (Trio V) Unit) t)
      (do let A ← t.2.1.swapByIndex i n; .ok ((g, A, t.2.2), ())) := by
  refine (onA_does (SparseSet.swapByIndexX_does i n)).andThen (fun t1 _ h => ?_) fun e h => ?_
  · cases hA : t.2.1.swapByIndex i n with
    | error e => rw [hA] at h; cases h
    | ok A => rw [hA] at h; cases h; rfl
  · cases hA : t.2.1.swapByIndex i n with
    | ok B => rw [hA] at h; cases h
    | error e => rw [hA] at h; cases h; rfl

/-- The group changed and the first storage rearranged. -/
theorem firstSwap (i n : Nat) (g : Group) (t : Trio V) :
    Ends ((do set g; onA (SparseSet.swapByIndexX i n) : Stm (Trio V) Unit) t)
      (do let A ← t.2.1.swapByIndex i n; .ok ((g, A, t.2.2), ())) := by
  rw [Stm.bind_apply, set_apply]
  have := onA_does (SparseSet.swapByIndexX_does i n) (g, t.2)
  revert this
  cases hA : t.2.1.swapByIndex i n with
  | error e => simp only [hA]; exact id
  | ok B => simp only [hA]; exact id

theorem onSet_apply {α : Type} (x : Stm (SparseSet (Nat × Nat)) α) (s : SparseSet (Nat × Nat)) (a b : TypeId) (t : Trio V) :
    onSet x s a b t = ((non (x s).1 a b, t.2), (x s).2) := by
  induction x generalizing s t with
  | ret r => rfl
  | step f k ih => exact ih s (f s) _

theorem onSet_ends {α : Type} {x : Stm (SparseSet (Nat × Nat)) α} {f : SparseSet (Nat × Nat) → R (SparseSet (Nat × Nat) × α)}
    (h : x.Does f) (s : SparseSet (Nat × Nat)) (a b : TypeId) (t : Trio V) :
    Ends (onSet x s a b t) (do let r ← f s; .ok ((non r.1 a b, t.2), r.2)) := by
  rw [onSet_apply]
  cases hf : f s with
  | ok r => rw [h.ok (s' := r.1) (a := r.2) hf]; rfl
  | error e => exact h.error hf

theorem addX_does (id : EntityId) :
    Stm.Does (addX (V := V) id) (fun t => do .ok (← t.1.add id t.2.1 t.2.2, ())) := by
  rintro ⟨g, A, B⟩
  simp only [addX, add, Stm.bind_apply, Stm.read_apply]
  cases hc : g.inComponents id A B with
  | false => simp only [Bool.not_false, if_true]; rfl
  | true =>
    simp only [Bool.not_true, Bool.false_eq_true, if_false]
    stm
    generalize g.inGroup id A B = o
    rcases o with e | _ | _
    · rfl
    · stm
      simp only [Bool.false_eq_true, if_false]
      cases g with
      | full n a b =>
        stm
        generalize unwrapR (A.getIndex id) = o1
        rcases o1 with _ | i
        · rfl
        stm
        generalize unwrapR (B.getIndex id) = o2
        rcases o2 with _ | j
        · rfl
        simp only [R.bind_ok, bind_assoc]
        have := swapBoth i j n (full (n + 1) a b) (full n a b, A, B)
        simp only [Stm.bind_apply] at this
        exact this
      | part n a b =>
        stm
        generalize unwrapR (A.getIndex id) = o1
        rcases o1 with _ | i
        · rfl
        simp only [R.bind_ok, bind_assoc]
        have := swapFirst i n (part (n + 1) a b) (part n a b, A, B)
        simp only [Stm.bind_apply] at this
        exact this
      | non s a b =>
        stm
        generalize unwrapR (A.getIndex id) = o1
        rcases o1 with _ | i
        · rfl
        stm
        generalize unwrapR (B.getIndex id) = o2
        rcases o2 with _ | j
        · rfl
        have := onSet_ends (SparseSet.addX_does id (i, j)) s a b (non s a b, A, B)
        simp only [R.bind_ok, bind_assoc] at this ⊢
        exact this
    · simp only [R.bind_ok, if_true]
      rfl

theorem removeX_does (id : EntityId) :
    Stm.Does (removeX (V := V) id) (fun t => do .ok (← t.1.remove id t.2.1 t.2.2, ())) := by
  rintro ⟨g, A, B⟩
  simp only [removeX, remove, Stm.bind_apply, Stm.read_apply]
  generalize g.inGroup id A B = o
  rcases o with e | _ | _
  · rfl
  · simp only [Bool.not_false, if_true, R.bind_ok]
    rfl
  · simp only [Bool.not_true, Bool.false_eq_true, if_false]
    cases g with
    | full n a b =>
      stm
      generalize unwrapR (A.getIndex id) = o1
      rcases o1 with _ | i
      · rfl
      stm
      generalize unwrapR (B.getIndex id) = o2
      rcases o2 with _ | j
      · rfl
      simp only [R.bind_ok, bind_assoc, Bool.not_true, Bool.false_eq_true, if_false]
      have := bothSwap i j (n - 1) (full (n - 1) a b) (full n a b, A, B)
      simp only [Stm.bind_apply] at this
      exact this
    | part n a b =>
      stm
      generalize unwrapR (A.getIndex id) = o1
      rcases o1 with _ | i
      · rfl
      simp only [R.bind_ok, bind_assoc, Bool.not_true, Bool.false_eq_true, if_false]
      have := firstSwap i (n - 1) (part (n - 1) a b) (part n a b, A, B)
      simp only [Stm.bind_apply] at this
      exact this
    | non s a b =>
      have := onSet_ends (SparseSet.removeUnwrapX_does id) s a b (non s a b, A, B)
      stm
      simp only [R.bind_ok, bind_assoc, SparseSet.removeUnwrap, Bool.not_true, Bool.false_eq_true, if_false] at this ⊢
      exact this

/-- From the outcome of a first part to that of the whole. -/
theorem _root_.Xecs.Ends.andThen {σ α β : Type} {x : Stm σ α} {y : α → Stm σ β} {s : σ} {f : R (σ × α)} {r : R (σ × β)} (h : Ends (x s) f)
    (h1 : ∀ s' a, f = .ok (s', a) → Ends (y a s') r) (h2 : ∀ e, f = .error e → r = .error e) : Ends ((x >>= y) s) r := by
  rw [Stm.bind_apply]
  cases f with
  | ok b =>
    rw [show x s = (b.1, .ok b.2) from h]
    exact h1 b.1 b.2 rfl
  | error e =>
    have h : (x s).2 = .error e := h
    rw [h2 e rfl]
    rcases hxs : x s with ⟨s', _ | a⟩
    · rw [hxs] at h
      cases h
      rfl
    · rw [hxs] at h
      cases h

theorem makeFullLoopAX_ends (a b : TypeId) (l : List Nat) : ∀ (n : Nat) (A B : SparseSet V),
    Ends (Stm.forEach l (makeFullLoopAX a b) (full n a b, A, B))
      (do let r ← makeFullLoopA n A B l; .ok ((full r.1 a b, r.2.1, r.2.2), ())) := by
  induction l with
  | nil => exact fun _ _ _ => rfl
  | cons i l ih =>
    intro n A B
    have key : Ends (makeFullLoopAX a b i (full n a b, A, B)) (do
        let id ← unwrapR (A.idAt i)
        match B.getIndex id with
        | some j => do let A' ← A.swapByIndex i n; let B' ← B.swapByIndex j n; .ok ((full (n + 1) a b, A', B'), ())
        | none => .ok ((full n a b, A, B), ())) := by
      simp only [makeFullLoopAX, Stm.bind_apply, Stm.read_apply]
      generalize unwrapR (A.idAt i) = o
      rcases o with _ | id
      · rfl
      simp only [R.bind_ok]
      cases B.getIndex id with
      | none => rfl
      | some j => exact swapBoth i j n (full (n + 1) a b) (full n a b, A, B)
    refine key.andThen (fun t' _ h => ?_) fun e h => ?_
    · simp only [makeFullLoopA]
      revert h
      generalize unwrapR (A.idAt i) = o
      rcases o with _ | id
      · exact fun h => nomatch h
      simp only [R.bind_ok]
      cases B.getIndex id with
      | none =>
        intro h
        cases h
        exact ih n A B
      | some j =>
        dsimp only
        generalize A.swapByIndex i n = o1
        rcases o1 with _ | A'
        · exact fun h => nomatch h
        simp only [R.bind_ok]
        generalize B.swapByIndex j n = o2
        rcases o2 with _ | B'
        · exact fun h => nomatch h
        intro h
        cases h
        exact ih (n + 1) A' B'
    · simp only [makeFullLoopA]
      revert h
      generalize unwrapR (A.idAt i) = o
      rcases o with _ | id
      · intro h; cases h; rfl
      simp only [R.bind_ok]
      cases B.getIndex id with
      | none => exact fun h => nomatch h
      | some j =>
        dsimp only
        generalize A.swapByIndex i n = o1
        rcases o1 with _ | A'
        · intro h; cases h; rfl
        simp only [R.bind_ok]
        generalize B.swapByIndex j n = o2
        rcases o2 with _ | B'
        · intro h; cases h; rfl
        exact fun h => nomatch h

theorem makeFullLoopBX_ends (a b : TypeId) (l : List Nat) : ∀ (n : Nat) (A B : SparseSet V),
    Ends (Stm.forEach l (makeFullLoopBX a b) (full n a b, A, B))
      (do let r ← makeFullLoopB n A B l; .ok ((full r.1 a b, r.2.1, r.2.2), ())) := by
  induction l with
  | nil => exact fun _ _ _ => rfl
  | cons j l ih =>
    intro n A B
    have key : Ends (makeFullLoopBX a b j (full n a b, A, B)) (do
        let id ← unwrapR (B.idAt j)
        match A.getIndex id with
        | some i => do let A' ← A.swapByIndex i n; let B' ← B.swapByIndex j n; .ok ((full (n + 1) a b, A', B'), ())
        | none => .ok ((full n a b, A, B), ())) := by
      simp only [makeFullLoopBX, Stm.bind_apply, Stm.read_apply]
      generalize unwrapR (B.idAt j) = o
      rcases o with _ | id
      · rfl
      simp only [R.bind_ok]
      cases A.getIndex id with
      | none => rfl
      | some i => exact swapBoth i j n (full (n + 1) a b) (full n a b, A, B)
    refine key.andThen (fun t' _ h => ?_) fun e h => ?_
    · simp only [makeFullLoopB]
      revert h
      generalize unwrapR (B.idAt j) = o
      rcases o with _ | id
      · exact fun h => nomatch h
      simp only [R.bind_ok]
      cases A.getIndex id with
      | none =>
        intro h
        cases h
        exact ih n A B
      | some i =>
        dsimp only
        generalize A.swapByIndex i n = o1
        rcases o1 with _ | A'
        · exact fun h => nomatch h
        simp only [R.bind_ok]
        generalize B.swapByIndex j n = o2
        rcases o2 with _ | B'
        · exact fun h => nomatch h
        intro h
        cases h
        exact ih (n + 1) A' B'
    · simp only [makeFullLoopB]
      revert h
      generalize unwrapR (B.idAt j) = o
      rcases o with _ | id
      · intro h; cases h; rfl
      simp only [R.bind_ok]
      cases A.getIndex id with
      | none => exact fun h => nomatch h
      | some i =>
        dsimp only
        generalize A.swapByIndex i n = o1
        rcases o1 with _ | A'
        · intro h; cases h; rfl
        simp only [R.bind_ok]
        generalize B.swapByIndex j n = o2
        rcases o2 with _ | B'
        · intro h; cases h; rfl
        exact fun h => nomatch h

theorem makePartLoopX_ends (a b : TypeId) (l : List Nat) : ∀ (n : Nat) (A B : SparseSet V),
    Ends (Stm.forEach l (makePartLoopX a b) (part n a b, A, B))
      (do let r ← makePartLoop n A B l; .ok ((part r.1 a b, r.2, B), ())) := by
  induction l with
  | nil => exact fun _ _ _ => rfl
  | cons i l ih =>
    intro n A B
    have key : Ends (makePartLoopX a b i (part n a b, A, B)) (do
        let id ← unwrapR (A.idAt i)
        if B.exist id = true then do let A' ← A.swapByIndex i n; .ok ((part (n + 1) a b, A', B), ())
        else .ok ((part n a b, A, B), ())) := by
      simp only [makePartLoopX, Stm.bind_apply, Stm.read_apply]
      generalize unwrapR (A.idAt i) = o
      rcases o with _ | id
      · rfl
      simp only [R.bind_ok]
      cases B.exist id with
      | false => simp only [Bool.false_eq_true, if_false]; rfl
      | true =>
        simp only [if_true]
        have := swapFirst i n (part (n + 1) a b) (part n a b, A, B)
        dsimp only at this
        exact this
    refine key.andThen (fun t' _ h => ?_) fun e h => ?_
    · simp only [makePartLoop]
      revert h
      generalize unwrapR (A.idAt i) = o
      rcases o with _ | id
      · exact fun h => nomatch h
      simp only [R.bind_ok]
      cases B.exist id with
      | false =>
        simp only [Bool.false_eq_true, if_false]
        intro h
        cases h
        exact ih n A B
      | true =>
        simp only [if_true]
        generalize A.swapByIndex i n = o1
        rcases o1 with _ | A'
        · exact fun h => nomatch h
        intro h
        cases h
        exact ih (n + 1) A' B
    · simp only [makePartLoop]
      revert h
      generalize unwrapR (A.idAt i) = o
      rcases o with _ | id
      · intro h; cases h; rfl
      simp only [R.bind_ok]
      cases B.exist id with
      | false => simp only [Bool.false_eq_true, if_false]; exact fun h => nomatch h
      | true =>
        simp only [if_true]
        generalize A.swapByIndex i n = o1
        rcases o1 with _ | A'
        · intro h; cases h; rfl
        exact fun h => nomatch h

theorem makeNonLoopAX_ends (a b : TypeId) (l : List Nat) : ∀ (s : SparseSet (Nat × Nat)) (A B : SparseSet V),
    Ends (Stm.forEach l makeNonLoopAX (non s a b, A, B))
      (do let r ← makeNonLoopA s A B l; .ok ((non r a b, A, B), ())) := by
  induction l with
  | nil => exact fun _ _ _ => rfl
  | cons i l ih =>
    intro s A B
    have key : Ends (makeNonLoopAX i (non s a b, A, B)) (do
        let id ← unwrapR (A.idAt i)
        match B.getIndex id with
        | some j => do let s' ← s.add id (i, j); .ok ((non s' a b, A, B), ())
        | none => .ok ((non s a b, A, B), ())) := by
      simp only [makeNonLoopAX, Stm.bind_apply, Stm.read_apply]
      generalize unwrapR (A.idAt i) = o
      rcases o with _ | id
      · rfl
      simp only [R.bind_ok]
      cases B.getIndex id with
      | none => rfl
      | some j =>
        have := onSet_ends (SparseSet.addX_does id (i, j)) s a b (non s a b, A, B)
        simp only [bind_assoc, R.bind_ok] at this
        exact this
    refine key.andThen (fun t' _ h => ?_) fun e h => ?_
    · simp only [makeNonLoopA]
      revert h
      generalize unwrapR (A.idAt i) = o
      rcases o with _ | id
      · exact fun h => nomatch h
      simp only [R.bind_ok]
      cases B.getIndex id with
      | none =>
        intro h
        cases h
        exact ih s A B
      | some j =>
        dsimp only
        generalize s.add id (i, j) = o1
        rcases o1 with _ | s'
        · exact fun h => nomatch h
        intro h
        cases h
        exact ih s' A B
    · simp only [makeNonLoopA]
      revert h
      generalize unwrapR (A.idAt i) = o
      rcases o with _ | id
      · intro h; cases h; rfl
      simp only [R.bind_ok]
      cases B.getIndex id with
      | none => exact fun h => nomatch h
      | some j =>
        dsimp only
        generalize s.add id (i, j) = o1
        rcases o1 with _ | s'
        · intro h; cases h; rfl
        exact fun h => nomatch h

theorem makeNonLoopBX_ends (a b : TypeId) (l : List Nat) : ∀ (s : SparseSet (Nat × Nat)) (A B : SparseSet V),
    Ends (Stm.forEach l makeNonLoopBX (non s a b, A, B))
      (do let r ← makeNonLoopB s A B l; .ok ((non r a b, A, B), ())) := by
  induction l with
  | nil => exact fun _ _ _ => rfl
  | cons j l ih =>
    intro s A B
    have key : Ends (makeNonLoopBX j (non s a b, A, B)) (do
        let id ← unwrapR (B.idAt j)
        match A.getIndex id with
        | some i => do let s' ← s.add id (i, j); .ok ((non s' a b, A, B), ())
        | none => .ok ((non s a b, A, B), ())) := by
      simp only [makeNonLoopBX, Stm.bind_apply, Stm.read_apply]
      generalize unwrapR (B.idAt j) = o
      rcases o with _ | id
      · rfl
      simp only [R.bind_ok]
      cases A.getIndex id with
      | none => rfl
      | some i =>
        have := onSet_ends (SparseSet.addX_does id (i, j)) s a b (non s a b, A, B)
        simp only [bind_assoc, R.bind_ok] at this
        exact this
    refine key.andThen (fun t' _ h => ?_) fun e h => ?_
    · simp only [makeNonLoopB]
      revert h
      generalize unwrapR (B.idAt j) = o
      rcases o with _ | id
      · exact fun h => nomatch h
      simp only [R.bind_ok]
      cases A.getIndex id with
      | none =>
        intro h
        cases h
        exact ih s A B
      | some i =>
        dsimp only
        generalize s.add id (i, j) = o1
        rcases o1 with _ | s'
        · exact fun h => nomatch h
        intro h
        cases h
        exact ih s' A B
    · simp only [makeNonLoopB]
      revert h
      generalize unwrapR (B.idAt j) = o
      rcases o with _ | id
      · intro h; cases h; rfl
      simp only [R.bind_ok]
      cases A.getIndex id with
      | none => exact fun h => nomatch h
      | some i =>
        dsimp only
        generalize s.add id (i, j) = o1
        rcases o1 with _ | s'
        · intro h; cases h; rfl
        exact fun h => nomatch h

theorem makeX_does : Stm.Does (makeX (V := V)) (fun t => do .ok (← t.1.make t.2.1 t.2.2, ())) := by
  rintro ⟨g, A, B⟩
  cases g with
  | full n a b =>
    simp only [makeX, make, Stm.bind_apply, Stm.read_apply, set_apply]
    by_cases hl : A.len < B.len
    · simp only [if_pos hl, bind_assoc]
      exact makeFullLoopAX_ends a b _ 0 A B
    · simp only [if_neg hl, bind_assoc]
      exact makeFullLoopBX_ends a b _ 0 A B
  | part n a b =>
    simp only [makeX, make, Stm.bind_apply, Stm.read_apply, set_apply, bind_assoc]
    exact makePartLoopX_ends a b _ 0 A B
  | non s a b =>
    simp only [makeX, make, Stm.bind_apply, Stm.read_apply, set_apply]
    by_cases hl : A.len < B.len
    · simp only [if_pos hl, bind_assoc]
      exact makeNonLoopAX_ends a b _ s.clear A B
    · simp only [if_neg hl, bind_assoc]
      exact makeNonLoopBX_ends a b _ s.clear A B

end Group
end Xecs
