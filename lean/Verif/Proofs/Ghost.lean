import Verif.Proofs.Effects
import Verif.Proofs.Serial
/-
The sequential history that accompanies a shared phase: when may it be continued, and what does this do to its state?
-/
set_option autoImplicit false
namespace Xecs
open Spec World Hist
variable {V : Type}

/-- When the sequential history may be continued with a call. -/
def Legal (cfg : Config) (g : State V) : Op V → Prop
  | .createEntity => True
  | .createEntities _ => True
  | .attach id _ _ => g.live id = true
  | .detach id _ => g.live id = true
  | .removeEntity order id => g.live id = true ∧ (order.Nodup ∧ ∀ t, t ∈ order ↔ (g.comp t).isSome = true) ∧
      cfg.Safe (fun t => g.has t id)
  | .attachBatch a b t _ => a ≤ b ∧ ∀ x, a ≤ x → x < b → g.live x = true ∧ g.has t x = false
  | .write _ _ _ => True
  | .resourceWrite _ _ => True
  | _ => False

section
variable {cfg : Config} {g g' : State V}

theorem shape_get (hsh : cfg.groups = g.groups.map SGroup.shape) {k : Nat} {gs : SGroup} (h : g.groups[k]? = some gs) :
    cfg.groups[k]? = some gs.shape := by
  rw [hsh, List.getElem?_map, h]; rfl

theorem legal_allowed {tr : List (Op V × Out V)} {u : World V} (hr : Run tr u g) (hsh : cfg.groups = g.groups.map SGroup.shape)
    {op : Op V} (h : Legal cfg g op) : Allowed tr op := by
  obtain ⟨e1, e2, e3, e4, e5, e6⟩ := run_em hr
  have hu : ∀ id, g.live id = true → Usable id tr := by
    intro id hl
    obtain ⟨h1, h2, h3⟩ := live_iff.1 hl
    refine ⟨by omega, fun hz => h3 ?_⟩
    rw [e1]; exact List.mem_of_getLast? hz
  cases op with
  | attach id t v => exact hu id h
  | detach id t => exact hu id h
  | removeEntity order id =>
    obtain ⟨h1, ⟨h2, h3⟩, h4⟩ := h
    refine ⟨hu id h1, ⟨h2, fun t => by rw [h3, run_registered hr]⟩, fun _ => ?_⟩
    unfold RemoveSafe
    rw [← run_tags hr, List.pairwise_map, List.pairwise_iff_getElem]
    intro i j hi hj hij ho ⟨b1, b2, b3, b4⟩
    have := h4 i j _ _ hij (shape_get hsh (List.getElem?_eq_getElem hi)) (shape_get hsh (List.getElem?_eq_getElem hj))
      (by show g.has _ id = true; rw [has_eq, run_get hr]; exact b1) (by show g.has _ id = true; rw [has_eq, run_get hr]; exact b2)
      (by show g.has _ id = true; rw [has_eq, run_get hr]; exact b3) (by show g.has _ id = true; rw [has_eq, run_get hr]; exact b4)
    have hown : ∀ (x : SGroup) t, groupOwns (tag x) t = x.shape.owns t := by
      intro x t
      obtain ⟨k, a, b, m, f⟩ := x
      cases k <;> rfl
    rw [hown, hown] at ho
    have h5 := this.1
    have h6 := this.2
    simp only [SGroup.shape] at h5 h6 ho
    simp only [tag] at ho
    rw [h5, h6] at ho; cases ho
  | attachBatch a b t vs =>
    obtain ⟨h1, h2⟩ := h
    refine ⟨h1, fun x hx1 hx2 => ?_, fun _ x hx1 hx2 => ?_⟩
    · rw [e4]; exact (h2 x hx1 hx2).1
    · have := (h2 x hx1 hx2).2
      rw [has_eq, run_get hr, Option.isSome_eq_false_iff, Option.isNone_iff_eq_none] at this
      exact this
  | createEntity => trivial
  | createEntities n => trivial
  | write t id v => trivial
  | resourceWrite t v => trivial
  | _ => exact False.elim h

/-- The history is continued. -/
theorem ghost_step {tr : List (Op V × Out V)} {u : World V} (ht : Trace tr u) (hr : Run tr u g)
    (hsh : cfg.groups = g.groups.map SGroup.shape) {op : Op V} {o : Out V} (h : Legal cfg g op) (hs : g.step op = .ok g' o) :
    ∃ u', Trace ((op, o) :: tr) u' ∧ Run ((op, o) :: tr) u' g' := by
  have ha := legal_allowed hr hsh h
  obtain ⟨hw, _⟩ := allowed_spec hr ha
  obtain ⟨u', h1, h2⟩ := step_ok hr.rel hw hs
  exact ⟨u', ht.ok ha h1, hr.ok hw hs h1⟩

/-! ### Attach -/

theorem attached_get {id t : Nat} {f : Nat → Option V} {v : V} (hf : g.comp t = some f) (u e : Nat) :
    (g.attached id t f v).get u e = if u = t ∧ e = id then some v else g.get u e := by
  simp only [State.get, State.attached, State.setComp]
  by_cases hu : u = t
  · subst hu
    by_cases he : e = id
    · simp [he]
    · simp [he, hf]
  · simp [hu]

theorem attached_has {id t : Nat} {f : Nat → Option V} {v : V} (hf : g.comp t = some f) (u e : Nat) :
    (g.attached id t f v).has u e = (g.has u e || (u == t && e == id)) := by
  simp only [State.has, attached_get hf]
  by_cases hu : u = t
  · by_cases he : e = id
    · simp [hu, he]
    · simp [hu, he]
  · simp [hu]

theorem attached_shapes {id t : Nat} {f : Nat → Option V} {v : V} :
    (g.attached id t f v).groups.map SGroup.shape = g.groups.map SGroup.shape := by
  simp [State.attached, List.map_map]; intro a _; rfl

theorem attached_mem (hsh : cfg.groups = g.groups.map SGroup.shape) {id t : Nat} {f : Nat → Option V} {v : V}
    (hf : g.comp t = some f) (k e : Nat) : memAt (g.attached id t f v) k e =
      (memAt g k e || (e == id && cfg.joins t (fun u => g.has u id || u == t) k)) := by
  have hc : cfg.groups[k]? = (g.groups[k]?).map SGroup.shape := by rw [hsh, List.getElem?_map]
  have hh : ∀ u, ({ g.setComp t (fun x => if x = id then some v else f x) with
      hw := fun u => if u = t then max (g.hw t) (id + 1) else g.hw u } : State V).has u id = (g.has u id || u == t) := by
    intro u
    simp only [State.has, State.get, State.setComp]
    by_cases hu : u = t
    · simp [hu]
    · simp [hu]
  simp only [memAt, Config.joins, hc]
  simp only [State.attached, List.getElem?_map]
  cases g.groups[k]? with
  | none => simp
  | some gs =>
    simp only [Option.map_some, State.both, hh]
    congr 1
    have : gs.shape.touches t = gs.touches t := touches_shape rfl t
    rw [this, Bool.and_assoc, Bool.and_assoc]
    rfl

/-! ### Attaching a batch -/

theorem batch_get {a b t : Nat} {vs : List V} {f : Nat → Option V} (hlen : vs.length = b - a) (hab : a ≤ b)
    (hf : g.comp t = some f) (u e : Nat) :
    (g.batchAttached a t f vs).get u e = if u = t ∧ a ≤ e ∧ e < b then vs[e - a]? else g.get u e := by
  have : a + vs.length = b := by omega
  simp only [State.get, State.batchAttached, State.setComp, this]
  by_cases hu : u = t
  · subst hu
    by_cases he : a ≤ e ∧ e < b
    · simp [he]
    · simp [he, hf]
  · simp [hu]

theorem batch_step {a b t : Nat} {vs : List V} {f : Nat → Option V} (hlen : vs.length = b - a) (hf : g.comp t = some f)
    (h : Legal cfg g (.attachBatch a b t vs)) : g.step (.attachBatch a b t vs) = .ok (g.batchAttached a t f vs) .unit := by
  obtain ⟨h1, h2⟩ := h
  have e1 : (List.range' a (b - a)).all (fun x => g.live x) = true := by
    rw [List.all_eq_true]
    intro x hx
    rw [List.mem_range'_1] at hx
    exact (h2 x hx.1 (by omega)).1
  have e2 : (List.range' a (b - a)).all (fun x => (f x).isNone) = true := by
    rw [List.all_eq_true]
    intro x hx
    rw [List.mem_range'_1] at hx
    have := (h2 x hx.1 (by omega)).2
    simp only [State.has, State.get, hf, Option.isSome_eq_false_iff] at this
    exact this
  simp only [State.step, h1, e1, e2, hlen, hf, and_self, if_true]

/-! ### Detach -/

theorem detached_get {id t : Nat} {f : Nat → Option V} (hf : g.comp t = some f) (u e : Nat) :
    (g.detached id t f).get u e = if u = t ∧ e = id then none else g.get u e := by
  simp only [State.get, State.detached, State.setComp]
  by_cases hu : u = t
  · subst hu
    by_cases he : e = id
    · simp [he]
    · simp [he, hf]
  · simp [hu]

theorem detached_has {id t : Nat} {f : Nat → Option V} (hf : g.comp t = some f) (u e : Nat) :
    (g.detached id t f).has u e = (g.has u e && !(u == t && e == id)) := by
  simp only [State.has, detached_get hf]
  by_cases hu : u = t
  · by_cases he : e = id
    · simp [hu, he]
    · simp [hu, he]
  · simp [hu]

theorem detached_shapes {id t : Nat} {f : Nat → Option V} :
    (g.detached id t f).groups.map SGroup.shape = g.groups.map SGroup.shape := by
  simp [State.detached, List.map_map]; intro a _; rfl

theorem detached_mem (hsh : cfg.groups = g.groups.map SGroup.shape) {id t : Nat} {f : Nat → Option V} (k e : Nat) :
    memAt (g.detached id t f) k e = (memAt g k e && !(e == id && cfg.touches t k)) := by
  have hc : cfg.groups[k]? = (g.groups[k]?).map SGroup.shape := by rw [hsh, List.getElem?_map]
  simp only [memAt, Config.touches, hc]
  simp only [State.detached, List.getElem?_map]
  cases g.groups[k]? with
  | none => simp
  | some gs =>
    simp only [Option.map_some]
    have : gs.shape.touches t = gs.touches t := touches_shape rfl t
    rw [this]

/-! ### Remove -/

theorem removed_get (id u e : Nat) : (g.removed id).get u e = if e = id then none else g.get u e := by
  simp only [State.get, State.removed]
  cases g.comp u with
  | none => simp
  | some f => simp

theorem removed_has (id u e : Nat) : (g.removed id).has u e = (g.has u e && !(e == id)) := by
  simp only [State.has, removed_get]
  by_cases he : e = id
  · simp [he]
  · simp [he]

theorem removed_shapes {id : Nat} : (g.removed id).groups.map SGroup.shape = g.groups.map SGroup.shape := by
  simp [State.removed, List.map_map]; intro a _; rfl

theorem removed_mem (id k e : Nat) : memAt (g.removed id) k e = (memAt g k e && !(e == id)) := by
  simp only [memAt, State.removed, List.getElem?_map]
  cases g.groups[k]? <;> simp

theorem removed_dom (id t : Nat) : ((g.removed id).comp t).isSome = (g.comp t).isSome := by
  simp [State.removed]

theorem safe_order {u : World V} (hu : Rel u g) (hsh : cfg.groups = g.groups.map SGroup.shape) {id : Nat}
    (h : cfg.Safe (fun t => g.has t id)) : State.orderSafe id g.groups = true := by
  apply orderSafe_of_pairwise
  rw [List.pairwise_iff_getElem]
  intro i j hi hj hij ⟨m1, m2, ho⟩
  have b1 := Rel.mem_both hu.core (List.getElem?_eq_getElem hi) m1
  have b2 := Rel.mem_both hu.core (List.getElem?_eq_getElem hj) m2
  simp only [State.both, Bool.and_eq_true] at b1 b2
  have := h i j _ _ hij (shape_get hsh (List.getElem?_eq_getElem hi)) (shape_get hsh (List.getElem?_eq_getElem hj))
    b1.1 b1.2 b2.1 b2.2
  have e : ∀ t, (g.groups[i]).shape.owns t = (g.groups[i]).owns t := owns_shape rfl
  rw [e, e] at this
  have h5 := this.1
  have h6 := this.2
  simp only [SGroup.shape] at h5 h6
  rw [h5, h6] at ho; cases ho

end
end Xecs
