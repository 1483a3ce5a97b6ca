import Verif.Proofs.PhasesRun
import Verif.Proofs.RobustEm
import Verif.Proofs.GroupHistory
import Verif.Proofs.Trace
/-
What an unshared world does next does not depend on which non-owning groups may be used, so the calls after a shared
phase behave as after the sequential history of the same changes.
-/
set_option autoImplicit false
namespace Xecs
open Spec World Hist
variable {V : Type}

/-- The flags `fresh` of the new state forgotten. -/
def Spec.Outcome.unfresh : Outcome V → Outcome V
  | .ok s o => .ok s.unfresh o
  | .panics => .panics
  | .unspecified => .unspecified

theorem unfresh_idem (s : State V) : s.unfresh.unfresh = s.unfresh := by
  simp only [State.unfresh, List.map_map]; rfl

theorem orderSafe_unfresh (id : Nat) : ∀ gs : List SGroup, State.orderSafe id (gs.map SGroup.unfresh) = State.orderSafe id gs
  | [] => rfl
  | g :: gs => by
    simp only [List.map_cons, State.orderSafe, orderSafe_unfresh id gs, List.all_map]
    rfl

theorem attached_unfresh (s : State V) (id t : Nat) (f : EntityId → Option V) (v : V) :
    (s.unfresh.attached id t f v).unfresh = (s.attached id t f v).unfresh := by
  simp only [State.unfresh, State.attached, List.map_map]; rfl

theorem detached_unfresh (s : State V) (id t : Nat) (f : EntityId → Option V) :
    (s.unfresh.detached id t f).unfresh = (s.detached id t f).unfresh := by
  simp only [State.unfresh, State.detached, List.map_map]; rfl

theorem removed_unfresh (s : State V) (id : Nat) : (s.unfresh.removed id).unfresh = (s.removed id).unfresh := by
  simp only [State.unfresh, State.removed, List.map_map]; rfl

theorem grouped_unfresh (s : State V) (k : SKind) (a b : Nat) :
    (s.unfresh.grouped k a b).unfresh = (s.grouped k a b).unfresh := by
  simp only [State.unfresh, State.grouped, List.map_map, List.map_append]; rfl

theorem setComp_unfresh (s : State V) (t : Nat) (f : EntityId → Option V) :
    (s.unfresh.setComp t f).unfresh = (s.setComp t f).unfresh := unfresh_idem (s.setComp t f)

theorem step_unfresh (s : State V) (op : Op V) : (s.unfresh.step op).unfresh = (s.step op).unfresh := by
  have hn : ∀ id (k k' : Outcome V), k.unfresh = k'.unfresh →
      (s.unfresh.needLive id k).unfresh = (s.needLive id k').unfresh := by
    intro id k k' hk
    unfold State.needLive
    show Outcome.unfresh (if s.live id = true then k else if id = 0 ∨ s.zombie id = true then .unspecified else .panics) = _
    split
    · exact hk
    · rfl
  have hs := unfresh_idem s
  cases op with
  | register t =>
    show Outcome.unfresh (match s.comp t with | some _ => .panics | none => .ok (s.unfresh.setComp t fun _ => none) .unit) = _
    simp only [State.step]
    cases s.comp t
    · exact congrArg (Outcome.ok · _) (setComp_unfresh s t _)
    · rfl
  | createEntity =>
    simp only [State.step]
    rw [show s.unfresh.free = s.free from rfl]
    cases hf : s.free
    · exact congrArg (Outcome.ok · (.id s.next)) (unfresh_idem { s with next := s.next + 1, free := [] })
    · rename_i id rest
      exact congrArg (Outcome.ok · _) (unfresh_idem { s with free := rest })
  | createEntities n => exact congrArg (Outcome.ok · _) (unfresh_idem { s with next := s.next + n })
  | removeEntity order id =>
    refine hn id _ _ ?_
    rw [show State.orderSafe id s.unfresh.groups = State.orderSafe id s.groups from orderSafe_unfresh id _]
    split
    · exact congrArg (Outcome.ok · _) (removed_unfresh s id)
    · rfl
  | exist id =>
    simp only [State.step]
    show Outcome.unfresh (if s.live id = true then .ok s.unfresh (.bool true) else
      if id = 0 ∨ s.zombie id = true then .unspecified else if id < s.next then .ok s.unfresh (.bool false) else .panics) = _
    split
    · exact congrArg (Outcome.ok · _) hs
    · split
      · rfl
      · split
        · exact congrArg (Outcome.ok · _) hs
        · rfl
  | attach id t v =>
    refine hn id _ _ ?_
    show Outcome.unfresh (match s.comp t with | none => .panics | some f => .ok (s.unfresh.attached id t f v) .unit) = _
    cases s.comp t
    · rfl
    · exact congrArg (Outcome.ok · _) (attached_unfresh s id t _ v)
  | detach id t =>
    refine hn id _ _ ?_
    show Outcome.unfresh (match s.comp t with
      | none => .panics
      | some f =>
        match f id with
        | some v => .ok (s.unfresh.detached id t f) (.val (some v))
        | none => if id = s.hw t then .panics else .ok s.unfresh (.val none)) = _
    cases s.comp t with
    | none => rfl
    | some f =>
      dsimp only
      cases f id with
      | none =>
        dsimp only
        split
        · rfl
        · exact congrArg (Outcome.ok · _) hs
      | some x => exact congrArg (Outcome.ok · _) (detached_unfresh s id t f)
  | attachBatch a b t vs =>
    simp only [State.step]
    show Outcome.unfresh (if a ≤ b ∧ (List.range' a (b - a)).all (fun x => s.live x) = true then
      if vs.length = b - a then
        match s.comp t with
        | none => .panics
        | some f =>
          if (List.range' a (b - a)).all (fun x => (f x).isNone) = true then
            .ok (s.unfresh.batchAttached a t f vs) .unit
          else .unspecified
      else .panics
    else .unspecified) = _
    split
    · split
      · cases s.comp t with
        | none => rfl
        | some f =>
          dsimp only
          split
          · exact congrArg (Outcome.ok · _) (unfresh_idem (s.batchAttached a t f vs))
          · rfl
      · rfl
    · rfl
  | makeGroup k a b =>
    simp only [State.step]
    rw [show (s.unfresh.groups.any fun g => (g.kind == k && g.a == a && g.b == b) ||
        (g.owns a && (SGroup.mk k a b (fun _ => false) false).owns a) ||
        (g.owns b && (SGroup.mk k a b (fun _ => false) false).owns b)) =
        (s.groups.any fun g => (g.kind == k && g.a == a && g.b == b) ||
        (g.owns a && (SGroup.mk k a b (fun _ => false) false).owns a) ||
        (g.owns b && (SGroup.mk k a b (fun _ => false) false).owns b)) by
      simp only [State.unfresh, List.any_map]; rfl]
    show Outcome.unfresh (if _ then _ else if (s.comp a).isNone = true ∨ (s.comp b).isNone = true ∨ (k ≠ SKind.non ∧ a = b) then Outcome.unspecified
      else .ok (s.unfresh.grouped k a b) .unit) = _
    split
    · rfl
    · split
      · rfl
      · exact congrArg (Outcome.ok · _) (grouped_unfresh s k a b)
  | read t id => exact congrArg (Outcome.ok · (.val (s.get t id))) hs
  | write t id v =>
    simp only [State.step]
    show Outcome.unfresh (match s.comp t with
    | none => .ok s.unfresh (.bool false)
    | some f =>
      match f id with
      | none => .ok s.unfresh (.bool false)
      | some _ => .ok (s.unfresh.setComp t fun x => if x = id then some v else f x) (.bool true)) = _
    cases s.comp t with
    | none => exact congrArg (Outcome.ok · _) hs
    | some f =>
      dsimp only
      cases f id with
      | none => exact congrArg (Outcome.ok · _) hs
      | some x => exact congrArg (Outcome.ok · _) (setComp_unfresh s t _)
  | count t =>
    simp only [State.step]
    show Outcome.unfresh (match s.comp t with
    | none => .ok s.unfresh (.count none)
    | some _ => .ok s.unfresh (.count (some (s.countOf t)))) = _
    cases s.comp t <;> exact congrArg (Outcome.ok · _) hs
  | registerResource t v => exact congrArg (Outcome.ok · .unit) (unfresh_idem { s with res := fun u => if u = t then some v else s.res u })
  | resourceRead t => exact congrArg (Outcome.ok · (.val (s.res t))) hs
  | resourceWrite t v =>
    simp only [State.step]
    show Outcome.unfresh (match s.res t with
    | none => .ok s.unfresh (.bool false)
    | some _ => .ok { s.unfresh with res := fun u => if u = t then some v else s.res u } (.bool true)) = _
    cases s.res t with
    | none => exact congrArg (Outcome.ok · _) hs
    | some x => exact congrArg (Outcome.ok · (Out.bool true)) (unfresh_idem { s with res := fun u => if u = t then some v else s.res u })

theorem wellFormed_unfresh {s : State V} {op : Op V} (h : s.WellFormed op) : s.unfresh.WellFormed op := by
  cases op <;> exact h

/-- The next call has the same outcome in a world like that of a sequential history and after this history itself. -/
theorem Like.next {tr : List (Op V × Out V)} {w u : World V} {g : State V} (hr : Run tr u g) (h : Rel w g.unfresh) {op : Op V}
    (ha : Allowed tr op) :
    (∃ o w' u' g', exec op w = (w', .ok o) ∧ exec op u = (u', .ok o) ∧ Run ((op, o) :: tr) u' g' ∧ Rel w' g'.unfresh) ∨
    (exec op w = (w, .error .panic) ∧ exec op u = (u, .error .panic)) := by
  obtain ⟨hw, hn⟩ := allowed_spec hr ha
  have hu := step_unfresh g op
  have hw' := wellFormed_unfresh hw
  cases hs : g.step op with
  | unspecified => exact absurd hs hn
  | panics =>
    rw [hs] at hu
    right
    refine ⟨step_panics h hw' ?_, step_panics hr.rel hw hs⟩
    cases hs' : g.unfresh.step op with
    | panics => rfl
    | _ => rw [hs'] at hu; cases hu
  | ok g' o =>
    left
    rw [hs] at hu
    cases hs' : g.unfresh.step op with
    | ok g2 o2 =>
      rw [hs'] at hu
      simp only [Outcome.unfresh, Outcome.ok.injEq] at hu
      obtain ⟨h1, rfl⟩ := hu
      obtain ⟨w', a1, a2⟩ := step_ok h hw' hs'
      obtain ⟨u', b1, b2⟩ := step_ok hr.rel hw hs
      exact ⟨o2, w', u', g', a1, b1, hr.ok hw hs b1, h1 ▸ a2.unfresh⟩
    | _ => rw [hs'] at hu; cases hu

/-! ### Which non-owning groups are up to date -/

theorem any_unfresh {l m : List SGroup} (h : l.map SGroup.unfresh = m.map SGroup.unfresh) {p q : SGroup → Bool}
    (hp : ∀ x, p x.unfresh = p x) (hq : ∀ x, q x = p x) : l.any p = m.any q := by
  have h1 : l.any p = (l.map SGroup.unfresh).any p := by
    rw [List.any_map]; exact congrArg (List.any l) (funext fun x => (hp x).symm)
  have h2 : m.any q = (m.map SGroup.unfresh).any p := by
    rw [List.any_map]; exact congrArg (List.any m) (funext fun x => (hq x).trans (hp x).symm)
  rw [h1, h2, h]

theorem unfresh_tags {x y : SGroup} (h : x.unfresh = y.unfresh) : x.a = y.a ∧ x.b = y.b :=
  ⟨show x.unfresh.a = y.unfresh.a by rw [h], show x.unfresh.b = y.unfresh.b by rw [h]⟩

/-- If both sides update their groups alike, then a group up to date on one side is on the other. -/
theorem fresh_map {l m : List SGroup} (h : l.map SGroup.unfresh = m.map SGroup.unfresh) {U W : SGroup → SGroup}
    (hU : ∀ x y, x.unfresh = y.unfresh → (W y).fresh = true → y.fresh = true ∧ (x.fresh = true → (U x).fresh = true))
    {k : Nat} {y' : SGroup} (hk : (m.map W)[k]? = some y') (hf : y'.fresh = true)
    (hold : ∀ y, m[k]? = some y → y' = W y → y.fresh = true → ∃ x, l[k]? = some x ∧ x.fresh = true) :
    ∃ x', (l.map U)[k]? = some x' ∧ x'.fresh = true := by
  rw [List.getElem?_map] at hk
  cases hy : m[k]? with
  | none => rw [hy] at hk; cases hk
  | some y =>
    rw [hy] at hk
    cases hk
    have h1 : (l.map SGroup.unfresh)[k]? = (m.map SGroup.unfresh)[k]? := by rw [h]
    simp only [List.getElem?_map, hy] at h1
    cases hx : l[k]? with
    | none => rw [hx] at h1; cases h1
    | some x =>
      rw [hx] at h1
      simp only [Option.map_some, Option.some.injEq] at h1
      obtain ⟨h2, h3⟩ := hU x y h1 hf
      obtain ⟨x0, h4, h5⟩ := hold y hy rfl h2
      rw [hx] at h4; cases h4
      exact ⟨U x, by simp [hx], h3 h5⟩

/-- After the next call a non-owning group is up to date on one side if it is on the other. -/
theorem step_fresh {s g s' g' : State V} (h : s.unfresh = g.unfresh) {op : Op V} {o o' : Out V} (hs : s.step op = .ok s' o)
    (hg : g.step op = .ok g' o') {k : Nat} {gk' : SGroup} (hk : g'.groups[k]? = some gk') (hf : gk'.fresh = true)
    (hold : ∀ gk, g.groups[k]? = some gk → tag gk = tag gk' → gk.fresh = true →
      ∃ sk, s.groups[k]? = some sk ∧ sk.fresh = true) :
    ∃ sk', s'.groups[k]? = some sk' ∧ sk'.fresh = true := by
  have hgr : s.groups.map SGroup.unfresh = g.groups.map SGroup.unfresh :=
    show s.unfresh.groups = g.unfresh.groups by rw [h]
  have hcomp : s.comp = g.comp := (unfresh_fields h).2.2.1
  have same : s'.groups = s.groups → g'.groups = g.groups → ∃ sk', s'.groups[k]? = some sk' ∧ sk'.fresh = true := by
    intro h1 h2
    rw [h2] at hk
    rw [h1]
    exact hold gk' hk rfl hf
  have h1 := step_groups_same hs
  have h2 := step_groups_same hg
  cases op with
  | attach id t v =>
    obtain ⟨_, f, hc, rfl, _⟩ := step_attach hs
    obtain ⟨_, f', hc', rfl, _⟩ := step_attach hg
    obtain rfl : f = f' := by rw [hcomp, hc'] at hc; cases hc; rfl
    refine fresh_map hgr ?_ hk hf fun y hy e hyf => hold y hy (by rw [e]; rfl) hyf
    intro x y hxy hw
    simp only [Bool.and_eq_true] at hw
    refine ⟨hw.1, fun hx => ?_⟩
    simp only [Bool.and_eq_true]
    refine ⟨hx, ?_⟩
    rw [← hw.2]
    congr 1
    have ea : x.a = y.a := (unfresh_tags hxy).1
    have eb : x.b = y.b := (unfresh_tags hxy).2
    refine any_unfresh hgr (fun z => rfl) fun z => ?_
    simp only [State.both, State.has, State.get, State.setComp, hcomp, ea, eb]
  | detach id t =>
    obtain ⟨_, f, hc, hd⟩ := step_detach hs
    obtain ⟨_, f', hc', hd'⟩ := step_detach hg
    obtain rfl : f = f' := by rw [hcomp, hc'] at hc; cases hc; rfl
    rcases hd with ⟨v, hv, rfl, _⟩ | ⟨hv, _, rfl, _⟩ <;> rcases hd' with ⟨v', hv', rfl, _⟩ | ⟨hv', _, rfl, _⟩
    · refine fresh_map hgr ?_ hk hf fun y hy e hyf => hold y hy (by rw [e]; rfl) hyf
      intro x y hxy hw
      simp only [Bool.and_eq_true] at hw
      refine ⟨hw.1.1, fun hx => ?_⟩
      have ea : x.a = y.a := (unfresh_tags hxy).1
      have eb : x.b = y.b := (unfresh_tags hxy).2
      simp only [Bool.and_eq_true]
      refine ⟨⟨hx, ?_⟩, ?_⟩
      · rw [← hw.1.2]; simp only [SGroup.touches, ea, eb]
      · rw [← hw.2]
        congr 1
        refine any_unfresh hgr (fun z => rfl) fun z => ?_
        simp only [ea, eb]
    · rw [hv] at hv'; cases hv'
    · rw [hv] at hv'; cases hv'
    · exact same rfl rfl
  | removeEntity order id =>
    obtain ⟨_, _, rfl, _⟩ := step_removeEntity hs
    obtain ⟨_, _, rfl, _⟩ := step_removeEntity hg
    refine fresh_map hgr ?_ hk hf fun y hy e hyf => hold y hy (by rw [e]; rfl) hyf
    intro x y hxy hw
    have ea : x.a = y.a := (unfresh_tags hxy).1
    have eb : x.b = y.b := (unfresh_tags hxy).2
    simp only [Bool.and_eq_true] at hw
    refine ⟨hw.1.1, fun hx => ?_⟩
    have := hw.1.2
    have := hw.2
    simp_all [State.has, State.get]
  | attachBatch a b t vs =>
    obtain ⟨_, _, _, f, _, _, rfl, _⟩ := step_attachBatch hs
    obtain ⟨_, _, _, f', _, _, rfl, _⟩ := step_attachBatch hg
    exact same rfl rfl
  | makeGroup kd a b =>
    obtain ⟨_, _, _, _, _, rfl, _⟩ := step_makeGroup hs
    obtain ⟨_, _, _, _, _, rfl, _⟩ := step_makeGroup hg
    have hlen : s.groups.length = g.groups.length := by simpa using congrArg List.length hgr
    by_cases hlt : k < g.groups.length
    · simp only [State.grouped] at hk ⊢
      rw [List.getElem?_append_left (by simpa using hlt)] at hk
      rw [List.getElem?_append_left (by simpa using (hlen ▸ hlt : k < s.groups.length))]
      refine fresh_map hgr ?_ hk hf fun y hy e hyf => hold y hy (by rw [e]; rfl) hyf
      intro x y hxy hw
      have ea : x.a = y.a := (unfresh_tags hxy).1
      have eb : x.b = y.b := (unfresh_tags hxy).2
      simp only [Bool.and_eq_true] at hw
      refine ⟨hw.1, fun hx => ?_⟩
      simp only [Bool.and_eq_true]
      refine ⟨hx, ?_⟩
      rw [← hw.2, ea, eb]
      rfl
    · simp only [State.grouped] at hk ⊢
      have hk2 : k = s.groups.length := by
        have := (List.getElem?_eq_some_iff.1 hk).1
        simp only [List.length_append, List.length_map, List.length_cons, List.length_nil] at this
        omega
      rw [List.getElem?_append_right (by simp only [List.length_map]; omega), List.length_map, hk2, Nat.sub_self]
      exact ⟨_, rfl, rfl⟩
  | _ => exact same h1.1 h2.1

theorem owns_tag {x y : SGroup} (h : tag x = tag y) (t : Nat) : x.owns t = y.owns t := by
  simp only [tag, Prod.mk.injEq] at h
  simp only [SGroup.owns, h.1, h.2.1, h.2.2]

/-- The next call on a world which is like the sequential one leaves them alike. -/
theorem Apt.step {s g s' g' : State V} (h : Apt s g) {op : Op V} {o o' : Out V} (hs : s.step op = .ok s' o)
    (hg : g.step op = .ok g' o') : Apt s' g' := by
  have hsame : s'.unfresh = g'.unfresh := by
    have h1 := step_unfresh s op
    rw [h.same, step_unfresh g op, hs, hg] at h1
    simp only [Outcome.unfresh, Outcome.ok.injEq] at h1
    exact h1.1.symm
  refine ⟨hsame, fun k gk' hk hn hf hu => ?_⟩
  refine step_fresh h.same hs hg hk hf fun gk h1 h2 h3 => ?_
  have hat : ∀ (j : Nat) gj, g.groups[j]? = some gj → ∃ gj', g'.groups[j]? = some gj' ∧ tag gj' = tag gj := by
    intro j gj hj
    have ht := step_tags hg
    have hj2 : (g.groups.map tag)[j]? = some (tag gj) := by simp [hj]
    have : (g'.groups.map tag)[j]? = some (tag gj) := by
      cases op with
      | makeGroup kd a b =>
        rw [ht, List.getElem?_append_left (by simpa using (List.getElem?_eq_some_iff.1 hj).1)]; exact hj2
      | _ => rw [ht]; exact hj2
    rw [List.getElem?_map] at this
    cases hx : g'.groups[j]? with
    | none => rw [hx] at this; cases this
    | some x => rw [hx] at this; exact ⟨x, rfl, by simpa using this⟩
  simp only [tag, Prod.mk.injEq] at h2
  refine h.fresh k gk h1 (h2.1.trans hn) h3 fun j gj hj => ?_
  obtain ⟨gj', q1, q2⟩ := hat j gj hj
  rw [h2.2.1, h2.2.2, ← owns_tag q2, ← owns_tag q2]
  exact hu j gj' q1

/-- `Like.next`, keeping track of which non-owning groups are up to date. -/
theorem Kin.next {tr : List (Op V × Out V)} {w u : World V} {s g : State V} (hr : Run tr u g) (h : Rel w s) (hx : Apt s g)
    {op : Op V} (ha : Allowed tr op) :
    (∃ o w' u' g' s', exec op w = (w', .ok o) ∧ exec op u = (u', .ok o) ∧ Run ((op, o) :: tr) u' g' ∧ Rel w' s' ∧ Apt s' g') ∨
    (exec op w = (w, .error .panic) ∧ exec op u = (u, .error .panic)) := by
  obtain ⟨hw, hn⟩ := allowed_spec hr ha
  have hw' : s.WellFormed op := by
    have := wellFormed_unfresh hw
    rw [← hx.same] at this
    cases op <;> exact this
  have hu : (s.step op).unfresh = (g.step op).unfresh := by
    rw [← step_unfresh s op, hx.same, step_unfresh g op]
  cases hs : g.step op with
  | unspecified => exact absurd hs hn
  | panics =>
    rw [hs] at hu
    right
    refine ⟨step_panics h hw' ?_, step_panics hr.rel hw hs⟩
    cases hs' : s.step op with
    | panics => rfl
    | _ => rw [hs'] at hu; cases hu
  | ok g' o =>
    left
    rw [hs] at hu
    cases hs' : s.step op with
    | ok s' o2 =>
      rw [hs'] at hu
      simp only [Outcome.unfresh, Outcome.ok.injEq] at hu
      obtain ⟨_, rfl⟩ := hu
      obtain ⟨w', a1, a2⟩ := step_ok h hw' hs'
      obtain ⟨u', b1, b2⟩ := step_ok hr.rel hw hs
      exact ⟨o2, w', u', g', s', a1, b1, hr.ok hw hs b1, a2, hx.step hs' hs⟩
    | _ => rw [hs'] at hu; cases hu

theorem Mixed.kin {tr : List (Op V × Out V)} {w : World V} (h : Mixed tr w) : Kin tr w := by
  induction h with
  | init =>
    exact ⟨World.new, Spec.init, Spec.init, .init, .init, Rel.new, rfl, fun k gk h => by simp [Spec.init] at h⟩
  | ok hprev ha he ih =>
    obtain ⟨u, g, s, ht, hr, hw, hx⟩ := ih
    rcases Kin.next hr hw hx ha with ⟨o, w', u', g', s', h1, h2, h3, h4, h5⟩ | ⟨h1, _⟩
    · rw [h1] at he
      cases he
      exact ⟨u', g', s', ht.ok ha h2, h3, h4, h5⟩
    · rw [h1] at he; cases he
  | fails hprev ha he ih =>
    obtain ⟨u, g, s, ht, hr, hw, hx⟩ := ih
    rcases Kin.next hr hw hx ha with ⟨o, w', u', g', s', h1, h2, h3, h4, h5⟩ | ⟨h1, _⟩
    · rw [h1] at he; cases he
    · rw [h1] at he
      cases he
      exact ⟨u, g, s, ht, hr, hw, hx⟩
  | phase hprev ho hl hq ih => exact ih.phase ho hl hq

theorem Mixed.like {tr : List (Op V × Out V)} {w : World V} (h : Mixed tr w) : Like tr w := h.kin.like

/-! ### Queries -/

theorem group?_unfresh (s : State V) (k : Kind) (a b : Nat) : s.unfresh.group? k a b = (s.group? k a b).map SGroup.unfresh := by
  simp only [State.group?, State.unfresh, List.find?_map]
  rfl

theorem member_unfresh (s : State V) (k : Kind) (a b id : Nat) : s.unfresh.member k a b id = s.member k a b id := by
  simp only [State.member, group?_unfresh]
  cases s.group? k a b <;> rfl

theorem defined_unfresh (s : State V) (q : Query) : s.unfresh.Defined q ↔ s.Defined q := by
  rw [defined_iff, defined_iff]
  simp only [group?_unfresh, Option.isSome_map]
  exact Iff.rfl

theorem point_unfresh (s : State V) (q : Query) (id : Nat) : s.unfresh.point q id = s.point q id := by
  induction q with
  | comp m t => rfl
  | with2 a b iha ihb => simp only [State.point, iha, ihb]
  | with3 a b c iha ihb ihc => simp only [State.point, iha, ihb, ihc]
  | with4 a b c d iha ihb ihc ihd => simp only [State.point, iha, ihb, ihc, ihd]
  | with5 a b c d e iha ihb ihc ihd ihe => simp only [State.point, iha, ihb, ihc, ihd, ihe]
  | withoutL a b iha ihb => simp only [State.point, iha, ihb]
  | withoutR a b iha ihb => simp only [State.point, iha, ihb]
  | group k ma mb a b =>
    cases k with
    | non => simp only [State.point, member_unfresh]; rfl
    | _ => rfl

theorem yields_unfresh (s : State V) (q : Query) (id : Nat) : s.unfresh.yields q id = s.yields q id := by
  induction q with
  | comp m t => rfl
  | with2 a b iha ihb => simp only [State.yields, iha, point_unfresh]
  | with3 a b c iha ihb ihc => simp only [State.yields, iha, point_unfresh]
  | with4 a b c d iha ihb ihc ihd => simp only [State.yields, iha, point_unfresh]
  | with5 a b c d e iha ihb ihc ihd ihe => simp only [State.yields, iha, point_unfresh]
  | withoutL a b iha ihb => simp only [State.yields, point_unfresh, ihb]
  | withoutR a b iha ihb => simp only [State.yields, iha, point_unfresh]
  | group k ma mb a b => simp only [State.yields, member_unfresh]; rfl

theorem Hist.NoNon.unmoved {tr : List (Op V × Out V)} {q : Query} (h : NoNon q) : Unmoved tr q :=
  Parts.imp (fun _ h => h) (fun _ _ _ h hk => absurd hk h) q h

/-- A non-owning group is up to date when the history says so. -/
theorem apt_at {tr : List (Op V × Out V)} {u : World V} {s g : State V} (hr : Run tr u g) (h : Apt s g) {n : Nat} {x : SGroup}
    (hn : s.groups[n]? = some x) (ek : x.kind = .non) (h1 : movedSince x.a x.b tr = false)
    (h2 : ownedEver x.a tr = false) (h3 : ownedEver x.b tr = false) : x.fresh = true := by
  have hgr : s.groups.map SGroup.unfresh = g.groups.map SGroup.unfresh := (unfresh_fields h.same).2.2.2.2.2
  have hat : (g.groups.map SGroup.unfresh)[n]? = some x.unfresh := by rw [← hgr]; simp [hn]
  rw [List.getElem?_map] at hat
  cases hy : g.groups[n]? with
  | none => rw [hy] at hat; cases hat
  | some y =>
    rw [hy] at hat
    simp only [Option.map_some, Option.some.injEq] at hat
    have e1 : y.kind = .non := (show y.unfresh.kind = x.unfresh.kind by rw [hat]).trans ek
    obtain ⟨e2, e3⟩ := unfresh_tags hat
    have gf := run_groups hr
    have hno : ∀ t, ownedEver t tr = false → ∀ (j : Nat) gj, g.groups[j]? = some gj → gj.owns t = false := by
      intro t ht j gj hj
      cases ho : gj.owns t with
      | false => rfl
      | true => rw [(gf.owned t).2 ⟨gj, List.mem_of_getElem? hj, ho⟩] at ht; cases ht
    obtain ⟨z, z1, z2⟩ := h.fresh n y hy e1
      (gf.fresh y (List.mem_of_getElem? hy) e1 (by rw [e2, e3]; exact h1) (by rw [e2]; exact h2) (by rw [e3]; exact h3))
      fun j gj hj => by rw [e2, e3]; exact ⟨hno _ h2 j gj hj, hno _ h3 j gj hj⟩
    rw [hn] at z1; cases z1
    exact z2

/-- The non-owning groups of a query are up to date when the history says so. -/
theorem apt_fresh {tr : List (Op V × Out V)} {u : World V} {s g : State V} (hr : Run tr u g) (h : Apt s g) {q : Query}
    (hu : Unmoved tr q) : s.FreshIn q := by
  rw [freshIn_iff]
  refine Parts.imp (fun _ h => h) ?_ q hu
  intro k a b hm hk x hx
  obtain ⟨h1, h2, h3⟩ := hm hk
  subst hk
  have hmem := List.mem_of_find?_eq_some hx
  have := List.find?_some hx
  simp only [Bool.and_eq_true, beq_iff_eq, ofKind] at this
  obtain ⟨⟨ek, ea⟩, eb⟩ := this
  subst ea eb
  obtain ⟨n, hn⟩ := List.mem_iff_getElem?.1 hmem
  exact apt_at hr h hn ek h1 h2 h3

/-- The components after a history with shared phases. -/
theorem Mixed.look {tr : List (Op V × Out V)} {w : World V} (h : Mixed tr w) : Look w tr := by
  obtain ⟨u, g, _, hr, hw⟩ := h.like
  intro t
  have h1 : StRel t (w.comps t) (g.comp t) (g.hw t) := hw.core.st t
  have h2 := run_registered hr t
  have h3 := run_get hr t
  cases hc : w.comps t with
  | none =>
    rw [hc] at h1
    cases hg : g.comp t with
    | none =>
      rw [hg] at h2
      exact ⟨h2.symm, fun e => by rw [← h3]; simp [State.get, hg]⟩
    | some f => rw [hg] at h1; exact False.elim h1
  | some st =>
    rw [hc] at h1
    cases hg : g.comp t with
    | none => rw [hg] at h1; exact False.elim h1
    | some f =>
      rw [hg] at h1 h2
      exact ⟨h2.symm, h1.1, h1.2.1, fun e => by rw [← h3, h1.2.2.1]; simp [State.get, hg]⟩

/-- A state of the specification for a world and the calls made so far: what the theorems about shared phases need to
know of the beginning of the phase. -/
structure Origin (tr : List (Op V × Out V)) (w : World V) (s : State V) : Prop where
  rel : Rel w s
  groups : GroupFacts tr s
  defined : ∀ q, s.Defined q ↔ Exists tr q
  alive : ∀ id, alive id tr = s.live id

theorem Run.origin {tr : List (Op V × Out V)} {w : World V} {s : State V} (h : Run tr w s) : Origin tr w s :=
  ⟨h.rel, run_groups h, run_defined h, (run_em h).2.2.2.1⟩

/-- A history without shared phases. -/
theorem Mixed.of_trace {tr : List (Op V × Out V)} {w : World V} (h : Trace tr w) : Mixed tr w := by
  induction h with
  | init => exact .init
  | ok _ ha he ih => exact .ok ih ha he
  | fails _ ha he ih => exact .fails ih ha he

theorem Mixed.origin {tr : List (Op V × Out V)} {w : World V} (h : Mixed tr w) : ∃ s, Origin tr w s := by
  obtain ⟨u, g, s, _, hr, hw, hx⟩ := h.kin
  have gf := run_groups hr
  obtain ⟨h1, h2, h3, h4, h5, hgr⟩ := unfresh_fields hx.same
  have back : ∀ x ∈ s.groups, ∃ y ∈ g.groups, y.unfresh = x.unfresh := by
    intro x hmem
    have : x.unfresh ∈ g.groups.map SGroup.unfresh := by rw [← hgr]; exact List.mem_map_of_mem hmem
    exact List.mem_map.1 this
  have forth : ∀ y ∈ g.groups, ∃ x ∈ s.groups, y.unfresh = x.unfresh := by
    intro y hmem
    have : y.unfresh ∈ s.groups.map SGroup.unfresh := by rw [hgr]; exact List.mem_map_of_mem hmem
    obtain ⟨x, hx, e⟩ := List.mem_map.1 this
    exact ⟨x, hx, e.symm⟩
  have fields : ∀ {x y : SGroup}, y.unfresh = x.unfresh → y.kind = x.kind ∧ y.a = x.a ∧ y.b = x.b ∧ y.mem = x.mem := by
    intro x y e
    exact ⟨show y.unfresh.kind = x.unfresh.kind by rw [e], show y.unfresh.a = x.unfresh.a by rw [e],
      show y.unfresh.b = x.unfresh.b by rw [e], show y.unfresh.mem = x.unfresh.mem by rw [e]⟩
  have owns : ∀ {x y : SGroup} t, y.unfresh = x.unfresh → y.owns t = x.owns t := by
    intro x y t e
    obtain ⟨e1, e2, e3, _⟩ := fields e
    simp [SGroup.owns, e1, e2, e3]
  refine ⟨s, hw, ⟨?_, ?_, ?_, ?_⟩, ?_, ?_⟩
  · intro k a b
    rw [gf.made]
    constructor
    · rintro ⟨y, hy, e⟩
      obtain ⟨x, hx, ex⟩ := forth y hy
      obtain ⟨e1, e2, e3, _⟩ := fields ex
      exact ⟨x, hx, by rw [← e1, ← e2, ← e3]; exact e⟩
    · rintro ⟨x, hx, e⟩
      obtain ⟨y, hy, ex⟩ := back x hx
      obtain ⟨e1, e2, e3, _⟩ := fields ex
      exact ⟨y, hy, by rw [e1, e2, e3]; exact e⟩
  · intro x hx hb id
    obtain ⟨y, hy, ex⟩ := back x hx
    obtain ⟨e1, e2, e3, e4⟩ := fields ex
    have := gf.sync y hy (by rw [e1, e2, e3]; exact hb) id
    rw [← e4, this]
    simp only [State.both, State.has, State.get, e2, e3, h3]
  · intro t
    rw [gf.owned]
    constructor
    · rintro ⟨y, hy, e⟩
      obtain ⟨x, hx, ex⟩ := forth y hy
      exact ⟨x, hx, by rw [← owns t ex]; exact e⟩
    · rintro ⟨x, hx, e⟩
      obtain ⟨y, hy, ex⟩ := back x hx
      exact ⟨y, hy, by rw [owns t ex]; exact e⟩
  · intro x hmem ek k1 k2 k3
    obtain ⟨n, hn⟩ := List.mem_iff_getElem?.1 hmem
    exact apt_at hr hx hn ek k1 k2 k3
  · intro q
    rw [← defined_unfresh, hx.same, defined_unfresh]
    exact run_defined hr q
  · intro id
    rw [(run_em hr).2.2.2.1]
    exact congrFun (congrArg (fun z : State V => z.live) hx.same).symm id

end Xecs
