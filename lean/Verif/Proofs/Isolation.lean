import Verif.Spec.Isolation
import Verif.Proofs.LinearSys
/-
Threads that work on different entities: the part that is about the idealised world.
-/
set_option autoImplicit false
namespace Xecs
variable {V : Type}

/-- The same components for the entities `E`. -/
def AgreeE (E : Nat → Bool) (a b : Shared V) : Prop := ∀ e, E e = true → ∀ t, a.value t e = b.value t e

theorem AgreeE.effect {E : Nat → Bool} {a b : Shared V} (h : AgreeE E a b) {id : Nat} (hid : E id = true) (o : HOp V) :
    AgreeE E (o.effect a id).1 (o.effect b id).1 ∧ (o.effect a id).2 = (o.effect b id).2 := by
  cases o with
  | attach t v =>
    refine ⟨fun e he u => ?_, rfl⟩
    simp only [HOp.effect, Shared.put, h e he u]
  | detach t =>
    refine ⟨fun e he u => ?_, ?_⟩
    · simp only [HOp.effect, Shared.put, h e he u]
    · simp only [HOp.effect, h id hid t]
  | read t => exact ⟨h, by simp only [HOp.effect, h id hid t]⟩
  | write t v =>
    refine ⟨fun e he u => ?_, by simp only [HOp.effect, h id hid t]⟩
    simp only [HOp.effect, h id hid t]
    split
    · simp only [Shared.put, h e he u]
    · exact h e he u

theorem AgreeE.other {E : Nat → Bool} {a b : Shared V} (h : AgreeE E a b) {id : Nat} (hid : E id = false) (o : HOp V) :
    AgreeE E (o.effect a id).1 b := by
  have key : ∀ (t : Nat) (x : Option V), AgreeE E (a.put t id x) b := by
    intro t x e he u
    simp only [Shared.put]
    rw [if_neg (by rintro ⟨_, rfl⟩; rw [hid] at he; cases he)]
    exact h e he u
  cases o with
  | attach t v => exact key _ _
  | detach t => exact key _ _
  | read t => exact h
  | write t v =>
    simp only [HOp.effect]
    split
    · exact key _ _
    · exact h

theorem HOp.effects_append (id : Nat) : ∀ (s : List (HOp V)) (o : HOp V) (a : Shared V),
    HOp.effects id (s ++ [o]) a =
      ((o.effect (HOp.effects id s a).1 id).1, (HOp.effects id s a).2 ++ [(o.effect (HOp.effects id s a).1 id).2])
  | [], o, a => rfl
  | x :: s, o, a => by
    simp only [List.cons_append, HOp.effects, HOp.effects_append id s o]

/-- Where a call on `E` stands: `A` are the contents when it began. -/
def Working (E : Nat → Bool) (A a : Shared V) : Phase V → Prop
  | .idle => AgreeE E a A
  | .called _ => AgreeE E a A
  | .chain c id todo rs =>
    if c.worksOn E then ∃ did s, c = .on id s ∧ s = did ++ todo ∧ rs = (HOp.effects id did A).2 ∧
      AgreeE E a (HOp.effects id did A).1
    else AgreeE E a A
  | .over c rs => if c.worksOn E then rs = (c.undisturbed A).2 ∧ AgreeE E a (c.undisturbed A).1 else AgreeE E a A
  | .batch c _ _ _ => c.worksOn E = false ∧ AgreeE E a A
  | .removing c _ => c.worksOn E = false ∧ AgreeE E a A

/-- What a call does not touch. -/
def Away (E : Nat → Bool) : Phase V → Prop
  | .idle => True
  | .called _ => True
  | .over _ _ => True
  | .chain c id todo _ => (∃ s, c = .on id s) ∨ E id = false ∨ todo = []
  | .batch _ start stop todo => (∀ e, start ≤ e → e < stop → E e = false) ∨ todo = []
  | .removing _ id => E id = false

theorem AgreeE.of_value {E : Nat → Bool} {a a' b : Shared V} (h : AgreeE E a b) (hv : a'.value = a.value) : AgreeE E a' b :=
  fun e he t => by rw [hv]; exact h e he t

/-- The calls thread `i` has finished on `E`, according to a history. -/
def workedOf (h : List (Event V)) (i : Nat) (E : Nat → Bool) : List (ApiCall V × Option (List (Ret V))) :=
  worked i E (returns h)

theorem returns_call (i : Nat) (c : ApiCall V) (h : List (Event V)) : returns (.call i c :: h) = returns h := rfl
theorem returns_ret (i : Nat) (c : ApiCall V) (r : Option (List (Ret V))) (h : List (Event V)) :
    returns (.ret i c r :: h) = (i, c, r) :: returns h := rfl

theorem workedOf_ret (j : Nat) (c : ApiCall V) (r : Option (List (Ret V))) (h : List (Event V)) (i : Nat) (E : Nat → Bool) :
    workedOf (.ret j c r :: h) i E = if j = i ∧ c.worksOn E = true then (c, r) :: workedOf h i E else workedOf h i E := by
  by_cases hj : j = i
  · by_cases hc : c.worksOn E = true
    · simp [workedOf, worked, returns_ret, ofThread, hj, hc]
    · simp [workedOf, worked, returns_ret, ofThread, hj, hc]
  · simp [workedOf, worked, returns_ret, ofThread, hj]

/-- The work of thread `i` on `E` is undisturbed. -/
structure Isolated (new : Bool) (i : Nat) (E : Nat → Bool) (a0 : Shared V) (h : List (Event V)) (ph : Nat → Phase V)
    (a : Shared V) : Prop where
  answers : workedOf h i E = replies a0 ((workedOf h i E).map Prod.fst)
  mine : Working E (replay a0 ((workedOf h i E).map Prod.fst)) a (ph i)
  away : ∀ j, Away E (ph j)
  calls : ∀ j c, (ph j).call = some c → (j = i ∧ c.worksOn E = true) ∨ c.leavesAlone new E
  living : new = true → ∀ e, E e = true → a.alive e = true

theorem AgreeE.trans {E : Nat → Bool} {a b c : Shared V} (h : AgreeE E a b) (h' : AgreeE E b c) : AgreeE E a c :=
  fun e he t => (h e he t).trans (h' e he t)

theorem AgreeE.rfl {E : Nat → Bool} {a : Shared V} : AgreeE E a a := fun _ _ _ => Eq.refl _

theorem Working.of_agree {E : Nat → Bool} {A a a' : Shared V} (h : AgreeE E a' a) {p : Phase V} (hw : Working E A a p) :
    Working E A a' p := by
  cases p with
  | idle => exact h.trans hw
  | called c => exact h.trans hw
  | chain c id todo rs =>
    simp only [Working] at hw ⊢
    split
    · next hc =>
      rw [if_pos hc] at hw
      obtain ⟨d, s, h1, h2, h3, h4⟩ := hw
      exact ⟨d, s, h1, h2, h3, h.trans h4⟩
    · next hc => rw [if_neg hc] at hw; exact h.trans hw
  | over c rs =>
    simp only [Working] at hw ⊢
    split
    · next hc => rw [if_pos hc] at hw; exact ⟨hw.1, h.trans hw.2⟩
    · next hc => rw [if_neg hc] at hw; exact h.trans hw
  | batch c x y bs => exact ⟨hw.1, h.trans hw.2⟩
  | removing c x => exact ⟨hw.1, h.trans hw.2⟩

/-- A point of a call that leaves `E` alone. -/
theorem point_away {life : Prop} {new : Bool} (hlife : new = true → life) {E : Nat → Bool} {a a' : Shared V} {p p' : Phase V}
    (hp : Point life a p a' p') {c : ApiCall V} (hc : p.call = some c) (hl : c.leavesAlone new E) (ha : Away E p)
    (hv : new = true → ∀ e, E e = true → a.alive e = true) :
    AgreeE E a' a ∧ Away E p' ∧ (new = true → ∀ e, E e = true → a'.alive e = true) := by
  have key : ∀ (t id : Nat) (x : Option V), E id = false → AgreeE E (a.put t id x) a := by
    intro t id x hid e he u
    simp only [Shared.put]
    rw [if_neg (by rintro ⟨_, rfl⟩; rw [hid] at he; cases he)]
  cases hp with
  | create h =>
    cases hc
    rename_i s id al
    refine ⟨AgreeE.rfl, .inr ?_, fun hn e he => ?_⟩
    · rcases hl with hn | hs
      · refine .inl ?_
        cases hid : E id with
        | false => rfl
        | true => have := hv hn id hid; rw [(h (hlife hn)).1] at this; cases this
      · exact .inr hs
    · show al e = true
      rw [(h (hlife hn)).2, hv hn e he]; rfl
  | on h => cases hc; exact ⟨AgreeE.rfl, .inl ⟨_, rfl⟩, hv⟩
  | op =>
    rename_i id o ops rs
    cases hc
    have hid : E id = false := by
      rcases ha with ⟨s, rfl⟩ | h | h
      · exact hl
      · exact h
      · cases h
    refine ⟨AgreeE.other AgreeE.rfl hid o, .inr (.inl hid), fun hn e he => ?_⟩
    have : (o.effect a id).1.alive = a.alive := by
      cases o with
      | write t v => simp only [HOp.effect]; split <;> rfl
      | _ => rfl
    rw [this]; exact hv hn e he
  | createMany h =>
    rename_i n bs start al
    cases hc
    refine ⟨AgreeE.rfl, ?_, fun hn e he => ?_⟩
    · rcases hl with hn | hs
      · refine .inl fun e h1 h2 => ?_
        cases hid : E e with
        | false => rfl
        | true => have := hv hn e hid; rw [(h (hlife hn)).1 e h1 h2] at this; cases this
      · exact .inr hs
    · show al e = true
      rw [(h (hlife hn)).2, hv hn e he]; rfl
  | fill => cases hc; exact ⟨AgreeE.rfl, .inl hl, hv⟩
  | batch h1 h2 h3 =>
    rename_i start stop t vs bs
    cases hc
    rcases ha with ha | ha
    · refine ⟨fun e he u => ?_, .inl ha, hv⟩
      simp only [Shared.putAll]
      rw [if_neg]
      rintro ⟨_, h4, h5⟩
      rw [ha e h4 (by omega)] at he; cases he
    · cases ha
  | remove h => cases hc; exact ⟨AgreeE.rfl, hl, hv⟩
  | drop =>
    refine ⟨fun e he u => ?_, ha, hv⟩
    simp only [Shared.drop]
    rw [if_neg]
    rintro ⟨rfl, _⟩
    have : E e = false := ha
    rw [this] at he; cases he
  | gone h =>
    rename_i id al
    refine ⟨AgreeE.rfl, trivial, fun hn e he => ?_⟩
    show al e = true
    rw [(h (hlife hn)).2.2, hv hn e he]
    have : E id = false := ha
    have : e ≠ id := by rintro rfl; rw [this] at he; cases he
    simp [this]
  | exist h => cases hc; exact ⟨AgreeE.rfl, trivial, hv⟩
  | read => cases hc; exact ⟨AgreeE.rfl, trivial, hv⟩
  | write =>
    rename_i t id v
    cases hc
    split
    · exact ⟨key _ _ _ hl, trivial, hv⟩
    · exact ⟨AgreeE.rfl, trivial, hv⟩
  | count _ _ => cases hc; exact ⟨AgreeE.rfl, trivial, hv⟩
  | resRead => cases hc; exact ⟨AgreeE.rfl, trivial, hv⟩
  | resWrite =>
    cases hc
    split
    · exact ⟨fun _ _ _ => rfl, trivial, hv⟩
    · exact ⟨AgreeE.rfl, trivial, hv⟩
  | query _ => cases hc; exact ⟨AgreeE.rfl, trivial, hv⟩

/-- A point of a call on `E`. -/
theorem point_work {life : Prop} {E : Nat → Bool} {a a' A : Shared V} {p p' : Phase V} (hp : Point life a p a' p')
    {c : ApiCall V} (hc : p.call = some c) (hw : c.worksOn E = true) (hm : Working E A a p) :
    Working E A a' p' ∧ Away E p' ∧ a'.alive = a.alive := by
  cases hp with
  | create h => cases hc; cases hw
  | on h =>
    cases hc
    rename_i id s
    refine ⟨?_, .inl ⟨_, rfl⟩, rfl⟩
    simp only [Working]
    rw [if_pos hw]
    exact ⟨[], s, rfl, rfl, rfl, hm⟩
  | op =>
    rename_i id o ops rs
    cases hc
    simp only [Working] at hm
    rw [if_pos hw] at hm
    obtain ⟨d, s, rfl, h2, h3, h4⟩ := hm
    have hid : E id = true := hw
    have he := h4.effect hid o
    refine ⟨?_, .inl ⟨_, rfl⟩, ?_⟩
    · simp only [Working]
      rw [if_pos hw]
      refine ⟨d ++ [o], s, rfl, by rw [h2]; simp, ?_, ?_⟩
      · rw [HOp.effects_append, h3, he.2]
      · rw [HOp.effects_append]; exact he.1
    · cases o with
      | write t v => simp only [HOp.effect]; split <;> rfl
      | _ => rfl
  | createMany h => cases hc; cases hw
  | fill => cases hc; cases hw
  | batch h1 h2 h3 => cases hc; rw [hm.1] at hw; cases hw
  | remove h => cases hc; cases hw
  | drop => cases hc; rw [hm.1] at hw; cases hw
  | gone h => cases hc; rw [hm.1] at hw; cases hw
  | exist h => cases hc; cases hw
  | read =>
    rename_i t id
    cases hc
    have h : AgreeE E a A := hm
    refine ⟨?_, trivial, rfl⟩
    simp only [Working]
    rw [if_pos hw]
    exact ⟨by simp only [ApiCall.undisturbed, h id hw t], h⟩
  | write =>
    rename_i t id v
    cases hc
    have h : AgreeE E a A := hm
    have he := h.effect hw (.write t v)
    refine ⟨?_, trivial, by split <;> rfl⟩
    simp only [Working]
    rw [if_pos hw]
    exact ⟨by simp only [ApiCall.undisturbed, h id hw t], he.1⟩
  | count _ _ => cases hc; cases hw
  | resRead => cases hc; cases hw
  | resWrite => cases hc; cases hw
  | query _ => cases hc; cases hw

theorem point_call {life : Prop} {a a' : Shared V} {p p' : Phase V} (hp : Point life a p a' p') : p'.call = p.call := by
  cases hp <;> rfl

theorem point_calls {life : Prop} {a a' : Shared V} {p p' : Phase V} (hp : Point life a p a' p') : ∃ c, p.call = some c := by
  cases hp <;> exact ⟨_, rfl⟩

/-- If a call leaves `E` alone, then so it stands in `Working`. -/
theorem working_away {E : Nat → Bool} {A a : Shared V} {p : Phase V} (h : AgreeE E a A)
    (hc : ∀ c, p.call = some c → c.worksOn E = false) : Working E A a p := by
  cases p with
  | idle => exact h
  | called c => exact h
  | chain c id todo rs => simp only [Working]; rw [if_neg (by rw [hc c rfl]; simp)]; exact h
  | over c rs => simp only [Working]; rw [if_neg (by rw [hc c rfl]; simp)]; exact h
  | batch c x y bs => exact ⟨hc c rfl, h⟩
  | removing c x => exact ⟨hc c rfl, h⟩

theorem agree_of_working {E : Nat → Bool} {A a : Shared V} {p : Phase V} (h : Working E A a p)
    (hc : ∀ c, p.call = some c → c.worksOn E = false) : AgreeE E a A := by
  cases p with
  | idle => exact h
  | called c => exact h
  | chain c id todo rs => simp only [Working] at h; rw [if_neg (by rw [hc c rfl]; simp)] at h; exact h
  | over c rs => simp only [Working] at h; rw [if_neg (by rw [hc c rfl]; simp)] at h; exact h
  | batch c x y bs => exact h.2
  | removing c x => exact h.2

/-- In the idealised world, work on `E` is undisturbed. -/
theorem Atomic.isolated {life : Prop} {new : Bool} (hlife : new = true → life) {i : Nat} {E : Nat → Bool} {a0 a : Shared V}
    {h : List (Event V)} {ph : Nat → Phase V} (ha : Atomic life a0 h ph a)
    (hcalls : ∀ j c, Event.call j c ∈ h → (j = i ∧ c.worksOn E = true) ∨ c.leavesAlone new E)
    (hok : ∀ c r, Event.ret i c r ∈ h → c.worksOn E = true → r ≠ none)
    (hnew : new = true → ∀ e, E e = true → a0.alive e = true) : Isolated new i E a0 h ph a := by
  induction ha with
  | init => exact ⟨rfl, AgreeE.rfl, fun _ => trivial, fun j c hc => (by cases hc), hnew⟩
  | call c hprev hidle ih =>
    rename_i h ph a j
    have ih := ih (fun j c hm => hcalls j c (.tail _ hm)) (fun c r hm => hok c r (.tail _ hm))
    refine ⟨ih.answers, ?_, ?_, ?_, ih.living⟩
    · show Working E _ a (if i = j then .called c else ph i)
      by_cases hj : i = j
      · rw [if_pos hj]
        have := ih.mine
        rw [hj, hidle] at this
        rw [hj]
        exact this
      · rw [if_neg hj]; exact ih.mine
    · intro k
      split
      · exact trivial
      · exact ih.away k
    · intro k c' hk
      split at hk
      · next hkj => subst hkj; cases hk; exact hcalls k c (.head _)
      · exact ih.calls k c' hk
  | point hprev hp ih =>
    rename_i h ph a a' j p
    have ih := ih hcalls hok
    obtain ⟨c, hc⟩ := point_calls hp
    have hcalls' : ∀ k c, (if k = j then p else ph k).call = some c →
        (k = i ∧ c.worksOn E = true) ∨ c.leavesAlone new E := by
      intro k c' hk
      split at hk
      · next hkj => subst hkj; rw [point_call hp] at hk; exact ih.calls k c' hk
      · exact ih.calls k c' hk
    by_cases hwork : j = i ∧ c.worksOn E = true
    · obtain ⟨rfl, hw⟩ := hwork
      obtain ⟨h1, h2, h3⟩ := point_work hp hc hw ih.mine
      refine ⟨ih.answers, ?_, ?_, hcalls', fun hn e he => by rw [h3]; exact ih.living hn e he⟩
      · rw [if_pos rfl]; exact h1
      · intro k
        split
        · exact h2
        · exact ih.away k
    · have hl : c.leavesAlone new E := by
        rcases ih.calls j c hc with h | h
        · exact absurd h hwork
        · exact h
      obtain ⟨h1, h2, h3⟩ := point_away hlife hp hc hl (ih.away j) ih.living
      refine ⟨ih.answers, ?_, ?_, hcalls', h3⟩
      · split
        · next hij =>
          subst hij
          have hcw : c.worksOn E = false := by
            cases hcw : c.worksOn E with
            | false => rfl
            | true => exact absurd ⟨rfl, hcw⟩ hwork
          refine working_away (h1.trans (agree_of_working ih.mine ?_)) ?_
          · intro c' hc'; rw [hc] at hc'; cases hc'; exact hcw
          · intro c' hc'; rw [point_call hp, hc] at hc'; cases hc'; exact hcw
        · exact Working.of_agree h1 ih.mine
      · intro k
        split
        · exact h2
        · exact ih.away k
  | ret hprev hc hr ih =>
    rename_i h ph a j c rs
    have ih := ih (fun j c hm => hcalls j c (.tail _ hm)) (fun c r hm => hok c r (.tail _ hm))
    have haway : ∀ k, Away E (if k = j then Phase.idle else ph k) := by
      intro k
      split
      · exact trivial
      · exact ih.away k
    have hcalls' : ∀ k c, (if k = j then Phase.idle else ph k).call = some c →
        (k = i ∧ c.worksOn E = true) ∨ c.leavesAlone new E := by
      intro k c' hk
      split at hk
      · cases hk
      · exact ih.calls k c' hk
    by_cases hwork : j = i ∧ c.worksOn E = true
    · obtain ⟨rfl, hw⟩ := hwork
      have hm := ih.mine
      have hfin : rs = (c.undisturbed (replay a0 ((workedOf h j E).map Prod.fst))).2 ∧
          AgreeE E a (c.undisturbed (replay a0 ((workedOf h j E).map Prod.fst))).1 := by
        revert hc hr hm
        cases ph j with
        | idle => intro hc; cases hc
        | called c' => intro _ hr; cases hr
        | chain c' id todo rs' =>
          intro hc hr hm
          cases hc
          simp only [Working] at hm
          rw [if_pos hw] at hm
          obtain ⟨d, s, rfl, h2, h3, h4⟩ := hm
          cases todo with
          | cons o ops => cases hr
          | nil =>
            cases hr
            rw [List.append_nil] at h2
            subst h2
            exact ⟨h3, h4⟩
        | over c' rs' =>
          intro hc hr hm
          cases hc
          cases hr
          simp only [Working] at hm
          rw [if_pos hw] at hm
          exact hm
        | batch c' x y bs => intro hc _ hm; cases hc; rw [hm.1] at hw; cases hw
        | removing c' x => intro _ hr; cases hr
      have hwo : workedOf (.ret j c (some rs) :: h) j E = (c, some rs) :: workedOf h j E := by
        rw [workedOf_ret, if_pos ⟨rfl, hw⟩]
      refine ⟨?_, ?_, haway, hcalls', ih.living⟩
      · rw [hwo]
        simp only [List.map_cons, replies]
        rw [← ih.answers, ← hfin.1]
      · rw [hwo]
        rw [if_pos rfl]
        exact hfin.2
    · have hwo : workedOf (.ret j c (some rs) :: h) i E = workedOf h i E := by
        rw [workedOf_ret, if_neg hwork]
      refine ⟨by rw [hwo]; exact ih.answers, ?_, haway, hcalls', ih.living⟩
      rw [hwo]
      split
      · next hij =>
        subst hij
        refine agree_of_working ih.mine ?_
        intro c' hc'
        rw [hc] at hc'
        cases hc'
        cases hcw : c.worksOn E with
        | false => rfl
        | true => exact absurd ⟨rfl, hcw⟩ hwork
      · exact ih.mine
  | panic hprev hc ih =>
    rename_i h ph a j c
    have ih := ih (fun j c hm => hcalls j c (.tail _ hm)) (fun c r hm => hok c r (.tail _ hm))
    have haway : ∀ k, Away E (if k = j then Phase.idle else ph k) := by
      intro k
      split
      · exact trivial
      · exact ih.away k
    have hcalls' : ∀ k c, (if k = j then Phase.idle else ph k).call = some c →
        (k = i ∧ c.worksOn E = true) ∨ c.leavesAlone new E := by
      intro k c' hk
      split at hk
      · cases hk
      · exact ih.calls k c' hk
    have hwork : ¬ (j = i ∧ c.worksOn E = true) := by
      rintro ⟨rfl, hw⟩
      exact hok c none (.head _) hw rfl
    have hwo : workedOf (.ret j c none :: h) i E = workedOf h i E := by
      rw [workedOf_ret, if_neg hwork]
    refine ⟨by rw [hwo]; exact ih.answers, ?_, haway, hcalls', ih.living⟩
    rw [hwo]
    split
    · next hij =>
      subst hij
      refine agree_of_working ih.mine ?_
      intro c' hc'
      rw [hc] at hc'
      cases hc'
      cases hcw : c.worksOn E with
      | false => rfl
      | true => exact absurd ⟨rfl, hcw⟩ hwork
    · exact ih.mine

/-- The calls in a history are ones the clients may make. -/
theorem History.may {cfg : Config} {may : Sys V → Nat → ApiCall V → Prop} {P : Sys V → Prop} {σ σ' : Sys V} {h : List (Event V)}
    (hh : σ.History cfg may P h σ') : ∀ j c, Event.call j c ∈ h → ∃ σ1, may σ1 j c := by
  induction hh with
  | refl hp => intro j c hm; cases hm
  | step hh hs he hP ih =>
    rename_i h0 σ1 σ2 e0
    intro j c hm
    rcases List.mem_append.1 hm with hm | hm
    · have he0 : e0 = some (.call j c) := by cases e0 <;> simp_all
      subst he0
      cases hs with
      | start hi hc hm' =>
        rename_i i th c'
        have := (shows_call (th' := { call := some c', prog := c'.prog cfg, held := [], subject := c'.subject }) hi
          (fun j => setThread_threads _ _ _ j hi) hc rfl rfl).1 he
        cases this
        exact ⟨σ1, hm'⟩
      | acq hi hp hf =>
        rename_i i th l m p
        have := (shows_none (th' := { th with prog := p, held := (l, m) :: th.held }) hi
          (fun j => setThread_threads _ _ _ j hi) rfl rfl).1 he
        cases this
      | rel hi hp =>
        rename_i i th l m p
        have := (shows_none (th' := { th with prog := p, held := th.held.erase (l, m) }) hi
          (fun j => setThread_threads _ _ _ j hi) rfl rfl).1 he
        cases this
      | act hi hp hr =>
        rename_i i th a f w r
        have := (shows_none (th' := { th with prog := f r, subject := a.subjectAfter r th.subject }) hi
          (fun j => setThread_threads { σ1 with world := w } i _ j hi) rfl rfl).1 he
        cases this
      | fault hi hp hr hc =>
        rename_i i th a f w e c
        have := (shows_ret (σ := σ1) (σ' := ({ σ1 with world := w } : Sys V).finish i c none)
          (fun j => setThread_threads { σ1 with world := w } i .idle j hi) rfl).1 he
        cases this
      | panic hi hp hc =>
        rename_i i th c
        have := (shows_ret (σ' := σ1.finish i c none) (fun j => setThread_threads σ1 i .idle j hi) rfl).1 he
        cases this
      | ret hi hp hc =>
        rename_i i th c rs
        have := (shows_ret (σ' := σ1.finish i c (some rs)) (fun j => setThread_threads σ1 i .idle j hi) rfl).1 he
        cases this
    · exact ih j c hm

theorem History.weaken {cfg : Config} {may may' : Sys V → Nat → ApiCall V → Prop} {P : Sys V → Prop} {σ σ' : Sys V}
    {h : List (Event V)} (hm : ∀ σ j c, may σ j c → may' σ j c) (hh : σ.History cfg may P h σ') :
    σ.History cfg may' P h σ' := by
  induction hh with
  | refl hp => exact .refl hp
  | step _ hs he hP ih =>
    refine .step ih ?_ he hP
    cases hs with
    | start hi hc hm' => exact .start hi hc (hm _ _ _ hm')
    | acq hi hp hf => exact .acq hi hp hf
    | rel hi hp => exact .rel hi hp
    | act hi hp hr => exact .act hi hp hr
    | fault hi hp hr hc => exact .fault hi hp hr hc
    | panic hi hp hc => exact .panic hi hp hc
    | ret hi hp hc => exact .ret hi hp hc

end Xecs
