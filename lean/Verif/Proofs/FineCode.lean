import Verif.Proofs.Fine
/-
The code's statements stay within the footprints of the pieces of work.
-/
set_option autoImplicit false
namespace Xecs
open World
variable {V : Type}

namespace Stm
variable {σ α β : Type} {P : σ → σ → Prop}

/-- Every statement relates the value before and after it by `P`. -/
def Each (P : σ → σ → Prop) : Stm σ α → σ → Prop
  | .ret _, _ => True
  | .step f k, s => P s (f s) ∧ (k s).Each P (f s)

theorem Each.all {m : Stm σ α} (h : ∀ s s', P s s') : ∀ s, m.Each P s := by
  induction m with
  | ret r => exact fun _ => trivial
  | step f k ih => exact fun s => ⟨h _ _, ih s _⟩

theorem Each.mono {Q : σ → σ → Prop} (h : ∀ s s', P s s' → Q s s') {m : Stm σ α} : ∀ {s : σ}, m.Each P s → m.Each Q s := by
  induction m with
  | ret r => exact fun _ => trivial
  | step f k ih => exact fun h' => ⟨h _ _ h'.1, ih _ h'.2⟩

theorem Each.run (hr : ∀ s, P s s) (ht : ∀ {s s' s''}, P s s' → P s' s'' → P s s'') {m : Stm σ α} :
    ∀ {s : σ}, m.Each P s → P s (m.run s).1 := by
  induction m with
  | ret r => exact fun _ => hr _
  | step f k ih => exact fun h => ht h.1 (ih _ h.2)

theorem Each.bind {m : Stm σ α} {f : α → Stm σ β} : ∀ {s : σ}, m.Each P s →
    (∀ a s', m.run s = (s', .ok a) → (f a).Each P s') → (m >>= f).Each P s := by
  induction m with
  | ret r =>
    intro s _ h
    cases r with
    | ok a => exact h a s rfl
    | error e => exact trivial
  | step g k ih => exact fun h h' => ⟨h.1, ih _ h.2 h'⟩

theorem Each.read (hr : ∀ s, P s s) (f : σ → R α) (s : σ) : (Stm.read f).Each P s := ⟨hr s, trivial⟩

theorem Each.pure (a : α) (s : σ) : (Pure.pure a : Stm σ α).Each P s := trivial

variable {foot : List Guard}

theorem Within.bind {m : Stm (World V) α} {f : α → Stm (World V) β} : ∀ {w : World V}, m.Within foot w →
    (∀ a w', m.run w = (w', .ok a) → (f a).Within foot w') → (m >>= f).Within foot w := by
  induction m with
  | ret r =>
    intro s _ h
    cases r with
    | ok a => exact h a s rfl
    | error e => exact trivial
  | step g k ih =>
    intro w h h'
    refine ⟨fun w' ha => ?_, ih _ h.2 h'⟩
    obtain ⟨e1, e2⟩ := h.1 w' ha
    exact ⟨congrArg (fun m => Stm.andThen m f) e1, e2⟩

theorem Within.read {f : World V → R α} {w : World V} (h : ∀ w', AgreeOn foot w w' → f w = f w') : (Stm.read f).Within foot w :=
  ⟨fun w' ha => ⟨congrArg Stm.ret (h w' ha), ha, rfl, fun l _ => by cases l <;> rfl⟩, trivial⟩

theorem Within.pure {w : World V} (a : α) : (Pure.pure a : Stm (World V) α).Within foot w := trivial

end Stm

/-- How a part of the world is got at. -/
structure Lens (foot : List Guard) {σ : Type} (get : World V → σ) (put : World V → σ → World V) (I : World V → Prop)
    (P : σ → σ → Prop) : Prop where
  agree : ∀ {w w'}, I w → AgreeOn foot w w' → I w' ∧ get w = get w'
  both : ∀ {w w' s}, AgreeOn foot w w' → AgreeOn foot (put w s) (put w' s)
  frame : ∀ {w s}, I w → P (get w) s → Frame w (put w s) foot
  keep : ∀ {w s}, I w → P (get w) s → I (put w s) ∧ get (put w s) = s
  again : ∀ {w s s'}, I w → P (get w) s → P s s' → put (put w s) s' = put w s'
  same : ∀ {w}, I w → put w (get w) = w
  refl : ∀ s, P s s
  trans : ∀ {s s' s''}, P s s' → P s' s'' → P s s''

theorem Frame.agrees {w w' : World V} {foot : List Guard} (h : Frame w w' foot) :
    w.groups.map Group.shape = w'.groups.map Group.shape ∧ ∀ l, (l, Mode.mut) ∉ foot → Sys.SameAt w w' l :=
  ⟨h.shape.symm, fun _ hl => h.sameAt hl⟩

theorem Lens.on {σ α : Type} {foot : List Guard} {get : World V → σ} {put : World V → σ → World V} {I : World V → Prop}
    {P : σ → σ → Prop} (hl : Lens foot get put I P) {m : Stm σ α} : ∀ {w : World V}, I w → m.Each P (get w) →
    (Stm.on get put m).Within foot w ∧
      (Stm.on get put m).run w = (put w (m.run (get w)).1, (m.run (get w)).2) := by
  induction m with
  | ret r =>
    intro w hi _
    refine ⟨trivial, ?_⟩
    show (w, r) = (put w (get w), r)
    rw [hl.same hi]
  | step f k ih =>
    intro w hi he
    obtain ⟨h1, h2⟩ := hl.keep hi he.1
    obtain ⟨i1, i2⟩ := ih (get w) (w := put w (f (get w))) h1 (by rw [h2]; exact he.2)
    refine ⟨⟨fun w' ha => ?_, i1⟩, ?_⟩
    · obtain ⟨j1, j2⟩ := hl.agree hi ha
      refine ⟨congrArg (fun s => Stm.on get put (k s)) j2, ?_, (hl.frame j1 ?_).agrees⟩
      · show AgreeOn foot (put w (f (get w))) (put w' (f (get w')))
        rw [← j2]
        exact hl.both ha
      · rw [← j2]
        exact he.1
    · show (Stm.on get put (k (get w))).run (put w (f (get w))) = (put w ((k (get w)).run (f (get w))).1, _)
      rw [i2, h2, hl.again hi he.1 (he.2.run hl.refl hl.trans)]
      rfl

/-! ### The entity table -/

theorem table_lens {foot : List Guard} (hf : (.em, .mut) ∈ foot) :
    Lens foot (fun w : World V => w.em) (fun w e => { w with em := e }) (fun _ => True) (fun _ _ => True) where
  agree _ h := ⟨trivial, h.2 _ hf⟩
  both h := (h.twin.setEm _).agree
  frame _ _ := frame_setEm _ _ hf
  keep _ _ := ⟨trivial, rfl⟩
  again _ _ _ := rfl
  same _ := rfl
  refl _ := trivial
  trans _ _ := trivial

theorem tableStm_ok {α : Type} {foot : List Guard} (hf : (.em, .mut) ∈ foot) (m : Stm EntityManager α) (w : World V) :
    (tableStm m).Within foot w ∧ (tableStm m).run w = onTable m w :=
  (table_lens hf).on trivial (.all (fun _ _ => trivial) _)

/-! ### Storages -/

theorem setSet_setSet (w : World V) (t : Nat) (s s' : SparseSet V) : (w.setSet t s).setSet t s' = w.setSet t s' := by
  unfold setSet
  congr 1
  funext u
  by_cases hu : u = t
  · subst hu; cases h : w.comps u <;> simp [h]
  · simp [hu]

theorem setSet_self {w : World V} {t : Nat} {st : Storage V} (h : w.comps t = some st) : w.setSet t st.set = w := by
  have : (w.setSet t st.set).comps = w.comps := by
    funext u
    unfold setSet
    by_cases hu : u = t
    · subst hu; simp [h]
    · simp [hu]
  unfold setSet at this ⊢
  simp only at this
  rw [this]

theorem store_lens {foot : List Guard} {t : Nat} (hf : (.store t, .mut) ∈ foot) (d : SparseSet V) :
    Lens foot (fun w : World V => match w.comps t with | some st => st.set | none => d) (fun w s => w.setSet t s)
      (fun w => (w.comps t).isSome = true) (fun _ _ => True) where
  agree {w w'} hi h := by
    have : w.comps t = w'.comps t := h.2 _ hf
    rw [← this]
    exact ⟨hi, rfl⟩
  both h := (h.twin.setSet _ _).agree
  frame _ _ := frame_setSet _ _ _ hf
  keep {w s} hi _ := by
    obtain ⟨st, hst⟩ := Option.isSome_iff_exists.1 hi
    simp [setSet, hst]
  again _ _ _ := setSet_setSet _ _ _ _
  same {w} hi := by
    obtain ⟨st, hst⟩ := Option.isSome_iff_exists.1 hi
    simp only [hst]
    exact setSet_self hst
  refl _ := trivial
  trans _ _ := trivial

theorem storeStm_ok {α : Type} {foot : List Guard} {t : Nat} (hf : (.store t, .mut) ∈ foot) (m : Stm (SparseSet V) α) (w : World V) :
    (storeStm t m).Within foot w ∧ (storeStm t m).run w = onStore t m w := by
  have hr : ∀ w', AgreeOn foot w w' → (do downcast (← unwrapR (w.comps t)) t : R (SparseSet V)) =
      (do downcast (← unwrapR (w'.comps t)) t : R (SparseSet V)) := fun w' ha => by
    rw [show w.comps t = w'.comps t from ha.2 _ hf]
  cases hd : (do downcast (← unwrapR (w.comps t)) t : R (SparseSet V)) with
  | error e =>
    refine ⟨.bind (.read hr) fun a w' h => ?_, ?_⟩
    · rw [Stm.read_apply, hd] at h
      cases h
    · unfold storeStm onStore
      rw [Stm.bind_apply, Stm.read_apply, hd]
  | ok s =>
    have hs : ∃ st, w.comps t = some st ∧ st.set = s := by
      obtain ⟨st, h1, h2⟩ := bindR_ok hd
      cases hc : w.comps t with
      | none => simp [hc, unwrapR] at h1
      | some x =>
        simp [hc, unwrapR] at h1
        subst h1
        refine ⟨_, rfl, ?_⟩
        unfold downcast at h2
        split at h2 <;> cases h2
        rfl
    obtain ⟨st, hst, rfl⟩ := hs
    obtain ⟨h1, h2⟩ := (store_lens hf st.set).on (m := m) (w := w) (by simp [hst]) (.all (fun _ _ => trivial) _)
    refine ⟨.bind (.read hr) fun a w' h => ?_, ?_⟩
    · rw [Stm.read_apply, hd] at h
      cases h
      exact h1
    · unfold storeStm onStore
      rw [Stm.bind_apply, Stm.read_apply, hd]
      refine Eq.trans h2 ?_
      simp only [hst]

theorem rawStm_ok {α : Type} {foot : List Guard} {t : Nat} (hf : (.store t, .mut) ∈ foot) (m : Stm (SparseSet V) α) (w : World V) :
    (rawStm t m).Within foot w ∧ (rawStm t m).run w = onRaw t m w := by
  have hr : ∀ w', AgreeOn foot w w' → unwrapR (w.comps t) = unwrapR (w'.comps t) := fun w' ha => by
    rw [show w.comps t = w'.comps t from ha.2 _ hf]
  cases hd : w.comps t with
  | none =>
    have hd' : unwrapR (w.comps t) = .error .panic := by rw [hd]; rfl
    refine ⟨.bind (.read hr) fun a w' h => ?_, ?_⟩
    · rw [Stm.read_apply, hd'] at h
      cases h
    · unfold rawStm onRaw
      rw [Stm.bind_apply, Stm.read_apply, hd']
  | some st =>
    have hd' : unwrapR (w.comps t) = .ok st := by rw [hd]; rfl
    obtain ⟨h1, h2⟩ := (store_lens hf st.set).on (m := m) (w := w) (by simp [hd]) (.all (fun _ _ => trivial) _)
    refine ⟨.bind (.read hr) fun a w' h => ?_, ?_⟩
    · rw [Stm.read_apply, hd'] at h
      cases h
      exact h1
    · unfold rawStm onRaw
      rw [Stm.bind_apply, Stm.read_apply, hd']
      refine Eq.trans h2 ?_
      simp only [hd]

/-! ### Groups -/

/-- Each statement respects the kind and types of the group and what it does not own. -/
abbrev GE {α : Type} (m : Stm (Group.Trio V) α) (x : Group.Trio V) : Prop := m.Each (Goes (fun _ _ => True)) x

namespace GE
variable {α β : Type}

theorem run {m : Stm (Group.Trio V) α} {x : Group.Trio V} (h : GE m x) : Goes (fun _ _ => True) x (m.run x).1 :=
  Stm.Each.run (fun _ => .refl lax_true _) (fun h h' => h.trans lax_true h') h

theorem bind {m : Stm (Group.Trio V) α} {f : α → Stm (Group.Trio V) β} {x : Group.Trio V} (h : GE m x)
    (h' : ∀ a y, m x = (y, .ok a) → gtag y.1 = gtag x.1 → GE (f a) y) : GE (m >>= f) x := by
  refine Stm.Each.bind h fun a y hy => h' a y hy ?_
  have := h.run.tag
  rw [hy] at this
  exact this

theorem read (f : Group.Trio V → R α) (x : Group.Trio V) : GE (Stm.read f) x := Stm.Each.read (fun _ => .refl lax_true _) f x

theorem pure (a : α) (x : Group.Trio V) : GE (Pure.pure a) x := trivial

theorem onA {m : Stm (SparseSet V) α} : ∀ {x : Group.Trio V}, x.1.kind ≠ .non → GE (Group.onA m) x := by
  induction m with
  | ret r => exact fun _ => trivial
  | step f k ih =>
    intro x hk
    exact ⟨⟨rfl, trivial, trivial, fun _ => rfl, fun h => absurd h hk⟩, ih x.2.1 hk⟩

theorem onB {m : Stm (SparseSet V) α} : ∀ {x : Group.Trio V}, x.1.kind = .full → GE (Group.onB m) x := by
  induction m with
  | ret r => exact fun _ => trivial
  | step f k ih =>
    intro x hk
    exact ⟨⟨rfl, trivial, trivial, fun h => by (rw [hk] at h; cases h), fun h => by (rw [hk] at h; cases h)⟩, ih x.2.2 hk⟩

theorem set {g : Group} {x : Group.Trio V} (h : gtag g = gtag x.1) : GE (Group.set g) x :=
  ⟨⟨h, trivial, trivial, fun _ => rfl, fun _ => rfl⟩, trivial⟩

theorem onSet {m : Stm (SparseSet (Nat × Nat)) α} : ∀ {s : SparseSet (Nat × Nat)} {a b : Nat} {x : Group.Trio V},
    gtag x.1 = (.non, a, b) → GE (Group.onSet m s a b) x := by
  induction m with
  | ret r => exact fun h => ⟨⟨h.symm, trivial, trivial, fun _ => rfl, fun _ => rfl⟩, trivial⟩
  | step f k ih => exact fun h => ⟨⟨h.symm, trivial, trivial, fun _ => rfl, fun _ => rfl⟩, ih _ rfl⟩

end GE

theorem addX_each (id : Nat) (x : Group.Trio V) : GE (Group.addX id) x := by
  unfold Group.addX
  refine GE.bind (.read _ _) fun b y1 hy _ => ?_
  clear hy
  split
  · exact GE.pure _ _
  refine GE.bind (.read _ _) fun b y2 hy _ => ?_
  clear hy
  split
  · exact GE.pure _ _
  refine GE.bind (.read _ _) fun g y hg _ => ?_
  obtain ⟨rfl, rfl⟩ := read_eq hg
  obtain ⟨g, A, B⟩ := y2
  cases g with
  | full n a b =>
    refine GE.bind (.read _ _) fun i y _ h1 => GE.bind (.read _ _) fun j z _ h2 =>
      GE.bind (.onA ?_) fun _ u _ h3 => GE.bind (.onB ?_) fun _ v _ h4 => GE.set ?_
    · exact not_non (k := .full) (h2.trans h1) (by decide)
    · exact kind_of_tag (h3.trans (h2.trans h1))
    · exact (h4.trans (h3.trans (h2.trans h1))).symm
  | part n a b =>
    refine GE.bind (.read _ _) fun i y _ h1 => GE.bind (.onA ?_) fun _ u _ h3 => GE.set ?_
    · exact not_non (k := .part) h1 (by decide)
    · exact (h3.trans h1).symm
  | non s a b =>
    exact GE.bind (.read _ _) fun i y _ h1 => GE.bind (.read _ _) fun j z _ h2 => GE.onSet (h2.trans h1)

theorem removeX_each (id : Nat) (x : Group.Trio V) : GE (Group.removeX id) x := by
  unfold Group.removeX
  refine GE.bind (.read _ _) fun b y1 hy _ => ?_
  clear hy
  split
  · exact GE.pure _ _
  refine GE.bind (.read _ _) fun g y hg _ => ?_
  obtain ⟨rfl, rfl⟩ := read_eq hg
  obtain ⟨g, A, B⟩ := y1
  cases g with
  | full n a b =>
    refine GE.bind (.read _ _) fun i y _ h1 => GE.bind (.read _ _) fun j z _ h2 =>
      GE.bind (.set ?_) fun _ u _ h3 => GE.bind (.onA ?_) fun _ v _ h4 => GE.onB ?_
    · exact (h2.trans h1).symm
    · exact not_non (k := .full) (h3.trans (h2.trans h1)) (by decide)
    · exact kind_of_tag (h4.trans (h3.trans (h2.trans h1)))
  | part n a b =>
    refine GE.bind (.read _ _) fun i y _ h1 => GE.bind (.set ?_) fun _ u _ h3 => GE.onA ?_
    · exact h1.symm
    · exact not_non (k := .part) (h3.trans h1) (by decide)
  | non s a b => exact GE.onSet rfl

theorem eraseX_each (id : Nat) (x : Group.Trio V) : GE (do
      let g ← Stm.read fun x => .ok x.1
      Group.removeX id
      match g with
      | .full .. => do Group.onA (SparseSet.removeUnwrapX id); Group.onB (SparseSet.removeUnwrapX id)
      | .part .. => Group.onA (SparseSet.removeUnwrapX id)
      | .non .. => pure () : Stm (Group.Trio V) Unit) x := by
  refine GE.bind (.read _ _) fun g y hg _ => ?_
  obtain ⟨rfl, rfl⟩ := read_eq hg
  refine GE.bind (removeX_each id _) fun _ y _ h1 => ?_
  obtain ⟨g, A, B⟩ := x
  cases g with
  | full n a b =>
    refine GE.bind (.onA ?_) fun _ z _ h2 => GE.onB ?_
    · rw [show y.1.kind = .full from kind_of_tag h1]; decide
    · exact kind_of_tag (h2.trans h1)
  | part n a b =>
    refine GE.onA ?_
    rw [show y.1.kind = .part from kind_of_tag h1]; decide
  | non s a b => exact GE.pure _ _

theorem trio_inv {w : World V} {k : Nat} {x : Group.Trio V} (h : w.trio k = .ok x) :
    w.groups[k]? = some x.1 ∧ w.lockPair x.1 = .ok x.2 := by
  unfold trio at h
  obtain ⟨g, h1, h⟩ := bindR_ok h
  obtain ⟨p, h2, h⟩ := bindR_ok h
  cases h
  exact ⟨getR_inv h1, h2⟩

theorem trio_mk {w : World V} {k : Nat} {x : Group.Trio V} (h : w.groups[k]? = some x.1) (h' : w.lockPair x.1 = .ok x.2) :
    w.trio k = .ok x := by
  unfold trio
  rw [show getR w.groups k = .ok x.1 from by simp [getR, h]]
  simp only [R.bind_ok, h']

theorem trio_frame {cfg : Config} {w : World V} {k : Nat} {x y : Group.Trio V} (hc : cfg.groups = w.groups.map Group.shape)
    (hx : w.trio k = .ok x) (hg : Goes (fun _ _ => True) x y) : Frame w (w.putPair k y) (Act.footprint.pair cfg .mut k) := by
  obtain ⟨h1, h2⟩ := trio_inv hx
  obtain ⟨g, A, B⟩ := x
  obtain ⟨g', A', B'⟩ := y
  obtain ⟨e1, e2, e3⟩ := group_foot hc h1
  refine frame_putPair h1 h2 (shape_of_tag hg.tag) (fun ha => ?_) (fun hb => ?_) e1 e2 e3
  · have hk : g.kind = .non := by
      revert ha; cases g <;> simp [Group.shape, Shape.modeA, Group.kind]
    exact congrArg Prod.fst (hg.non hk)
  · cases g with
    | full n a b => simp [Group.shape, Shape.modeB, Group.kind] at hb
    | part n a b => exact hg.part rfl
    | non n a b => exact congrArg Prod.snd (hg.non rfl)

theorem trio_put {w : World V} {k : Nat} {x y : Group.Trio V} (hx : w.trio k = .ok x) (hg : Goes (fun _ _ => True) x y) :
    (w.putPair k y).trio k = .ok y := by
  obtain ⟨h1, h2⟩ := trio_inv hx
  obtain ⟨g, A, B⟩ := x
  obtain ⟨g', A', B'⟩ := y
  obtain ⟨sa, sb, ha, hb, rfl, rfl, hn⟩ := lockPair_parts h2
  have ht := hg.tag
  simp only [gtag, Prod.mk.injEq] at ht
  refine trio_mk ?_ ?_
  · simp [putPair, setSet, (List.getElem?_eq_some_iff.1 h1).1]
  · dsimp only
    by_cases hab : g.tyA = g.tyB
    · have hk : g.kind = .non := by
        cases hgk : g.kind with
        | non => rfl
        | full => exact absurd ⟨hab, by rw [hgk]; decide⟩ hn
        | part => exact absurd ⟨hab, by rw [hgk]; decide⟩ hn
      have he := hg.non hk
      simp only [Prod.mk.injEq] at he
      obtain ⟨rfl, rfl⟩ := he
      rw [← hab, ha] at hb
      cases hb
      simp [lockPair, putPair, setSet, ht, hk, unwrapR, ← hab, ha]
    · have hba : ¬ g.tyB = g.tyA := fun h => hab h.symm
      simp [lockPair, putPair, setSet, ht, hab, hba, unwrapR, ha, hb]

theorem putPair_self {w : World V} {k : Nat} {x : Group.Trio V} (hx : w.trio k = .ok x) : w.putPair k x = w := by
  obtain ⟨h1, h2⟩ := trio_inv hx
  obtain ⟨g, A, B⟩ := x
  obtain ⟨sa, sb, ha, hb, rfl, rfl, hn⟩ := lockPair_parts h2
  have hl : w.groups.set k g = w.groups := by
    apply List.ext_getElem?
    intro i
    rw [List.getElem?_set]
    split
    · next h => subst h; rw [if_pos (List.getElem?_eq_some_iff.1 h1).1]; exact h1.symm
    · rfl
  unfold putPair
  dsimp only
  rw [setSet_self ha, setSet_self hb, hl]

theorem putPair_again (w : World V) (k : Nat) {x y : Group.Trio V} (h : gtag y.1 = gtag x.1) :
    (w.putPair k x).putPair k y = w.putPair k y := by
  simp only [gtag, Prod.mk.injEq] at h
  have hg : ((w.putPair k x).putPair k y).groups = (w.putPair k y).groups := by
    simp [putPair, setSet]
  have hc : ((w.putPair k x).putPair k y).comps = (w.putPair k y).comps := by
    funext u
    simp only [putPair, setSet, h.2.1, h.2.2]
    by_cases h1 : u = x.1.tyB
    · subst h1
      by_cases h2 : x.1.tyB = x.1.tyA
      · simp only [h2, if_true]
        cases w.comps x.1.tyA <;> rfl
      · have h3 : ¬ x.1.tyA = x.1.tyB := fun h => h2 h.symm
        simp only [h2, h3, if_true, if_false]
        cases w.comps x.1.tyB <;> rfl
    · by_cases h2 : u = x.1.tyA
      · subst h2
        simp only [h1, if_true, if_false]
        cases w.comps x.1.tyA <;> rfl
      · simp only [h1, h2, if_false]
  unfold putPair at hg hc ⊢
  dsimp only [setSet] at hg hc ⊢
  rw [hg, hc]

theorem trio_agree {cfg : Config} {w w' : World V} {k : Nat} (hc : cfg.groups = w.groups.map Group.shape)
    (ha : AgreeOn (Act.footprint.pair cfg .mut k) w w') : w.trio k = w'.trio k := by
  obtain ⟨h1, h2⟩ := ha.twin.pairAt hc
  unfold trio
  rw [getR_congr h1]
  cases hg : getR w'.groups k with
  | error e => rfl
  | ok g =>
    obtain ⟨h3, h4⟩ := h2 g (getR_inv hg)
    simp only [R.bind_ok, lockPair_twin h3 h4]

theorem pair_lens (cfg : Config) (k : Nat) (d : Group.Trio V) :
    Lens (Act.footprint.pair cfg .mut k) (fun w : World V => match w.trio k with | .ok y => y | .error _ => d)
      (fun w y => w.putPair k y) (fun w => cfg.groups = w.groups.map Group.shape ∧ ∃ x, w.trio k = .ok x)
      (Goes (fun _ _ => True)) where
  agree {w w'} hi h := by
    have := trio_agree hi.1 h
    rw [← this]
    exact ⟨⟨hi.1.trans h.1, hi.2⟩, rfl⟩
  both h := (h.twin.putPair _ _).agree
  frame {w s} hi hg := by
    obtain ⟨x, hx⟩ := hi.2
    simp only [hx] at hg
    exact trio_frame hi.1 hx hg
  keep {w s} hi hg := by
    obtain ⟨x, hx⟩ := hi.2
    simp only [hx] at hg
    have := trio_put hx hg
    exact ⟨⟨hi.1.trans (trio_frame hi.1 hx hg).shape.symm, _, this⟩, by rw [this]⟩
  again {w s s'} hi hg hg' := putPair_again w k hg'.tag
  same {w} hi := by
    obtain ⟨x, hx⟩ := hi.2
    simp only [hx]
    exact putPair_self hx
  refl _ := .refl lax_true _
  trans h h' := h.trans lax_true h'

theorem pairStm_ok {α : Type} {cfg : Config} {k : Nat} {m : Stm (Group.Trio V) α} (hm : ∀ x, GE m x) {w : World V}
    (hc : cfg.groups = w.groups.map Group.shape) :
    (pairStm k m).Within (Act.footprint.pair cfg .mut k) w ∧ (pairStm k m).run w = onPair k m w := by
  have ho : onPair k m w = match w.trio k with
      | .ok x => (w.putPair k (m x).1, (m x).2)
      | .error e => (w, .error e) := rfl
  have hr : ∀ w', AgreeOn (Act.footprint.pair cfg .mut k) w w' → w.trio k = w'.trio k := fun w' ha => trio_agree hc ha
  rw [ho]
  cases hd : w.trio k with
  | error e =>
    refine ⟨.bind (.read hr) fun a w' h => ?_, ?_⟩
    · rw [Stm.read_apply, hd] at h
      cases h
    · unfold pairStm
      rw [Stm.bind_apply, Stm.read_apply, hd]
  | ok x =>
    obtain ⟨h1, h2⟩ := (pair_lens cfg k x).on (m := m) (w := w) ⟨hc, x, hd⟩ (by simp only [hd]; exact hm x)
    refine ⟨.bind (.read hr) fun a w' h => ?_, ?_⟩
    · rw [Stm.read_apply, hd] at h
      cases h
      exact h1
    · unfold pairStm
      rw [Stm.bind_apply, Stm.read_apply, hd]
      refine Eq.trans h2 ?_
      simp only [hd]

/-! ### All pieces of work -/

/-- What is one statement anyway. -/
theorem single_ok {cfg : Config} {a : Act V} {w : World V} (hc : cfg.groups = w.groups.map Group.shape)
    (h : a.stm = .step (fun w => (a.run w).1) fun w => .ret (a.run w).2) :
    a.stm.run w = a.run w ∧ a.stm.Within (a.footprint cfg) w := by
  rw [h]
  refine ⟨rfl, fun w' ha => ?_, trivial⟩
  obtain ⟨h1, h2⟩ := run_local hc ha.twin
  have hf : Frame w' (a.run w').1 (a.footprint cfg) := run_frame (hc.trans ha.1) rfl
  exact ⟨congrArg Stm.ret h1, h2.agree, hf.agrees⟩

/-- Work followed by returning something. -/
theorem followed {α : Type} {m : Stm (World V) α} {x : M V α} {f : α → Ret V} {foot : List Guard} {w : World V}
    (h : m.Within foot w ∧ m.run w = x w) :
    (m >>= fun a => pure (f a)).run w = (x >>= fun a => pure (f a)) w ∧ (m >>= fun a => pure (f a)).Within foot w := by
  refine ⟨?_, .bind h.1 fun _ _ _ => .pure _⟩
  rw [M.bind_apply, Stm.bind_apply, h.2]
  rcases x w with ⟨w', r | r⟩ <;> rfl

theorem code_splits (cfg : Config) : Splits cfg (Act.stm (V := V)) := by
  intro a w hc
  cases a with
  | allocate =>
    have := followed (f := fun id => Ret.id id) (tableStm_ok (foot := Act.footprint cfg (Act.allocate (V := V))) (by simp [Act.footprint])
      EntityManager.allocateX w)
    rw [← allocate_exact] at this
    exact this
  | emRemove id =>
    have := followed (f := fun _ => Ret.unit) (tableStm_ok (foot := Act.footprint cfg (Act.emRemove (V := V) id)) (by simp [Act.footprint])
      (EntityManager.removeX id) w)
    rw [← release_exact] at this
    exact this
  | attachStore t id v =>
    have := followed (f := fun _ => Ret.unit) (storeStm_ok (t := t) (foot := Act.footprint cfg (Act.attachStore (V := V) t id v)) (by simp [Act.footprint])
      (SparseSet.addX id v) w)
    rw [show onStore t (SparseSet.addX id v) = attachStoreX t id v from rfl, ← attachStore_exact] at this
    exact this
  | detachStore t id =>
    have := followed (f := fun r => Ret.val r) (storeStm_ok (t := t) (foot := Act.footprint cfg (Act.detachStore (V := V) t id)) (by simp [Act.footprint])
      (SparseSet.removeX id) w)
    rw [show onStore t (SparseSet.removeX id) = detachStoreX (V := V) t id from rfl, ← detachStore_exact] at this
    exact this
  | storeErase t id =>
    have := followed (f := fun _ => Ret.unit) (rawStm_ok (t := t) (foot := Act.footprint cfg (Act.storeErase (V := V) t id)) (by simp [Act.footprint])
      (SparseSet.removeUnwrapX id) w)
    rw [show onRaw t (SparseSet.removeUnwrapX id) = storeEraseX (V := V) t id from rfl, ← storeErase_exact] at this
    exact this
  | groupAdd k id =>
    have := followed (f := fun _ => Ret.unit) (pairStm_ok (k := k) (addX_each id) hc)
    rw [show onPair k (Group.addX id) = groupAddX (V := V) k id from rfl, ← groupAdd_exact] at this
    exact this
  | groupRemove k id =>
    have := followed (f := fun _ => Ret.unit) (pairStm_ok (k := k) (removeX_each id) hc)
    rw [show onPair k (Group.removeX id) = groupRemoveX (V := V) k id from rfl, ← groupRemove_exact] at this
    exact this
  | groupErase k id =>
    have := pairStm_ok (k := k) (eraseX_each id) hc
    exact followed (f := fun _ => Ret.unit) ⟨this.1, this.2.trans (congrFun (groupErase_exact k id).symm w)⟩
  | batchStore start stop t vs =>
    have h1 := followed (f := fun _ => Ret.unit) (storeStm_ok (t := t) (foot := Act.footprint cfg (Act.batchStore (V := V) start stop t vs))
      (by simp [Act.footprint]) (SparseSet.addBatchX (List.range' start (stop - start)) vs) w)
    rw [show onStore t _ = batchStoreX (V := V) start stop t vs from rfl, ← batchStore_exact] at h1
    refine ⟨?_, .bind (.read fun _ _ => rfl) fun _ w' h => ?_⟩
    · show Stm.run (Stm.read (fun _ => assertR (vs.length == stop - start)) >>= fun _ =>
        storeStm t (SparseSet.addBatchX (List.range' start (stop - start)) vs) >>= fun _ => pure Ret.unit) w =
        ((M.assert (vs.length == stop - start) >>= fun _ => M.crit _ _) >>= fun _ => pure Ret.unit : M V (Ret V)) w
      rw [Stm.bind_apply, Stm.read_apply]
      cases hb : (vs.length == stop - start) with
      | false => rfl
      | true => exact h1.1
    · rw [Stm.read_apply] at h
      obtain rfl := congrArg Prod.fst h
      exact h1.2
  | _ => exact single_ok hc rfl

end Xecs
