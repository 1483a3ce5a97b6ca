import Verif.Proofs.Handles
import Verif.Proofs.Schedule
import Verif.Spec.Alone
/-
The run of one thread, everybody else idle.
-/
set_option autoImplicit false
namespace Xecs
variable {V : Type}

theorem Guard.fits_cons {g h : Guard} {H : List Guard} : g.fits (h :: H) ↔ ¬ g.clash h ∧ g.fits H := by
  simp [Guard.fits]

theorem Guard.fits_append {g : Guard} {H K : List Guard} : g.fits (H ++ K) ↔ g.fits H ∧ g.fits K := by
  simp only [Guard.fits, List.mem_append]
  exact ⟨fun h => ⟨fun x hx => h x (.inl hx), fun x hx => h x (.inr hx)⟩, fun h x hx => hx.elim (h.1 x) (h.2 x)⟩

/-- The program `p`, run with the guards `H` in the world `w`, gets to `p'` with the guards `H'` in the world `w'`
and takes the guards `T` on the way. Lists of guards are considered up to order. -/
inductive Flows : Prog V → List Guard → World V → List Guard → Prog V → List Guard → World V → Prop
  | refl {p : Prog V} {H : List Guard} {w : World V} : Flows p H w [] p H w
  | perm {p p' : Prog V} {H H1 H' T : List Guard} {w w' : World V} :
      H.Perm H1 → Flows p H1 w T p' H' w' → Flows p H w T p' H' w'
  | acq {p p' : Prog V} {H H' T : List Guard} {w w' : World V} {l : Lock} {m : Mode} :
      Guard.fits (l, m) H → Flows p ((l, m) :: H) w T p' H' w' →
      Flows (.acq l m p) H w ((l, m) :: T) p' H' w'
  | rel {p p' : Prog V} {H H' T : List Guard} {w w' : World V} {l : Lock} {m : Mode} :
      Flows p H w T p' H' w' → Flows (.rel l m p) ((l, m) :: H) w T p' H' w'
  | act {a : Act V} {f : Ret V → Prog V} {p' : Prog V} {H H' T : List Guard} {w w1 w' : World V} {r : Ret V} :
      a.run w = (w1, .ok r) → Flows (f r) H w1 T p' H' w' → Flows (.act a f) H w T p' H' w'

namespace Flows

theorem trans {p p' p'' : Prog V} {H H' H'' T T' : List Guard} {w w' w'' : World V} (h : Flows p H w T p' H' w')
    (h' : Flows p' H' w' T' p'' H'' w'') : Flows p H w (T ++ T') p'' H'' w'' := by
  induction h with
  | refl => exact h'
  | perm hp _ ih => exact .perm hp (ih h')
  | acq hf _ ih => exact .acq hf (ih h')
  | rel _ ih => exact .rel (ih h')
  | act hr _ ih => exact .act hr (ih h')

theorem thenPerm {p p' : Prog V} {H H' H'' T : List Guard} {w w' : World V} (h : Flows p H w T p' H' w')
    (hp : H'.Perm H'') : Flows p H w T p' H'' w' := by
  have := h.trans (.perm hp .refl)
  rwa [List.append_nil] at this

theorem mat {cfg : Config} {p p' : Prog V} {H H' T : List Guard} {w w' : World V} (h : Flows p H w T p' H' w')
    (hm : Matches cfg w) : Matches cfg w' := by
  induction h with
  | refl => exact hm
  | perm _ _ ih => exact ih hm
  | acq _ _ ih => exact ih hm
  | rel _ ih => exact ih hm
  | act hr _ ih => exact ih (hm.frame (run_frame hm.groups hr))

/-- With further guards that do not clash. -/
theorem keep {p p' : Prog V} {H H' T K : List Guard} {w w' : World V} (h : Flows p H w T p' H' w')
    (hk : ∀ g ∈ T, Guard.fits g K) : Flows p (H ++ K) w T p' (H' ++ K) w' := by
  induction h with
  | refl => exact .refl
  | perm hp _ ih => exact .perm (hp.append_right K) (ih hk)
  | acq hf _ ih =>
    exact .acq (Guard.fits_append.2 ⟨hf, hk _ (List.mem_cons_self ..)⟩) (ih fun g hg => hk g (List.mem_cons_of_mem _ hg))
  | rel _ ih => exact .rel (ih hk)
  | act hr _ ih => exact .act hr (ih hk)

/-- With further guards some of which clash. -/
theorem clash {p p' : Prog V} {H H' T K : List Guard} {w w' : World V} (h : Flows p H w T p' H' w')
    (hk : ¬ ∀ g ∈ T, Guard.fits g K) : ∃ T1 l m p1 H1 w1, Flows p (H ++ K) w T1 (.acq l m p1) H1 w1 ∧
      ¬ Guard.fits (l, m) H1 := by
  induction h with
  | refl => simp at hk
  | perm hp _ ih =>
    obtain ⟨T1, l, m, p1, H1, w1, h1, h2⟩ := ih hk
    exact ⟨T1, l, m, p1, H1, w1, .perm (hp.append_right K) h1, h2⟩
  | @acq p p' H H' T w w' l m hf _ ih =>
    by_cases hl : Guard.fits (l, m) K
    · obtain ⟨T1, l1, m1, p1, H1, w1, h1, h2⟩ := ih (fun hh => hk fun g hg => by
        rcases List.mem_cons.1 hg with rfl | hg
        · exact hl
        · exact hh g hg)
      exact ⟨_, l1, m1, p1, H1, w1, .acq (Guard.fits_append.2 ⟨hf, hl⟩) h1, h2⟩
    · exact ⟨[], l, m, _, _, _, .refl, fun hh => hl (Guard.fits_append.1 hh).2⟩
  | rel _ ih =>
    obtain ⟨T1, l, m, p1, H1, w1, h1, h2⟩ := ih hk
    exact ⟨T1, l, m, p1, H1, w1, .rel h1, h2⟩
  | act hr _ ih =>
    obtain ⟨T1, l, m, p1, H1, w1, h1, h2⟩ := ih hk
    exact ⟨T1, l, m, p1, H1, w1, .act hr h1, h2⟩

end Flows

/-- The program ends up waiting for a guard that its own thread's guards exclude. -/
def Stuck (p : Prog V) (H : List Guard) (w w' : World V) : Prop :=
  ∃ T l m p1 H1, Flows p H w T (.acq l m p1) H1 w' ∧ ¬ Guard.fits (l, m) H1

/-- The program panics. -/
def Fails (p : Prog V) (H : List Guard) (w w' : World V) : Prop :=
  ∃ T p1 H1 w1, Flows p H w T p1 H1 w1 ∧
    ((p1 = .panic ∧ w' = w1) ∨ ∃ a f e, p1 = .act a f ∧ a.run w1 = (w', .error e))

theorem Stuck.after {p p' : Prog V} {H H' T : List Guard} {w w' w'' : World V} (h : Flows p H w T p' H' w')
    (h' : Stuck p' H' w' w'') : Stuck p H w w'' := by
  obtain ⟨T1, l, m, p1, H1, h1, h2⟩ := h'
  exact ⟨_, l, m, p1, H1, h.trans h1, h2⟩

theorem Fails.after {p p' : Prog V} {H H' T : List Guard} {w w' w'' : World V} (h : Flows p H w T p' H' w')
    (h' : Fails p' H' w' w'') : Fails p H w w'' := by
  obtain ⟨T1, p1, H1, w1, h1, h2⟩ := h'
  exact ⟨_, p1, H1, w1, h.trans h1, h2⟩

/-- The program `p`, run with the guards `H` in the world `w`, does what the operation `m` does, and goes on with
`k a` if `m` returns `a`, with the guards `H'`; on the way it takes the guards in `T`. -/
def Does {α : Type} (p : Prog V) (H : List Guard) (w : World V) (m : M V α) (H' : List Guard) (T : Guard → Prop)
    (k : α → Prog V) : Prop :=
  match m w with
  | (w', .ok a) => ∃ T', Flows p H w T' (k a) H' w' ∧ ∀ g, g ∈ T' ↔ T g
  | (w', .error .deadlock) => Stuck p H w w'
  | (w', .error _) => Fails p H w w'

namespace Does
variable {α β : Type} {p : Prog V} {H H' H'' : List Guard} {w : World V} {T T2 T3 : Guard → Prop}

theorem ok {m : M V α} {w' : World V} {a : α} {k : α → Prog V} (hm : m w = (w', .ok a)) {T' : List Guard}
    (h : Flows p H w T' (k a) H' w') (hT : ∀ g, g ∈ T' ↔ T g) : Does p H w m H' T k := by
  rw [Does, hm]
  exact ⟨T', h, hT⟩

theorem panic {m : M V α} {w' : World V} {k : α → Prog V} (hm : m w = (w', .error .panic)) (h : Fails p H w w') :
    Does p H w m H' T k := by
  rw [Does, hm]
  exact h

theorem deadlock {m : M V α} {w' : World V} {k : α → Prog V} (hm : m w = (w', .error .deadlock)) (h : Stuck p H w w') :
    Does p H w m H' T k := by
  rw [Does, hm]
  exact h

/-- Change of presentation. -/
theorem congr {m m' : M V α} {k : α → Prog V} (h : Does p H w m H' T k) (hm : m w = m' w)
    (hT : ∀ w' a, m w = (w', .ok a) → ∀ g, T g ↔ T2 g) : Does p H w m' H' T2 k := by
  unfold Does at h ⊢
  rw [← hm]
  rcases hx : m w with ⟨w', r⟩
  rw [hx] at h
  cases r with
  | ok a =>
    obtain ⟨T', h1, h2⟩ := h
    exact ⟨T', h1, fun g => (h2 g).trans (hT w' a hx g)⟩
  | error e => cases e <;> exact h

theorem bind {m : M V α} {f : α → M V β} {k1 : α → Prog V} {k2 : β → Prog V} (h : Does p H w m H' T k1)
    (h2 : ∀ w' a, m w = (w', .ok a) → (∃ T', Flows p H w T' (k1 a) H' w') → Does (k1 a) H' w' (f a) H'' T2 k2)
    (hT : ∀ w' a w'' b, m w = (w', .ok a) → f a w' = (w'', .ok b) → ∀ g, T3 g ↔ T g ∨ T2 g) :
    Does p H w (m >>= f) H'' T3 k2 := by
  unfold Does at h ⊢
  show match (match m w with | (w', .ok a) => f a w' | (w', .error e) => (w', .error e)) with
    | (w', .ok a) => _ | (w', .error .deadlock) => _ | (w', .error _) => _
  rcases hx : m w with ⟨w', r⟩
  rw [hx] at h
  cases r with
  | error e => cases e <;> exact h
  | ok a =>
    obtain ⟨T', h1, h1T⟩ := h
    have h3 := h2 w' a hx ⟨T', h1⟩
    unfold Does at h3
    dsimp only
    rcases hy : f a w' with ⟨w'', r⟩
    rw [hy] at h3
    cases r with
    | ok b =>
      obtain ⟨T'', h4, h4T⟩ := h3
      refine ⟨T' ++ T'', h1.trans h4, fun g => ?_⟩
      rw [List.mem_append, h1T, h4T, hT w' a w'' b hx hy]
    | error e =>
      cases e with
      | deadlock => exact h3.after h1
      | panic => exact h3.after h1
      | ub => exact h3.after h1

theorem pure {a : α} {k : α → Prog V} : Does (k a) H w (Pure.pure a : M V α) H (fun _ => False) k :=
  .ok rfl .refl (by simp)

/-- Followed by a pure function of the result. -/
theorem map {m : M V α} {f : α → β} {k : α → Prog V} {k2 : β → Prog V} (h : Does p H w m H' T k)
    (hk : ∀ a, k a = k2 (f a)) : Does p H w (do let a ← m; Pure.pure (f a)) H' T k2 := by
  refine h.bind (T2 := fun _ => False) (fun w' a _ _ => ?_) (fun _ _ _ _ _ _ g => by simp)
  rw [hk]
  exact .pure

/-- Starting with steps. -/
theorem after {p0 : Prog V} {H0 T0 : List Guard} {m : M V α} {k : α → Prog V} (h0 : Flows p0 H0 w T0 p H w)
    (h : Does p H w m H' T k) (hT : ∀ g, T2 g ↔ g ∈ T0 ∨ T g) : Does p0 H0 w m H' T2 k := by
  unfold Does at h ⊢
  rcases hx : m w with ⟨w', r⟩
  rw [hx] at h
  cases r with
  | ok a =>
    obtain ⟨T', h1, h2⟩ := h
    exact ⟨_, h0.trans h1, fun g => by rw [List.mem_append, h2, hT]⟩
  | error e =>
    cases e with
    | deadlock => exact h.after h0
    | panic => exact h.after h0
    | ub => exact h.after h0

/-- A piece of work. -/
theorem work {a : Act V} {f : Ret V → Prog V} {m : M V α} {g : α → Ret V}
    (hr : a.run w = (do let x ← m; Pure.pure (g x) : M V (Ret V)) w)
    (hd : (m w).2 ≠ .error .deadlock) : Does (.act a f) H w m H (fun _ => False) (fun x => f (g x)) := by
  unfold Does
  have hr' : a.run w = (match m w with | (w', .ok a) => (w', .ok (g a)) | (w', .error e) => (w', .error e)) := hr
  rcases hx : m w with ⟨w', r⟩
  rw [hx] at hr' hd
  cases r with
  | ok x => exact ⟨[], .act hr' .refl, by simp⟩
  | error e =>
    have : Fails (.act a f) H w w' := ⟨[], _, H, w, .refl, .inr ⟨a, f, e, rfl, hr'⟩⟩
    cases e with
    | deadlock => exact absurd rfl hd
    | panic => exact this
    | ub => exact this

/-- Dropping a guard afterwards. -/
theorem thenRel {m : M V α} {k : α → Prog V} {l : Lock} {md : Mode}
    (h : Does p H w m ((l, md) :: H') T (fun a => .rel l md (k a))) : Does p H w m H' T k := by
  unfold Does at h ⊢
  rcases hx : m w with ⟨w', r⟩
  rw [hx] at h
  cases r with
  | ok a =>
    obtain ⟨T', h1, h2⟩ := h
    exact ⟨T' ++ [], h1.trans (.rel .refl), by simpa using h2⟩
  | error e => cases e <;> exact h

theorem permEnd {m : M V α} {k : α → Prog V} {H1 : List Guard} (h : Does p H w m H1 T k) (hp : H1.Perm H') :
    Does p H w m H' T k := by
  unfold Does at h ⊢
  rcases hx : m w with ⟨w', r⟩
  rw [hx] at h
  cases r with
  | ok a =>
    obtain ⟨T', h1, h2⟩ := h
    exact ⟨T' ++ [], h1.trans (.perm hp .refl), by simpa using h2⟩
  | error e => cases e <;> exact h

/-- Several dropped guards. -/
theorem thenRelAll {m : M V α} {k : α → Prog V} : ∀ {gs : List Guard},
    Does p H w m (gs ++ H') T (fun a => Prog.releaseAll gs (k a)) → Does p H w m H' T k
  | [], h => h
  | (_, _) :: _, h => thenRelAll (thenRel h)

end Does

theorem M.bind_assoc' {α β γ : Type} (m : M V α) (f : α → M V β) (g : β → M V γ) (w : World V) :
    ((m >>= f) >>= g) w = (m >>= fun a => f a >>= g) w := by
  simp only [M.bind_apply]
  rcases m w with ⟨w', r⟩
  cases r <;> rfl

theorem M.bind_congr' {α β : Type} {m : M V α} {f g : α → M V β} {w : World V}
    (h : ∀ w' a, m w = (w', .ok a) → f a w' = g a w') : (m >>= f) w = (m >>= g) w := by
  simp only [M.bind_apply]
  rcases hm : m w with ⟨w', r⟩
  cases r with
  | ok a => exact h w' a hm
  | error e => rfl

end Xecs
