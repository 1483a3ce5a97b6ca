import Verif.Proofs.Listed
import Verif.Props.Phases
import Verif.Props.Groups
import Verif.Props.Misc
/-
C75: what any query yields, whatever batch attaches bypassed its groups; and theorems about sequential histories
carried over to worlds that have been shared (C14, C15, C16, C18, C20, C33, C34).
-/
set_option autoImplicit false
namespace Xecs
open Spec World Hist
variable {V : Type} {tr : List (Op V × Out V)} {w w' : World V}

/-! ### C75 -/

/-- C75. A query yields for each entity what its parts answer for it, but only for the entities that the group it iterates over --
if it is a group -- contains according to the history: those who had both components when the group was made or when one of the
two was attached individually later, and have lost neither since. -/
theorem C75_exact {q : Query} (h : Trace tr w ∧ Undisturbed tr q ∨ Mixed tr w ∧ Unmoved tr q) (he : Exists tr q)
    (hc : q.Conflictless) :
    ∃ l, Yields w q l ∧
      Lists l (fun id => if q.led (inGroup tr) id then q.probed (values tr) (inGroup tr) id else none) := by
  rcases h with ⟨h, hu⟩ | ⟨h, hu⟩
  · obtain ⟨s, hr⟩ := h.run
    obtain ⟨l, l1, l2⟩ := rel_listed hr.rel ((run_defined hr q).2 he) (run_fresh hr hu) hc
    refine ⟨l, l1, ?_⟩
    rw [show (fun id => s.yields q id) = _ from funext fun id => run_listed hr he id] at l2
    exact l2
  · obtain ⟨u, g, s, ht, hr, hw, ha⟩ := h.kin
    obtain ⟨l, l1, l2⟩ := rel_listed hw
      (by rw [← defined_unfresh, ha.same, defined_unfresh]; exact (run_defined hr q).2 he) (apt_fresh hr ha hu) hc
    refine ⟨l, l1, ?_⟩
    have e : ∀ id, s.yields q id = g.yields q id := fun id => by rw [← yields_unfresh, ha.same, yields_unfresh]
    rw [show (fun id => s.yields q id) = _ from funext fun id => (e id).trans (run_listed hr he id)] at l2
    exact l2

/-- C75. When no group of the query is non-owning: everything yielded is right -- also with `Without` -- and what is missing are exactly the matching
entities that the group iterated over does not contain. -/
theorem C75_owning {q : Query} (h : Mixed tr w) (hn : NoNon q) (he : Exists tr q) (hc : q.Conflictless) :
    ∃ l, Yields w q l ∧ (l.map Prod.fst).Nodup ∧ (∀ id x, (id, x) ∈ l → q.answer (values tr) id = some x) ∧
      ∀ id x, q.answer (values tr) id = some x →
        ((∀ y, (id, y) ∉ l) ↔ ∃ k ma mb a b, q.leader = .group k ma mb a b ∧ joined (ofKind k, a, b) id tr = false) := by
  obtain ⟨l, l1, l2, l3⟩ := C75_exact (.inr ⟨h, hn.unmoved⟩) he hc
  have hx : ∀ id x, (id, x) ∈ l ↔ q.led (inGroup tr) id = true ∧ q.answer (values tr) id = some x := by
    intro id x
    rw [l3 id x]
    dsimp only
    rw [probed_answer _ _ _ q hn]
    split <;> simp_all
  have hled : ∀ id, q.led (inGroup tr) id = false ↔
      ∃ k ma mb a b, q.leader = .group k ma mb a b ∧ joined (ofKind k, a, b) id tr = false := by
    intro id
    simp only [Query.led]
    cases hq : q.leader with
    | group k ma mb a b =>
      exact ⟨fun h => ⟨k, ma, mb, a, b, rfl, h⟩, fun ⟨_, _, _, _, _, h1, h2⟩ => by cases h1; exact h2⟩
    | _ => simp
  refine ⟨l, l1, l2, fun id x hm => ((hx id x).1 hm).2, fun id x ha => ?_⟩
  rw [← hled id]
  constructor
  · intro hno
    cases hl : q.led (inGroup tr) id with
    | false => rfl
    | true => exact absurd ((hx id x).2 ⟨hl, ha⟩) (hno x)
  · intro hf y hy
    rw [((hx id y).1 hy).1] at hf
    cases hf

/-- C75. In particular a query whose iterated part is a single component, or a group nobody is missing from, yields exactly the right
things, whatever groups it names elsewhere. -/
theorem C75_complete {q : Query} (h : Mixed tr w) (hn : NoNon q) (he : Exists tr q) (hc : q.Conflictless)
    (hl : ∀ k ma mb a b, q.leader = .group k ma mb a b →
      ∀ id, lastValue a id tr ≠ none → lastValue b id tr ≠ none → joined (ofKind k, a, b) id tr = true) :
    ∃ l, Yields w q l ∧ Lists l (q.answer (values tr)) := by
  obtain ⟨l, l1, l2, l3⟩ := C75_exact (.inr ⟨h, hn.unmoved⟩) he hc
  refine ⟨l, l1, l2, fun id x => ?_⟩
  rw [l3 id x]
  dsimp only
  rw [probed_answer _ _ _ q hn]
  have hlead : ∀ (q' : Query) k ma mb a b x, q'.leader = .group k ma mb a b → q'.answer (values tr) id = some x →
      lastValue a id tr ≠ none ∧ lastValue b id tr ≠ none := by
    intro q' k ma mb a b
    induction q' with
    | comp m t => intro x h; cases h
    | with2 c d ihc ihd =>
      intro x h hx
      simp only [Query.answer] at hx
      split at hx
      · rename_i h1 h2; exact ihc _ h h1
      · cases hx
    | with3 c d e ihc ihd ihe =>
      intro x h hx
      simp only [Query.answer] at hx
      split at hx
      · rename_i h1 h2 h3; exact ihc _ h h1
      · cases hx
    | with4 c d e f ihc ihd ihe ihf =>
      intro x h hx
      simp only [Query.answer] at hx
      split at hx
      · rename_i h1 h2 h3 h4; exact ihc _ h h1
      · cases hx
    | with5 c d e f g ihc ihd ihe ihf ihg =>
      intro x h hx
      simp only [Query.answer] at hx
      split at hx
      · rename_i h1 h2 h3 h4 h5; exact ihc _ h h1
      · cases hx
    | withoutL c d ihc ihd =>
      intro x h hx
      simp only [Query.answer] at hx
      split at hx
      · cases hx
      · exact ihd _ h hx
    | withoutR c d ihc ihd =>
      intro x h hx
      simp only [Query.answer] at hx
      split at hx
      · cases hx
      · exact ihc _ h hx
    | group k' ma' mb' c d =>
      intro x h hx
      cases h
      simp only [Query.answer, values] at hx
      split at hx
      · rename_i h1 h2; exact ⟨by rw [h1]; simp, by rw [h2]; simp⟩
      · cases hx
  have hled : q.led (inGroup tr) id = false → q.answer (values tr) id ≠ some x := by
    intro hf ha
    cases hq : q.leader with
    | group k ma mb a b =>
      obtain ⟨h1, h2⟩ := hlead q k ma mb a b x hq ha
      have := hl k ma mb a b hq id h1 h2
      simp only [Query.led, hq, inGroup] at hf
      rw [this] at hf; cases hf
    | _ => simp [Query.led, hq] at hf
  cases hq : q.led (inGroup tr) id with
  | true => simp
  | false => simpa using hled hq

namespace Demo

/-- After the batch attaches the group of 1 and 2 contains nobody: leading a tuple it yields nothing, in second place
it yields both entities, and a `Without` sees them. -/
example : ∃ l, Yields batchW (.with2 (.comp .ref 1) (.group .full .ref .ref 1 2)) l ∧
    (1, .pair (.leaf 11) (.pair (.leaf 11) (.leaf 12))) ∈ l ∧ (2, .pair (.leaf 21) (.pair (.leaf 21) (.leaf 22))) ∈ l := by
  obtain ⟨l, l1, l2⟩ := C75_complete (.of_trace batchTrace) (q := .with2 (.comp .ref 1) (.group .full .ref .ref 1 2)) (by simp [NoNon, Parts])
    (by simp only [Hist.Exists, Parts]; decide +kernel) (by decide +kernel) (by intro k ma mb a b h; cases h)
  exact ⟨l, l1, (l2.2 1 _).2 (by decide +kernel), (l2.2 2 _).2 (by decide +kernel)⟩

example : ∃ l, Yields batchW (.with2 (.group .full .ref .ref 1 2) (.comp .ref 1)) l ∧ ∀ y, (2, y) ∉ l := by
  obtain ⟨l, l1, _, _, l4⟩ := C75_owning (.of_trace batchTrace) (q := .with2 (.group .full .ref .ref 1 2) (.comp .ref 1)) (by simp [NoNon, Parts])
    (by simp only [Hist.Exists, Parts]; decide +kernel) (by decide +kernel)
  exact ⟨l, l1, (l4 2 (.pair (.pair (.leaf 21) (.leaf 22)) (.leaf 21)) (by decide +kernel)).2
    ⟨.full, .ref, .ref, 1, 2, rfl, by decide +kernel⟩⟩

example : ∃ l, Yields batchW (.withoutR (.comp .ref 1) (.group .full .ref .ref 1 2)) l ∧ ∀ x, x ∉ l := by
  obtain ⟨l, l1, _, l3, _⟩ := C75_owning (.of_trace batchTrace) (q := .withoutR (.comp .ref 1) (.group .full .ref .ref 1 2)) (by simp [NoNon, Parts])
    (by simp only [Hist.Exists, Parts]; decide +kernel) (by decide +kernel)
  refine ⟨l, l1, fun ⟨id, x⟩ hx => ?_⟩
  have h1 := l3 id x hx
  obtain ⟨l', m1, m2, m3⟩ := C75_exact (.inl ⟨batchTrace, by simp [Undisturbed, Parts]⟩) (q := .withoutR (.comp .ref 1) (.group .full .ref .ref 1 2))
    (by simp only [Hist.Exists, Parts]; decide +kernel) (by decide +kernel)
  have : batchW.results (.withoutR (.comp .ref 1) (.group .full .ref .ref 1 2)) = .ok [] := by decide +kernel
  rw [l1] at this
  cases l with
  | nil => cases hx
  | cons y l => cases this

/-- After a shared phase, with a non-owning group in second place. -/
example : ∃ l, Yields kindEnd.world (.with2 (.comp .ref 3) (.group .non .ref .ref 3 4)) l ∧
    (5, .pair (.leaf 53) (.pair (.leaf 53) (.leaf 54))) ∈ l := by
  obtain ⟨l, l1, l2⟩ := C75_exact (.inr ⟨kindMixed, by simp only [Hist.Unmoved, Parts]; decide +kernel⟩)
    (q := .with2 (.comp .ref 3) (.group .non .ref .ref 3 4)) (by simp only [Hist.Exists, Parts]; decide +kernel) (by decide +kernel)
  exact ⟨l, l1, (l2.2 5 _).2 (by decide +kernel)⟩

end Demo

/-! ### Sequential theorems after shared phases -/

/-- C34, after shared phases. -/
theorem C34_after (h : Mixed tr w) {op : Op V} (ha : Allowed tr op) :
    (exec op w = (w, .error .panic) ↔ Documented tr op ∨ Undocumented tr op) ∧
    ((∃ w' o, exec op w = (w', .ok o)) ↔ ¬ (Documented tr op ∨ Undocumented tr op)) := by
  obtain ⟨u, g, ht, hr, hw⟩ := h.like
  obtain ⟨e1, e2⟩ := C34_exactly ht ha
  rcases Like.next hr hw ha with ⟨o, w', u', g', h1, h2, _⟩ | ⟨h1, h2⟩
  · have hno : ¬ (Documented tr op ∨ Undocumented tr op) := e2.1 ⟨u', o, h2⟩
    exact ⟨⟨fun he => (by rw [h1] at he; cases he), fun hd => absurd hd hno⟩, ⟨fun _ => hno, fun _ => ⟨w', o, h1⟩⟩⟩
  · have hyes : Documented tr op ∨ Undocumented tr op := e1.1 h2
    exact ⟨⟨fun _ => hyes, fun _ => h1⟩, ⟨fun ⟨w', o, he⟩ => (by rw [h1] at he; cases he), fun hn => absurd hyes hn⟩⟩

/-- C33, after shared phases: an allowed call that fails changes nothing. -/
theorem C33_after (h : Mixed tr w) {op : Op V} (ha : Allowed tr op) {e : Fault} (he : exec op w = (w', .error e)) :
    w' = w ∧ e = .panic := by
  obtain ⟨u, g, ht, hr, hw⟩ := h.like
  rcases Like.next hr hw ha with ⟨o, w1, u', g', h1, _⟩ | ⟨h1, _⟩
  · rw [h1] at he; cases he
  · rw [h1] at he
    simp only [Prod.mk.injEq, Except.error.injEq] at he
    exact ⟨he.1.symm, he.2.symm⟩

/-- C20 (and C15, C16: soundness), after shared phases: who owning groups contain, with any batch attaches, and non-owning ones nothing
was moved under. -/
theorem C20_after (h : Mixed tr w) {k : Kind} {a b : EntityId} {ma mb : Mode}
    (hg : madeGroup (ofKind k) a b tr = true)
    (hu : k = .non → movedSince a b tr = false ∧ ownedEver a tr = false ∧ ownedEver b tr = false)
    (hm : a ≠ b ∨ (ma = .ref ∧ mb = .ref)) :
    ∃ l, Yields w (.group k ma mb a b) l ∧ Lists l (fun id =>
      if joined (ofKind k, a, b) id tr then bothOf (lastValue a id tr) (lastValue b id tr) else none) := by
  obtain ⟨h1, h2, _⟩ := h.made_registered hg
  obtain ⟨l, l1, l2⟩ := C75_exact (q := .group k ma mb a b) (.inr ⟨h, hu⟩) ⟨h1, h2, hg⟩ (group_conflictless hm)
  refine ⟨l, l1, ?_⟩
  rw [show (fun id => if joined (ofKind k, a, b) id tr then bothOf (lastValue a id tr) (lastValue b id tr) else none) =
    fun id => if (Query.group k ma mb a b).led (inGroup tr) id then (Query.group k ma mb a b).probed (values tr) (inGroup tr) id else none
    from funext fun id => by
      cases k with
      | non =>
        simp only [Query.led, Query.leader, Query.probed, inGroup, values]
        by_cases hj : joined (ofKind .non, a, b) id tr = true <;> simp [hj]
      | _ => rfl]
  exact l2

/-- C18, after shared phases: exactly when a group can be made. -/
theorem C18_after (h : Mixed tr w) {k : SKind} {a b : EntityId} (ha : registered a tr = true)
    (hb : registered b tr = true) (hab : k ≠ .non → a ≠ b) :
    ((∃ g ∈ groupsMade tr, g = (k, a, b) ∨ ∃ t, groupOwns g t = true ∧ groupOwns (k, a, b) t = true) ↔
      World.makeGroup (toKind k) a b w = (w, .error .panic)) ∧
    ((¬ ∃ g ∈ groupsMade tr, g = (k, a, b) ∨ ∃ t, groupOwns g t = true ∧ groupOwns (k, a, b) t = true) ↔
      ∃ w', World.makeGroup (toKind k) a b w = (w', .ok ())) := by
  have hx : exec (.makeGroup k a b) w = (World.makeGroup (toKind k) a b >>= fun _ => pure Out.unit) w := rfl
  obtain ⟨h1, h2⟩ := C34_after h (op := .makeGroup k a b) ⟨ha, hb, hab⟩
  simp only [Documented, Undocumented, or_false] at h1 h2
  rw [hx] at h1 h2
  cases hm : World.makeGroup (toKind k) a b w with
  | mk w1 r =>
    rw [M.bind_apply, hm] at h1 h2
    cases r with
    | ok u =>
      have := h2.1 ⟨w1, .unit, rfl⟩
      exact ⟨⟨fun hd => absurd hd this, fun he => by cases he⟩, ⟨fun _ => ⟨w1, rfl⟩, fun _ => this⟩⟩
    | error e =>
      by_cases hd : ∃ g ∈ groupsMade tr, g = (k, a, b) ∨ ∃ t, groupOwns g t = true ∧ groupOwns (k, a, b) t = true
      · have := h1.2 hd
        simp only [Prod.mk.injEq, Except.error.injEq] at this
        obtain ⟨rfl, rfl⟩ := this
        exact ⟨⟨fun _ => rfl, fun _ => hd⟩, ⟨fun hn => absurd hd hn, fun ⟨w', he⟩ => by cases he⟩⟩
      · obtain ⟨w', o, he⟩ := h2.2 hd
        cases he

/-- C14, after shared phases: a group just made yields everybody who has both components. -/
theorem C14_after (h : Mixed tr w) {k : SKind} {a b : EntityId} (ha : registered a tr = true) (hb : registered b tr = true)
    (hab : a ≠ b) (hk : k ≠ .non) (he : World.makeGroup (toKind k) a b w = (w', .ok ())) (ma mb : Mode) :
    ∃ l, Yields w' (.group (toKind k) ma mb a b) l ∧ Lists l (fun id => bothOf (lastValue a id tr) (lastValue b id tr)) := by
  have hx : exec (.makeGroup k a b) w = (w', .ok .unit) := by
    show (World.makeGroup (toKind k) a b >>= fun _ => pure Out.unit) w = _
    rw [bind_pure_ok]; exact ⟨(), he, rfl⟩
  have hT : Mixed ((.makeGroup k a b, .unit) :: tr) w' := .ok h ⟨ha, hb, fun _ => hab⟩ hx
  have e : ofKind (toKind k) = k := by cases k <;> rfl
  have hn : toKind k ≠ .non := by cases k <;> simp_all [toKind]
  obtain ⟨l, l1, l2⟩ := C20_after hT (k := toKind k) (ma := ma) (mb := mb) (by rw [e]; simp [madeGroup]) (fun e' => absurd e' hn) (.inl hab)
  refine ⟨l, l1, ?_⟩
  rw [show (fun id => bothOf (lastValue a id tr) (lastValue b id tr)) = _ from funext fun id => ?_]
  · exact l2
  · rw [e]
    simp only [joined, lastValue, if_true, hasBoth]
    cases lastValue a id tr <;> cases lastValue b id tr <;> simp [bothOf]

example := C34_after Demo.mixed (op := .makeGroup .full 3 4) (allowed_iff (by decide +kernel))
example := (C18_after Demo.mixed (k := .full) (a := 3) (b := 4) (by decide +kernel) (by decide +kernel) (by decide)).2.1
  (by rintro ⟨g, hg, hx⟩
      have hgs : g ∈ [((.part, 1, 2) : SKind × TypeId × TypeId), (.non, 3, 4)] := by
        rw [show ([((.part, 1, 2) : SKind × TypeId × TypeId), (.non, 3, 4)]) = groupsMade (Demo.busyLog.map Prod.snd ++ Demo.groupTr) by decide +kernel]; exact hg
      simp only [List.mem_cons, List.not_mem_nil, or_false] at hgs
      rcases hgs with rfl | rfl
      · rcases hx with hx | ⟨t, h1, h2⟩
        · cases hx
        · simp only [groupOwns, beq_iff_eq, Bool.or_eq_true] at h1 h2
          omega
      · rcases hx with hx | ⟨t, h1, _⟩
        · cases hx
        · cases h1)
example : ∃ l, Yields Demo.busyEnd.world (.group .part .ref .mut 1 2) l ∧ (3, .pair (.leaf 61) (.leaf 62)) ∈ l := by
  obtain ⟨l, l1, l2⟩ := C20_after Demo.mixed (k := .part) (a := 1) (b := 2) (ma := .ref) (mb := .mut) (by decide +kernel)
    (by decide) (.inl (by decide))
  exact ⟨l, l1, (l2.2 3 _).2 (by decide +kernel)⟩
example : ∃ w' l, World.makeGroup .full 3 4 Demo.kindEnd.world = (w', .ok ()) ∧ Yields w' (.group .full .ref .mut 3 4) l ∧
    (5, .pair (.leaf 53) (.leaf 54)) ∈ l := by
  have h : (World.makeGroup .full 3 4 Demo.kindEnd.world).2 = .ok () := by decide +kernel
  obtain ⟨l, l1, l2⟩ := C14_after Demo.kindMixed (k := .full) (a := 3) (b := 4) (by decide +kernel) (by decide +kernel) (by decide) (by decide)
    (Prod.ext rfl h) .ref .mut
  exact ⟨_, l, Prod.ext rfl h, l1, (l2.2 5 _).2 (by decide +kernel)⟩
example : (exec (.attach 3 50 7) Demo.busyEnd.world).1 = Demo.busyEnd.world := by
  exact (C33_after Demo.mixed (op := .attach 3 50 (7 : Nat)) (allowed_iff (by decide +kernel)) (e := .panic) (Prod.ext rfl (by decide +kernel))).1

end Xecs
