import Verif.Proofs.Lone
import Verif.Proofs.Reached
import Verif.Proofs.IterState
import Verif.Props.Threads
import Verif.Props.Misc
/-
C45: calls that no other call overlaps. C46: guards kept across calls. C47: iteration ends.
-/
set_option autoImplicit false
namespace Xecs
open Spec World Hist
variable {V : Type} {tr : List (Op V × Out V)} {w w' : World V}

/-! ### C45: calls that no other call overlaps -/

/-- **C45.** Whatever happened before, and however many threads share the world: a call that one thread makes while
the others are between calls does, in the steps of the thread model, exactly what the sequential operations do: it
inevitably returns their results and leaves the world as they do; it panics if and as they do; and it hangs exactly
if they block on themselves. -/
theorem C45_alone (h : Wild tr w) {order : List TypeId} (ho : Enumerates w order) {n i : Nat} (hi : i < n)
    (c : ApiCall V) :
    match c.alone order w with
    | (w', .ok rs) => (Sys.calling (Config.of w order) w n i c []).Inevitably (Config.of w order)
        (Sys.over w' n i c (some rs))
    | (w', .error .deadlock) => (Sys.calling (Config.of w order) w n i c []).Hangs (Config.of w order) i c w'
    | (w', .error _) => (Sys.calling (Config.of w order) w n i c []).Inevitably (Config.of w order)
        (Sys.over w' n i c none) := by
  obtain ⟨T, hd, -⟩ := does_call (matches_of ho) (fun t st hst => wild_tag h hst) c
  have hd : Does (c.prog (Config.of w order)) [] w (c.alone order) [] T (fun rs => .done rs) := hd
  unfold Does at hd
  rcases hx : c.alone order w with ⟨w', r⟩
  rw [hx] at hd
  cases r with
  | ok rs =>
    obtain ⟨T', h1, -⟩ := hd
    exact h1.returns hi
  | error e =>
    cases e with
    | deadlock => exact hd.hangs hi
    | panic => exact hd.over hi
    | ub => exact hd.over hi

/-- A call that creates an entity with two components. -/
def Demo.maker : ApiCall Nat := .create [.attach 1 40, .attach 2 41, .read 1]

theorem Demo.maker_alone : Demo.maker.alone [2, 1, 3] Demo.w =
    ((Demo.maker.alone [2, 1, 3] Demo.w).1, .ok [.id 5, .unit, .unit, .val (some 40)]) :=
  Prod.ext rfl (show (Demo.maker.alone [2, 1, 3] Demo.w).2 = _ by decide +kernel)

example : (Sys.calling Demo.cfg Demo.w 3 1 Demo.maker []).Inevitably Demo.cfg
    (Sys.over (Demo.maker.alone [2, 1, 3] Demo.w).1 3 1 Demo.maker (some [.id 5, .unit, .unit, .val (some 40)])) := by
  have := C45_alone (.of_any Demo.trace.any) Demo.enumerates (n := 3) (i := 1) (by decide) Demo.maker
  rw [Demo.maker_alone] at this
  exact this

/-- A query in conflict with itself. -/
def Demo.clash : ApiCall Nat := .query (.with2 (.comp .mut 1) (.comp .ref 1))

/-- A query in conflict with itself hangs; removing an entity that does not exist panics. -/
example : (Sys.calling Demo.cfg Demo.w 3 1 Demo.clash []).Hangs Demo.cfg 1
    Demo.clash (Demo.clash.alone [2, 1, 3] Demo.w).1 := by
  have := C45_alone (.of_any Demo.trace.any) Demo.enumerates (n := 3) (i := 1) (by decide)
    Demo.clash
  rw [show Demo.clash.alone [2, 1, 3] Demo.w = ((Demo.clash.alone [2, 1, 3] Demo.w).1, .error .deadlock) from
    Prod.ext rfl (show (Demo.clash.alone [2, 1, 3] Demo.w).2 = _ by decide +kernel)] at this
  exact this

example : (Sys.calling Demo.cfg Demo.w 3 1 (.remove 9) []).Inevitably Demo.cfg 
    (Sys.over (ApiCall.alone [2, 1, 3] (.remove 9) Demo.w).1 3 1 (.remove 9) none) := by
  have := C45_alone (.of_any Demo.trace.any) Demo.enumerates (n := 3) (i := 1) (by decide) (.remove 9)
  rw [show ApiCall.alone [2, 1, 3] (.remove 9) Demo.w = ((ApiCall.alone [2, 1, 3] (.remove 9) Demo.w).1, .error .panic) from
    Prod.ext rfl (show (ApiCall.alone [2, 1, 3] (.remove 9) Demo.w).2 = _ by decide +kernel)] at this
  exact this

/-! ### C46: guards kept across calls -/

/-- **C46.** A thread that keeps guards -- an `Entity` handle, a component guard, a query iterator -- while it makes
another call that would return by itself, the other threads being between calls: the call returns its normal results
if the kept guards may coexist with all guards the call takes, and hangs for ever otherwise. -/
theorem C46_kept (h : Reached w) {order : List TypeId} (ho : Enumerates w order) {n i : Nat}
    (hi : i < n) {c : ApiCall V} {rs : List (Ret V)} (hc : c.alone order w = (w', .ok rs)) (kept : List Guard) :
    ((∀ g ∈ c.needs (Config.of w order) w, g.fits kept) →
      (Sys.calling (Config.of w order) w n i c kept).Inevitably (Config.of w order) (Sys.over w' n i c (some rs))) ∧
    ((∃ g ∈ c.needs (Config.of w order) w, ¬ g.fits kept) →
      ∃ w'', (Sys.calling (Config.of w order) w n i c kept).Hangs (Config.of w order) i c w'') := by
  obtain ⟨T, hd, hT⟩ := does_call (matches_of ho) (fun t st hst => (h.fit.st t st hst).1) c
  have hd : Does (c.prog (Config.of w order)) [] w (c.alone order) [] T (fun rs => .done rs) := hd
  have hT := hT (fun t st hst => (h.fit.st t st hst).2) w' rs hc
  unfold Does at hd
  rw [hc] at hd
  obtain ⟨T', h1, h2⟩ := hd
  constructor
  · intro hf
    exact (h1.keep (K := kept) fun g hg => hf g ((hT g).1 ((h2 g).1 hg))).returns hi
  · rintro ⟨g, hg, hf⟩
    obtain ⟨T1, l, m, p1, H1, w1, h3, h4⟩ := h1.clash (K := kept) fun hh => hf (hh g ((h2 g).2 ((hT g).2 hg)))
    exact ⟨w1, Stuck.hangs hi ⟨T1, l, m, p1, H1, h3, h4⟩⟩

/-- **C46**: while a thread keeps an `Entity` or `Entities` handle, it can create entities no more: the call hangs,
having done nothing. -/
theorem C46_create (w : World V) (cfg : Config) {n i : Nat} (hi : i < n) {c : ApiCall V}
    (hc : (∃ script, c = .create script) ∨ ∃ k bs, c = .createMany k bs) {kept : List Guard} (hk : (Lock.em, Mode.ref) ∈ kept) :
    (Sys.calling cfg w n i c kept).Hangs cfg i c w := by
  have hf : ¬ Guard.fits (Lock.em, Mode.mut) kept := fun hf => hf _ hk ⟨rfl, .inl rfl⟩
  rcases hc with ⟨script, rfl⟩ | ⟨k, bs, rfl⟩
  · exact Stuck.hangs hi ⟨[], .em, .mut, _, _, .refl, hf⟩
  · exact Stuck.hangs hi ⟨[], .em, .mut, _, _, .refl, hf⟩

/-- **C46**: while a thread keeps a handle, it cannot remove entities either: removing one hangs. -/
theorem C46_remove (h : Reached w) {order : List TypeId} (ho : Enumerates w order) {n i : Nat}
    (hi : i < n) {id : EntityId} {rs : List (Ret V)} (hc : (ApiCall.remove id).alone order w = (w', .ok rs))
    {kept : List Guard} (hk : (Lock.em, Mode.ref) ∈ kept) :
    ∃ w'', (Sys.calling (Config.of w order) w n i (.remove id) kept).Hangs (Config.of w order) i (.remove id) w'' :=
  (C46_kept h ho hi hc kept).2 ⟨(.em, .mut), by simp [ApiCall.needs], fun hf => hf _ hk ⟨rfl, .inl rfl⟩⟩

/-- Keeping a read guard on one storage while creating an entity with another component is fine; keeping one on a
storage of the group that the new component may enter is not. -/
example : (Sys.calling Demo.cfg Demo.w 3 1 Demo.maker [(.store 3, .ref)]).Inevitably Demo.cfg
    (Sys.over (Demo.maker.alone [2, 1, 3] Demo.w).1 3 1 Demo.maker (some [.id 5, .unit, .unit, .val (some 40)])) :=
  (C46_kept (.of_any Demo.trace.any Demo.trace.live.1) Demo.enumerates (by decide) Demo.maker_alone _).1
    (by unfold Guard.fits; decide +kernel)

example : ∃ w'', (Sys.calling Demo.cfg Demo.w 3 1 Demo.maker [(.store 2, .ref)]).Hangs Demo.cfg 1 Demo.maker w'' :=
  (C46_kept (.of_any Demo.trace.any Demo.trace.live.1) Demo.enumerates (by decide) Demo.maker_alone _).2
    ⟨(.store 2, .mut), by decide +kernel, by unfold Guard.fits; decide +kernel⟩

example : (Sys.calling Demo.cfg Demo.w 3 1 (.create []) [(.em, .ref)]).Hangs Demo.cfg 1 (.create []) Demo.w :=
  C46_create _ _ (by decide) (.inl ⟨_, rfl⟩) (by simp)

example : ∃ w'', (Sys.calling Demo.cfg Demo.w 3 1 (.remove 2) [(.em, .ref)]).Hangs Demo.cfg 1 (.remove 2) w'' :=
  C46_remove (.of_any Demo.trace.any Demo.trace.live.1) Demo.enumerates (by decide)
    (show ApiCall.alone [2, 1, 3] (.remove 2) Demo.w = (_, .ok [.unit]) from
      Prod.ext rfl (show (ApiCall.alone [2, 1, 3] (.remove 2) Demo.w).2 = _ by decide +kernel)) (by simp)

/-! ### C47: iteration ends -/

/-- **C47.** In every world whatsoever, however a query iterator is used -- any sequence of `next`, `next_with_id` and
`from_id` --, no call on it runs for ever, and altogether it yields no more items than some number fixed when the
query was started. -/
theorem C47_ends (w : World V) {q : Query} {it : Iter} (h : w.iter q = .ok it) :
    ∃ N, ∀ cs, it.session w cs ≠ .error .deadlock ∧
      ∀ rs it', it.session w cs = .ok (rs, it') → (rs.filter Reply.yields).length ≤ N := by
  unfold World.iter at h
  obtain ⟨⟨p, hd⟩, -, h⟩ := bindR_ok h
  cases h
  refine ⟨p.remaining w 0, fun cs => ?_⟩
  have e := Iter.session_eq w p cs p.start (Plan.start_fits p)
  rw [Plan.lead_start] at e
  obtain ⟨h1, h2⟩ := Plan.session_fuel (w := w) p cs 0
  constructor
  · show Calm (Iter.session w ⟨p, p.start⟩ cs)
    rw [e]
    exact calm_bind h1 fun _ _ => calm_ok _
  · intro rs it' hs
    have hs : Iter.session w ⟨p, p.start⟩ cs = _ := hs
    rw [e] at hs
    obtain ⟨⟨rs', j⟩, h3, h4⟩ := bindR_ok hs
    cases h4
    have := h2 _ _ h3
    omega

/-- **C47**, for `collect()`: it ends, in every world, unless starting the query blocks. -/
theorem C47_collect (w : World V) {q : Query} (h : w.query q ≠ .error .deadlock) : w.queryAll q ≠ .error .deadlock := by
  unfold World.queryAll
  cases hq : w.query q with
  | error e => rw [hq] at h; exact fun hh => h (by simpa using hh)
  | ok r =>
    simp only [ok_bind]
    exact Plan.calm_collectFrom r.1 _ 0 (by omega)

/-- Also in a world in which the storages and groups are in disarray. -/
example : ∃ it, Demo.wildW.iter (.withoutL (.comp .ref 1) (.comp .ref 2)) = .ok it ∧
    ∃ N, ∀ cs, it.session Demo.wildW cs ≠ .error .deadlock ∧
      ∀ rs it', it.session Demo.wildW cs = .ok (rs, it') → (rs.filter Reply.yields).length ≤ N := by
  cases h : Demo.wildW.iter (.withoutL (.comp .ref 1) (.comp .ref 2)) with
  | ok it => exact ⟨it, rfl, C47_ends _ h⟩
  | error e =>
    have : (Demo.wildW.iter (.withoutL (.comp .ref 1) (.comp .ref 2))).isOk = true := by decide +kernel
    rw [h] at this
    cases this

example : Demo.wildW.queryAll (.with2 (.comp .ref 1) (.comp .ref 2)) ≠ .error .deadlock :=
  C47_collect _ (by decide +kernel)

end Xecs
