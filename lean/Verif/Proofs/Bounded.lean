import Verif.Spec.Bounded
import Verif.Proofs.Deadlock
import Verif.Proofs.KeepingDrain
import Verif.Proofs.Schedule
import Verif.Proofs.KeepingPlay
/-
How many steps a call takes.
-/
set_option autoImplicit false
namespace Xecs
variable {V : Type}

/-- The program ends within `n` steps, the end being one of them. -/
inductive Prog.Within : Nat → Prog V → Prop
  | done {n : Nat} (rs : List (Ret V)) : Within (n + 1) (.done rs)
  | panic {n : Nat} : Within (n + 1) .panic
  | acq {n : Nat} {l : Lock} {m : Mode} {p : Prog V} : Within n p → Within (n + 1) (.acq l m p)
  | rel {n : Nat} {l : Lock} {m : Mode} {p : Prog V} : Within n p → Within (n + 1) (.rel l m p)
  | act {n : Nat} {a : Act V} {f : Ret V → Prog V} : (∀ r, Within n (f r)) → Within (n + 1) (.act a f)

namespace Prog.Within

theorem mono {n : Nat} {p : Prog V} (h : p.Within n) : ∀ {k : Nat}, n ≤ k → p.Within k := by
  induction h with
  | done rs => intro k hk; obtain ⟨k, rfl⟩ : ∃ j, k = j + 1 := ⟨k - 1, by omega⟩; exact .done _
  | panic => intro k hk; obtain ⟨k, rfl⟩ : ∃ j, k = j + 1 := ⟨k - 1, by omega⟩; exact .panic
  | acq _ ih => intro k hk; obtain ⟨k, rfl⟩ : ∃ j, k = j + 1 := ⟨k - 1, by omega⟩; exact .acq (ih (by omega))
  | rel _ ih => intro k hk; obtain ⟨k, rfl⟩ : ∃ j, k = j + 1 := ⟨k - 1, by omega⟩; exact .rel (ih (by omega))
  | act _ ih => intro k hk; obtain ⟨k, rfl⟩ : ∃ j, k = j + 1 := ⟨k - 1, by omega⟩; exact .act fun r => ih r (by omega)

theorem pos {n : Nat} {p : Prog V} (h : p.Within n) : 1 ≤ n := by cases h <;> omega

theorem next {n : Nat} {p q : Prog V} (h : q.Within n) (ha : p.After q) : ∃ m, n = m + 1 ∧ p.Within m := by
  cases ha with
  | acq => cases h with | acq h => exact ⟨_, rfl, h⟩
  | rel => cases h with | rel h => exact ⟨_, rfl, h⟩
  | act r e => cases h with | act h => exact ⟨_, rfl, e ▸ h r⟩

variable {cfg : Config} {n : Nat}

theorem store {t : Nat} {m : Mode} {p : Prog V} (h : p.Within n) : (Prog.store cfg t m p).Within (n + 1) := by
  unfold Prog.store
  split
  · exact .acq h
  · exact .panic

theorem lockGroups {t : Nat} {p : Prog V} (h : p.Within n) : ∀ l : List (Nat × Shape),
    (Prog.lockGroups t l p).Within (n + 3 * l.length)
  | [] => h
  | (k, g) :: l => by
    have ih := lockGroups (t := t) h l
    simp only [Prog.lockGroups]
    refine mono (.acq (.rel (n := n + 3 * l.length + 1) ?_)) (k := n + 3 * (l.length + 1)) (by omega)
    split
    · exact .acq ih
    · exact ih.mono (by omega)

theorem groupLoop {a : Nat → Act V} {p : Prog V} (h : p.Within n) : ∀ l : List (Nat × Shape),
    (Prog.groupLoop cfg a l p).Within (n + 6 * l.length)
  | [] => h
  | (k, g) :: l => by
    have ih := groupLoop (a := a) h l
    simp only [Prog.groupLoop, Prog.groupStep]
    exact mono (store (store (.act fun _ => .rel (.rel (.rel ih))))) (k := n + 6 * (l.length + 1)) (by omega)

theorem indexed_length : cfg.indexed.length = cfg.groups.length := by simp [Config.indexed]

theorem touching_length (t : Nat) : (Prog.touching cfg t).length ≤ cfg.groups.length := by
  rw [← indexed_length]; exact List.length_filter_le _ _

theorem attach {id t : Nat} {v : V} {p : Prog V} (h : p.Within n) :
    (Prog.attach cfg id t v p).Within (n + (3 + 9 * cfg.groups.length)) := by
  unfold Prog.attach
  have := touching_length (cfg := cfg) t
  have := indexed_length (cfg := cfg)
  split
  · exact mono (.acq (.act fun _ => .rel (lockGroups (groupLoop h _) _))) (by omega)
  · exact mono (n := 1) .panic (by omega)

theorem detach {id t : Nat} {p : Ret V → Prog V} (h : ∀ r, (p r).Within n) :
    (Prog.detach cfg id t p).Within (n + (3 + 9 * cfg.groups.length)) := by
  unfold Prog.detach
  have := touching_length (cfg := cfg) t
  have := indexed_length (cfg := cfg)
  split
  · exact mono (lockGroups (groupLoop (.acq (.act fun r => .rel (h r))) _) _) (by omega)
  · exact mono (n := 1) .panic (by omega)

theorem read {id t : Nat} {p : Ret V → Prog V} (h : ∀ r, (p r).Within n) : (Prog.read cfg t id p).Within (n + 3) := by
  unfold Prog.read
  split
  · exact .acq (.act fun r => .rel (h r))
  · exact (h _).mono (by omega)

theorem write {id t : Nat} {v : V} {p : Ret V → Prog V} (h : ∀ r, (p r).Within n) :
    (Prog.write cfg t id v p).Within (n + 3) := by
  unfold Prog.write
  split
  · exact .acq (.act fun r => .rel (h r))
  · exact (h _).mono (by omega)

theorem script {id : Nat} {p : List (Ret V) → Prog V} (h : ∀ rs, (p rs).Within n) : ∀ (l : List (HOp V)) (acc : List (Ret V)),
    (Prog.script cfg id l acc p).Within (n + (l.map (HOp.cost cfg.groups.length)).sum)
  | [], acc => h acc
  | .attach t v :: l, acc => by
    simp only [Prog.script, List.map_cons, List.sum_cons, HOp.cost]
    exact mono (attach (script h l _)) (by omega)
  | .detach t :: l, acc => by
    simp only [Prog.script, List.map_cons, List.sum_cons, HOp.cost]
    exact mono (detach fun r => script h l _) (by omega)
  | .read t :: l, acc => by
    simp only [Prog.script, List.map_cons, List.sum_cons, HOp.cost]
    exact mono (read fun r => script h l _) (by omega)
  | .write t v :: l, acc => by
    simp only [Prog.script, List.map_cons, List.sum_cons, HOp.cost]
    exact mono (write fun r => script h l _) (by omega)

theorem handle {id : Nat} (l : List (HOp V)) (acc : List (Ret V)) :
    (Prog.handle cfg id l acc).Within (4 + (l.map (HOp.cost cfg.groups.length)).sum) := by
  unfold Prog.handle
  refine mono (.acq (.act (n := 2 + (l.map (HOp.cost cfg.groups.length)).sum) fun r => ?_)) (by omega)
  split
  · exact script (n := 2) (fun rs => .rel (.done rs)) l acc
  · exact mono (n := 1) .panic (by omega)

theorem batches {start stop : Nat} {p : Prog V} (h : p.Within n) (hn : 1 ≤ n) : ∀ l : List (Nat × List V),
    (Prog.batches cfg start stop l p).Within (n + 3 * l.length)
  | [] => h
  | (t, vs) :: l => by
    simp only [Prog.batches]
    split
    · exact mono (store (.act fun _ => .rel (batches h hn l))) (k := n + 3 * (l.length + 1)) (by omega)
    · exact mono (n := 1) .panic (by omega)

theorem scanGroups {id m : Nat} {p : List (Nat × Shape) → Prog V} : ∀ (l acc : List (Nat × Shape)),
    (∀ gs, gs.length ≤ acc.length + l.length → (p gs).Within m) → (Prog.scanGroups cfg id l acc p).Within (m + 8 * l.length)
  | [], acc, h => h acc (by simp)
  | (k, g) :: l, acc, h => by
    simp only [Prog.scanGroups]
    refine mono (.acq (store (store (.act fun r => .rel (.rel (.rel (n := m + 8 * l.length + 1) ?_))))))
      (k := m + 8 * (l.length + 1)) (by omega)
    split
    · exact .acq (scanGroups l _ fun gs hg => h gs (by simp at hg ⊢; omega))
    · exact mono (scanGroups l _ fun gs hg => h gs (by simp at hg ⊢; omega)) (by omega)

theorem scanStores {id m : Nat} {p : List Nat → Prog V} : ∀ (l acc : List Nat),
    (∀ ts, ts.length ≤ acc.length + l.length → (p ts).Within m) → (Prog.scanStores id l acc p).Within (m + 4 * l.length)
  | [], acc, h => h acc (by simp)
  | t :: l, acc, h => by
    simp only [Prog.scanStores]
    refine mono (.acq (.act fun r => .rel (n := m + 4 * l.length + 1) ?_)) (k := m + 4 * (l.length + 1)) (by omega)
    split
    · exact .acq (scanStores l _ fun gs hg => h gs (by simp at hg ⊢; omega))
    · exact mono (scanStores l _ fun gs hg => h gs (by simp at hg ⊢; omega)) (by omega)

theorem eraseStores {id : Nat} {p : Prog V} (h : p.Within n) : ∀ l : List Nat,
    (Prog.eraseStores id l p).Within (n + 2 * l.length)
  | [] => h
  | t :: l => by
    simp only [Prog.eraseStores]
    exact mono (.act fun _ => .rel (eraseStores h l)) (k := n + 2 * (l.length + 1)) (by omega)

theorem remove {id : Nat} :
    (Prog.remove (V := V) cfg id).Within (7 + 14 * cfg.groups.length + 6 * cfg.order.length) := by
  unfold Prog.remove
  refine mono (.acq (.act (n := 5 + 14 * cfg.groups.length + 6 * cfg.order.length) fun r => ?_)) (by omega)
  split
  · refine mono (.rel (n := 4 + 14 * cfg.groups.length + 6 * cfg.order.length) ?_) (by omega)
    refine mono (scanGroups (m := 4 + 6 * cfg.order.length + 6 * cfg.groups.length) _ _ fun gs hg => ?_)
      (by rw [indexed_length]; omega)
    rw [indexed_length] at hg
    simp only [List.length_nil, Nat.zero_add] at hg
    refine mono (groupLoop (n := 4 + 6 * cfg.order.length) ?_ gs) (by omega)
    refine mono (scanStores (m := 4 + 2 * cfg.order.length) _ _ fun ts ht => ?_) (by omega)
    simp only [List.length_nil, Nat.zero_add] at ht
    exact mono (eraseStores (n := 4) (.acq (.act fun _ => .rel (.done _))) ts) (by omega)
  · exact mono (n := 1) .panic (by omega)

theorem visitGroups {p : Prog V} (h : p.Within n) : ∀ l : List Nat, (Prog.visitGroups l p).Within (n + 2 * l.length)
  | [] => h
  | k :: l => by
    simp only [Prog.visitGroups]
    exact mono (.acq (.rel (visitGroups h l))) (k := n + 2 * (l.length + 1)) (by omega)

theorem releaseAll {p : Prog V} (h : p.Within n) : ∀ l : List Guard, (Prog.releaseAll l p).Within (n + l.length)
  | [] => h
  | (l, m) :: gs => by
    simp only [Prog.releaseAll]
    exact mono (.rel (releaseAll h gs)) (k := n + (gs.length + 1)) (by omega)

theorem position_lt {g : Shape} {pos : Nat} (h : Prog.position cfg g = some pos) : pos < cfg.groups.length := by
  unfold Prog.position at h
  exact (List.findIdx?_eq_some_iff_findIdx_eq.1 h).1

/-- Opening a query takes at most as many steps as there are left of its cost once its guards will have been given up. -/
theorem openQuery : ∀ (q : Query) {n : Nat} {p : Prog V}, p.Within n → 1 ≤ n →
    ∃ k, k + (Prog.queryGuards cfg q).length ≤ q.cost cfg.groups.length ∧ (Prog.openQuery cfg q p).Within (n + k)
  | .comp m t, n, p, h, hn => ⟨1, by simp [Prog.queryGuards, Query.cost], store h⟩
  | .with2 a b, n, p, h, hn => by
    obtain ⟨k1, e1, h1⟩ := openQuery b h hn
    obtain ⟨k2, e2, h2⟩ := openQuery a h1 (by omega)
    exact ⟨k1 + k2, by simp only [Prog.queryGuards, Query.cost, List.length_append]; omega, mono h2 (by omega)⟩
  | .with3 a b c, n, p, h, hn => by
    obtain ⟨k0, e0, h0⟩ := openQuery c h hn
    obtain ⟨k1, e1, h1⟩ := openQuery b h0 (by omega)
    obtain ⟨k2, e2, h2⟩ := openQuery a h1 (by omega)
    exact ⟨k0 + k1 + k2, by simp only [Prog.queryGuards, Query.cost, List.length_append]; omega, mono h2 (by omega)⟩
  | .with4 a b c d, n, p, h, hn => by
    obtain ⟨k4, e4, h4⟩ := openQuery d h hn
    obtain ⟨k0, e0, h0⟩ := openQuery c h4 (by omega)
    obtain ⟨k1, e1, h1⟩ := openQuery b h0 (by omega)
    obtain ⟨k2, e2, h2⟩ := openQuery a h1 (by omega)
    exact ⟨k4 + k0 + k1 + k2, by simp only [Prog.queryGuards, Query.cost, List.length_append]; omega, mono h2 (by omega)⟩
  | .with5 a b c d e, n, p, h, hn => by
    obtain ⟨k5, e5, h5⟩ := openQuery e h hn
    obtain ⟨k4, e4, h4⟩ := openQuery d h5 (by omega)
    obtain ⟨k0, e0, h0⟩ := openQuery c h4 (by omega)
    obtain ⟨k1, e1, h1⟩ := openQuery b h0 (by omega)
    obtain ⟨k2, e2, h2⟩ := openQuery a h1 (by omega)
    exact ⟨k5 + k4 + k0 + k1 + k2, by simp only [Prog.queryGuards, Query.cost, List.length_append]; omega,
      mono h2 (by omega)⟩
  | .withoutL a b, n, p, h, hn => by
    obtain ⟨k1, e1, h1⟩ := openQuery b h hn
    obtain ⟨k2, e2, h2⟩ := openQuery a h1 (by omega)
    exact ⟨k1 + k2, by simp only [Prog.queryGuards, Query.cost, List.length_append]; omega, mono h2 (by omega)⟩
  | .withoutR a b, n, p, h, hn => by
    obtain ⟨k1, e1, h1⟩ := openQuery b h hn
    obtain ⟨k2, e2, h2⟩ := openQuery a h1 (by omega)
    exact ⟨k1 + k2, by simp only [Prog.queryGuards, Query.cost, List.length_append]; omega, mono h2 (by omega)⟩
  | .group k ma mb a b, n, p, h, hn => by
    refine ⟨3 + 4 * cfg.groups.length, ?_, ?_⟩
    · simp only [Prog.queryGuards, Query.cost, List.length_append, List.length_cons, List.length_nil]
      split <;> simp <;> omega
    · simp only [Prog.openQuery]
      split
      · refine mono (store (store (n := n + (1 + 4 * cfg.groups.length)) ?_)) (by omega)
        split
        · rename_i pos hp
          have := position_lt hp
          exact mono (visitGroups (visitGroups (.acq h) _) _) (by simp only [List.length_range]; omega)
        · exact mono (visitGroups (n := 1) .panic _) (by simp only [List.length_range]; omega)
      · exact mono (n := 1) .panic (by omega)

theorem ask {q : Query} {f : Ret V → Prog V} (h : ∀ r, (f r).Within (n + (Prog.queryGuards cfg q).length)) :
    (Prog.openQuery cfg q (.act (.collect q) f)).Within (n + 1 + q.cost cfg.groups.length) := by
  obtain ⟨k, e, h'⟩ := openQuery (cfg := cfg) q (.act (a := .collect q) h) (by omega)
  exact mono h' (by omega)

end Prog.Within

open Prog.Within in
theorem ApiCall.within (cfg : Config) (c : ApiCall V) : ∃ n, c.cost cfg = n + 1 ∧ (c.prog cfg).Within n := by
  cases c with
  | create script =>
    refine ⟨7 + (script.map (HOp.cost cfg.groups.length)).sum, by simp only [ApiCall.cost]; omega, ?_⟩
    unfold ApiCall.prog
    refine mono (.acq (.act (n := 5 + (script.map (HOp.cost cfg.groups.length)).sum) fun r => ?_)) (by omega)
    split
    · exact mono (.rel (handle script _)) (by omega)
    · exact mono (n := 1) .panic (by omega)
  | on id script => exact ⟨_, by simp only [ApiCall.cost]; omega, handle script []⟩
  | createMany n batches =>
    refine ⟨6 + 3 * batches.length, by simp only [ApiCall.cost]; omega, ?_⟩
    unfold ApiCall.prog
    refine mono (.acq (.act (n := 4 + 3 * batches.length) fun r => ?_)) (by omega)
    split
    · exact mono (.rel (.acq (Prog.Within.batches (n := 2) (.rel (.done _)) (by omega) batches))) (by omega)
    · exact mono (n := 1) .panic (by omega)
  | fill start stop batches =>
    refine ⟨3 + 3 * batches.length, by simp only [ApiCall.cost]; omega, ?_⟩
    exact mono (.acq (Prog.Within.batches (n := 2) (.rel (.done _)) (by omega) batches)) (by omega)
  | remove id => exact ⟨_, by simp only [ApiCall.cost]; omega, Prog.Within.remove⟩
  | exist id => exact ⟨4, rfl, .acq (.act fun r => .rel (.done _))⟩
  | read t id => exact ⟨4, rfl, Prog.Within.read (n := 1) fun r => .done _⟩
  | write t id v => exact ⟨4, rfl, Prog.Within.write (n := 1) fun r => .done _⟩
  | count t =>
    refine ⟨4, rfl, ?_⟩
    unfold ApiCall.prog
    dsimp only
    split
    · exact .acq (.act fun r => .rel (.done _))
    · exact .done _
  | resRead t =>
    refine ⟨4, rfl, ?_⟩
    unfold ApiCall.prog
    dsimp only
    split
    · exact .acq (.act fun r => .rel (.done _))
    · exact .done _
  | resWrite t v =>
    refine ⟨4, rfl, ?_⟩
    unfold ApiCall.prog
    dsimp only
    split
    · exact .acq (.act fun r => .rel (.done _))
    · exact .done _
  | query q =>
    refine ⟨2 + q.cost cfg.groups.length, by simp only [ApiCall.cost]; omega, ?_⟩
    exact mono (ask (n := 1) fun r => releaseAll (.done _) _) (by omega)

open Prog.Within in
theorem KCall.within (cfg : Config) (c : KCall V) : ∃ n, c.cost cfg = n + 1 ∧ (c.prog cfg).Within n := by
  have two : ∀ {b : Bool} {a : Act V} {r0 : List (Ret V)},
      (if b = true then Prog.act a fun r => .done [r] else .done r0 : Prog V).Within 2 := by
    intro b a r0
    split
    · exact .act fun r => .done _
    · exact .done _
  have two' : ∀ {b : Bool} {l : Lock} {m : Mode} {r r0 : List (Ret V)},
      (if b = true then Prog.acq l m (.done r) else .done r0 : Prog V).Within 2 := by
    intro b l m r r0
    split
    · exact .acq (.done _)
    · exact .done _
  cases c with
  | call c => exact c.within cfg
  | openHandle id =>
    refine ⟨3, rfl, .acq (.act fun r => ?_)⟩
    split
    · exact .done _
    · exact .panic
  | createHandle =>
    refine ⟨6, rfl, .acq (.act fun r => ?_)⟩
    split
    · refine .rel (.acq (.act fun r => ?_))
      split
      · exact .done _
      · exact .panic
    · exact .panic
  | createHandles n batches =>
    refine ⟨5 + 3 * batches.length, by simp only [KCall.cost]; omega, ?_⟩
    unfold KCall.prog
    refine mono (.acq (.act (n := 3 + 3 * batches.length) fun r => ?_)) (by omega)
    split
    · exact mono (.rel (.acq (Prog.Within.batches (n := 1) (.done _) (by omega) batches))) (by omega)
    · exact mono (n := 1) .panic (by omega)
  | openStore t m => exact ⟨2, rfl, two'⟩
  | openView q =>
    refine ⟨2 + q.cost cfg.groups.length, by simp only [KCall.cost]; omega, ?_⟩
    exact mono (ask (n := 1) fun r => mono (n := 1) (.done _) (by omega)) (by omega)
  | openRes t m => exact ⟨2, rfl, two'⟩
  | viaHandle id l =>
    exact ⟨1 + (l.map (HOp.cost cfg.groups.length)).sum, by simp only [KCall.cost]; omega,
      Prog.Within.script (n := 1) (fun rs => .done rs) l []⟩
  | viaHandles start stop batches =>
    exact ⟨1 + 3 * batches.length, by simp only [KCall.cost]; omega,
      Prog.Within.batches (n := 1) (.done _) (by omega) batches⟩
  | storeGet t id => exact ⟨2, rfl, two⟩
  | storeSet t id v => exact ⟨2, rfl, two⟩
  | storeLen t => exact ⟨2, rfl, two⟩
  | resGet t => exact ⟨2, rfl, two⟩
  | resSet t v => exact ⟨2, rfl, two⟩
  | drop k => exact ⟨1 + (k.guards cfg).length, by simp only [KCall.cost]; omega, releaseAll (.done _) _⟩

/-! ### Steps of one thread -/

theorem Prog.After.ne {p q : Prog V} (h : p.After q) : p ≠ q := by
  have key : ∀ q : Prog V, Acc Prog.After q → ¬ Prog.After q q := by
    intro q hq
    induction hq with
    | intro q _ ih => exact fun h => ih q h h
  exact fun e => key q (Prog.After.acc q) (e ▸ h)

/-- What a step of a thread does: `x`, `x'` are its call and program before and after, `l`, `l'` the calls it has finished. -/
inductive Beat {C : Type} (prog : C → Prog V) : Option C × Prog V → Option C × Prog V → List C → List C → Prop
  | start {p : Prog V} {c : C} {l : List C} : Beat prog (none, p) (some c, prog c) l l
  | go {p q : Prog V} {c : Option C} {l : List C} : p.After q → Beat prog (c, q) (c, p) l l
  | fin {p : Prog V} {c : C} {rs : List (Ret V)} {l : List C} : Beat prog (some c, p) (none, .done rs) l (c :: l)

/-- A thread that has made `b` steps, with cost `own` of the calls finished, has not made too many. -/
def Fair {C : Type} (cost : C → Nat) (b own : Nat) (x : Option C × Prog V) : Prop :=
  match x.1 with
  | none => (∃ rs, x.2 = .done rs) ∧ b ≤ own
  | some c => ∃ m, x.2.Within m ∧ m ≤ cost c ∧ b + m ≤ own + cost c

theorem Fair.beat {C : Type} {prog : C → Prog V} {cost : C → Nat} (hw : ∀ c, ∃ n, cost c = n + 1 ∧ (prog c).Within n)
    {b : Nat} {x x' : Option C × Prog V} {l l' : List C} (h : Fair cost b (l.map cost).sum x) (hb : Beat prog x x' l l') :
    Fair cost (b + 1) (l'.map cost).sum x' := by
  cases hb with
  | start =>
    rename_i p c
    obtain ⟨n, e, hn⟩ := hw c
    have : b ≤ (l.map cost).sum := h.2
    exact ⟨n, hn, by omega, by omega⟩
  | go ha =>
    rename_i p q c
    cases c with
    | none =>
      obtain ⟨⟨rs, e⟩, _⟩ := h
      dsimp only at e
      subst e
      cases ha
    | some c =>
      obtain ⟨m, hm, hc, hb⟩ := h
      obtain ⟨k, rfl, hk⟩ := hm.next ha
      exact ⟨k, hk, by omega, by omega⟩
  | fin =>
    rename_i p c rs
    obtain ⟨m, hm, _, hb⟩ := h
    have := hm.pos
    refine ⟨⟨rs, rfl⟩, ?_⟩
    simp only [List.map_cons, List.sum_cons]
    omega

/-! ### Both kinds of systems -/

/-- What the two kinds of systems have in common: what is seen of thread `i`, its finished calls, and steps. -/
structure Machine (V S C T : Type) where
  threads : S → List T
  view : T → Option C × Prog V
  log : S → List (Nat × C × Option (List (Ret V)))
  step : S → S → Prop
  prog : C → Prog V
  cost : C → Nat
  within : ∀ c, ∃ n, cost c = n + 1 ∧ (prog c).Within n
  beat : ∀ s s', step s s' → ∃ (i : Nat) (t t' : T), (threads s)[i]? = some t ∧ threads s' = (threads s).set i t' ∧ t' ≠ t ∧
    ((log s' = log s ∧ ∀ l, Beat prog (view t) (view t') l l) ∨
      ∃ c r, log s' = (i, c, r) :: log s ∧ ∀ l, Beat prog (view t) (view t') l (c :: l))

namespace Machine
variable {S C T : Type} (M : Machine V S C T)

/-- The finished calls of thread `i`. -/
def own (s : S) (i : Nat) : List C := ((M.log s).filter fun x => x.1 == i).map fun x => x.2.1

/-- The call of thread `i`. -/
def call (s : S) (i : Nat) : Option C := (M.threads s)[i]?.bind fun t => (M.view t).1

theorem moves {s s' : S} (h : M.step s s') : ∃ i, i < (M.threads s).length ∧
    (M.threads s')[i]? ≠ (M.threads s)[i]? ∧ ∀ j, j ≠ i → (M.threads s')[j]? = (M.threads s)[j]? := by
  obtain ⟨i, t, t', h1, h2, h3, _⟩ := M.beat s s' h
  have hlt : i < (M.threads s).length := (List.getElem?_eq_some_iff.1 h1).1
  refine ⟨i, hlt, ?_, fun j hj => ?_⟩
  · rw [h2, h1, List.getElem?_set_self hlt]
    exact fun e => h3 (Option.some.inj e)
  · rw [h2, List.getElem?_set_ne (Ne.symm hj)]

theorem length {s s' : S} (h : M.step s s') : (M.threads s').length = (M.threads s).length := by
  obtain ⟨i, t, t', h1, h2, h3, _⟩ := M.beat s s' h
  rw [h2, List.length_set]

/-- Whoever is not as before has made the step. -/
theorem mine {s s' : S} (h : M.step s s') {i : Nat} (hi : (M.threads s')[i]? ≠ (M.threads s)[i]?) :
    ∃ (t t' : T), (M.threads s)[i]? = some t ∧ (M.threads s')[i]? = some t' ∧
      (∀ j, j ≠ i → (M.threads s')[j]? = (M.threads s)[j]?) ∧
      ((M.log s' = M.log s ∧ ∀ l, Beat M.prog (M.view t) (M.view t') l l) ∨
      ∃ c r, M.log s' = (i, c, r) :: M.log s ∧ ∀ l, Beat M.prog (M.view t) (M.view t') l (c :: l)) := by
  obtain ⟨k, t, t', h1, h2, h3, h4⟩ := M.beat s s' h
  have hlt : k < (M.threads s).length := (List.getElem?_eq_some_iff.1 h1).1
  have : i = k := Classical.byContradiction fun hne => hi (by rw [h2, List.getElem?_set_ne (Ne.symm hne)])
  subst this
  exact ⟨t, t', h1, by rw [h2, List.getElem?_set_self hlt], fun j hj => by rw [h2, List.getElem?_set_ne (Ne.symm hj)], h4⟩

theorem own_other {s s' : S} {i j : Nat} {c : C} {r : Option (List (Ret V))}
    (h : M.log s' = (i, c, r) :: M.log s) (hj : j ≠ i) : M.own s' j = M.own s j := by
  have : ¬ (i == j) = true := by simpa using Ne.symm hj
  simp only [own, h, List.filter_cons, this, if_false, Bool.false_eq_true]

theorem own_self {s s' : S} {i : Nat} {c : C} {r : Option (List (Ret V))}
    (h : M.log s' = (i, c, r) :: M.log s) : M.own s' i = c :: M.own s i := by
  simp [own, h]

theorem own_same {s s' : S} {i : Nat} (h : M.log s' = M.log s) : M.own s' i = M.own s i := by
  simp only [own, h]

/-- All threads, `b i` steps having been made by thread `i`. -/
def AllFair (b : Nat → Nat) (s : S) : Prop :=
  ∀ (i : Nat) (t : T), (M.threads s)[i]? = some t → Fair M.cost (b i) ((M.own s i).map M.cost).sum (M.view t)

variable {M}

theorem AllFair.step {b : Nat → Nat} {s s' : S} (h : M.AllFair b s) (hs : M.step s s') {i : Nat}
    (hi : (M.threads s')[i]? ≠ (M.threads s)[i]?) : M.AllFair (fun j => if j = i then b j + 1 else b j) s' := by
  obtain ⟨t, t', h1, h2, h3, h4⟩ := M.mine hs hi
  intro j u hu
  by_cases hj : j = i
  · subst hj
    rw [h2] at hu; cases hu
    simp only [if_true]
    rcases h4 with ⟨e, hb⟩ | ⟨c, r, e, hb⟩
    · rw [M.own_same e]
      exact (h j t h1).beat M.within (hb _)
    · rw [M.own_self e]
      exact (h j t h1).beat M.within (hb _)
  · simp only [hj, if_false]
    rw [h3 j hj] at hu
    have := h j u hu
    rcases h4 with ⟨e, hb⟩ | ⟨c, r, e, hb⟩
    · rw [M.own_same e]; exact this
    · rw [M.own_other e hj]; exact this

theorem AllFair.congr {b b' : Nat → Nat} {s : S} (h : M.AllFair b s) (e : ∀ i, b i = b' i) : M.AllFair b' s := by
  have : b = b' := funext e
  exact this ▸ h

variable (M)

/-- Steps, with the threads that made them, latest first. -/
inductive Chain (s : S) : List Nat → S → Prop
  | refl : Chain s [] s
  | step {is : List Nat} {i : Nat} {s' s'' : S} : Chain s is s' → M.step s' s'' →
      (M.threads s'')[i]? ≠ (M.threads s')[i]? → Chain s (i :: is) s''

variable {M}

theorem AllFair.chain {s s' : S} {is : List Nat} {b : Nat → Nat} (h : M.AllFair b s) (hc : M.Chain s is s') :
    M.AllFair (fun i => b i + is.count i) s' := by
  induction hc with
  | refl => exact h
  | step hc hs hi ih =>
    rename_i is i s1 s2
    refine (ih.step hs hi).congr fun j => ?_
    by_cases hj : j = i
    · subst hj; simp; omega
    · have : ¬ i = j := fun e => hj e.symm
      simp [hj, List.count_cons, this]

/-- Counting can start at any time. -/
theorem AllFair.zero {s : S} {b : Nat → Nat} (h : M.AllFair b s) :
    M.AllFair (fun i => ((M.own s i).map M.cost).sum) s := by
  intro i t ht
  have := h i t ht
  unfold Fair at this ⊢
  split at this
  · exact ⟨this.1, Nat.le_refl _⟩
  · obtain ⟨m, h1, h2, _⟩ := this
    exact ⟨m, h1, h2, Nat.add_le_add_left h2 _⟩

/-- What all this comes to. -/
theorem AllFair.count {s s' : S} {b : Nat → Nat} (h : M.AllFair b s) {is : List Nat} (hc : M.Chain s is s') {i : Nat} :
    (M.call s' i = none → is.count i + ((M.own s i).map M.cost).sum ≤ ((M.own s' i).map M.cost).sum) ∧
    ∀ c, M.call s' i = some c → is.count i + ((M.own s i).map M.cost).sum < ((M.own s' i).map M.cost).sum + M.cost c := by
  have hf := h.zero.chain hc
  cases ht : (M.threads s')[i]? with
  | none =>
    have hn : M.call s' i = none := by simp [call, ht]
    refine ⟨fun _ => ?_, fun c e => by rw [hn] at e; cases e⟩
    clear hf
    induction hc with
    | refl => simp
    | step hc hs hi ih =>
      rename_i is j s1 s2 hc0
      obtain ⟨t, t', h1, h2, h3, h4⟩ := M.mine hs hi
      have hij : i ≠ j := by rintro rfl; rw [h2] at ht; cases ht
      have e3 : (M.threads s1)[i]? = none := by rw [← h3 i hij]; exact ht
      have hcn : M.call s1 i = none := by simp [call, e3]
      have := ih e3 hcn hcn
      have hc : (j :: is).count i = is.count i := by
        rw [List.count_cons]; simp [Ne.symm hij]
      rw [hc]
      rcases h4 with ⟨e, _⟩ | ⟨c, r, e, _⟩
      · rw [M.own_same e]; exact this
      · rw [M.own_other e hij]; exact this
  | some t =>
    have := hf i t ht
    unfold Fair at this
    have hcall : M.call s' i = (M.view t).1 := by simp [call, ht]
    rw [hcall]
    split at this
    · rename_i e
      rw [e]
      have := this.2
      dsimp only at this
      exact ⟨fun _ => by omega, fun c e' => by cases e'⟩
    · rename_i c e
      obtain ⟨m, h1, _, h3⟩ := this
      have := h1.pos
      dsimp only at h3
      rw [e]
      exact ⟨fun e' => (by cases e'), fun c' e' => (by cases e'; omega)⟩

theorem Chain.lt {s s' : S} {is : List Nat} (hc : M.Chain s is s') : (M.threads s').length = (M.threads s).length ∧
    ∀ i ∈ is, i < (M.threads s).length := by
  induction hc with
  | refl => exact ⟨rfl, by simp⟩
  | step hc hs hi ih =>
    rename_i is j s1 s2
    refine ⟨(M.length hs).trans ih.1, fun i hm => ?_⟩
    rcases List.mem_cons.1 hm with e | hm
    · subst e
      obtain ⟨t, t', h1, _⟩ := M.mine hs hi
      rw [← ih.1]
      exact (List.getElem?_eq_some_iff.1 h1).1
    · exact ih.2 i hm

theorem Chain.trans {s s' s'' : S} {is js : List Nat} (h : M.Chain s is s') (h' : M.Chain s' js s'') :
    M.Chain s (js ++ is) s'' := by
  induction h' with
  | refl => exact h
  | step _ hs hi ih => exact .step ih hs hi

theorem sum_indicator (n a : Nat) : ((List.range n).map fun i => if a = i then 1 else 0).sum = if a < n then 1 else 0 := by
  induction n with
  | zero => rfl
  | succ n ih =>
    rw [List.range_succ, List.map_append, List.sum_append, ih]
    simp only [List.map_cons, List.map_nil, List.sum_cons, List.sum_nil, Nat.add_zero]
    by_cases h1 : a < n
    · have h2 : a < n + 1 := by omega
      have h3 : ¬ a = n := by omega
      simp [h1, h2, h3]
    · by_cases h3 : a = n
      · subst h3; simp
      · have h2 : ¬ a < n + 1 := by omega
        simp [h1, h2, h3]

theorem sum_add (l : List Nat) (f g : Nat → Nat) : (l.map fun i => f i + g i).sum = (l.map f).sum + (l.map g).sum := by
  induction l with
  | nil => rfl
  | cons a l ih => simp only [List.map_cons, List.sum_cons, ih]; omega

theorem sum_le (l : List Nat) (f g : Nat → Nat) (h : ∀ i ∈ l, f i ≤ g i) : (l.map f).sum ≤ (l.map g).sum := by
  induction l with
  | nil => exact Nat.le_refl _
  | cons a l ih =>
    have h1 := h a (by simp)
    have h2 := ih fun i hi => h i (by simp [hi])
    simp only [List.map_cons, List.sum_cons]
    omega

theorem length_eq_counts {n : Nat} : ∀ {is : List Nat}, (∀ i ∈ is, i < n) →
    is.length = ((List.range n).map fun i => is.count i).sum
  | [], _ => by
    have : ((List.range n).map fun _ => 0).sum = 0 := by
      generalize List.range n = l
      induction l with
      | nil => rfl
      | cons a l ih => simp only [List.map_cons, List.sum_cons, ih]
    simp [this]
  | a :: is, h => by
    have ih := length_eq_counts (n := n) (is := is) fun i hi => h i (by simp [hi])
    have e : (fun i => (a :: is).count i) = fun i => is.count i + (if a = i then 1 else 0) := by
      funext i
      rw [List.count_cons]
      by_cases hai : a = i <;> simp [hai]
    rw [e, sum_add, sum_indicator, if_pos (h a (by simp)), List.length_cons, ih]

/-! ### Going on for ever -/

section forever
variable {s : Nat → S}

/-- From time `k` to time `k + d`. -/
theorem chain_seg (hs : ∀ k, M.step (s k) (s (k + 1))) (k : Nat) : ∀ d, ∃ is, M.Chain (s k) is (s (k + d))
  | 0 => ⟨[], .refl⟩
  | d + 1 => by
    obtain ⟨is, h⟩ := chain_seg hs k d
    obtain ⟨i, _, hi, _⟩ := M.moves (hs (k + d))
    exact ⟨i :: is, .step h (hs (k + d)) hi⟩

/-- A thread that moves again and again has made any number of moves at some time. -/
theorem chain_many (hs : ∀ k, M.step (s k) (s (k + 1))) {i : Nat}
    (hi : ∀ k, ∃ k', k ≤ k' ∧ (M.threads (s (k' + 1)))[i]? ≠ (M.threads (s k'))[i]?) (k : Nat) :
    ∀ m, ∃ d is, M.Chain (s k) is (s (k + d)) ∧ m ≤ is.count i
  | 0 => ⟨0, [], .refl, Nat.zero_le _⟩
  | m + 1 => by
    obtain ⟨d, is, h1, h2⟩ := chain_many hs hi k m
    obtain ⟨k', hk, hne⟩ := hi (k + d)
    obtain ⟨js, h3⟩ := chain_seg hs (k + d) (k' - (k + d))
    rw [show k + d + (k' - (k + d)) = k' by omega] at h3
    refine ⟨k' + 1 - k, i :: (js ++ is), ?_, ?_⟩
    · rw [show k + (k' + 1 - k) = k' + 1 by omega]
      exact .step (h1.trans h3) (hs k') hne
    · simp only [List.count_cons, List.count_append, beq_self_eq_true, if_true]
      omega

/-- A thread that moves again and again returns again and again. -/
theorem returns_again {b : Nat → Nat} (h : M.AllFair b (s 0)) (hs : ∀ k, M.step (s k) (s (k + 1))) {i : Nat}
    (hi : ∀ k, ∃ k', k ≤ k' ∧ (M.threads (s (k' + 1)))[i]? ≠ (M.threads (s k'))[i]?) (k : Nat) :
    ∃ k', k ≤ k' ∧ ∃ c r, M.log (s (k' + 1)) = (i, c, r) :: M.log (s k') := by
  refine Classical.byContradiction fun hno => ?_
  have fair : ∀ k, ∃ b, M.AllFair b (s k) := fun k => by
    obtain ⟨is, hc⟩ := chain_seg hs 0 k
    rw [Nat.zero_add] at hc
    exact ⟨_, h.chain hc⟩
  -- while nothing is finished, a call goes on
  have goes : ∀ k', k ≤ k' → ∀ c, M.call (s k') i = some c → M.call (s (k' + 1)) i = some c := by
    intro k' hk c hc
    by_cases hm : (M.threads (s (k' + 1)))[i]? = (M.threads (s k'))[i]?
    · simp only [call, hm]; exact hc
    · obtain ⟨t, t', h1, h2, h3, h4⟩ := M.mine (hs k') hm
      rcases h4 with ⟨e, hb⟩ | ⟨c, r, e, _⟩
      · have hb := hb []
        simp only [call, h1, Option.bind_some] at hc
        simp only [call, h2, Option.bind_some]
        revert hc hb
        generalize M.view t = x
        generalize M.view t' = y
        intro hb hc
        cases hb with
        | start => cases hc
        | go _ => exact hc
      · exact absurd ⟨k', hk, c, r, e⟩ hno
  have own : ∀ d, M.own (s (k + d)) i = M.own (s k) i := by
    intro d
    induction d with
    | zero => rfl
    | succ d ih =>
      rw [← ih]
      by_cases hm : (M.threads (s (k + d + 1)))[i]? = (M.threads (s (k + d)))[i]?
      · obtain ⟨j, t, t', h1, h2, h3, h4⟩ := M.beat _ _ (hs (k + d))
        have hij : i ≠ j := by
          rintro rfl
          have hlt : i < (M.threads (s (k + d))).length := (List.getElem?_eq_some_iff.1 h1).1
          rw [h2, h1, List.getElem?_set_self hlt] at hm
          exact h3 (Option.some.inj hm)
        rcases h4 with ⟨e, _⟩ | ⟨c, r, e, _⟩
        · exact M.own_same e
        · exact M.own_other e hij
      · obtain ⟨t, t', h1, h2, h3, h4⟩ := M.mine (hs (k + d)) hm
        rcases h4 with ⟨e, _⟩ | ⟨c, r, e, _⟩
        · exact M.own_same e
        · exact absurd ⟨k + d, by omega, c, r, e⟩ hno
  -- at some time it executes a call
  obtain ⟨k1, hk1, hne⟩ := hi k
  obtain ⟨c, hc⟩ : ∃ c, M.call (s (k1 + 1)) i = some c := by
    obtain ⟨t, t', h1, h2, h3, h4⟩ := M.mine (hs k1) hne
    rcases h4 with ⟨e, hb⟩ | ⟨c, r, e, _⟩
    · have hb := hb []
      obtain ⟨b, hf⟩ := fair k1
      have hf := hf i t h1
      simp only [call, h2, Option.bind_some]
      revert hb hf
      generalize M.view t = x
      generalize M.view t' = y
      intro hb hf
      cases hb with
      | start => exact ⟨_, rfl⟩
      | go ha =>
        rename_i p q c
        cases c with
        | some c => exact ⟨c, rfl⟩
        | none =>
          obtain ⟨⟨rs, e⟩, _⟩ := hf
          dsimp only at e
          subst e
          cases ha
    · exact absurd ⟨k1, hk1, c, r, e⟩ hno
  have always : ∀ d, M.call (s (k1 + 1 + d)) i = some c := by
    intro d
    induction d with
    | zero => exact hc
    | succ d ih => exact goes (k1 + 1 + d) (by omega) c ih
  obtain ⟨d, is, h1, h2⟩ := chain_many hs hi (k1 + 1) (M.cost c)
  obtain ⟨b, hf⟩ := fair (k1 + 1)
  have := (hf.count h1 (i := i)).2 c (always d)
  have e1 := own (k1 + 1 - k)
  have e2 := own (k1 + 1 + d - k)
  have hle : k + (k1 + 1 + d - k) = k1 + 1 + d := Nat.add_sub_of_le (by omega)
  rw [show k + (k1 + 1 - k) = k1 + 1 by omega] at e1
  rw [hle] at e2
  rw [e1, e2] at this
  omega

/-- Someone moves again and again. -/
theorem someone (hs : ∀ k, M.step (s k) (s (k + 1))) :
    ∃ (i : Nat), ∀ k, ∃ k', k ≤ k' ∧ (M.threads (s (k' + 1)))[i]? ≠ (M.threads (s k'))[i]? := by
  refine Classical.byContradiction fun hno => ?_
  have len : ∀ k, (M.threads (s k)).length = (M.threads (s 0)).length := by
    intro k
    induction k with
    | zero => rfl
    | succ k ih => exact (M.length (hs k)).trans ih
  have stop : ∀ (i : Nat), ∃ k, ∀ (k' : Nat), k ≤ k' → (M.threads (s (k' + 1)))[i]? = (M.threads (s k'))[i]? := fun i =>
    Classical.byContradiction fun h1 => hno ⟨i, fun k => Classical.byContradiction fun h2 => h1 ⟨k, fun k' hk =>
      Classical.byContradiction fun h3 => h2 ⟨k', hk, h3⟩⟩⟩
  have all : ∀ (n : Nat), ∃ k, ∀ (i : Nat), i < n → ∀ (k' : Nat), k ≤ k' → (M.threads (s (k' + 1)))[i]? = (M.threads (s k'))[i]? := by
    intro n
    induction n with
    | zero => exact ⟨0, fun i h => absurd h (Nat.not_lt_zero _)⟩
    | succ n ih =>
      obtain ⟨k1, h1⟩ := ih
      obtain ⟨k2, h2⟩ := stop n
      refine ⟨k1 + k2, fun i hlt k' hk => ?_⟩
      by_cases e : i = n
      · subst e; exact h2 k' (by omega)
      · exact h1 i (by omega) k' (by omega)
  obtain ⟨k, hk⟩ := all (M.threads (s 0)).length
  obtain ⟨i, hlt, hne, _⟩ := M.moves (hs k)
  exact hne (hk i (by rw [len k] at hlt; exact hlt) k (Nat.le_refl _))

end forever
end Machine

/-! ### The two kinds of systems -/

/-- Shared worlds as in Model/Threads. -/
def Sys.machine (cfg : Config) (may : Sys V → Nat → ApiCall V → Prop) : Machine V (Sys V) (ApiCall V) (Thread V) where
  threads := Sys.threads
  view th := (th.call, th.prog)
  log := Sys.log
  step := Sys.Step cfg may
  prog := ApiCall.prog cfg
  cost := ApiCall.cost cfg
  within := ApiCall.within cfg
  beat := by
    intro σ σ' hs
    cases hs with
    | start h1 h2 h3 =>
      exact ⟨_, _, _, h1, rfl, fun e => (by rw [← e] at h2; cases h2), .inl ⟨rfl, fun l => by dsimp only; rw [h2]; exact .start⟩⟩
    | acq h1 h2 h3 =>
      rename_i i th l m p
      have ha : p.After th.prog := by rw [h2]; exact .acq _ _ _
      exact ⟨_, _, _, h1, rfl, fun e => ha.ne (congrArg Thread.prog e), .inl ⟨rfl, fun l => .go ha⟩⟩
    | rel h1 h2 =>
      rename_i i th l m p
      have ha : p.After th.prog := by rw [h2]; exact .rel _ _ _
      exact ⟨_, _, _, h1, rfl, fun e => ha.ne (congrArg Thread.prog e), .inl ⟨rfl, fun l => .go ha⟩⟩
    | act h1 h2 h3 =>
      rename_i i th a f w r
      have ha : (f r).After th.prog := by rw [h2]; exact .act r rfl
      exact ⟨_, _, _, h1, rfl, fun e => ha.ne (congrArg Thread.prog e), .inl ⟨rfl, fun l => .go ha⟩⟩
    | fault h1 h2 h3 h4 =>
      exact ⟨_, _, _, h1, rfl, fun e => (by rw [← e] at h4; cases h4), .inr ⟨_, _, rfl, fun l => by
        dsimp only [Thread.idle]; rw [h4]; exact .fin⟩⟩
    | panic h1 h2 h4 =>
      exact ⟨_, _, _, h1, rfl, fun e => (by rw [← e] at h4; cases h4), .inr ⟨_, _, rfl, fun l => by
        dsimp only [Thread.idle]; rw [h4]; exact .fin⟩⟩
    | ret h1 h2 h4 =>
      exact ⟨_, _, _, h1, rfl, fun e => (by rw [← e] at h4; cases h4), .inr ⟨_, _, rfl, fun l => by
        dsimp only [Thread.idle]; rw [h4]; exact .fin⟩⟩

/-- Shared worlds as in Model/Keeping. -/
def KSys.machine (cfg : Config) (may : KSys V → Nat → KCall V → Prop) : Machine V (KSys V) (KCall V) (KThread V) where
  threads := KSys.threads
  view th := (th.call, th.prog)
  log := KSys.log
  step := KSys.Step cfg may
  prog := KCall.prog cfg
  cost := KCall.cost cfg
  within := KCall.within cfg
  beat := by
    intro σ σ' hs
    cases hs with
    | start h1 h2 h3 h4 =>
      exact ⟨_, _, _, h1, rfl, fun e => (by rw [← e] at h2; cases h2), .inl ⟨rfl, fun l => by dsimp only; rw [h2]; exact .start⟩⟩
    | acq h1 h2 h3 =>
      rename_i i th l m p
      have ha : p.After th.prog := by rw [h2]; exact .acq _ _ _
      exact ⟨_, _, _, h1, rfl, fun e => ha.ne (congrArg KThread.prog e), .inl ⟨rfl, fun l => .go ha⟩⟩
    | rel h1 h2 =>
      rename_i i th l m p
      have ha : p.After th.prog := by rw [h2]; exact .rel _ _ _
      exact ⟨_, _, _, h1, rfl, fun e => ha.ne (congrArg KThread.prog e), .inl ⟨rfl, fun l => .go ha⟩⟩
    | act h1 h2 h3 =>
      rename_i i th a f w r
      have ha : (f r).After th.prog := by rw [h2]; exact .act r rfl
      exact ⟨_, _, _, h1, rfl, fun e => ha.ne (congrArg KThread.prog e), .inl ⟨rfl, fun l => .go ha⟩⟩
    | fault h1 h2 h3 h4 =>
      exact ⟨_, _, _, h1, rfl, fun e => (by rw [← e] at h4; cases h4), .inr ⟨_, _, rfl, fun l => by
        dsimp only; rw [h4]; exact .fin⟩⟩
    | panic h1 h2 h4 =>
      exact ⟨_, _, _, h1, rfl, fun e => (by rw [← e] at h4; cases h4), .inr ⟨_, _, rfl, fun l => by
        dsimp only; rw [h4]; exact .fin⟩⟩
    | ret h1 h2 h4 =>
      exact ⟨_, _, _, h1, rfl, fun e => (by rw [← e] at h4; cases h4), .inr ⟨_, _, rfl, fun l => by
        dsimp only; rw [h4]; exact .fin⟩⟩

variable {cfg : Config}

theorem Sys.fair_init {may : Sys V → Nat → ApiCall V → Prop} (w : World V) (n : Nat) :
    (Sys.machine cfg may).AllFair (fun _ => 0) (Sys.init w n) := by
  intro i t ht
  have : t = .idle := (List.mem_replicate.1 (List.mem_of_getElem? ht)).2
  subst this
  exact ⟨⟨_, rfl⟩, Nat.zero_le _⟩

theorem KSys.fair_init {may : KSys V → Nat → KCall V → Prop} (w : World V) (n : Nat) :
    (KSys.machine cfg may).AllFair (fun _ => 0) (KSys.init w n) := by
  intro i t ht
  have : t = .idle := (List.mem_replicate.1 (List.mem_of_getElem? ht)).2
  subst this
  exact ⟨⟨_, rfl⟩, Nat.zero_le _⟩

theorem Sys.Turns.chain {may : Sys V → Nat → ApiCall V → Prop} {σ σ' : Sys V} {is : List Nat} (h : σ.Turns cfg may is σ') :
    (Sys.machine cfg may).Chain σ is σ' := by
  induction h with
  | refl => exact .refl
  | step _ hs hi ih => exact .step ih hs hi

theorem KSys.Turns.chain {may : KSys V → Nat → KCall V → Prop} {σ σ' : KSys V} {is : List Nat} (h : σ.Turns cfg may is σ') :
    (KSys.machine cfg may).Chain σ is σ' := by
  induction h with
  | refl => exact .refl
  | step _ hs hi ih => exact .step ih hs hi

theorem Sys.Sched.chain {may : Sys V → Nat → ApiCall V → Prop} {σ σ' : Sys V} (h : σ.Sched cfg may σ') :
    ∃ is, (Sys.machine cfg may).Chain σ is σ' := by
  induction h with
  | refl => exact ⟨[], .refl⟩
  | step _ hs ih =>
    obtain ⟨is, ih⟩ := ih
    obtain ⟨i, _, hi, _⟩ := (Sys.machine cfg may).moves hs
    exact ⟨i :: is, .step ih hs hi⟩

theorem KSys.Sched.chain {may : KSys V → Nat → KCall V → Prop} {σ σ' : KSys V} (h : σ.Sched cfg may σ') :
    ∃ is, (KSys.machine cfg may).Chain σ is σ' := by
  induction h with
  | refl => exact ⟨[], .refl⟩
  | step _ hs ih =>
    obtain ⟨is, ih⟩ := ih
    obtain ⟨i, _, hi, _⟩ := (KSys.machine cfg may).moves hs
    exact ⟨i :: is, .step ih hs hi⟩

/-! ### Turns that are computed -/

/-- Whose choice it is. -/
def Choice.who : Choice V → Nat
  | .start i _ => i
  | .go i => i

/-- Whose choice it is. -/
def KChoice.who : KChoice V → Nat
  | .start i _ => i
  | .go i => i

theorem perform_others {mayb : Sys V → Nat → ApiCall V → Bool} {σ σ' : Sys V} {c : Choice V}
    (h : σ.perform cfg mayb c = some σ') (j : Nat) (hj : j ≠ c.who) : σ'.threads[j]? = σ.threads[j]? := by
  have key : ∀ {t : Thread V} {ts : List (Thread V)}, ts = σ.threads.set c.who t → ts[j]? = σ.threads[j]? := by
    rintro t ts rfl
    rw [List.getElem?_set_ne (Ne.symm hj)]
  cases c with
  | start i c =>
    simp only [Sys.perform] at h
    split at h
    · simp at h
    · split at h
      · simp at h
      · split at h
        · simp at h; subst h; exact key rfl
        · simp at h
  | go i =>
    simp only [Sys.perform] at h
    split at h
    · simp at h
    · split at h
      · split at h
        · simp at h; subst h; exact key rfl
        · simp at h
      · simp at h; subst h; exact key rfl
      · split at h
        · simp only [Option.some.injEq] at h; subst h; exact key rfl
        · split at h
          · simp at h; subst h; exact key rfl
          · simp at h
      · split at h
        · simp at h; subst h; exact key rfl
        · simp at h
      · split at h
        · simp at h; subst h; exact key rfl
        · simp at h

theorem kperform_others {mayb : KSys V → Nat → KCall V → Bool} {σ σ' : KSys V} {c : KChoice V}
    (h : σ.perform cfg mayb c = some σ') (j : Nat) (hj : j ≠ c.who) : σ'.threads[j]? = σ.threads[j]? := by
  have key : ∀ {t : KThread V} {ts : List (KThread V)}, ts = σ.threads.set c.who t → ts[j]? = σ.threads[j]? := by
    rintro t ts rfl
    rw [List.getElem?_set_ne (Ne.symm hj)]
  cases c with
  | start i c =>
    simp only [KSys.perform] at h
    split at h
    · simp at h
    · split at h
      · simp at h
      · split at h
        · simp at h; subst h; exact key rfl
        · simp at h
  | go i =>
    simp only [KSys.perform] at h
    split at h
    · simp at h
    · split at h
      · split at h
        · simp at h; subst h; exact key rfl
        · simp at h
      · simp at h; subst h; exact key rfl
      · split at h
        · simp only [Option.some.injEq] at h; subst h; exact key rfl
        · split at h
          · simp at h; subst h; exact key rfl
          · simp at h
      · split at h
        · simp at h; subst h; exact key rfl
        · simp at h
      · split at h
        · simp at h; subst h; exact key rfl
        · simp at h

theorem performAll_turns {mayb : Sys V → Nat → ApiCall V → Bool} {may : Sys V → Nat → ApiCall V → Prop}
    (hm : ∀ σ i c, mayb σ i c = true → may σ i c) : ∀ {cs : List (Choice V)} {σ0 σ σ' : Sys V} {is : List Nat},
    σ0.Turns cfg may is σ → σ.performAll cfg mayb cs = some σ' → σ0.Turns cfg may ((cs.map Choice.who).reverse ++ is) σ'
  | [], σ0, σ, σ', is, h0, h => by simp [Sys.performAll] at h; subst h; exact h0
  | c :: cs, σ0, σ, σ', is, h0, h => by
    simp only [Sys.performAll, Option.bind_eq_some_iff] at h
    obtain ⟨σ1, h1, h2⟩ := h
    have hs := perform_step hm h1
    obtain ⟨i, _, hi, _⟩ := (Sys.machine cfg may).moves hs
    have e : i = c.who := Classical.byContradiction fun hne => hi (perform_others h1 i hne)
    have := performAll_turns hm (.step h0 hs (e ▸ hi)) h2
    simpa using this

theorem kperformAll_turns {mayb : KSys V → Nat → KCall V → Bool} {may : KSys V → Nat → KCall V → Prop}
    (hm : ∀ σ i c, mayb σ i c = true → may σ i c) : ∀ {cs : List (KChoice V)} {σ0 σ σ' : KSys V} {is : List Nat},
    σ0.Turns cfg may is σ → σ.performAll cfg mayb cs = some σ' → σ0.Turns cfg may ((cs.map KChoice.who).reverse ++ is) σ'
  | [], σ0, σ, σ', is, h0, h => by simp [KSys.performAll] at h; subst h; exact h0
  | c :: cs, σ0, σ, σ', is, h0, h => by
    simp only [KSys.performAll, Option.bind_eq_some_iff] at h
    obtain ⟨σ1, h1, h2⟩ := h
    have hs := kperform_step hm h1
    obtain ⟨i, _, hi, _⟩ := (KSys.machine cfg may).moves hs
    have e : i = c.who := Classical.byContradiction fun hne => hi (kperform_others h1 i hne)
    have := kperformAll_turns hm (.step h0 hs (e ▸ hi)) h2
    simpa using this

end Xecs
