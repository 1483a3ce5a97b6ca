import Verif.Proofs.Overlap
import Verif.Proofs.RobustEm
import Verif.Proofs.GroupQueries
/-
How many entities a group query yields, in any world.
-/
set_option autoImplicit false
namespace Xecs
open Spec World Hist
variable {V : Type}

theorem findGroup_tags {w w' : World V} (h : w'.groups.map gtag = w.groups.map gtag) (k : Kind) (a b : Nat) :
    Query.findGroup w' k a b = Query.findGroup w k a b := by
  have key : ∀ v : World V, Query.findGroup v k a b = (v.groups.map gtag).findIdx? (fun t => decide (t = (k, a, b))) := by
    intro v
    simp only [Query.findGroup, List.findIdx?_map, same_tag]
    rfl
  rw [key, key, h]

theorem Rel.findGroup {w : World V} {s : State V} (h : Rel w s) {j : Nat} {sj : SGroup} (hj : s.groups[j]? = some sj) :
    Query.findGroup w (toKind sj.kind) sj.a sj.b = some j := by
  have hlt := (List.getElem?_eq_some_iff.1 hj).1
  have hlt' : j < w.groups.length := by rw [h.core.glen]; exact hlt
  have tagOf : ∀ (i : Nat) (hi : i < w.groups.length), ∃ si, s.groups[i]? = some si ∧
      gtag w.groups[i] = (toKind si.kind, si.a, si.b) := by
    intro i hi
    have hi' : i < s.groups.length := by rw [← h.core.glen]; exact hi
    have := h.core.grp i _ _ (List.getElem?_eq_getElem hi) (List.getElem?_eq_getElem hi')
    exact ⟨_, List.getElem?_eq_getElem hi', by simp only [gtag, this.kind, this.tyA, this.tyB]⟩
  have inj : ∀ k k' : SKind, toKind k = toKind k' → k = k' := by intro k k'; cases k <;> cases k' <;> simp [toKind]
  rw [Query.findGroup, List.findIdx?_eq_some_iff_getElem]
  refine ⟨hlt', ?_, fun i hi => ?_⟩
  · rw [same_tag]
    obtain ⟨si, e1, e2⟩ := tagOf j hlt'
    rw [hj] at e1; cases e1
    rw [e2]; simp
  · rw [same_tag]
    obtain ⟨si, e1, e2⟩ := tagOf i (by omega)
    rw [e2]
    intro hc
    simp only [decide_eq_true_eq, Prod.mk.injEq] at hc
    exact h.dist i j _ _ e1 hj (by omega) ⟨inj _ _ hc.1, hc.2⟩

/-- The members of a group, as a list as long as the group. -/
theorem Group.members {g : Group} {A B : SparseSet V} (hs : g.Sound A B) (hA : A.WF) :
    ∃ L : List Nat, L.Nodup ∧ L.length = g.len ∧ ∀ e, e ∈ L ↔ g.Mem A e := by
  have pre : ∀ l : Nat, (∀ i, i < l → ∃ e, A.entities[i]? = some e) →
      ∃ L : List Nat, L.Nodup ∧ L.length = l ∧ ∀ e, e ∈ L ↔ ∃ i, i < l ∧ A.entities[i]? = some e := by
    intro l hl
    have hle : l ≤ A.entities.length := by
      cases l with
      | zero => exact Nat.zero_le _
      | succ l =>
        obtain ⟨e, he⟩ := hl l (by omega)
        exact (List.getElem?_eq_some_iff.1 he).1
    refine ⟨A.entities.take l, (SparseSet.nodup hA).sublist (List.take_sublist _ _), by simp; omega, fun e => ?_⟩
    rw [List.mem_iff_getElem?]
    constructor
    · rintro ⟨i, hi⟩
      rw [List.getElem?_take] at hi
      by_cases hc : i < l
      · rw [if_pos hc] at hi; exact ⟨i, hc, hi⟩
      · rw [if_neg hc] at hi; cases hi
    · rintro ⟨i, hi, he⟩
      exact ⟨i, by rw [List.getElem?_take, if_pos hi]; exact he⟩
  cases g with
  | full l a b => exact pre l fun i hi => (hs i hi).imp fun e he => he.1
  | part l a b => exact pre l fun i hi => (hs i hi).imp fun e he => he.1
  | non s a b => exact ⟨s.entities, SparseSet.nodup hs.1, rfl, fun e => Iff.rfl⟩

/-- Iterating a counted plan yields as many items as it counts. -/
theorem collectFrom_counted {w : World V} {p : Plan} {n : Nat}
    (hstep : ∀ i r j, p.nextWithId w i = .ok (r, j) → if i < n then r.isSome = true ∧ j = i + 1 else r = none) :
    ∀ (fuel i : Nat) l, p.collectFrom w fuel i = .ok l → l.length = n - i := by
  intro fuel
  induction fuel with
  | zero => intro i l h; simp [Plan.collectFrom] at h
  | succ fuel ih =>
    intro i l h
    simp only [Plan.collectFrom, bind_eq_ok] at h
    obtain ⟨⟨r, j⟩, h1, h2⟩ := h
    have := hstep i r j h1
    cases r with
    | none =>
      cases h2
      by_cases hc : i < n
      · rw [if_pos hc] at this; cases this.1
      · simp; omega
    | some x =>
      simp only [bind_eq_ok] at h2
      obtain ⟨l', h3, h4⟩ := h2
      cases h4
      by_cases hc : i < n
      · rw [if_pos hc] at this
        rw [List.length_cons, ih _ _ h3]; omega
      · rw [if_neg hc] at this; cases this

/-- What a group query yields is as long as the group's record says. -/
theorem yields_length {w : World V} {k : Kind} {ma mb : Mode} {a b pos : Nat} {g : Group} {l : List (Nat × Item V)}
    (hp : Query.findGroup w k a b = some pos) (hg : w.groups[pos]? = some g) (hk : g.kind = k)
    (h : Yields w (.group k ma mb a b) l) : l.length = g.len := by
  simp only [Yields, World.results, bind_eq_ok, World.queryAll, World.query, Query.prepare] at h
  obtain ⟨L, h, h'⟩ := h
  have hl : l.length = L.length := by
    have := congrArg List.length (Except.ok.inj h'); simpa using this.symm
  rw [hl]
  obtain ⟨⟨p, held⟩, h1, h2⟩ := h
  obtain ⟨_, _, hA, _, hB, _, _, _, pos', hpp, g', hgg, h1⟩ := h1
  rw [hp] at hpp; cases hpp
  have : g' = g := by simp only [getR, hg] at hgg; cases hgg; rfl
  subst this
  cases k with
  | full =>
    cases h1
    refine collectFrom_counted (n := g'.len) (fun i r j hn => ?_) _ _ _ h2
    simp only [Plan.nextWithId] at hn
    by_cases hc : i < g'.len
    · rw [if_pos hc] at hn ⊢
      simp only [bind_eq_ok] at hn
      obtain ⟨_, _, _, _, _, _, _, _, _, _, hn⟩ := hn
      cases hn; exact ⟨rfl, rfl⟩
    · rw [if_neg hc] at hn ⊢
      cases hn; rfl
  | part =>
    cases h1
    refine collectFrom_counted (n := g'.len) (fun i r j hn => ?_) _ _ _ h2
    simp only [Plan.nextWithId] at hn
    by_cases hc : i < g'.len
    · rw [if_pos hc] at hn ⊢
      simp only [bind_eq_ok] at hn
      obtain ⟨_, _, _, _, _, _, _, _, _, _, _, _, hn⟩ := hn
      cases hn; exact ⟨rfl, rfl⟩
    · rw [if_neg hc] at hn ⊢
      cases hn; rfl
  | non =>
    cases h1
    refine collectFrom_counted (n := g'.len) (fun i r j hn => ?_) _ _ _ h2
    cases g' with
    | full l a b => cases hk
    | part l a b => cases hk
    | non G a' b' =>
      simp only [Plan.nextWithId, Plan.groupSetOf, getR, hg, ok_bind] at hn
      by_cases hc : i < G.len
      · rw [if_pos hc] at hn; rw [if_pos (show i < (Group.non G a' b').len from hc)]
        simp only [bind_eq_ok] at hn
        obtain ⟨_, _, ⟨ia, ib⟩, _, _, _, _, _, _, _, _, _, hn⟩ := hn
        cases hn; exact ⟨rfl, rfl⟩
      · rw [if_neg hc] at hn; rw [if_neg (show ¬ i < (Group.non G a' b').len from hc)]
        cases hn; rfl

end Xecs
