import Verif.Props.Groups
import Verif.Proofs.OverlapGroups
/-
Property C21, the excluded case: removing an entity from two groups, the older of which owns a type of the newer.
-/
set_option autoImplicit false
namespace Xecs
open Spec World Hist
variable {V : Type} {tr : List (Op V × Out V)} {w : World V}

/-- Where `C21_groups_partial` does not apply because of overlapping groups, the English claim fails, always:
if the removed entity was in two groups in step with their components, the older owning a type of the newer,
then, in the world that `remove_entity` leaves, the newer group does not yield exactly the remaining entities
with both components: its query faults, or yields a dangling reference, or yields another list. -/
theorem C21_overlap (h : Trace tr w) {id : EntityId} (ha : alive id tr = true)
    {order : List TypeId} (ho : order.Nodup ∧ ∀ t, t ∈ order ↔ registered t tr = true)
    {i j : Nat} {k k' : Kind} {a b a' b' : TypeId} (hij : i < j)
    (hi : (groupsMade tr)[i]? = some (ofKind k', a', b')) (hj : (groupsMade tr)[j]? = some (ofKind k, a, b))
    (bi : batchSince (ofKind k') a' b' tr = false) (bj : batchSince (ofKind k) a b tr = false)
    (hown : (groupOwns (ofKind k', a', b') a || groupOwns (ofKind k', a', b') b) = true)
    (hva : (lastValue a id tr).isSome = true) (hvb : (lastValue b id tr).isSome = true)
    (hva' : (lastValue a' id tr).isSome = true) (hvb' : (lastValue b' id tr).isSome = true) :
    ∃ w', World.removeEntity order id w = (w', .ok ()) ∧ ∀ ma mb, ¬ ∃ l, Yields w' (.group k ma mb a b) l ∧
      Lists l (fun x => if x = id then none else bothOf (lastValue a x tr) (lastValue b x tr)) := by
  obtain ⟨s, hrun⟩ := h.run
  have hlive : s.live id = true := by rw [← (run_em hrun).2.2.2.1]; exact ha
  obtain ⟨w', h1, h2, h3⟩ := removeEntity_any hrun.rel ho.1 hlive
  refine ⟨w', h1, fun ma mb hc => ?_⟩
  obtain ⟨l, hy, hl⟩ := hc
  have hf := run_groups hrun
  have htags := run_tags hrun
  -- the groups of the specification
  have at_ : ∀ (n : Nat) t, (groupsMade tr)[n]? = some t → ∃ g, s.groups[n]? = some g ∧ tag g = t := by
    intro n t hn
    rw [← htags, List.getElem?_map, Option.map_eq_some_iff] at hn
    exact hn
  obtain ⟨si, gi1, gi2⟩ := at_ i _ hi
  obtain ⟨sj, gj1, gj2⟩ := at_ j _ hj
  simp only [tag, Prod.mk.injEq] at gi2 gj2
  obtain ⟨ik, ia, ib⟩ := gi2
  obtain ⟨jk, ja, jb⟩ := gj2
  have both : ∀ (n : Nat) g, s.groups[n]? = some g → batchSince g.kind g.a g.b tr = false →
      ∀ x, g.mem x = ((lastValue g.a x tr).isSome && (lastValue g.b x tr).isSome) := by
    intro n g hn hb x
    rw [hf.sync g (List.mem_of_getElem? hn) hb x]
    simp only [State.both, has_eq, run_get hrun]
  have mi := both i si gi1 (by rw [ik, ia, ib]; exact bi)
  have mj := both j sj gj1 (by rw [jk, ja, jb]; exact bj)
  rw [ia, ib] at mi
  rw [ja, jb] at mj
  -- the groups of the code
  have glt : ∀ (n : Nat) g, s.groups[n]? = some g → ∃ G, w.groups[n]? = some G ∧ GRel w.comps G g := by
    intro n g hn
    have hlt : n < w.groups.length := by rw [hrun.rel.core.glen]; exact (List.getElem?_eq_some_iff.1 hn).1
    exact ⟨_, List.getElem?_eq_getElem hlt, hrun.rel.core.grp n _ _ (List.getElem?_eq_getElem hlt) hn⟩
  obtain ⟨Gi, wi, ri⟩ := glt i si gi1
  obtain ⟨Gj, wj, rj⟩ := glt j sj gj1
  have hu : ∃ u, Gi.owned u = true ∧ (u = Gj.tyA ∨ u = Gj.tyB) := by
    have : ∀ t, Gi.owned t = groupOwns (ofKind k', a', b') t := by
      intro t
      rw [ri.owns]
      rw [← ik, ← ia, ← ib]
      cases hk : si.kind <;> simp [groupOwns, SGroup.owns, hk]
    rw [rj.tyA, rj.tyB, ja, jb]
    rcases (Bool.or_eq_true _ _).mp hown with ho | ho
    · exact ⟨a, (this a).trans ho, .inl rfl⟩
    · exact ⟨b, (this b).trans ho, .inr rfl⟩
  obtain ⟨u, hu1, hu2⟩ := hu
  have hrec := h3 i j si sj Gi Gj u hij gi1 gj1 (by rw [mi, hva', hvb']; rfl) (by rw [mj, hva, hvb]; rfl) wi wj hu1 hu2
  have hkk : toKind sj.kind = k := by rw [jk]; cases k <;> rfl
  have hfind : Query.findGroup w' k a b = some j := by
    rw [findGroup_tags h2, ← ja, ← jb, ← hkk]; exact hrun.rel.findGroup gj1
  have hlen := yields_length hfind hrec (rj.kind.trans hkk) hy
  obtain ⟨A, B, hA, hB, hsound, hmem, _⟩ := rj.ex
  obtain ⟨L, n1, n2, n3⟩ := Group.members hsound (hrun.rel.core.wf _ _ hA)
  have hperm : L.Perm (id :: l.map Prod.fst) := by
    have hnot : id ∉ l.map Prod.fst := by
      intro hin
      obtain ⟨⟨x, y⟩, hx, rfl⟩ := List.mem_map.1 hin
      have := (hl.2 x y).1 hx
      simp at this
    rw [List.perm_ext_iff_of_nodup n1 (List.nodup_cons.2 ⟨hnot, hl.1⟩)]
    intro e
    rw [n3, ← hmem, mj, List.mem_cons]
    by_cases he : e = id
    · subst he; simp [hva, hvb]
    · simp only [he, false_or, List.mem_map]
      constructor
      · intro hb
        rw [Bool.and_eq_true] at hb
        obtain ⟨x, hx⟩ := Option.isSome_iff_exists.1 hb.1
        obtain ⟨y, hy⟩ := Option.isSome_iff_exists.1 hb.2
        exact ⟨(e, .pair (.leaf x) (.leaf y)), (hl.2 e _).2 (by simp [he, hx, hy, bothOf]), rfl⟩
      · rintro ⟨⟨e', y⟩, hx, rfl⟩
        have := (hl.2 _ _).1 hx
        dsimp only at this he
        rw [if_neg he] at this
        cases h1 : lastValue a e' tr <;> cases h2 : lastValue b e' tr <;> simp_all [bothOf]
  have := hperm.length_eq
  rw [List.length_cons, List.length_map, n2, hlen] at this
  omega

/-- Entity 1 is in a full-owning group over 1 and 2 and in a newer partial-owning group over 3 and 1, with entity 2
beside it: after its removal the newer group does not list what it should (entity 2 with 32 and 12). -/
example : ∃ (tr : List (Op Nat × Out Nat)) (w w' : World Nat), Trace tr w ∧ World.removeEntity [1, 2, 3] 1 w = (w', .ok ()) ∧
    bothOf (lastValue 3 2 tr) (lastValue 1 2 tr) = some (.pair (.leaf 32) (.leaf 12)) ∧
    ∀ l, Yields w' (.group .part .ref .ref 3 1) l →
      ¬ Lists l (fun x => if x = 1 then none else bothOf (lastValue 3 x tr) (lastValue 1 x tr)) := by
  have ht := played_trace (V := Nat) [.register 1, .register 2, .register 3, .createEntities 2, .makeGroup .full 1 2,
    .makeGroup .part 3 1, .attach 1 1 11, .attach 1 2 21, .attach 1 3 31, .attach 2 1 12, .attach 2 3 32] (by decide +kernel)
  obtain ⟨w', h1, h2⟩ := C21_overlap ht (id := 1) (order := [1, 2, 3]) (i := 0) (j := 1) (k := .part) (k' := .full)
    (a := 3) (b := 1) (a' := 1) (b' := 2) (by decide +kernel) (orderOk_iff (op := .removeEntity [1, 2, 3] 1) (by decide +kernel))
    (by decide) (by decide +kernel) (by decide +kernel) (by decide +kernel) (by decide +kernel) (by decide +kernel)
    (by decide +kernel) (by decide +kernel) (by decide +kernel) (by decide +kernel)
  exact ⟨_, _, w', ht, h1, by decide +kernel, fun l hy hl => h2 .ref .ref ⟨l, hy, hl⟩⟩

end Xecs
