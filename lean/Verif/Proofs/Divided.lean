import Verif.Spec.Divided
import Verif.Proofs.KeepingDrain
/-
Clients that update some groups and query others take locks in order.
-/
set_option autoImplicit false
namespace Xecs
variable {V : Type}

namespace Prog
variable {cfg : Config} {ρ : Nat → Nat} {n : Nat}

/-- Locks held when a query goes on to take `x`. -/
def Past (ρ : Nat → Nat) (n : Nat) (l : Lock) : Option Nat → Prop
  | some t => Lock.Before (Lock.divided ρ n) l (.store t)
  | none => ∀ k, Lock.Before (Lock.divided ρ n) l (.group k)

theorem before_store {t u : Nat} (h : ρ t < ρ u) : Lock.Before (Lock.divided ρ n) (.store t) (.store u) := by
  unfold Lock.Before Lock.divided
  dsimp only
  split <;> split <;> simp <;> omega

theorem before_group {t : Nat} (h : ρ t < n) (k : Nat) : Lock.Before (Lock.divided ρ n) (.store t) (.group k) := by
  unfold Lock.Before Lock.divided
  dsimp only
  rw [if_pos h]; exact .inl (by simp)

theorem group_before {t : Nat} (h : n ≤ ρ t) (k : Nat) : Lock.Before (Lock.divided ρ n) (.group k) (.store t) := by
  unfold Lock.Before Lock.divided
  dsimp only
  rw [if_neg (by omega)]; exact .inl (by simp)

theorem em_before (t : Nat) : Lock.Before (Lock.divided ρ n) .em (.store t) := by
  unfold Lock.Before Lock.divided
  dsimp only
  split <;> exact .inl (by simp)

theorem ord_openQuery_stops (q : Query) : ∀ (p : Prog V) (rest : List (Option Nat)) (H : Guard → Prop),
    (q.stops ++ rest).Pairwise (fun x y => match x, y with
      | some t, some u => ρ t < ρ u
      | some t, none => ρ t < n
      | none, some u => n ≤ ρ u
      | none, none => False) →
    (∀ g, H g → ∀ x ∈ q.stops ++ rest, Past ρ n g.1 x) →
    (∀ H' : Guard → Prop, (∀ g, H' g → ∀ x ∈ rest, Past ρ n g.1 x) → Ord (Lock.Before (Lock.divided ρ n)) H' p) →
    Ord (Lock.Before (Lock.divided ρ n)) H (openQuery cfg q p) := by
  induction q with
  | comp m t =>
    intro p rest H h1 h2 h3
    simp only [Query.stops, List.singleton_append, List.pairwise_cons, List.mem_cons] at h1 h2
    refine ord_store (fun g hg => h2 g hg (some t) (.inl rfl)) (h3 _ ?_)
    rintro g (rfl | hg) x hx
    · cases x with
      | some u => exact before_store (h1.1 _ hx)
      | none => exact before_group (h1.1 _ hx)
    · exact h2 g hg x (.inr hx)
  | with2 a b iha ihb =>
    intro p rest H h1 h2 h3
    simp only [Query.stops, List.append_assoc] at h1 h2
    exact iha _ _ H h1 h2 fun H1 g1 => ihb _ _ H1 (List.pairwise_append.1 h1).2.1 g1 h3
  | with3 a b c iha ihb ihc =>
    intro p rest H h1 h2 h3
    simp only [Query.stops, List.append_assoc] at h1 h2
    have h4 := (List.pairwise_append.1 h1).2.1
    exact iha _ _ H h1 h2 fun H1 g1 => ihb _ _ H1 h4 g1 fun H2 g2 =>
      ihc _ _ H2 (List.pairwise_append.1 h4).2.1 g2 h3
  | with4 a b c d iha ihb ihc ihd =>
    intro p rest H h1 h2 h3
    simp only [Query.stops, List.append_assoc] at h1 h2
    have h4 := (List.pairwise_append.1 h1).2.1
    have h5 := (List.pairwise_append.1 h4).2.1
    exact iha _ _ H h1 h2 fun H1 g1 => ihb _ _ H1 h4 g1 fun H2 g2 => ihc _ _ H2 h5 g2 fun H3 g3 =>
      ihd _ _ H3 (List.pairwise_append.1 h5).2.1 g3 h3
  | with5 a b c d e iha ihb ihc ihd ihe =>
    intro p rest H h1 h2 h3
    simp only [Query.stops, List.append_assoc] at h1 h2
    have h4 := (List.pairwise_append.1 h1).2.1
    have h5 := (List.pairwise_append.1 h4).2.1
    have h6 := (List.pairwise_append.1 h5).2.1
    exact iha _ _ H h1 h2 fun H1 g1 => ihb _ _ H1 h4 g1 fun H2 g2 => ihc _ _ H2 h5 g2 fun H3 g3 =>
      ihd _ _ H3 h6 g3 fun H4 g4 => ihe _ _ H4 (List.pairwise_append.1 h6).2.1 g4 h3
  | withoutL a b iha ihb =>
    intro p rest H h1 h2 h3
    simp only [Query.stops, List.append_assoc] at h1 h2
    exact iha _ _ H h1 h2 fun H1 g1 => ihb _ _ H1 (List.pairwise_append.1 h1).2.1 g1 h3
  | withoutR a b iha ihb =>
    intro p rest H h1 h2 h3
    simp only [Query.stops, List.append_assoc] at h1 h2
    exact iha _ _ H h1 h2 fun H1 g1 => ihb _ _ H1 (List.pairwise_append.1 h1).2.1 g1 h3
  | group k ma mb a b =>
    intro p rest H h1 h2 h3
    simp only [Query.stops, List.cons_append, List.nil_append, List.pairwise_cons, List.mem_cons] at h1 h2
    obtain ⟨ha, hb, hn, _⟩ := h1
    have hab : Lock.Before (Lock.divided ρ n) (.store a) (.store b) := before_store (ha (some b) (.inl rfl))
    simp only [openQuery]
    split
    · refine ord_store (fun g hg => h2 g hg (some a) (.inl rfl)) (ord_store ?_ ?_)
      · rintro g (rfl | hg)
        · exact hab
        · exact h2 g hg (some b) (.inr (.inl rfl))
      · have hH : ∀ g, (g = (Lock.store b, mb) ∨ g = (Lock.store a, ma) ∨ H g) → ∀ k,
            Lock.Before (Lock.divided ρ n) g.1 (.group k) := by
          rintro g (rfl | rfl | hg) j
          · exact before_group (hb none (.inl rfl)) j
          · exact before_group (ha none (.inr (.inl rfl))) j
          · exact h2 g hg none (.inr (.inr (.inl rfl))) j
        split
        · rename_i pos _
          refine ord_visitGroups hH (ord_visitGroups hH (p := .acq (.group pos) .ref _)
            ⟨fun g hg => hH g hg _, h3 _ ?_⟩ _) _
          rintro g (rfl | rfl | rfl | hg) x hx
          · cases x with
            | some u => exact group_before (hn _ hx) _
            | none => exact False.elim (hn _ hx)
          · cases x with
            | some u => exact before_store (hb _ (.inr hx))
            | none => exact before_group (hb _ (.inr hx))
          · cases x with
            | some u => exact before_store (ha _ (.inr (.inr hx)))
            | none => exact before_group (ha _ (.inr (.inr hx)))
          · exact h2 g hg x (.inr (.inr (.inr hx)))
        · exact ord_visitGroups hH (p := .panic) trivial _
    · trivial

/-- The late groups may be locked before their storages. -/
theorem groupsFirst_late {B : Guard → Prop} (hB : ∀ g, B g → g.1 = .em) :
    GroupsFirst (Shape.Late ρ n) (Lock.Before (Lock.divided ρ n)) B where
  baseG g h k := by rw [hB g h]; exact .inl (show 0 < 2 by decide)
  baseS g h t := by rw [hB g h]; exact em_before t
  groups j k h := .inr ⟨rfl, h⟩
  stores g h k := ⟨group_before h.1 k, group_before h.2.1 k⟩
  pair g h := before_store h.2.2

theorem changes_late {B : Guard → Prop} (hB : ∀ g, B g → g.1 = .em) {s : List (HOp V)}
    (h : ∀ o ∈ s, ∀ t, o.changes = some t → ∀ g ∈ cfg.groups, (t = g.a ∨ t = g.b) → g.Late ρ n) :
    Changes cfg (Lock.Before (Lock.divided ρ n)) B s := by
  refine ⟨_, groupsFirst_late hB, fun o ho t ht g hg htg => h o ho t ?_ g hg ?_⟩
  · rcases ht with rfl | ⟨v, rfl⟩ <;> rfl
  · simp only [Shape.touches, Bool.or_eq_true, beq_iff_eq] at htg
    exact htg.imp Eq.symm Eq.symm

theorem ord_dividing {σ : Sys V} {i : Nat} {c : ApiCall V} (h : Sys.dividing cfg ρ n σ i c) :
    Ord (Lock.Before (Lock.divided ρ n)) (fun _ => False) (c.prog cfg) := by
  refine ord_call em_before ?_ ?_ ?_ ?_
  · rintro id s rfl; exact .inl (changes_late (fun g hg => by rw [hg]) h)
  · rintro s rfl; exact .inl (changes_late (fun g hg => by rw [hg]) h)
  · rintro id rfl
    have hl := groupsFirst_late (ρ := ρ) (n := n) (B := fun _ => False) fun _ h => False.elim h
    exact ord_remove { hl with stores := fun g hg => hl.stores g (h.1 g hg), pair := fun g hg => hl.pair g (h.1 g hg) }
      (h.2.imp before_store) id
  · rintro q rfl
    exact ord_openQuery_stops q _ [] _ (by rw [List.append_nil]; exact h) (fun g hg => False.elim hg)
      fun H' _ => ord_collect q H'

theorem ord_kdividing {c : KCall V} {σ : Sys V} {i : Nat} (h : ∀ c', c.plain = some c' → Sys.dividing cfg ρ n σ i c') :
    Ord (Lock.Before (Lock.divided ρ n)) (fun _ => False) (c.prog cfg) := by
  refine ord_kcall em_before ?_ ?_ ?_
  · rintro c' rfl; exact ord_dividing (h c' rfl)
  · rintro id s rfl; exact .inl (changes_late (fun _ h => False.elim h) (h (.on id s) rfl))
  · rintro q rfl
    exact ord_openQuery_stops q _ [] _ (by rw [List.append_nil]; exact h (.query q) rfl) (fun g hg => False.elim hg)
      fun H' _ r => trivial

end Prog

theorem kord_dividing {cfg : Config} {ρ : Nat → Nat} {n : Nat} (τ : KSys V) (i : Nat) (c : KCall V) (th : KThread V)
    (hc : KSys.dividing cfg ρ n τ i c) (hi : τ.threads[i]? = some th) :
    (c.prog cfg).OrdS (fun _ => False) (Lock.Before (Lock.divided ρ n)) (fun g => g ∈ th.keptGuards cfg) := by
  refine ((Prog.ord_kdividing hc.1).add (S := fun l _ => l ∈ c.locks cfg) (B := fun g => g ∈ th.keptGuards cfg)
    (fun _ _ _ h => False.elim h) ?_ (Prog.takes_kcall c fun l hl _ _ => hl)).mono fun g hg => .inr hg
  intro g hg l _ hl _ _
  obtain ⟨k, hk, hgk⟩ := List.mem_flatMap.1 hg
  exact hc.2 l hl th hi k hk g hgk

theorem KSys.dropping_dividing {cfg : Config} {ρ : Nat → Nat} {n : Nat} (τ : KSys V) (i : Nat) (c : KCall V)
    (h : KSys.dropping τ i c) : KSys.dividing cfg ρ n τ i c := by
  obtain ⟨k, rfl⟩ := h
  exact ⟨fun c' h => by simp [KCall.plain] at h, fun l hl => by simp [KCall.locks] at hl⟩

end Xecs
