import Verif.Spec.Asks
import Verif.Proofs.KeepingCircle
import Verif.Proofs.AloneQuery
/-
A thread never waits for itself: programs that never ask for a lock in conflict (`R`) with one they hold.
-/
set_option autoImplicit false
namespace Xecs
variable {V : Type}

namespace Prog

/-- The program, holding the guards of the list, never asks for a lock that is in the relation `R` to a guard it holds,
whatever the results of its work. -/
def Clear (R : Guard → Guard → Prop) : List Guard → Prog V → Prop
  | _, .done _ => True
  | _, .panic => True
  | H, .acq l m p => (∀ g ∈ H, ¬ R (l, m) g) ∧ Clear R ((l, m) :: H) p
  | H, .rel l m p => Clear R (H.erase (l, m)) p
  | H, .act _ f => ∀ r, Clear R H (f r)

variable {R : Guard → Guard → Prop} {cfg : Config}

theorem Clear.perm {p : Prog V} : ∀ {H H' : List Guard}, H.Perm H' → Clear R H p → Clear R H' p := by
  induction p with
  | done _ => intros; trivial
  | panic => intros; trivial
  | acq l m p ih => exact fun hp h => ⟨fun g hg => h.1 g (hp.symm.subset hg), ih (hp.cons _) h.2⟩
  | rel l m p ih => exact fun hp h => ih (H := _) (hp.erase _) h
  | act a f ih => exact fun hp h r => ih r hp (h r)

/-- Guards that are in conflict with nothing the program takes may be held as well. -/
theorem Clear.add {p : Prog V} : ∀ {H K : List Guard}, Clear R H p → Takes (fun l m => ∀ g ∈ K, ¬ R (l, m) g) p →
    Clear R (H ++ K) p := by
  induction p with
  | done _ => intros; trivial
  | panic => intros; trivial
  | acq l m p ih =>
    intro H K h ht
    refine ⟨fun g hg => ?_, ih (H := (l, m) :: H) h.2 ht.2⟩
    rcases List.mem_append.1 hg with hg | hg
    · exact h.1 g hg
    · exact ht.1 g hg
  | rel l m p ih =>
    intro H K h ht
    show Clear R ((H ++ K).erase (l, m)) p
    rw [List.erase_append]
    split
    · exact ih h ht
    · rename_i hn
      have h' : Clear R (H.erase (l, m)) p := h
      rw [List.erase_of_not_mem hn] at h'
      refine ih h' ?_
      have mono : ∀ (p : Prog V), Takes (fun l m => ∀ g ∈ K, ¬ R (l, m) g) p →
          Takes (fun l' m' => ∀ g ∈ K.erase (l, m), ¬ R (l', m') g) p := by
        intro p
        induction p with
        | done _ => intros; trivial
        | panic => intros; trivial
        | acq l m p ih => exact fun h => ⟨fun g hg => h.1 g (List.mem_of_mem_erase hg), ih h.2⟩
        | rel l m p ih => exact fun h => ih h
        | act a f ih => exact fun h r => ih r (h r)
      exact mono p ht
  | act a f ih => exact fun h ht r => ih r (h r) (ht r)

variable (hR : ∀ {g h}, R g h → g.1 = h.1)

theorem clear_store {H : List Guard} {t : Nat} {m : Mode} {p : Prog V} (h : ∀ g ∈ H, ¬ R (.store t, m) g)
    (hp : Clear R ((.store t, m) :: H) p) : Clear R H (store cfg t m p) := by
  unfold store
  split
  · exact ⟨h, hp⟩
  · trivial

/-- The write guards of groups. -/
abbrev groupMuts (gs : List (Nat × Shape)) : List Guard := gs.map fun x => (.group x.1, .mut)

include hR in
theorem clear_lockGroups (t : Nat) {p : Prog V} : ∀ (gs : List (Nat × Shape)) {H : List Guard},
    (gs.map Prod.fst).Nodup → (∀ x ∈ gs, ∀ g ∈ H, g.1 ≠ .group x.1) →
    Clear R (groupMuts (gs.filter fun x => x.2.touches t) ++ H) p → Clear R H (lockGroups t gs p)
  | [], _, _, _, hp => hp
  | (k, g) :: rest, H, hn, hf, hp => by
    have hf1 : ∀ m, ∀ g' ∈ H, ¬ R (.group k, m) g' := fun m g' hg' hr =>
      hf (k, g) (by simp) g' hg' (hR hr).symm
    simp only [List.map_cons, List.nodup_cons] at hn
    have hf2 := fun x hx => hf x (List.mem_cons_of_mem _ hx)
    refine ⟨hf1 _, ?_⟩
    show Clear R (((Lock.group k, Mode.ref) :: H).erase (.group k, .ref)) _
    rw [List.erase_cons_head]
    simp only [List.filter_cons] at hp
    split
    · rename_i ht
      rw [if_pos ht] at hp
      refine ⟨hf1 _, clear_lockGroups t rest hn.2 ?_ ?_⟩
      · intro x hx g' hg'
        rcases List.mem_cons.1 hg' with rfl | hg'
        · intro e
          cases e
          exact hn.1 (List.mem_map_of_mem hx)
        · exact hf2 x hx g' hg'
      · exact hp.perm List.perm_middle.symm
    · rename_i ht
      rw [if_neg ht] at hp
      exact clear_lockGroups t rest hn.2 hf2 hp

/-- No guard of the list is on a storage. -/
def NoStore (H : List Guard) : Prop := ∀ g ∈ H, ∀ t, g.1 ≠ .store t

theorem noStore_muts (gs : List (Nat × Shape)) {H : List Guard} (h : NoStore H) : NoStore (groupMuts gs ++ H) := by
  intro g hg t
  rcases List.mem_append.1 hg with hg | hg
  · obtain ⟨x, _, rfl⟩ := List.mem_map.1 hg
    exact fun e => by cases e
  · exact h g hg t

include hR in
theorem clear_two {H : List Guard} (hH : NoStore H) {a b : Nat} {ma mb : Mode} (hab : ¬ R (.store b, mb) (.store a, ma))
    {f : Ret V → Prog V} {x : Act V} (hp : ∀ r, Clear R ((.store b, mb) :: (.store a, ma) :: H) (f r)) :
    Clear R H (store cfg a ma (store cfg b mb (.act x f))) := by
  refine clear_store (fun g hg hr => hH g hg _ (hR hr).symm) (clear_store ?_ hp)
  intro g hg hr
  rcases List.mem_cons.1 hg with rfl | hg
  · exact hab hr
  · exact hH g hg _ (hR hr).symm

include hR in
theorem clear_groupLoop (a : Nat → Act V) {p : Prog V} {H : List Guard} (hH : NoStore H) (hp : Clear R H p) :
    ∀ gs : List (Nat × Shape), (∀ x ∈ gs, ¬ R (.store x.2.b, x.2.modeB) (.store x.2.a, x.2.modeA)) →
    Clear R (groupMuts gs ++ H) (groupLoop cfg a gs p)
  | [], _ => hp
  | (k, g) :: rest, h => by
    refine clear_two hR (noStore_muts _ hH) (h (k, g) (by simp)) fun r => ?_
    show Clear R (((_ :: _ :: (groupMuts ((k, g) :: rest) ++ H)).erase _).erase _ |>.erase _) _
    rw [List.erase_cons_head, List.erase_cons_head]
    show Clear R (((Lock.group k, Mode.mut) :: (groupMuts rest ++ H)).erase _) _
    rw [List.erase_cons_head]
    exact clear_groupLoop a hH hp rest fun x hx => h x (List.mem_cons_of_mem _ hx)

theorem indexed_nodup (cfg : Config) : (cfg.indexed.map Prod.fst).Nodup := by
  have : cfg.indexed.map Prod.fst = List.range cfg.groups.length := by
    apply List.ext_getElem
    · simp [Config.indexed]
    · intro i h1 h2
      simp [Config.indexed]
  rw [this]
  exact List.nodup_range

include hR in
/-- The locks of `attach` and of `detach`, without the work. -/
theorem clear_groups (t : Nat) (a : Nat → Act V) {p : Prog V} {H : List Guard} (hH : NoStore H)
    (hG : ∀ g ∈ H, ∀ k, g.1 ≠ .group k)
    (hg : ∀ x ∈ cfg.groups, ¬ R (.store x.b, x.modeB) (.store x.a, x.modeA)) (hp : Clear R H p) :
    Clear R H (lockGroups t cfg.indexed (groupLoop cfg a (touching cfg t) p)) := by
  refine clear_lockGroups hR t _ (indexed_nodup cfg) (fun x _ g hg => hG g hg _) ?_
  exact clear_groupLoop hR a hH hp _ fun x hx => hg x.2 (List.mem_of_getElem? (indexed_mem (List.mem_filter.1 hx).1))

include hR in
theorem clear_script (hg : ∀ x ∈ cfg.groups, ¬ R (.store x.b, x.modeB) (.store x.a, x.modeA)) (id : Nat) {H : List Guard}
    (hH : NoStore H) (hG : ∀ g ∈ H, ∀ k, g.1 ≠ .group k) :
    ∀ (ops : List (HOp V)) (acc : List (Ret V)) {p : List (Ret V) → Prog V}, (∀ rs, Clear R H (p rs)) →
    Clear R H (script cfg id ops acc p)
  | [], acc, p, h => h acc
  | o :: ops, acc, p, h => by
    have hrest : ∀ acc', Clear R H (script cfg id ops acc' p) := fun acc' => clear_script hg id hH hG ops acc' h
    have hst : ∀ t m, ∀ g ∈ H, ¬ R (.store t, m) g := fun t m g hg hr => hH g hg t (hR hr).symm
    cases o with
    | attach t v =>
      simp only [script, attach]
      split
      · refine ⟨hst _ _, fun _ => ?_⟩
        show Clear R (((Lock.store t, Mode.mut) :: H).erase _) _
        rw [List.erase_cons_head]
        exact clear_groups hR t _ hH hG hg (hrest _)
      · trivial
    | detach t =>
      simp only [script, detach]
      split
      · refine clear_groups hR t _ hH hG hg ⟨hst _ _, fun r => ?_⟩
        show Clear R (((Lock.store t, Mode.mut) :: H).erase _) _
        rw [List.erase_cons_head]
        exact hrest _
      · trivial
    | read t =>
      simp only [script, read]
      split
      · refine ⟨hst _ _, fun r => ?_⟩
        show Clear R (((Lock.store t, Mode.ref) :: H).erase _) _
        rw [List.erase_cons_head]
        exact hrest _
      · exact hrest _
    | write t v =>
      simp only [script, write]
      split
      · refine ⟨hst _ _, fun r => ?_⟩
        show Clear R (((Lock.store t, Mode.mut) :: H).erase _) _
        rw [List.erase_cons_head]
        exact hrest _
      · exact hrest _

theorem noStore_em {m : Mode} : NoStore [(.em, m)] := by
  intro g hg t
  simp only [List.mem_singleton] at hg
  subst hg
  exact fun e => by cases e

include hR in
theorem clear_handle (hg : ∀ x ∈ cfg.groups, ¬ R (.store x.b, x.modeB) (.store x.a, x.modeA)) (id : Nat)
    (ops : List (HOp V)) (acc : List (Ret V)) : Clear R [] (handle cfg id ops acc) := by
  refine ⟨by simp, fun r => ?_⟩
  dsimp only
  split
  · exact clear_script hR hg id noStore_em (by simp) ops acc fun rs => trivial
  · trivial

include hR in
theorem clear_batches (start stop : Nat) {p : Prog V} {H : List Guard} (hH : NoStore H) (hp : Clear R H p) :
    ∀ bs : List (Nat × List V), Clear R H (batches cfg start stop bs p)
  | [] => hp
  | (t, vs) :: rest => by
    unfold batches
    split
    · refine clear_store (fun g hg hr => hH g hg t (hR hr).symm) fun _ => ?_
      show Clear R (((Lock.store t, Mode.mut) :: H).erase _) _
      rw [List.erase_cons_head]
      exact clear_batches start stop hH hp rest
    · trivial

include hR in
theorem clear_scanGroups (id : Nat) : ∀ (gs acc : List (Nat × Shape)) {H : List Guard} {p : List (Nat × Shape) → Prog V},
    (gs.map Prod.fst).Nodup → NoStore H → (∀ x ∈ gs, ∀ g ∈ H, g.1 ≠ .group x.1) →
    (∀ x ∈ gs, ¬ R (.store x.2.b, .ref) (.store x.2.a, .ref)) →
    (∀ sub, sub.Sublist gs → Clear R (groupMuts sub ++ H) (p (acc ++ sub))) → Clear R H (scanGroups cfg id gs acc p)
  | [], acc, H, p, _, _, _, _, h => by have := h [] (List.Sublist.refl _); simpa [groupMuts, scanGroups] using this
  | (k, g) :: rest, acc, H, p, hn, hH, hf, hab, h => by
    have hf1 : ∀ m, ∀ g' ∈ H, ¬ R (.group k, m) g' := fun m g' hg' hr =>
      hf (k, g) (by simp) g' hg' (hR hr).symm
    have hf2 := fun x hx => hf x (List.mem_cons_of_mem _ hx)
    simp only [List.map_cons, List.nodup_cons] at hn
    have hH1 : NoStore ((Lock.group k, Mode.ref) :: H) := by
      intro g' hg' t
      rcases List.mem_cons.1 hg' with rfl | hg'
      · exact fun e => by cases e
      · exact hH g' hg' t
    refine ⟨hf1 _, clear_two hR hH1 (hab (k, g) (by simp)) fun r => ?_⟩
    show Clear R (((_ :: _ :: _ :: H).erase _).erase _ |>.erase _) _
    rw [List.erase_cons_head, List.erase_cons_head, List.erase_cons_head]
    have no : Clear R H (scanGroups cfg id rest acc p) :=
      clear_scanGroups id rest acc hn.2 hH hf2 (fun x hx => hab x (List.mem_cons_of_mem _ hx))
        fun sub hs => h sub (hs.cons _)
    split
    · refine ⟨hf1 _, clear_scanGroups id rest _ hn.2 ?_ ?_ (fun x hx => hab x (List.mem_cons_of_mem _ hx)) ?_⟩
      · intro g' hg' t
        rcases List.mem_cons.1 hg' with rfl | hg'
        · exact fun e => by cases e
        · exact hH g' hg' t
      · intro x hx g' hg'
        rcases List.mem_cons.1 hg' with rfl | hg'
        · intro e
          cases e
          exact hn.1 (List.mem_map_of_mem hx)
        · exact hf2 x hx g' hg'
      · intro sub hs
        have := h ((k, g) :: sub) (hs.cons_cons _)
        rw [List.append_assoc]
        exact Clear.perm List.perm_middle.symm this
    · exact no

/-- The write guards of storages. -/
abbrev storeMuts (ts : List Nat) : List Guard := ts.map fun t => (.store t, .mut)

include hR in
theorem clear_scanStores (id : Nat) : ∀ (ts acc : List Nat) {H : List Guard} {p : List Nat → Prog V},
    ts.Nodup → (∀ t ∈ ts, ∀ g ∈ H, g.1 ≠ .store t) →
    (∀ sub, Clear R (storeMuts sub ++ H) (p (acc ++ sub))) → Clear R H (scanStores id ts acc p)
  | [], acc, H, p, _, _, h => by have := h []; simpa [storeMuts, scanStores] using this
  | t :: rest, acc, H, p, hn, hf, h => by
    have hf1 : ∀ m, ∀ g' ∈ H, ¬ R (.store t, m) g' := fun m g' hg' hr => hf t (by simp) g' hg' (hR hr).symm
    have hf2 := fun x hx => hf x (List.mem_cons_of_mem _ hx)
    simp only [List.nodup_cons] at hn
    refine ⟨hf1 _, fun r => ?_⟩
    show Clear R (((Lock.store t, Mode.ref) :: H).erase _) _
    rw [List.erase_cons_head]
    split
    · refine ⟨hf1 _, clear_scanStores id rest _ hn.2 ?_ ?_⟩
      · intro x hx g' hg'
        rcases List.mem_cons.1 hg' with rfl | hg'
        · intro e
          cases e
          exact hn.1 hx
        · exact hf2 x hx g' hg'
      · intro sub
        have := h (t :: sub)
        rw [List.append_assoc]
        exact Clear.perm List.perm_middle.symm this
    · exact clear_scanStores id rest acc hn.2 hf2 h

theorem clear_eraseStores (id : Nat) {p : Prog V} {H : List Guard} (hp : Clear R H p) : ∀ ts : List Nat,
    Clear R (storeMuts ts ++ H) (eraseStores id ts p)
  | [] => hp
  | t :: rest => fun _ => by
    show Clear R (((Lock.store t, Mode.mut) :: (storeMuts rest ++ H)).erase _) _
    rw [List.erase_cons_head]
    exact clear_eraseStores id hp rest

include hR in
theorem clear_remove (hg : ∀ x ∈ cfg.groups, ¬ R (.store x.b, x.modeB) (.store x.a, x.modeA) ∧
    ¬ R (.store x.b, .ref) (.store x.a, .ref)) (hn : cfg.order.Nodup) (id : Nat) : Clear R [] (remove cfg id : Prog V) := by
  refine ⟨by simp, fun r => ?_⟩
  dsimp only
  split
  · show Clear R ([(Lock.em, Mode.ref)].erase _) _
    rw [List.erase_cons_head]
    refine clear_scanGroups hR id _ _ (indexed_nodup cfg) (by simp [NoStore]) (by simp)
      (fun x hx => (hg x.2 (List.mem_of_getElem? (indexed_mem hx))).2) fun sub hs => ?_
    refine clear_groupLoop hR _ (by simp [NoStore]) ?_ _
      fun x hx => (hg x.2 (List.mem_of_getElem? (indexed_mem (hs.subset hx)))).1
    refine clear_scanStores hR id _ _ hn (by simp) fun ts => clear_eraseStores id ?_ ts
    exact ⟨by simp, fun _ => trivial⟩
  · trivial

theorem clear_visitGroups {p : Prog V} {H : List Guard} (hp : Clear R H p) : ∀ ks : List Nat,
    (∀ k ∈ ks, ∀ g ∈ H, ¬ R (.group k, .ref) g) → Clear R H (visitGroups ks p)
  | [], _ => hp
  | k :: rest, h => by
    refine ⟨h k (by simp), ?_⟩
    show Clear R (((Lock.group k, Mode.ref) :: H).erase _) _
    rw [List.erase_cons_head]
    exact clear_visitGroups hp rest fun j hj => h j (List.mem_cons_of_mem _ hj)

theorem clear_releaseAll {p : Prog V} (hp : ∀ H, Clear R H p) : ∀ (gs : List Guard) (H : List Guard),
    Clear R H (releaseAll gs p)
  | [], H => hp H
  | (_, _) :: rest, _ => clear_releaseAll hp rest _

/-- The second query may be opened while the first one is open. -/
def Sep (R : Guard → Guard → Prop) (cfg : Config) (p q : Query) : Prop :=
  ∀ g ∈ q.needs cfg, ∀ h ∈ queryGuards cfg p, ¬ R g h

/-- The parts of a query may be opened one after the other. -/
def Apart (R : Guard → Guard → Prop) (cfg : Config) : Query → Prop
  | .comp _ _ => True
  | .with2 a b => Apart R cfg a ∧ Apart R cfg b ∧ Sep R cfg a b
  | .with3 a b c => Apart R cfg a ∧ Apart R cfg b ∧ Apart R cfg c ∧ Sep R cfg a b ∧ Sep R cfg a c ∧ Sep R cfg b c
  | .with4 a b c d => Apart R cfg a ∧ Apart R cfg b ∧ Apart R cfg c ∧ Apart R cfg d ∧ Sep R cfg a b ∧ Sep R cfg a c ∧
      Sep R cfg b c ∧ Sep R cfg a d ∧ Sep R cfg b d ∧ Sep R cfg c d
  | .with5 a b c d e => Apart R cfg a ∧ Apart R cfg b ∧ Apart R cfg c ∧ Apart R cfg d ∧ Apart R cfg e ∧ Sep R cfg a b ∧
      Sep R cfg a c ∧ Sep R cfg b c ∧ Sep R cfg a d ∧ Sep R cfg b d ∧ Sep R cfg c d ∧ Sep R cfg a e ∧ Sep R cfg b e ∧
      Sep R cfg c e ∧ Sep R cfg d e
  | .withoutL a b => Apart R cfg a ∧ Apart R cfg b ∧ Sep R cfg a b
  | .withoutR a b => Apart R cfg a ∧ Apart R cfg b ∧ Sep R cfg a b
  | .group _ ma mb a b => ¬ R (.store b, mb) (.store a, ma)

include hR in
theorem clear_openQuery (q : Query) : ∀ {H : List Guard} {p : Prog V}, Apart R cfg q →
    (∀ g ∈ q.needs cfg, ∀ h ∈ H, ¬ R g h) → Clear R (queryGuards cfg q ++ H) p → Clear R H (openQuery cfg q p) := by
  have two : ∀ {x y : Query} {H : List Guard}, Sep R cfg x y → (∀ g ∈ y.needs cfg, ∀ h ∈ H, ¬ R g h) →
      ∀ g ∈ y.needs cfg, ∀ h ∈ queryGuards cfg x ++ H, ¬ R g h := by
    intro x y H hs hn g hg h hh
    rcases List.mem_append.1 hh with hh | hh
    · exact hs g hg h hh
    · exact hn g hg h hh
  have sw : ∀ (A B C : List Guard) {p : Prog V}, Clear R (A ++ B ++ C) p → Clear R (B ++ (A ++ C)) p := by
    intro A B C p h
    refine h.perm ?_
    rw [← List.append_assoc]
    exact List.perm_append_comm.append_right C
  induction q with
  | comp m t => intro H p _ hn hp; exact clear_store (hn _ (by simp [Query.needs])) hp
  | with2 a b iha ihb =>
    intro H p ⟨h1, h2, h3⟩ hn hp
    have na : ∀ g ∈ a.needs cfg, ∀ h ∈ H, ¬ R g h := fun g hg => hn g (by simp [Query.needs, hg])
    have nb : ∀ g ∈ b.needs cfg, ∀ h ∈ H, ¬ R g h := fun g hg => hn g (by simp [Query.needs, hg])
    exact iha h1 na (ihb h2 (two h3 nb) (sw _ _ _ hp))
  | with3 a b c iha ihb ihc =>
    intro H p ⟨h1, h2, h3, ab, ac, bc⟩ hn hp
    have na : ∀ g ∈ a.needs cfg, ∀ h ∈ H, ¬ R g h := fun g hg => hn g (by simp [Query.needs, hg])
    have nb : ∀ g ∈ b.needs cfg, ∀ h ∈ H, ¬ R g h := fun g hg => hn g (by simp [Query.needs, hg])
    have nc : ∀ g ∈ c.needs cfg, ∀ h ∈ H, ¬ R g h := fun g hg => hn g (by simp [Query.needs, hg])
    refine iha h1 na (ihb h2 (two ab nb) (ihc h3 (two bc (two ac nc)) ?_))
    refine hp.perm ?_
    simp only [queryGuards]
    exact (List.perm_append_comm.append_right H).trans (by
      rw [List.append_assoc]
      refine List.Perm.append_left _ ?_
      rw [← List.append_assoc]
      exact List.perm_append_comm.append_right H)
  | with4 a b c d iha ihb ihc ihd =>
    intro H p ⟨h1, h2, h3, h4, ab, ac, bc, ad, bd, cd⟩ hn hp
    have na : ∀ g ∈ a.needs cfg, ∀ h ∈ H, ¬ R g h := fun g hg => hn g (by simp [Query.needs, hg])
    have nb : ∀ g ∈ b.needs cfg, ∀ h ∈ H, ¬ R g h := fun g hg => hn g (by simp [Query.needs, hg])
    have nc : ∀ g ∈ c.needs cfg, ∀ h ∈ H, ¬ R g h := fun g hg => hn g (by simp [Query.needs, hg])
    have nd : ∀ g ∈ d.needs cfg, ∀ h ∈ H, ¬ R g h := fun g hg => hn g (by simp [Query.needs, hg])
    refine iha h1 na (ihb h2 (two ab nb) (ihc h3 (two bc (two ac nc)) (ihd h4 (two cd (two bd (two ad nd))) ?_)))
    refine hp.perm ?_
    rw [List.perm_iff_count]
    intro x
    simp only [queryGuards, List.count_append]
    omega
  | with5 a b c d e iha ihb ihc ihd ihe =>
    intro H p ⟨h1, h2, h3, h4, h5, ab, ac, bc, ad, bd, cd, ae, be, ce, de⟩ hn hp
    have na : ∀ g ∈ a.needs cfg, ∀ h ∈ H, ¬ R g h := fun g hg => hn g (by simp [Query.needs, hg])
    have nb : ∀ g ∈ b.needs cfg, ∀ h ∈ H, ¬ R g h := fun g hg => hn g (by simp [Query.needs, hg])
    have nc : ∀ g ∈ c.needs cfg, ∀ h ∈ H, ¬ R g h := fun g hg => hn g (by simp [Query.needs, hg])
    have nd : ∀ g ∈ d.needs cfg, ∀ h ∈ H, ¬ R g h := fun g hg => hn g (by simp [Query.needs, hg])
    have ne : ∀ g ∈ e.needs cfg, ∀ h ∈ H, ¬ R g h := fun g hg => hn g (by simp [Query.needs, hg])
    refine iha h1 na (ihb h2 (two ab nb) (ihc h3 (two bc (two ac nc)) (ihd h4 (two cd (two bd (two ad nd)))
      (ihe h5 (two de (two ce (two be (two ae ne)))) ?_))))
    refine hp.perm ?_
    rw [List.perm_iff_count]
    intro x
    simp only [queryGuards, List.count_append]
    omega
  | withoutL a b iha ihb =>
    intro H p ⟨h1, h2, h3⟩ hn hp
    have na : ∀ g ∈ a.needs cfg, ∀ h ∈ H, ¬ R g h := fun g hg => hn g (by simp [Query.needs, hg])
    have nb : ∀ g ∈ b.needs cfg, ∀ h ∈ H, ¬ R g h := fun g hg => hn g (by simp [Query.needs, hg])
    exact iha h1 na (ihb h2 (two h3 nb) (sw _ _ _ hp))
  | withoutR a b iha ihb =>
    intro H p ⟨h1, h2, h3⟩ hn hp
    have na : ∀ g ∈ a.needs cfg, ∀ h ∈ H, ¬ R g h := fun g hg => hn g (by simp [Query.needs, hg])
    have nb : ∀ g ∈ b.needs cfg, ∀ h ∈ H, ¬ R g h := fun g hg => hn g (by simp [Query.needs, hg])
    exact iha h1 na (ihb h2 (two h3 nb) (sw _ _ _ hp))
  | group k ma mb a b =>
    intro H p hap hn hp
    have hgrp : ∀ m, ∀ j, ∀ g ∈ [(Lock.store b, mb), (Lock.store a, ma)] ++ H, (j < (cfg.groups.idxOf ⟨k, a, b⟩) + 1 → m = .ref → ¬ R (.group j, m) g) := by
      intro m j g hg hj hm hr
      subst hm
      rcases List.mem_append.1 hg with hg | hg
      · have e := hR hr
        simp only [List.mem_cons, List.not_mem_nil, or_false] at hg
        rcases hg with rfl | rfl <;> cases e
      · exact hn _ (by simp only [Query.needs, List.mem_append, List.mem_map, List.mem_range]; exact .inr ⟨j, hj, rfl⟩) g hg hr
    simp only [openQuery]
    split
    · refine clear_store (hn _ (by simp [Query.needs])) (clear_store ?_ ?_)
      · intro g hg hr
        rcases List.mem_cons.1 hg with rfl | hg
        · exact hap hr
        · exact hn _ (by simp [Query.needs]) g hg hr
      · split
        · rename_i pos hpos
          have hix := idxOf_position hpos
          have hv : ∀ j ∈ List.range (pos + 1), ∀ g ∈ (Lock.store b, mb) :: (Lock.store a, ma) :: H, ¬ R (.group j, .ref) g :=
            fun j hj g hg => hgrp _ j g hg (by rw [hix]; exact List.mem_range.1 hj) rfl
          refine clear_visitGroups (clear_visitGroups (p := .acq (.group pos) .ref p) ⟨hv pos (by simp), ?_⟩ _ hv) _ hv
          refine hp.perm ?_
          simp only [queryGuards, hpos]
          rw [List.perm_iff_count]
          intro x
          simp only [List.count_append, List.count_cons, List.count_nil]
          omega
        · rename_i hpos
          refine clear_visitGroups (p := .panic) trivial _ fun j hj g hg => hgrp _ j g hg ?_ rfl
          have hle : cfg.groups.idxOf ⟨k, a, b⟩ = cfg.groups.length := by
            unfold position at hpos
            refine List.idxOf_eq_length fun hin => ?_
            have := List.findIdx?_eq_none_iff.1 hpos _ hin
            simp at this
          rw [hle]
          have := List.mem_range.1 hj
          omega
    · trivial

/-! ### Queries -/

theorem needs_mem (q : Query) {g : Guard} (h : g ∈ q.needs cfg) :
    (∃ x ∈ q.accesses, g = (.store x.1, x.2)) ∨ (0 < q.groupParts ∧ ∃ k, g = (.group k, .ref)) := by
  induction q with
  | comp m t => simp only [Query.needs, List.mem_singleton] at h; exact .inl ⟨(t, m), by simp [Query.accesses], h⟩
  | with2 a b iha ihb =>
    simp only [Query.needs, List.mem_append] at h
    rcases h with h | h
    · rcases iha h with ⟨x, hx, e⟩ | ⟨hp, hk⟩
      · exact .inl ⟨x, by simp [Query.accesses, hx], e⟩
      · exact .inr ⟨by simp only [Query.groupParts]; omega, hk⟩
    · rcases ihb h with ⟨x, hx, e⟩ | ⟨hp, hk⟩
      · exact .inl ⟨x, by simp [Query.accesses, hx], e⟩
      · exact .inr ⟨by simp only [Query.groupParts]; omega, hk⟩
  | withoutL a b iha ihb =>
    simp only [Query.needs, List.mem_append] at h
    rcases h with h | h
    · rcases iha h with ⟨x, hx, e⟩ | ⟨hp, hk⟩
      · exact .inl ⟨x, by simp [Query.accesses, hx], e⟩
      · exact .inr ⟨by simp only [Query.groupParts]; omega, hk⟩
    · rcases ihb h with ⟨x, hx, e⟩ | ⟨hp, hk⟩
      · exact .inl ⟨x, by simp [Query.accesses, hx], e⟩
      · exact .inr ⟨by simp only [Query.groupParts]; omega, hk⟩
  | withoutR a b iha ihb =>
    simp only [Query.needs, List.mem_append] at h
    rcases h with h | h
    · rcases iha h with ⟨x, hx, e⟩ | ⟨hp, hk⟩
      · exact .inl ⟨x, by simp [Query.accesses, hx], e⟩
      · exact .inr ⟨by simp only [Query.groupParts]; omega, hk⟩
    · rcases ihb h with ⟨x, hx, e⟩ | ⟨hp, hk⟩
      · exact .inl ⟨x, by simp [Query.accesses, hx], e⟩
      · exact .inr ⟨by simp only [Query.groupParts]; omega, hk⟩
  | with3 a b c iha ihb ihc =>
    simp only [Query.needs, List.mem_append] at h
    rcases h with (h | h) | h
    · rcases iha h with ⟨x, hx, e⟩ | ⟨hp, hk⟩
      · exact .inl ⟨x, by simp [Query.accesses, hx], e⟩
      · exact .inr ⟨by simp only [Query.groupParts]; omega, hk⟩
    · rcases ihb h with ⟨x, hx, e⟩ | ⟨hp, hk⟩
      · exact .inl ⟨x, by simp [Query.accesses, hx], e⟩
      · exact .inr ⟨by simp only [Query.groupParts]; omega, hk⟩
    · rcases ihc h with ⟨x, hx, e⟩ | ⟨hp, hk⟩
      · exact .inl ⟨x, by simp [Query.accesses, hx], e⟩
      · exact .inr ⟨by simp only [Query.groupParts]; omega, hk⟩
  | with4 a b c d iha ihb ihc ihd =>
    simp only [Query.needs, List.mem_append] at h
    rcases h with ((h | h) | h) | h
    · rcases iha h with ⟨x, hx, e⟩ | ⟨hp, hk⟩
      · exact .inl ⟨x, by simp [Query.accesses, hx], e⟩
      · exact .inr ⟨by simp only [Query.groupParts]; omega, hk⟩
    · rcases ihb h with ⟨x, hx, e⟩ | ⟨hp, hk⟩
      · exact .inl ⟨x, by simp [Query.accesses, hx], e⟩
      · exact .inr ⟨by simp only [Query.groupParts]; omega, hk⟩
    · rcases ihc h with ⟨x, hx, e⟩ | ⟨hp, hk⟩
      · exact .inl ⟨x, by simp [Query.accesses, hx], e⟩
      · exact .inr ⟨by simp only [Query.groupParts]; omega, hk⟩
    · rcases ihd h with ⟨x, hx, e⟩ | ⟨hp, hk⟩
      · exact .inl ⟨x, by simp [Query.accesses, hx], e⟩
      · exact .inr ⟨by simp only [Query.groupParts]; omega, hk⟩
  | with5 a b c d e iha ihb ihc ihd ihe =>
    simp only [Query.needs, List.mem_append] at h
    rcases h with (((h | h) | h) | h) | h
    · rcases iha h with ⟨x, hx, e⟩ | ⟨hp, hk⟩
      · exact .inl ⟨x, by simp [Query.accesses, hx], e⟩
      · exact .inr ⟨by simp only [Query.groupParts]; omega, hk⟩
    · rcases ihb h with ⟨x, hx, e⟩ | ⟨hp, hk⟩
      · exact .inl ⟨x, by simp [Query.accesses, hx], e⟩
      · exact .inr ⟨by simp only [Query.groupParts]; omega, hk⟩
    · rcases ihc h with ⟨x, hx, e⟩ | ⟨hp, hk⟩
      · exact .inl ⟨x, by simp [Query.accesses, hx], e⟩
      · exact .inr ⟨by simp only [Query.groupParts]; omega, hk⟩
    · rcases ihd h with ⟨x, hx, e⟩ | ⟨hp, hk⟩
      · exact .inl ⟨x, by simp [Query.accesses, hx], e⟩
      · exact .inr ⟨by simp only [Query.groupParts]; omega, hk⟩
    · rcases ihe h with ⟨x, hx, e⟩ | ⟨hp, hk⟩
      · exact .inl ⟨x, by simp [Query.accesses, hx], e⟩
      · exact .inr ⟨by simp only [Query.groupParts]; omega, hk⟩
  | group k ma mb a b =>
    simp only [Query.needs, List.mem_append, List.mem_cons, List.not_mem_nil, or_false, List.mem_map] at h
    rcases h with (rfl | rfl) | ⟨j, _, rfl⟩
    · exact .inl ⟨(a, ma), by simp [Query.accesses], rfl⟩
    · exact .inl ⟨(b, mb), by simp [Query.accesses], rfl⟩
    · exact .inr ⟨by simp [Query.groupParts], j, rfl⟩

/-- The guards an open query holds are among those it asked for. -/
theorem guards_needs (q : Query) {g : Guard} (h : g ∈ queryGuards cfg q) : g ∈ q.needs cfg := by
  induction q with
  | comp m t => exact h
  | with2 a b iha ihb =>
    simp only [queryGuards, Query.needs, List.mem_append] at h ⊢
    exact h.imp iha ihb
  | withoutL a b iha ihb =>
    simp only [queryGuards, Query.needs, List.mem_append] at h ⊢
    exact h.imp iha ihb
  | withoutR a b iha ihb =>
    simp only [queryGuards, Query.needs, List.mem_append] at h ⊢
    exact h.imp iha ihb
  | with3 a b c iha ihb ihc =>
    simp only [queryGuards, Query.needs, List.mem_append] at h ⊢
    exact h.imp (·.imp iha ihb) ihc
  | with4 a b c d iha ihb ihc ihd =>
    simp only [queryGuards, Query.needs, List.mem_append] at h ⊢
    exact h.imp (·.imp (·.imp iha ihb) ihc) ihd
  | with5 a b c d e iha ihb ihc ihd ihe =>
    simp only [queryGuards, Query.needs, List.mem_append] at h ⊢
    exact h.imp (·.imp (·.imp (·.imp iha ihb) ihc) ihd) ihe
  | group k ma mb a b =>
    simp only [queryGuards, Query.needs, List.mem_append] at h ⊢
    refine h.imp (fun h => h) fun h => ?_
    split at h
    · rename_i pos hpos
      simp only [List.mem_singleton] at h
      subst h
      exact List.mem_map.2 ⟨pos, by rw [idxOf_position hpos]; simp, rfl⟩
    · cases h

include hR in
theorem sep_of {a b : Query}
    (hs : ∀ x ∈ a.accesses, ∀ y ∈ b.accesses, ¬ R (.store y.1, y.2) (.store x.1, x.2))
    (hg : a.groupParts + b.groupParts ≤ 1 ∨ ∀ k j, ¬ R (.group k, .ref) (.group j, .ref)) : Sep R cfg a b := by
  intro g hgn h hh hr
  have e := hR hr
  rcases needs_mem b hgn with ⟨y, hy, rfl⟩ | ⟨hpb, k, rfl⟩ <;> rcases needs_mem a (guards_needs a hh) with ⟨x, hx, rfl⟩ | ⟨hpa, j, rfl⟩
  · exact hs x hx y hy hr
  · cases e
  · cases e
  · rcases hg with hg | hg
    · omega
    · exact hg k j hr

include hR in
theorem apart_of (q : Query) : q.accesses.Pairwise (fun x y => ¬ R (.store y.1, y.2) (.store x.1, x.2)) →
    (q.groupParts ≤ 1 ∨ ∀ k j, ¬ R (.group k, .ref) (.group j, .ref)) → Apart R cfg q := by
  have less : ∀ {m n : Nat}, m ≤ n → (n ≤ 1 ∨ ∀ k j, ¬ R (.group k, .ref) (.group j, .ref)) →
      (m ≤ 1 ∨ ∀ k j, ¬ R (.group k, .ref) (.group j, .ref)) := fun h hn => hn.imp (fun h' => by omega) (fun h => h)
  induction q with
  | comp m t => intros; trivial
  | with2 a b iha ihb =>
    intro hp hg
    simp only [Query.groupParts] at hg
    simp only [Query.accesses, List.pairwise_append] at hp
    obtain ⟨p1, p2, p3⟩ := hp
    exact ⟨iha p1 (less (by omega) hg), ihb p2 (less (by omega) hg), sep_of hR p3 hg⟩
  | withoutL a b iha ihb =>
    intro hp hg
    simp only [Query.groupParts] at hg
    simp only [Query.accesses, List.pairwise_append] at hp
    obtain ⟨p1, p2, p3⟩ := hp
    exact ⟨iha p1 (less (by omega) hg), ihb p2 (less (by omega) hg), sep_of hR p3 hg⟩
  | withoutR a b iha ihb =>
    intro hp hg
    simp only [Query.groupParts] at hg
    simp only [Query.accesses, List.pairwise_append] at hp
    obtain ⟨p1, p2, p3⟩ := hp
    exact ⟨iha p1 (less (by omega) hg), ihb p2 (less (by omega) hg), sep_of hR p3 hg⟩
  | with3 a b c iha ihb ihc =>
    intro hp hg
    simp only [Query.groupParts] at hg
    simp only [Query.accesses, List.pairwise_append, List.mem_append] at hp
    obtain ⟨⟨p1, p2, p12⟩, p3, p123⟩ := hp
    exact ⟨iha p1 (less (by omega) hg), ihb p2 (less (by omega) hg), ihc p3 (less (by omega) hg),
      sep_of hR p12 (less (by omega) hg), sep_of hR (fun x hx => p123 x (.inl hx)) (less (by omega) hg),
      sep_of hR (fun x hx => p123 x (.inr hx)) (less (by omega) hg)⟩
  | with4 a b c d iha ihb ihc ihd =>
    intro hp hg
    simp only [Query.groupParts] at hg
    simp only [Query.accesses, List.pairwise_append, List.mem_append] at hp
    obtain ⟨⟨⟨p1, p2, p12⟩, p3, p123⟩, p4, p1234⟩ := hp
    exact ⟨iha p1 (less (by omega) hg), ihb p2 (less (by omega) hg), ihc p3 (less (by omega) hg), ihd p4 (less (by omega) hg),
      sep_of hR p12 (less (by omega) hg), sep_of hR (fun x hx => p123 x (.inl hx)) (less (by omega) hg),
      sep_of hR (fun x hx => p123 x (.inr hx)) (less (by omega) hg),
      sep_of hR (fun x hx => p1234 x (.inl (.inl hx))) (less (by omega) hg),
      sep_of hR (fun x hx => p1234 x (.inl (.inr hx))) (less (by omega) hg),
      sep_of hR (fun x hx => p1234 x (.inr hx)) (less (by omega) hg)⟩
  | with5 a b c d e iha ihb ihc ihd ihe =>
    intro hp hg
    simp only [Query.groupParts] at hg
    simp only [Query.accesses, List.pairwise_append, List.mem_append] at hp
    obtain ⟨⟨⟨⟨p1, p2, p12⟩, p3, p123⟩, p4, p1234⟩, p5, p12345⟩ := hp
    exact ⟨iha p1 (less (by omega) hg), ihb p2 (less (by omega) hg), ihc p3 (less (by omega) hg), ihd p4 (less (by omega) hg),
      ihe p5 (less (by omega) hg),
      sep_of hR p12 (less (by omega) hg), sep_of hR (fun x hx => p123 x (.inl hx)) (less (by omega) hg),
      sep_of hR (fun x hx => p123 x (.inr hx)) (less (by omega) hg),
      sep_of hR (fun x hx => p1234 x (.inl (.inl hx))) (less (by omega) hg),
      sep_of hR (fun x hx => p1234 x (.inl (.inr hx))) (less (by omega) hg),
      sep_of hR (fun x hx => p1234 x (.inr hx)) (less (by omega) hg),
      sep_of hR (fun x hx => p12345 x (.inl (.inl (.inl hx)))) (less (by omega) hg),
      sep_of hR (fun x hx => p12345 x (.inl (.inl (.inr hx)))) (less (by omega) hg),
      sep_of hR (fun x hx => p12345 x (.inl (.inr hx))) (less (by omega) hg),
      sep_of hR (fun x hx => p12345 x (.inr hx)) (less (by omega) hg)⟩
  | group k ma mb a b =>
    intro hp _
    simp only [Query.accesses, List.pairwise_cons, List.mem_singleton, forall_eq] at hp
    exact hp.1

/-! ### Calls -/

/-- The configuration is harmless: neither the locks a group operation takes at the same time nor those `remove_entity`
takes are in the relation. -/
structure Tame (R : Guard → Guard → Prop) (cfg : Config) : Prop where
  work : ∀ x ∈ cfg.groups, ¬ R (.store x.b, x.modeB) (.store x.a, x.modeA)
  scan : ∀ x ∈ cfg.groups, ¬ R (.store x.b, .ref) (.store x.a, .ref)
  order : cfg.order.Nodup

include hR in
theorem clear_call (hc : Tame R cfg) (c : ApiCall V) (hq : ∀ q, c = .query q → Apart R cfg q) : Clear R [] (c.prog cfg) := by
  cases c with
  | create s =>
    refine ⟨by simp, fun r => ?_⟩
    cases r with
    | id id =>
      show Clear R ([(Lock.em, Mode.mut)].erase _) _
      rw [List.erase_cons_head]
      exact clear_handle hR hc.work id s _
    | _ => trivial
  | on id s => exact clear_handle hR hc.work id s _
  | createMany n bs =>
    refine ⟨by simp, fun r => ?_⟩
    cases r with
    | range a b =>
      show Clear R ([(Lock.em, Mode.mut)].erase _) _
      rw [List.erase_cons_head]
      exact ⟨by simp, clear_batches hR a b (p := .rel .em .ref (.done [.range a b])) noStore_em trivial bs⟩
    | _ => trivial
  | fill a b bs =>
    exact ⟨by simp, clear_batches hR a b (p := .rel .em .ref (.done [.range a b])) noStore_em trivial bs⟩
  | remove id => exact clear_remove hR (fun x hx => ⟨hc.work x hx, hc.scan x hx⟩) hc.order id
  | exist id => exact ⟨by simp, fun _ => trivial⟩
  | read t id =>
    simp only [ApiCall.prog, read]; split
    · exact ⟨by simp, fun _ => trivial⟩
    · trivial
  | write t id v =>
    simp only [ApiCall.prog, write]; split
    · exact ⟨by simp, fun _ => trivial⟩
    · trivial
  | count t =>
    simp only [ApiCall.prog]; split
    · exact ⟨by simp, fun _ => trivial⟩
    · trivial
  | resRead t =>
    simp only [ApiCall.prog]; split
    · exact ⟨by simp, fun _ => trivial⟩
    · trivial
  | resWrite t v =>
    simp only [ApiCall.prog]; split
    · exact ⟨by simp, fun _ => trivial⟩
    · trivial
  | query q =>
    exact clear_openQuery hR q (p := .act (.collect q) _) (hq q rfl) (by simp)
      fun r => clear_releaseAll (p := .done [r]) (fun _ => trivial) _ _

include hR in
theorem clear_kcall (hc : Tame R cfg) (c : KCall V) (hq : ∀ q, c.opens = some q → Apart R cfg q) :
    Clear R [] (c.prog cfg) := by
  cases c with
  | call c => exact clear_call hR hc c fun q e => hq q (by subst e; rfl)
  | openHandle id =>
    refine ⟨by simp, fun r => ?_⟩
    dsimp only; split <;> trivial
  | createHandle =>
    refine ⟨by simp, fun r => ?_⟩
    cases r with
    | id id =>
      show Clear R ([(Lock.em, Mode.mut)].erase _) _
      rw [List.erase_cons_head]
      refine ⟨by simp, fun r => ?_⟩
      dsimp only; split <;> trivial
    | _ => trivial
  | createHandles n bs =>
    refine ⟨by simp, fun r => ?_⟩
    cases r with
    | range a b =>
      show Clear R ([(Lock.em, Mode.mut)].erase _) _
      rw [List.erase_cons_head]
      exact ⟨by simp, clear_batches hR a b (p := .done [.range a b]) noStore_em trivial bs⟩
    | _ => trivial
  | openStore t m =>
    simp only [KCall.prog]; split
    · exact ⟨by simp, trivial⟩
    · trivial
  | openView q => exact clear_openQuery hR q (p := .act (.collect q) _) (hq q rfl) (by simp) fun r => trivial
  | openRes t m =>
    simp only [KCall.prog]; split
    · exact ⟨by simp, trivial⟩
    · trivial
  | viaHandle id s => exact clear_script hR hc.work id (by simp [NoStore]) (by simp) s [] fun _ => trivial
  | viaHandles a b bs => exact clear_batches hR a b (p := .done [.range a b]) (by simp [NoStore]) trivial bs
  | storeGet t id => simp only [KCall.prog]; split <;> first | exact fun _ => trivial | trivial
  | storeSet t id v => simp only [KCall.prog]; split <;> first | exact fun _ => trivial | trivial
  | storeLen t => simp only [KCall.prog]; split <;> first | exact fun _ => trivial | trivial
  | resGet t => simp only [KCall.prog]; split <;> first | exact fun _ => trivial | trivial
  | resSet t v => simp only [KCall.prog]; split <;> first | exact fun _ => trivial | trivial
  | drop k => exact clear_releaseAll (p := .done []) (fun _ => trivial) _ _

/-! ### What calls ask for -/

section Asks
variable {S : Lock → Mode → Prop}

theorem asks_script (id : Nat) : ∀ (ops : List (HOp V)) (acc : List (Ret V)) {p : List (Ret V) → Prog V},
    (∀ g ∈ ops.flatMap (HOp.needs cfg), S g.1 g.2) → (∀ rs, Takes S (p rs)) → Takes S (script cfg id ops acc p)
  | [], acc, p, _, h => h acc
  | o :: ops, acc, p, hs, h => by
    have hrest : ∀ acc', Takes S (script cfg id ops acc' p) := fun acc' =>
      asks_script id ops acc' (fun g hg => hs g (by simp only [List.flatMap_cons, List.mem_append]; exact .inr hg)) h
    have ho : ∀ g ∈ o.needs cfg, S g.1 g.2 := fun g hg => hs g (by
      simp only [List.flatMap_cons, List.mem_append]; exact .inl hg)
    have hup : ∀ t, o.needs cfg = HOp.needs.touch cfg t → S (.store t) .mut ∧
        (∀ x ∈ cfg.indexed, S (.group x.1) .ref) ∧
          ∀ x ∈ touching cfg t, S (.group x.1) .mut ∧ S (.store x.2.a) x.2.modeA ∧ S (.store x.2.b) x.2.modeB := by
      intro t e
      rw [e] at ho
      unfold HOp.needs.touch at ho
      refine ⟨ho (.store t, .mut) (by simp), fun x hx => ho (.group x.1, .ref) ?_, fun x hx => ?_⟩
      · exact List.mem_append_left _ (List.mem_append_right _ (List.mem_map.2 ⟨x, hx, rfl⟩))
      · have : ∀ g ∈ [((.group x.1, .mut) : Guard), (.store x.2.a, x.2.modeA), (.store x.2.b, x.2.modeB)], S g.1 g.2 :=
          fun g hg => ho g (List.mem_append_right _ (List.mem_flatMap.2 ⟨x, hx, hg⟩))
        exact ⟨this (.group x.1, .mut) (by simp), this (.store x.2.a, x.2.modeA) (by simp),
          this (.store x.2.b, x.2.modeB) (by simp)⟩
    have lockG : ∀ (t : Nat) {q : Prog V} (gs : List (Nat × Shape)), (∀ x ∈ gs, S (.group x.1) .ref) →
        (∀ x ∈ gs, x.2.touches t = true → S (.group x.1) .mut) → Takes S q → Takes S (lockGroups t gs q) := by
      intro t q gs
      induction gs with
      | nil => exact fun _ _ hq => hq
      | cons x rest ih =>
        obtain ⟨k, g⟩ := x
        intro h1 h2 hq
        have h3 := ih (fun x hx => h1 x (List.mem_cons_of_mem _ hx)) (fun x hx => h2 x (List.mem_cons_of_mem _ hx)) hq
        refine ⟨h1 (k, g) (by simp), ?_⟩
        show Takes S (if g.touches t then _ else _)
        split
        · exact ⟨h2 (k, g) (by simp) ‹_›, h3⟩
        · exact h3
    cases o with
    | attach t v =>
      obtain ⟨h1, h2, h3⟩ := hup t rfl
      simp only [script, attach]
      split
      · exact ⟨h1, fun _ => lockG t _ h2 (fun x hx ht => (h3 x (List.mem_filter.2 ⟨hx, ht⟩)).1)
          (takes_groupLoop _ (hrest _) _ fun x hx => (h3 x hx).2)⟩
      · trivial
    | detach t =>
      obtain ⟨h1, h2, h3⟩ := hup t rfl
      simp only [script, detach]
      split
      · refine lockG t _ h2 (fun x hx ht => (h3 x (List.mem_filter.2 ⟨hx, ht⟩)).1)
          (takes_groupLoop _ ?_ _ fun x hx => (h3 x hx).2)
        exact ⟨h1, fun r => hrest _⟩
      · trivial
    | read t =>
      simp only [script, read]
      split
      · rename_i hr
        exact ⟨ho (.store t, .ref) (by simp [HOp.needs, hr]), fun r => hrest _⟩
      · exact hrest _
    | write t v =>
      simp only [script, write]
      split
      · rename_i hr
        exact ⟨ho (.store t, .mut) (by simp [HOp.needs, hr]), fun r => hrest _⟩
      · exact hrest _

theorem asks_handle (id : Nat) (ops : List (HOp V)) (acc : List (Ret V)) (hem : S .em .ref)
    (h : ∀ g ∈ ops.flatMap (HOp.needs cfg), S g.1 g.2) : Takes S (handle cfg id ops acc) := by
  refine ⟨hem, fun r => ?_⟩
  dsimp only
  split
  · exact asks_script id ops acc h fun rs => trivial
  · trivial

theorem asks_openQuery (q : Query) : ∀ {p : Prog V}, Takes S p → (∀ g ∈ q.needs cfg, S g.1 g.2) →
    Takes S (openQuery cfg q p) := by
  induction q with
  | comp m t => intro p hp h; exact takes_store (h (.store t, m) (by simp [Query.needs])) hp
  | with2 a b iha ihb =>
    intro p hp h
    exact iha (ihb hp fun l hl => h l (by simp [Query.needs, hl])) fun l hl => h l (by simp [Query.needs, hl])
  | with3 a b c iha ihb ihc =>
    intro p hp h
    exact iha (ihb (ihc hp fun l hl => h l (by simp [Query.needs, hl])) fun l hl => h l (by simp [Query.needs, hl]))
      fun l hl => h l (by simp [Query.needs, hl])
  | with4 a b c d iha ihb ihc ihd =>
    intro p hp h
    exact iha (ihb (ihc (ihd hp fun l hl => h l (by simp [Query.needs, hl])) fun l hl => h l (by simp [Query.needs, hl]))
      fun l hl => h l (by simp [Query.needs, hl])) fun l hl => h l (by simp [Query.needs, hl])
  | with5 a b c d e iha ihb ihc ihd ihe =>
    intro p hp h
    exact iha (ihb (ihc (ihd (ihe hp fun l hl => h l (by simp [Query.needs, hl])) fun l hl => h l (by simp [Query.needs, hl]))
      fun l hl => h l (by simp [Query.needs, hl])) fun l hl => h l (by simp [Query.needs, hl]))
      fun l hl => h l (by simp [Query.needs, hl])
  | withoutL a b iha ihb =>
    intro p hp h
    exact iha (ihb hp fun l hl => h l (by simp [Query.needs, hl])) fun l hl => h l (by simp [Query.needs, hl])
  | withoutR a b iha ihb =>
    intro p hp h
    exact iha (ihb hp fun l hl => h l (by simp [Query.needs, hl])) fun l hl => h l (by simp [Query.needs, hl])
  | group k ma mb a b =>
    intro p hp h
    have hg : ∀ j, j < (cfg.groups.idxOf ⟨k, a, b⟩) + 1 → S (.group j) .ref := fun j hj =>
      h (.group j, .ref) (by
        simp only [Query.needs, List.mem_append, List.mem_map, List.mem_range]; exact .inr ⟨j, hj, rfl⟩)
    simp only [openQuery]
    split
    · refine takes_store (h (.store a, ma) (by simp [Query.needs])) (takes_store (h (.store b, mb) (by simp [Query.needs])) ?_)
      split
      · rename_i pos hpos
        rw [idxOf_position hpos] at hg
        refine takes_visitGroups (takes_visitGroups (p := .acq (.group pos) .ref p) ⟨hg pos (by omega), hp⟩ _ ?_) _ ?_ <;>
          exact fun j hj => hg j (List.mem_range.1 hj)
      · rename_i hpos
        have hle : cfg.groups.idxOf ⟨k, a, b⟩ = cfg.groups.length := by
          unfold position at hpos
          refine List.idxOf_eq_length fun hin => ?_
          have := List.findIdx?_eq_none_iff.1 hpos _ hin
          simp at this
        rw [hle] at hg
        exact takes_visitGroups (p := .panic) trivial _ fun j hj => hg j (by have := List.mem_range.1 hj; omega)
    · trivial

theorem asks_remove (id : Nat) (h : ∀ g ∈ (ApiCall.remove id : ApiCall V).asks cfg, S g.1 g.2) :
    Takes S (remove cfg id : Prog V) := by
  simp only [ApiCall.asks] at h
  have hgr : ∀ x ∈ cfg.indexed, S (.group x.1) .ref ∧ S (.group x.1) .mut := fun x hx => by
    have : ∀ g ∈ [((.group x.1, .ref) : Guard), (.group x.1, .mut)], S g.1 g.2 := fun g hg =>
      h g (List.mem_append_left _ (List.mem_append_left _ (List.mem_append_right _ (List.mem_flatMap.2 ⟨x, hx, hg⟩))))
    exact ⟨this (.group x.1, .ref) (by simp), this (.group x.1, .mut) (by simp)⟩
  have hst : ∀ x ∈ cfg.indexed, ∀ g ∈ [((.store x.2.a, .ref) : Guard), (.store x.2.a, x.2.modeA), (.store x.2.b, .ref),
        (.store x.2.b, x.2.modeB)], S g.1 g.2 := fun x hx g hg =>
      h g (List.mem_append_left _ (List.mem_append_right _ (List.mem_flatMap.2 ⟨x, hx, hg⟩)))
  have hor : ∀ t ∈ cfg.order, S (.store t) .ref ∧ S (.store t) .mut := fun t ht => by
    have : ∀ g ∈ [((.store t, .ref) : Guard), (.store t, .mut)], S g.1 g.2 := fun g hg =>
      h g (List.mem_append_right _ (List.mem_flatMap.2 ⟨t, ht, hg⟩))
    exact ⟨this (.store t, .ref) (by simp), this (.store t, .mut) (by simp)⟩
  refine ⟨h (.em, .ref) (by simp), fun r => ?_⟩
  dsimp only
  split
  · refine takes_scanGroups id cfg.indexed [] (fun x hx => ⟨(hgr x hx).1, (hgr x hx).2,
      hst x hx (.store x.2.a, .ref) (by simp), hst x hx (.store x.2.b, .ref) (by simp)⟩) fun acc ha => ?_
    have ha' : ∀ x ∈ acc, x ∈ cfg.indexed := fun x hx => (ha x hx).resolve_left (by simp)
    refine takes_groupLoop _ ?_ _ fun x hx => ⟨hst x (ha' x hx) (.store x.2.a, x.2.modeA) (by simp),
      hst x (ha' x hx) (.store x.2.b, x.2.modeB) (by simp)⟩
    refine takes_scanStores id _ _ hor fun ts => takes_eraseStores id ?_ ts
    exact ⟨h (.em, .mut) (by simp), fun _ => trivial⟩
  · trivial

theorem asks_call (c : ApiCall V) (h : ∀ g ∈ c.asks cfg, S g.1 g.2) : Takes S (c.prog cfg) := by
  cases c with
  | create s =>
    simp only [ApiCall.asks, ApiCall.needs] at h
    refine ⟨h (.em, .mut) (by simp), fun r => ?_⟩
    cases r with
    | id id => exact asks_handle id s _ (h (.em, .ref) (by simp)) fun g hg => h g (List.mem_append_right _ hg)
    | _ => trivial
  | on id s =>
    simp only [ApiCall.asks, ApiCall.needs] at h
    exact asks_handle id s _ (h (.em, .ref) (by simp)) fun g hg => h g (List.mem_append_right _ hg)
  | createMany n bs =>
    simp only [ApiCall.asks, ApiCall.needs] at h
    refine ⟨h (.em, .mut) (by simp), fun r => ?_⟩
    cases r with
    | range a b =>
      exact ⟨h (.em, .ref) (by simp), takes_batches a b (p := .rel .em .ref (.done [.range a b])) trivial bs
        fun x hx => h (.store x.1, .mut) (List.mem_append_right _ (List.mem_map.2 ⟨x, hx, rfl⟩))⟩
    | _ => trivial
  | fill a b bs =>
    simp only [ApiCall.asks, ApiCall.needs] at h
    exact ⟨h (.em, .ref) (by simp), takes_batches a b (p := .rel .em .ref (.done [.range a b])) trivial bs
      fun x hx => h (.store x.1, .mut) (List.mem_cons_of_mem _ (List.mem_map.2 ⟨x, hx, rfl⟩))⟩
  | remove id => exact asks_remove id h
  | exist id => exact ⟨h (.em, .ref) (by simp [ApiCall.asks, ApiCall.needs]), fun _ => trivial⟩
  | read t id =>
    simp only [ApiCall.prog, read]; split
    · rename_i hr; exact ⟨h (.store t, .ref) (by simp [ApiCall.asks, ApiCall.needs, hr]), fun _ => trivial⟩
    · trivial
  | write t id v =>
    simp only [ApiCall.prog, write]; split
    · rename_i hr; exact ⟨h (.store t, .mut) (by simp [ApiCall.asks, ApiCall.needs, hr]), fun _ => trivial⟩
    · trivial
  | count t =>
    simp only [ApiCall.prog]; split
    · rename_i hr; exact ⟨h (.store t, .ref) (by simp [ApiCall.asks, ApiCall.needs, hr]), fun _ => trivial⟩
    · trivial
  | resRead t =>
    simp only [ApiCall.prog]; split
    · rename_i hr; exact ⟨h (.res t, .ref) (by simp [ApiCall.asks, ApiCall.needs, hr]), fun _ => trivial⟩
    · trivial
  | resWrite t v =>
    simp only [ApiCall.prog]; split
    · rename_i hr; exact ⟨h (.res t, .mut) (by simp [ApiCall.asks, ApiCall.needs, hr]), fun _ => trivial⟩
    · trivial
  | query q =>
    exact asks_openQuery q (p := .act (.collect q) _) (fun r => takes_releaseAll (p := .done [r]) trivial _) h

/-- The locks a call takes are among those listed by `KCall.asks`. -/
theorem asks_kcall (c : KCall V) (h : ∀ g ∈ c.asks cfg, S g.1 g.2) : Takes S (c.prog cfg) := by
  cases c with
  | call c => exact asks_call c h
  | openHandle id =>
    refine ⟨h (.em, .ref) (by simp [KCall.asks]), fun r => ?_⟩
    dsimp only; split <;> trivial
  | createHandle =>
    refine ⟨h (.em, .mut) (by simp [KCall.asks]), fun r => ?_⟩
    cases r with
    | id id =>
      refine ⟨h (.em, .ref) (by simp [KCall.asks]), fun r => ?_⟩
      dsimp only; split <;> trivial
    | _ => trivial
  | createHandles n bs =>
    simp only [KCall.asks] at h
    refine ⟨h (.em, .mut) (by simp), fun r => ?_⟩
    cases r with
    | range a b =>
      exact ⟨h (.em, .ref) (by simp), takes_batches a b (p := .done [.range a b]) trivial bs
        fun x hx => h (.store x.1, .mut) (List.mem_append_right _ (List.mem_map.2 ⟨x, hx, rfl⟩))⟩
    | _ => trivial
  | openStore t m =>
    simp only [KCall.prog]; split
    · exact ⟨h (.store t, m) (by simp [KCall.asks]), trivial⟩
    · trivial
  | openView q => exact asks_openQuery q (p := .act (.collect q) _) (fun r => trivial) h
  | openRes t m =>
    simp only [KCall.prog]; split
    · exact ⟨h (.res t, m) (by simp [KCall.asks]), trivial⟩
    · trivial
  | viaHandle id s => exact asks_script id s [] h fun _ => trivial
  | viaHandles a b bs =>
    exact takes_batches a b (p := .done [.range a b]) trivial bs
      fun x hx => h (.store x.1, .mut) (List.mem_map.2 ⟨x, hx, rfl⟩)
  | storeGet t id => simp only [KCall.prog]; split <;> first | exact fun _ => trivial | trivial
  | storeSet t id v => simp only [KCall.prog]; split <;> first | exact fun _ => trivial | trivial
  | storeLen t => simp only [KCall.prog]; split <;> first | exact fun _ => trivial | trivial
  | resGet t => simp only [KCall.prog]; split <;> first | exact fun _ => trivial | trivial
  | resSet t v => simp only [KCall.prog]; split <;> first | exact fun _ => trivial | trivial
  | drop k => exact takes_releaseAll (p := .done []) trivial _

end Asks
end Prog

/-! ### All schedules -/

section Runs
variable {R : Guard → Guard → Prop} {cfg : Config}

theorem clear_step {may : Sys V → Nat → ApiCall V → Prop} {σ σ' : Sys V}
    (hm : ∀ i c, may σ i c → (c.prog cfg).Clear R [])
    (h : ∀ th ∈ σ.threads, th.prog.Clear R th.held) (hs : σ.Step cfg may σ') :
    ∀ th ∈ σ'.threads, th.prog.Clear R th.held := by
  have key : ∀ {i : Nat} {th' : Thread V} {w : World V}, th'.prog.Clear R th'.held →
      ∀ th ∈ ({ σ with world := w }.setThread i th').threads, th.prog.Clear R th.held := by
    intro i th' w h' th hth
    rcases List.mem_or_eq_of_mem_set hth with hth | rfl
    · exact h th hth
    · exact h'
  cases hs with
  | start h1 h2 h3 => exact key (w := σ.world) (hm _ _ h3)
  | acq h1 h2 h3 =>
    have := h _ (List.mem_of_getElem? h1)
    rw [h2] at this
    exact key (w := σ.world) this.2
  | rel h1 h2 =>
    have := h _ (List.mem_of_getElem? h1)
    rw [h2] at this
    exact key (w := σ.world) this
  | act h1 h2 h3 =>
    have := h _ (List.mem_of_getElem? h1)
    rw [h2] at this
    exact key (this _)
  | fault h1 h2 h3 h4 => exact key (th' := .idle) trivial
  | panic h1 h2 h3 => exact key (w := σ.world) (th' := .idle) trivial
  | ret h1 h2 h3 => exact key (w := σ.world) (th' := .idle) trivial

theorem clear_sched {may : Sys V → Nat → ApiCall V → Prop} {w : World V} {n : Nat} {σ : Sys V}
    (hm : ∀ (σ : Sys V) i c, may σ i c → (c.prog cfg).Clear R []) (h : (Sys.init w n).Sched cfg may σ) :
    ∀ th ∈ σ.threads, th.prog.Clear R th.held := by
  induction h with
  | refl =>
    intro th hth
    rw [Sys.init, List.mem_replicate] at hth
    rw [hth.2]
    trivial
  | step _ hs ih => exact clear_step (hm _) ih hs

theorem clear_kstep {may : KSys V → Nat → KCall V → Prop} {τ τ' : KSys V}
    (hm : ∀ i c th, may τ i c → τ.threads[i]? = some th → (c.prog cfg).Clear R (th.keptGuards cfg))
    (hown : ∀ (i : Nat) th, τ.threads[i]? = some th → th.call = none → th.held.Perm (th.keptGuards cfg))
    (h : ∀ (i : Nat) th, τ.threads[i]? = some th → th.prog.Clear R th.held) (hs : τ.Step cfg may τ') :
    ∀ (i : Nat) th, τ'.threads[i]? = some th → th.prog.Clear R th.held := by
  cases hs with
  | start h1 h2 h3 h4 => exact kset h1 h ((hm _ _ _ h4 h1).perm (hown _ _ h1 h2).symm)
  | acq h1 h2 h3 =>
    have := h _ _ h1
    rw [h2] at this
    exact kset h1 h this.2
  | rel h1 h2 =>
    have := h _ _ h1
    rw [h2] at this
    exact kset h1 h this
  | act h1 h2 h3 =>
    have := h _ _ h1
    rw [h2] at this
    exact kset (τ := { τ with world := _ }) h1 h (this _)
  | fault h1 h2 h3 h4 => exact kset (τ := { τ with world := _ }) h1 h trivial
  | panic h1 h2 h3 => exact kset h1 h trivial
  | ret h1 h2 h3 => exact kset h1 h trivial

theorem clear_ksched {w : World V} {n : Nat} {order : List Nat} (ho : Enumerates w order)
    {may : KSys V → Nat → KCall V → Prop} {τ : KSys V}
    (hm : ∀ (τ : KSys V) i c th, may τ i c → τ.threads[i]? = some th →
      (c.prog (Config.of w order)).Clear R (th.keptGuards (Config.of w order)))
    (hs : (KSys.init w n).Sched (Config.of w order) may τ) :
    ∀ (i : Nat) th, τ.threads[i]? = some th → th.prog.Clear R th.held := by
  induction hs with
  | refl =>
    intro i th hi
    have := List.mem_of_getElem? hi
    rw [KSys.init, List.mem_replicate] at this
    rw [this.2]
    trivial
  | step hprev hst ih =>
    refine clear_kstep (hm _) (fun i th hi => ?_) ih hst
    obtain ⟨σ, _, h2, _⟩ := kreach ho hprev
    obtain ⟨b, _, hb⟩ := h2.partner hi
    exact hb.owns.2

end Runs
end Xecs
