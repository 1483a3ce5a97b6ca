import Verif.Spec.Ordered
import Verif.Proofs.Deadlock
import Verif.Proofs.KeepingMay
/-
Which locks calls take, and in which order, for clients that keep things.
-/
set_option autoImplicit false
namespace Xecs
variable {V : Type}

namespace Prog

/-- Every lock the program takes, with its mode, satisfies `S`. -/
def Takes (S : Lock → Mode → Prop) : Prog V → Prop
  | .done _ => True
  | .panic => True
  | .acq l m p => S l m ∧ Takes S p
  | .rel _ _ p => Takes S p
  | .act _ f => ∀ r, Takes S (f r)

/-- As `Ord`; locks in `shy` are only read and do not count. -/
def OrdS (shy : Lock → Prop) (lt : Lock → Lock → Prop) : (Guard → Prop) → Prog V → Prop
  | _, .done _ => True
  | _, .panic => True
  | H, .acq l m p => (shy l → m = .ref) ∧ (¬ shy l → ∀ g, H g → ¬ shy g.1 → lt g.1 l) ∧
      OrdS shy lt (fun g => g = (l, m) ∨ H g) p
  | H, .rel l m p => OrdS shy lt (fun g => g ≠ (l, m) ∧ H g) p
  | H, .act _ f => ∀ r, OrdS shy lt H (f r)

theorem OrdS.mono {shy : Lock → Prop} {lt : Lock → Lock → Prop} {p : Prog V} : ∀ {H H' : Guard → Prop}, OrdS shy lt H p →
    (∀ g, H' g → H g) → OrdS shy lt H' p := by
  induction p with
  | done _ => intros; trivial
  | panic => intros; trivial
  | acq l m p ih =>
    intro H H' h hh
    exact ⟨h.1, fun hs g hg => h.2.1 hs g (hh g hg), ih h.2.2 fun g hg => hg.imp (fun h => h) (hh g)⟩
  | rel l m p ih =>
    intro H H' h hh
    exact ih (H := fun g => g ≠ (l, m) ∧ H g) h fun g hg => ⟨hg.1, hh g hg.2⟩
  | act a f ih => intro H H' h hh r; exact ih r (h r) hh

/-- A program that takes locks in order takes them in order also while more is kept, if the locks it takes come later. -/
theorem Ord.add {shy : Lock → Prop} {lt : Lock → Lock → Prop} {S : Lock → Mode → Prop} {B : Guard → Prop}
    (hS : ∀ l m, S l m → shy l → m = .ref) (hB : ∀ g, B g → ∀ l m, S l m → ¬ shy l → ¬ shy g.1 → lt g.1 l)
    {p : Prog V} : ∀ {H : Guard → Prop}, Ord lt H p → Takes S p → OrdS shy lt (fun g => H g ∨ B g) p := by
  induction p with
  | done _ => intros; trivial
  | panic => intros; trivial
  | acq l m p ih =>
    intro H h ht
    refine ⟨hS l m ht.1, ?_, (ih h.2 ht.2).mono ?_⟩
    · rintro hl g (hg | hg) hgs
      · exact h.1 g hg
      · exact hB g hg l m ht.1 hl hgs
    · rintro g (rfl | hg | hg)
      · exact .inl (.inl rfl)
      · exact .inl (.inr hg)
      · exact .inr hg
  | rel l m p ih =>
    intro H h ht
    refine (ih (H := fun g => g ≠ (l, m) ∧ H g) h ht).mono ?_
    rintro g ⟨h1, hg | hg⟩
    · exact .inl ⟨h1, hg⟩
    · exact .inr hg
  | act a f ih => intro H h ht r; exact ih r (h r) (ht r)

section Takes
variable {S : Lock → Mode → Prop} {cfg : Config}

theorem takes_store {t : Nat} {m : Mode} {p : Prog V} (h : S (.store t) m) (hp : Takes S p) : Takes S (store cfg t m p) := by
  unfold store
  split
  · exact ⟨h, hp⟩
  · trivial

theorem takes_lockGroups (t : Nat) {p : Prog V} (hp : Takes S p) : ∀ gs : List (Nat × Shape),
    (∀ x ∈ gs, S (.group x.1) .ref ∧ S (.group x.1) .mut) → Takes S (lockGroups t gs p)
  | [], _ => hp
  | (k, g) :: rest, h => by
    have h1 := h (k, g) (by simp)
    have h2 := takes_lockGroups t hp rest fun x hx => h x (List.mem_cons_of_mem _ hx)
    refine ⟨h1.1, ?_⟩
    show Takes S (if g.touches t then _ else _)
    split
    · exact ⟨h1.2, h2⟩
    · exact h2

theorem takes_groupLoop (a : Nat → Act V) {p : Prog V} (hp : Takes S p) : ∀ gs : List (Nat × Shape),
    (∀ x ∈ gs, S (.store x.2.a) x.2.modeA ∧ S (.store x.2.b) x.2.modeB) → Takes S (groupLoop cfg a gs p)
  | [], _ => hp
  | (k, g) :: rest, h => by
    have h1 := h (k, g) (by simp)
    exact takes_store h1.1 (takes_store h1.2 fun _ =>
      takes_groupLoop a hp rest fun x hx => h x (List.mem_cons_of_mem _ hx))

theorem takes_script (id : Nat) : ∀ (ops : List (HOp V)) (acc : List (Ret V)) {p : List (Ret V) → Prog V},
    (∀ o ∈ ops, ∀ l ∈ o.locks cfg, ∀ m, (l.isGroup = true → Sys.plain ops = false) → S l m) → (∀ rs, Takes S (p rs)) →
    Takes S (script cfg id ops acc p)
  | [], acc, p, _, h => h acc
  | o :: ops, acc, p, hs, h => by
    have hrest : ∀ acc', Takes S (script cfg id ops acc' p) := fun acc' =>
      takes_script id ops acc' (fun o' ho' l hl m hm => hs o' (List.mem_cons_of_mem _ ho') l hl m fun hg => by
        have := hm hg
        simp only [Sys.plain, List.all_cons] at this ⊢
        rw [this, Bool.and_false]) h
    have ho := hs o (by simp)
    have hup : ∀ t, o.locks cfg = .store t :: (cfg.groupLocks ++ cfg.partners t) → Sys.plain (o :: ops) = false →
        (∀ m, S (.store t) m) ∧ (∀ x ∈ cfg.indexed, S (.group x.1) .ref ∧ S (.group x.1) .mut) ∧
          ∀ x ∈ touching cfg t, S (.store x.2.a) x.2.modeA ∧ S (.store x.2.b) x.2.modeB := by
      intro t e hp
      rw [e] at ho
      refine ⟨fun m => ho _ (by simp) m fun _ => hp, fun x hx => ?_, fun x hx => ?_⟩
      · have : Lock.group x.1 ∈ cfg.groupLocks := by
          have := indexed_mem hx
          obtain ⟨h1, _⟩ := List.getElem?_eq_some_iff.1 this
          exact List.mem_map.2 ⟨x.1, List.mem_range.2 h1, rfl⟩
        have hm : Lock.group x.1 ∈ Lock.store t :: (cfg.groupLocks ++ cfg.partners t) := by simp [this]
        exact ⟨ho _ hm _ fun _ => hp, ho _ hm _ fun _ => hp⟩
      · obtain ⟨h1, h2⟩ := List.mem_filter.1 hx
        have hg := List.mem_of_getElem? (indexed_mem h1)
        have hpa : ∀ l ∈ [Lock.store x.2.a, Lock.store x.2.b], l ∈ cfg.partners t := fun l hl =>
          List.mem_flatMap.2 ⟨x.2, List.mem_filter.2 ⟨hg, h2⟩, hl⟩
        exact ⟨ho _ (by simp [hpa _ (by simp : Lock.store x.2.a ∈ _)]) _ fun _ => hp,
          ho _ (by simp [hpa _ (by simp : Lock.store x.2.b ∈ _)]) _ fun _ => hp⟩
    cases o with
    | attach t v =>
      obtain ⟨h1, h2, h3⟩ := hup t rfl (by simp [Sys.plain])
      simp only [script, attach]
      split
      · exact ⟨h1 _, fun _ => takes_lockGroups t (takes_groupLoop _ (hrest _) _ h3) _ h2⟩
      · trivial
    | detach t =>
      obtain ⟨h1, h2, h3⟩ := hup t rfl (by simp [Sys.plain])
      simp only [script, detach]
      split
      · refine takes_lockGroups t (takes_groupLoop _ ?_ _ h3) _ h2
        exact ⟨h1 _, fun r => hrest _⟩
      · trivial
    | read t =>
      simp only [script, read]
      split
      · exact ⟨ho _ (by simp [HOp.locks]) _ fun h => by simp [Lock.isGroup] at h, fun r => hrest _⟩
      · exact hrest _
    | write t v =>
      simp only [script, write]
      split
      · exact ⟨ho _ (by simp [HOp.locks]) _ fun h => by simp [Lock.isGroup] at h, fun r => hrest _⟩
      · exact hrest _

theorem takes_batches (start stop : Nat) {p : Prog V} (hp : Takes S p) : ∀ bs : List (Nat × List V),
    (∀ b ∈ bs, S (.store b.1) .mut) → Takes S (batches cfg start stop bs p)
  | [], _ => hp
  | (t, vs) :: rest, h => by
    unfold batches
    split
    · exact takes_store (h (t, vs) (by simp)) fun _ => takes_batches start stop hp rest fun b hb => h b (List.mem_cons_of_mem _ hb)
    · trivial

theorem takes_releaseAll {p : Prog V} (hp : Takes S p) : ∀ gs : List Guard, Takes S (releaseAll gs p)
  | [] => hp
  | (_, _) :: rest => takes_releaseAll hp rest

theorem takes_visitGroups {p : Prog V} (hp : Takes S p) : ∀ ks : List Nat, (∀ k ∈ ks, S (.group k) .ref) →
    Takes S (visitGroups ks p)
  | [], _ => hp
  | k :: rest, h => ⟨h k (by simp), takes_visitGroups hp rest fun j hj => h j (List.mem_cons_of_mem _ hj)⟩

theorem takes_openQuery (q : Query) : ∀ {p : Prog V}, Takes S p →
    (∀ l ∈ q.locks cfg, ∀ m, (l.isGroup = true → m = .ref) → S l m) → Takes S (openQuery cfg q p) := by
  induction q with
  | comp m t => intro p hp h; exact takes_store (h _ (by simp [Query.locks]) _ fun e => by simp [Lock.isGroup] at e) hp
  | with2 a b iha ihb =>
    intro p hp h
    exact iha (ihb hp fun l hl => h l (by simp [Query.locks, hl])) fun l hl => h l (by simp [Query.locks, hl])
  | with3 a b c iha ihb ihc =>
    intro p hp h
    exact iha (ihb (ihc hp fun l hl => h l (by simp [Query.locks, hl])) fun l hl => h l (by simp [Query.locks, hl]))
      fun l hl => h l (by simp [Query.locks, hl])
  | with4 a b c d iha ihb ihc ihd =>
    intro p hp h
    exact iha (ihb (ihc (ihd hp fun l hl => h l (by simp [Query.locks, hl])) fun l hl => h l (by simp [Query.locks, hl]))
      fun l hl => h l (by simp [Query.locks, hl])) fun l hl => h l (by simp [Query.locks, hl])
  | with5 a b c d e iha ihb ihc ihd ihe =>
    intro p hp h
    exact iha (ihb (ihc (ihd (ihe hp fun l hl => h l (by simp [Query.locks, hl])) fun l hl => h l (by simp [Query.locks, hl]))
      fun l hl => h l (by simp [Query.locks, hl])) fun l hl => h l (by simp [Query.locks, hl]))
      fun l hl => h l (by simp [Query.locks, hl])
  | withoutL a b iha ihb =>
    intro p hp h
    exact iha (ihb hp fun l hl => h l (by simp [Query.locks, hl])) fun l hl => h l (by simp [Query.locks, hl])
  | withoutR a b iha ihb =>
    intro p hp h
    exact iha (ihb hp fun l hl => h l (by simp [Query.locks, hl])) fun l hl => h l (by simp [Query.locks, hl])
  | group k ma mb a b =>
    intro p hp h
    have hg : ∀ j, j < cfg.groups.length → S (.group j) .ref := fun j hj =>
      h _ (by simp [Query.locks, Config.groupLocks, hj]) _ fun _ => rfl
    simp only [openQuery]
    split
    · refine takes_store (h _ (by simp [Query.locks]) _ fun e => by simp [Lock.isGroup] at e)
        (takes_store (h _ (by simp [Query.locks]) _ fun e => by simp [Lock.isGroup] at e) ?_)
      split
      · rename_i pos hpos
        have hlt : pos < cfg.groups.length := by
          unfold position at hpos
          exact (List.findIdx?_eq_some_iff_getElem.1 hpos).1
        refine takes_visitGroups (takes_visitGroups (p := .acq (.group pos) .ref p) ⟨hg pos hlt, hp⟩ _ ?_) _ ?_ <;>
          exact fun j hj => hg j (by have := List.mem_range.1 hj; omega)
      · exact takes_visitGroups (p := .panic) trivial _ fun j hj => hg j (List.mem_range.1 hj)
    · trivial

theorem takes_scanGroups (id : Nat) : ∀ (gs acc : List (Nat × Shape)) {p : List (Nat × Shape) → Prog V},
    (∀ x ∈ gs, S (.group x.1) .ref ∧ S (.group x.1) .mut ∧ S (.store x.2.a) .ref ∧ S (.store x.2.b) .ref) →
    (∀ acc', (∀ x ∈ acc', x ∈ acc ∨ x ∈ gs) → Takes S (p acc')) → Takes S (scanGroups cfg id gs acc p)
  | [], acc, p, _, h => h acc fun x hx => .inl hx
  | (k, g) :: rest, acc, p, hs, h => by
    have h1 := hs (k, g) (by simp)
    have h2 := fun x hx => hs x (List.mem_cons_of_mem _ hx)
    refine ⟨h1.1, takes_store h1.2.2.1 (takes_store h1.2.2.2 fun r => ?_)⟩
    show Takes S (match r with | .bool true => _ | _ => _)
    split
    · refine ⟨h1.2.1, takes_scanGroups id rest _ h2 fun acc' ha => h acc' fun x hx => ?_⟩
      rcases ha x hx with hx | hx
      · rcases List.mem_append.1 hx with hx | hx
        · exact .inl hx
        · simp only [List.mem_singleton] at hx; subst hx; exact .inr (by simp)
      · exact .inr (List.mem_cons_of_mem _ hx)
    · exact takes_scanGroups id rest _ h2 fun acc' ha => h acc' fun x hx =>
        (ha x hx).imp (fun h => h) (List.mem_cons_of_mem _)

theorem takes_eraseStores (id : Nat) {p : Prog V} (hp : Takes S p) : ∀ ts : List Nat, Takes S (eraseStores id ts p)
  | [] => hp
  | _ :: rest => fun _ => takes_eraseStores id hp rest

theorem takes_scanStores (id : Nat) : ∀ (ts acc : List Nat) {p : List Nat → Prog V},
    (∀ t ∈ ts, S (.store t) .ref ∧ S (.store t) .mut) → (∀ acc', Takes S (p acc')) → Takes S (scanStores id ts acc p)
  | [], acc, p, _, h => h acc
  | t :: rest, acc, p, hs, h => by
    have h1 := hs t (by simp)
    have h2 := fun x hx => hs x (List.mem_cons_of_mem _ hx)
    refine ⟨h1.1, fun r => ?_⟩
    show Takes S (match r with | .bool true => _ | _ => _)
    split
    · exact ⟨h1.2, takes_scanStores id rest _ h2 h⟩
    · exact takes_scanStores id rest _ h2 h

theorem takes_remove (id : Nat) (h : ∀ l ∈ (ApiCall.remove id : ApiCall V).locks cfg, ∀ m, S l m) :
    Takes S (remove cfg id : Prog V) := by
  have hem := h .em (by simp [ApiCall.locks])
  have hgr : ∀ x ∈ cfg.indexed, ∀ m, S (.group x.1) m := fun x hx m => by
    obtain ⟨h1, _⟩ := List.getElem?_eq_some_iff.1 (indexed_mem hx)
    exact h _ (by simp [ApiCall.locks, Config.groupLocks, h1]) m
  have hst : ∀ x ∈ cfg.indexed, ∀ m, S (.store x.2.a) m ∧ S (.store x.2.b) m := fun x hx m => by
    have hm := List.mem_of_getElem? (indexed_mem hx)
    have hf : ∀ l ∈ [Lock.store x.2.a, Lock.store x.2.b], l ∈ cfg.groups.flatMap (fun g => [Lock.store g.a, .store g.b]) :=
      fun l hl => List.mem_flatMap.2 ⟨x.2, hm, hl⟩
    have hl : ∀ l ∈ [Lock.store x.2.a, Lock.store x.2.b], l ∈ (ApiCall.remove id : ApiCall V).locks cfg := fun l hl =>
      List.mem_cons_of_mem _ (List.mem_append_left _ (List.mem_append_right _ (hf l hl)))
    exact ⟨h _ (hl _ (by simp)) m, h _ (hl _ (by simp)) m⟩
  have hor : ∀ t ∈ cfg.order, ∀ m, S (.store t) m := fun t ht m => h _ (by
    refine List.mem_cons_of_mem _ (List.mem_append_right _ (List.mem_map.2 ⟨t, ht, rfl⟩))) m
  refine ⟨hem _, fun r => ?_⟩
  dsimp only
  split
  · refine takes_scanGroups id cfg.indexed [] (fun x hx => ⟨hgr x hx _, hgr x hx _, (hst x hx _).1, (hst x hx _).2⟩)
      fun acc ha => ?_
    have ha' : ∀ x ∈ acc, x ∈ cfg.indexed := fun x hx => (ha x hx).resolve_left (by simp)
    refine takes_groupLoop _ ?_ _ fun x hx => ⟨(hst x (ha' x hx) _).1, (hst x (ha' x hx) _).2⟩
    refine takes_scanStores id _ _ (fun t ht => ⟨hor t ht _, hor t ht _⟩) fun ts => takes_eraseStores id ?_ ts
    exact ⟨hem _, fun _ => trivial⟩
  · trivial

/-- Does the call take groups only for reading? -/
def _root_.Xecs.ApiCall.shyly : ApiCall V → Bool
  | .remove _ => false
  | .on _ script => Sys.plain script
  | .create script => Sys.plain script
  | _ => true

theorem takes_handle (id : Nat) (ops : List (HOp V)) (acc : List (Ret V)) (hem : S .em .ref)
    (h : ∀ l ∈ ops.flatMap (HOp.locks cfg), ∀ m, (l.isGroup = true → Sys.plain ops = false) → S l m) :
    Takes S (handle cfg id ops acc) := by
  refine ⟨hem, fun r => ?_⟩
  dsimp only
  split
  · exact takes_script id ops acc (fun o ho l hl m hm => h l (List.mem_flatMap.2 ⟨o, ho, hl⟩) m hm) fun rs => trivial
  · trivial

theorem takes_call (c : ApiCall V) (h : ∀ l ∈ c.locks cfg, ∀ m, (c.shyly = true → l.isGroup = true → m = .ref) → S l m) :
    Takes S (c.prog cfg) := by
  have plain : ∀ {l : Lock}, l ∈ c.locks cfg → l.isGroup = false → ∀ m, S l m := fun hl hg m =>
    h _ hl m fun _ e => by rw [hg] at e; cases e
  cases c with
  | create s =>
    refine ⟨plain (by simp [ApiCall.locks]) rfl _, fun r => ?_⟩
    cases r with
    | id id =>
      refine takes_handle id s _ (plain (by simp [ApiCall.locks]) rfl _) fun l hl m hm =>
        h l (List.mem_cons_of_mem _ hl) m fun hs e => ?_
      have := hm e; simp only [ApiCall.shyly] at hs; rw [this] at hs; cases hs
    | _ => trivial
  | on id s =>
    refine takes_handle id s _ (plain (by simp [ApiCall.locks]) rfl _) fun l hl m hm =>
        h l (List.mem_cons_of_mem _ hl) m fun hs e => ?_
    have := hm e; simp only [ApiCall.shyly] at hs; rw [this] at hs; cases hs
  | createMany n bs =>
    refine ⟨plain (by simp [ApiCall.locks]) rfl _, fun r => ?_⟩
    cases r with
    | range a b =>
      exact ⟨plain (by simp [ApiCall.locks]) rfl _, takes_batches a b (p := .rel .em .ref (.done [.range a b])) trivial bs
        fun x hx => plain (List.mem_cons_of_mem _ (List.mem_map.2 ⟨x, hx, rfl⟩)) rfl _⟩
    | _ => trivial
  | fill a b bs =>
    exact ⟨plain (by simp [ApiCall.locks]) rfl _, takes_batches a b (p := .rel .em .ref (.done [.range a b])) trivial bs
      fun x hx => plain (List.mem_cons_of_mem _ (List.mem_map.2 ⟨x, hx, rfl⟩)) rfl _⟩
  | remove id => exact takes_remove id fun l hl m => h l hl m fun hs => by simp [ApiCall.shyly] at hs
  | exist id => exact ⟨plain (by simp [ApiCall.locks]) rfl _, fun _ => trivial⟩
  | read t id =>
    simp only [ApiCall.prog, read]; split
    · exact ⟨plain (by simp [ApiCall.locks]) rfl _, fun _ => trivial⟩
    · trivial
  | write t id v =>
    simp only [ApiCall.prog, write]; split
    · exact ⟨plain (by simp [ApiCall.locks]) rfl _, fun _ => trivial⟩
    · trivial
  | count t =>
    simp only [ApiCall.prog]; split
    · exact ⟨plain (by simp [ApiCall.locks]) rfl _, fun _ => trivial⟩
    · trivial
  | resRead t =>
    simp only [ApiCall.prog]; split
    · exact ⟨plain (by simp [ApiCall.locks]) rfl _, fun _ => trivial⟩
    · trivial
  | resWrite t v =>
    simp only [ApiCall.prog]; split
    · exact ⟨plain (by simp [ApiCall.locks]) rfl _, fun _ => trivial⟩
    · trivial
  | query q =>
    exact takes_openQuery q (p := .act (.collect q) _) (fun r => takes_releaseAll (p := .done [r]) trivial _)
      fun l hl m hm => h l hl m fun _ => hm

/-- The locks a call takes are those of `KCall.locks`; groups are taken for writing only by calls that attach, detach
or remove. -/
theorem takes_kcall (c : KCall V)
    (h : ∀ l ∈ c.locks cfg, ∀ m, ((∀ c', c.plain = some c' → c'.shyly = true) → l.isGroup = true → m = .ref) → S l m) :
    Takes S (c.prog cfg) := by
  have plain : ∀ {l : Lock}, l ∈ c.locks cfg → l.isGroup = false → ∀ m, S l m := fun hl hg m =>
    h _ hl m fun _ e => by rw [hg] at e; cases e
  cases c with
  | call c =>
    refine takes_call c fun l hl m hm => h l hl m fun hs => hm (hs c rfl)
  | openHandle id =>
    refine ⟨plain (by simp [KCall.locks]) rfl _, fun r => ?_⟩
    dsimp only; split <;> trivial
  | createHandle =>
    refine ⟨plain (by simp [KCall.locks]) rfl _, fun r => ?_⟩
    cases r with
    | id id =>
      refine ⟨plain (by simp [KCall.locks]) rfl _, fun r => ?_⟩
      dsimp only; split <;> trivial
    | _ => trivial
  | createHandles n bs =>
    refine ⟨plain (by simp [KCall.locks]) rfl _, fun r => ?_⟩
    cases r with
    | range a b =>
      exact ⟨plain (by simp [KCall.locks]) rfl _, takes_batches a b (p := .done [.range a b]) trivial bs
        fun x hx => plain (List.mem_cons_of_mem _ (List.mem_map.2 ⟨x, hx, rfl⟩)) rfl _⟩
    | _ => trivial
  | openStore t m =>
    simp only [KCall.prog]; split
    · exact ⟨plain (by simp [KCall.locks]) rfl _, trivial⟩
    · trivial
  | openRes t m =>
    simp only [KCall.prog]; split
    · exact ⟨plain (by simp [KCall.locks]) rfl _, trivial⟩
    · trivial
  | openView q =>
    exact takes_openQuery q (p := .act (.collect q) _) (fun r => trivial) fun l hl m hm => h l hl m fun _ => hm
  | viaHandle id s =>
    refine takes_script id s [] (fun o ho l hl m hm => h l (List.mem_flatMap.2 ⟨o, ho, hl⟩) m fun hs e => ?_) fun rs => trivial
    have h1 := hm e
    have h2 := hs _ rfl
    simp only [ApiCall.shyly] at h2; rw [h1] at h2; cases h2
  | viaHandles a b bs =>
    exact takes_batches a b (p := .done [.range a b]) trivial bs fun x hx => plain (List.mem_map.2 ⟨x, hx, rfl⟩) rfl _
  | storeGet t id => simp only [KCall.prog]; split <;> first | trivial | exact fun _ => trivial
  | storeSet t id v => simp only [KCall.prog]; split <;> first | trivial | exact fun _ => trivial
  | storeLen t => simp only [KCall.prog]; split <;> first | trivial | exact fun _ => trivial
  | resGet t => simp only [KCall.prog]; split <;> first | trivial | exact fun _ => trivial
  | resSet t v => simp only [KCall.prog]; split <;> first | trivial | exact fun _ => trivial
  | drop k => exact takes_releaseAll (p := .done []) trivial _

end Takes
end Prog
end Xecs
