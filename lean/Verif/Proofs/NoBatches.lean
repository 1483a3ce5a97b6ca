import Verif.Proofs.KeepingGuards
import Verif.Spec.Linear
/-
Calls without batch attaches never attach a batch.
-/
set_option autoImplicit false
namespace Xecs
variable {V : Type} {cfg : Config}

/-- The call attaches no batches. -/
def ApiCall.batchless : ApiCall V → Bool
  | .createMany _ bs => bs.isEmpty
  | .fill _ _ bs => bs.isEmpty
  | _ => true

/-- Not a batch attach. -/
def Act.single : Act V → Prop
  | .batchStore _ _ _ _ => False
  | _ => True

namespace Prog

theorem only_store {P : Act V → Prop} {t : Nat} {m : Mode} {p : Prog V} (h : p.Only P) : (store cfg t m p).Only P := by
  unfold store; split
  · exact h
  · trivial

theorem only_lockGroups {P : Act V → Prop} {t : Nat} {p : Prog V} (h : p.Only P) : ∀ (l : List (Nat × Shape)),
    (lockGroups t l p).Only P
  | [] => h
  | (k, g) :: rest => by
    have := only_lockGroups h rest (t := t)
    simp only [lockGroups, Only]
    split <;> exact this

theorem only_groupLoop {P : Act V → Prop} {a : Nat → Act V} (ha : ∀ k, P (a k)) {p : Prog V} (h : p.Only P) :
    ∀ (l : List (Nat × Shape)), (groupLoop cfg a l p).Only P
  | [] => h
  | (k, g) :: rest => only_store (only_store ⟨ha k, fun _ => only_groupLoop ha h rest⟩)

theorem only_attach {id t : Nat} {v : V} {p : Prog V} (h : p.Only Act.single) : (attach cfg id t v p).Only Act.single := by
  unfold attach; split
  · exact ⟨trivial, fun _ => only_lockGroups (only_groupLoop (fun _ => trivial) h _) _⟩
  · trivial

theorem only_detach {id t : Nat} {p : Ret V → Prog V} (h : ∀ r, (p r).Only Act.single) :
    (detach cfg id t p).Only Act.single := by
  unfold detach; split
  · refine only_lockGroups (only_groupLoop (fun _ => trivial) ?_ _) _
    exact ⟨trivial, h⟩
  · trivial

theorem only_read {id t : Nat} {p : Ret V → Prog V} (h : ∀ r, (p r).Only Act.single) :
    (read cfg t id p).Only Act.single := by
  unfold read; split
  · exact ⟨trivial, h⟩
  · exact h _

theorem only_write {id t : Nat} {v : V} {p : Ret V → Prog V} (h : ∀ r, (p r).Only Act.single) :
    (write cfg t id v p).Only Act.single := by
  unfold write; split
  · exact ⟨trivial, h⟩
  · exact h _

theorem only_script {id : Nat} {p : List (Ret V) → Prog V} (h : ∀ rs, (p rs).Only Act.single) :
    ∀ (s : List (HOp V)) (acc : List (Ret V)), (script cfg id s acc p).Only Act.single
  | [], acc => h acc
  | .attach _ _ :: ops, acc => only_attach (only_script h ops _)
  | .detach _ :: ops, acc => only_detach fun _ => only_script h ops _
  | .read _ :: ops, acc => only_read fun _ => only_script h ops _
  | .write _ _ :: ops, acc => only_write fun _ => only_script h ops _

theorem only_handle {id : Nat} (s : List (HOp V)) (acc : List (Ret V)) : (handle cfg id s acc).Only Act.single := by
  refine ⟨trivial, fun r => ?_⟩
  dsimp only
  split
  · refine only_script (fun _ => ?_) s acc
    trivial
  · trivial

theorem only_scanGroups {id : Nat} {p : List (Nat × Shape) → Prog V} (h : ∀ l, (p l).Only Act.single) :
    ∀ (l acc : List (Nat × Shape)), (scanGroups cfg id l acc p).Only Act.single
  | [], acc => h acc
  | (k, g) :: rest, acc => by
    refine only_store (only_store ⟨trivial, fun r => ?_⟩)
    show Only Act.single (match r with
        | .bool true => _
        | _ => _)
    split
    · exact only_scanGroups h rest _
    · exact only_scanGroups h rest _

theorem only_scanStores {id : Nat} {p : List Nat → Prog V} (h : ∀ l, (p l).Only Act.single) :
    ∀ (l acc : List Nat), (scanStores id l acc p).Only Act.single
  | [], acc => h acc
  | _ :: rest, acc => by
    refine ⟨trivial, fun r => ?_⟩
    show Only Act.single (match r with
        | .bool true => _
        | _ => _)
    split
    · exact only_scanStores h rest _
    · exact only_scanStores h rest _

theorem only_eraseStores {id : Nat} {p : Prog V} (h : p.Only Act.single) : ∀ (l : List Nat),
    (eraseStores id l p).Only Act.single
  | [] => h
  | _ :: rest => ⟨trivial, fun _ => only_eraseStores h rest⟩

theorem only_remove (id : Nat) : (remove cfg id : Prog V).Only Act.single := by
  refine ⟨trivial, fun r => ?_⟩
  dsimp only
  split
  · refine only_scanGroups (fun gs => only_groupLoop (fun _ => trivial) (only_scanStores (fun ts =>
      only_eraseStores ?_ ts) _ _) gs) _ _
    exact ⟨trivial, fun _ => trivial⟩
  · trivial

theorem only_visitGroups {P : Act V → Prop} {p : Prog V} (h : p.Only P) : ∀ (l : List Nat), (visitGroups l p).Only P
  | [] => h
  | _ :: rest => only_visitGroups h rest

theorem only_releaseAll {P : Act V → Prop} {p : Prog V} (h : p.Only P) : ∀ (l : List Guard), (releaseAll l p).Only P
  | [] => h
  | _ :: rest => only_releaseAll h rest

theorem only_openQuery {P : Act V → Prop} : ∀ (q : Query) {p : Prog V}, p.Only P → (openQuery cfg q p).Only P
  | .comp m t, p, h => only_store h
  | .with2 a b, p, h => only_openQuery a (only_openQuery b h)
  | .with3 a b c, p, h => only_openQuery a (only_openQuery b (only_openQuery c h))
  | .with4 a b c d, p, h => only_openQuery a (only_openQuery b (only_openQuery c (only_openQuery d h)))
  | .with5 a b c d e, p, h => only_openQuery a (only_openQuery b (only_openQuery c (only_openQuery d (only_openQuery e h))))
  | .withoutL a b, p, h => only_openQuery a (only_openQuery b h)
  | .withoutR a b, p, h => only_openQuery a (only_openQuery b h)
  | .group k ma mb a b, p, h => by
    unfold openQuery
    split
    · refine only_store (only_store ?_)
      split
      · refine only_visitGroups (only_visitGroups ?_ _) _
        exact h
      · refine only_visitGroups ?_ _
        trivial
    · trivial

end Prog

theorem ApiCall.only_single {c : ApiCall V} (h : c.batchless = true) : (c.prog cfg).Only Act.single := by
  cases c with
  | create s =>
    refine ⟨trivial, fun r => ?_⟩
    dsimp only
    split
    · exact Prog.only_handle s _
    · trivial
  | on id s => exact Prog.only_handle s _
  | createMany n bs =>
    have : bs = [] := by simpa [batchless] using h
    subst this
    refine ⟨trivial, fun r => ?_⟩
    dsimp only
    split <;> trivial
  | fill x y bs =>
    have : bs = [] := by simpa [batchless] using h
    subst this
    trivial
  | remove id => exact Prog.only_remove id
  | exist id => exact ⟨trivial, fun _ => trivial⟩
  | read t id => exact Prog.only_read fun _ => trivial
  | write t id v => exact Prog.only_write fun _ => trivial
  | count t => simp only [prog]; split; exact ⟨trivial, fun _ => trivial⟩; trivial
  | resRead t => simp only [prog]; split; exact ⟨trivial, fun _ => trivial⟩; trivial
  | resWrite t v => simp only [prog]; split; exact ⟨trivial, fun _ => trivial⟩; trivial
  | query q =>
    refine Prog.only_openQuery q ⟨trivial, fun _ => Prog.only_releaseAll ?_ _⟩
    trivial

/-- All threads run programs without batch attaches. -/
def Singles (σ : Sys V) : Prop := ∀ (i : Nat) (th : Thread V), σ.threads[i]? = some th → th.prog.Only Act.single

theorem Singles.fit {σ : Sys V} (h : Singles σ) : σ.BatchesFit := by
  intro i start stop t vs ha
  unfold Sys.AboutTo at ha
  rcases hi : σ.threads[i]? with _ | th
  · rw [hi] at ha; cases ha
  · rw [hi] at ha
    have h1 := h i th hi
    have h2 : th.prog.work = some (.batchStore start stop t vs) := ha
    cases hp : th.prog with
    | act a f =>
      rw [hp] at h1 h2
      cases h2
      exact h1.1.elim
    | _ => rw [hp] at h2; cases h2

theorem Singles.step {may : Sys V → Nat → ApiCall V → Prop} (hm : ∀ σ i c, may σ i c → c.batchless = true) {σ σ' : Sys V}
    (h : Singles σ) (hs : σ.Step cfg may σ') : Singles σ' := by
  have key : ∀ {i : Nat} {th' : Thread V}, (∀ (j : Nat), σ'.threads[j]? = if j = i then some th' else σ.threads[j]?) →
      th'.prog.Only Act.single → Singles σ' := by
    intro i th' hth h1 j th hj
    rw [hth] at hj
    split at hj
    · cases hj; exact h1
    · exact h j th hj
  cases hs with
  | start hi hc hmay => exact key (fun j => setThread_threads _ _ _ j hi) (ApiCall.only_single (hm _ _ _ hmay))
  | acq hi hp hf =>
    have := h _ _ hi; rw [hp] at this
    exact key (fun j => setThread_threads _ _ _ j hi) this
  | rel hi hp =>
    have := h _ _ hi; rw [hp] at this
    exact key (fun j => setThread_threads _ _ _ j hi) this
  | act hi hp hr =>
    rename_i w r
    have := h _ _ hi; rw [hp] at this
    exact key (fun j => setThread_threads { σ with world := w } _ _ j hi) (this.2 r)
  | fault hi hp hr hc =>
    rename_i w e c
    exact key (fun j => setThread_threads { σ with world := w } _ .idle j hi) trivial
  | panic hi hp hc => exact key (fun j => setThread_threads σ _ .idle j hi) trivial
  | ret hi hp hc => exact key (fun j => setThread_threads σ _ .idle j hi) trivial

/-- Clients that attach no batches. -/
theorem Sys.Sched.batchless {may : Sys V → Nat → ApiCall V → Prop} (hm : ∀ σ i c, may σ i c → c.batchless = true) {w : World V}
    {n : Nat} {σ : Sys V} (hs : (Sys.init w n).Sched cfg may σ) : (Sys.init w n).SchedWhile cfg may Sys.BatchesFit σ := by
  have h0 : Singles (Sys.init w n) := by
    intro i th hi
    have := List.mem_of_getElem? hi
    rw [Sys.init, List.mem_replicate] at this
    rw [this.2]; trivial
  suffices (Sys.init w n).SchedWhile cfg may Sys.BatchesFit σ ∧ Singles σ from this.1
  induction hs with
  | refl => exact ⟨.refl h0.fit, h0⟩
  | step _ h1 ih =>
    have := ih.2.step hm h1
    exact ⟨.step ih.1 h1 this.fit, this⟩

/-- What holds of all calls holds of those that run and of those in the log. -/
theorem Sys.Sched.made {may : Sys V → Nat → ApiCall V → Prop} {P : Nat → ApiCall V → Prop} (hm : ∀ σ i c, may σ i c → P i c)
    {w : World V} {n : Nat} {σ : Sys V} (hs : (Sys.init w n).Sched cfg may σ) :
    (∀ x ∈ σ.log, P x.1 x.2.1) ∧ ∀ (i : Nat) (th : Thread V) c, σ.threads[i]? = some th → th.call = some c → P i c := by
  induction hs with
  | refl =>
    refine ⟨fun x hx => (by cases hx), fun i th c hi hc => ?_⟩
    have := List.mem_of_getElem? hi
    rw [Sys.init, List.mem_replicate] at this
    rw [this.2] at hc; cases hc
  | step h0 h1 ih =>
    rename_i σ1 σ2
    have key : ∀ {i : Nat} {th' : Thread V}, (∀ (j : Nat), σ2.threads[j]? = if j = i then some th' else σ1.threads[j]?) →
        (∀ c, th'.call = some c → P i c) →
        ∀ (i : Nat) (th : Thread V) c, σ2.threads[i]? = some th → th.call = some c → P i c := by
      intro i th' hth h2 j th c hj hc
      rw [hth] at hj
      split at hj
      · next h => cases hj; subst h; exact h2 c hc
      · exact ih.2 j th c hj hc
    have fin : ∀ {i : Nat} {c : ApiCall V} {r : Option (List (Ret V))} {th : Thread V}, σ1.threads[i]? = some th →
        th.call = some c → ∀ x ∈ (i, c, r) :: σ1.log, P x.1 x.2.1 := by
      intro i c r th hi hc x hx
      rcases List.mem_cons.1 hx with rfl | hx
      · exact ih.2 i th c hi hc
      · exact ih.1 x hx
    cases h1 with
    | start hi hc hmay =>
      exact ⟨ih.1, key (fun j => setThread_threads _ _ _ j hi) fun c h => by cases h; exact hm _ _ _ hmay⟩
    | acq hi hp hf => exact ⟨ih.1, key (fun j => setThread_threads _ _ _ j hi) fun c h => ih.2 _ _ c hi h⟩
    | rel hi hp => exact ⟨ih.1, key (fun j => setThread_threads _ _ _ j hi) fun c h => ih.2 _ _ c hi h⟩
    | act hi hp hr =>
      rename_i w r
      exact ⟨ih.1, key (fun j => setThread_threads { σ1 with world := w } _ _ j hi) fun c h => ih.2 _ _ c hi h⟩
    | fault hi hp hr hc =>
      rename_i w e c
      exact ⟨fin hi hc, key (fun j => setThread_threads { σ1 with world := w } _ .idle j hi) fun c h => by cases h⟩
    | panic hi hp hc => exact ⟨fin hi hc, key (fun j => setThread_threads σ1 _ .idle j hi) fun c h => by cases h⟩
    | ret hi hp hc => exact ⟨fin hi hc, key (fun j => setThread_threads σ1 _ .idle j hi) fun c h => by cases h⟩

end Xecs
