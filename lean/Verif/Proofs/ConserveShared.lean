import Verif.Proofs.Conserve
import Verif.Spec.Conserve
/-
The account of values when several threads share the world.
-/
set_option autoImplicit false
namespace Xecs
open Spec World Hist
variable {V : Type}

/-- How many of the values of type `t` a piece of work may store satisfy `P`. -/
def Act.puts (P : V → Bool) (t : Nat) : Act V → Nat
  | .attachStore u _ v => if u = t then [v].countP P else 0
  | .batchStore _ _ u vs => if u = t then vs.countP P else 0
  | .storeWrite u _ v => if u = t then [v].countP P else 0
  | _ => 0

/-- How many of the values of type `t` a piece of work takes out satisfy `P`. -/
def Act.takes (P : V → Bool) (t : Nat) : Act V → Ret V → Nat
  | .detachStore u _, .val r => if u = t then r.toList.countP P else 0
  | _, _ => 0

theorem act_pays (P : V → Bool) (t : Nat) (a : Act V) : M.Pays (num P t) (a.puts P t) (a.takes P t) a.run := by
  have even : ∀ {α : Type} (m : M V α) (f : α → Ret V), M.Even (num P t) m → (∀ r, a.takes P t r = 0) →
      a.run = (m >>= fun x => pure (f x)) → M.Pays (num P t) (a.puts P t) (a.takes P t) a.run := by
    intro α m f hm h0 he
    have : a.takes P t = fun _ => 0 := funext h0
    rw [this, he]
    exact (M.Even.bind hm fun _ => .pure _).pays.mono (Nat.zero_le _)
  cases a with
  | has id => exact even _ .bool (exist_even P t id) (fun _ => rfl) rfl
  | allocate =>
    refine even _ .id ?_ (fun _ => rfl) rfl
    rw [allocate_exact]; exact em_even P t _
  | allocateN n => exact even _ (fun r => .range r.1 r.2) (createEntities_even P t n) (fun _ => rfl) rfl
  | emRemove id =>
    refine even _ (fun _ => .unit) ?_ (fun _ => rfl) rfl
    rw [release_exact]; exact em_even P t _
  | attachStore u id v => exact M.Pays.map (attachStore_pays P t u id v)
  | detachStore u id => exact M.Pays.map (detachStore_pays P t u id)
  | batchStore a b u vs => exact M.Pays.map (attachBatch_pays P t a b u vs)
  | storeHas u id => exact even _ .bool (.read _) (fun _ => rfl) rfl
  | storeErase u id => exact M.Pays.map (storeErase_pays P t u id)
  | storeRead u id => exact even _ .val (.read _) (fun _ => rfl) rfl
  | storeWrite u id v => exact M.Pays.map (componentWrite_pays P t u id v)
  | storeCount u => exact even _ .count (.read _) (fun _ => rfl) rfl
  | groupAdd k id => exact even _ (fun _ => .unit) (groupAdd_even P t k id) (fun _ => rfl) rfl
  | groupRemove k id => exact even _ (fun _ => .unit) (groupRemove_even P t k id) (fun _ => rfl) rfl
  | groupHas k id => exact even _ .bool (.read _) (fun _ => rfl) rfl
  | groupErase k id => exact M.Pays.map (groupErase_pays P t k id)
  | resRead u => exact even _ .val (.read _) (fun _ => rfl) rfl
  | resWrite u v => exact even _ .bool (resourceWrite_even P t u v) (fun _ => rfl) rfl
  | collect q => exact even _ .items (.read _) (fun _ => rfl) rfl

/-- The program may still store `b` and has taken out `k`; what it returns at the end has been taken out. -/
def Prog.Owing (P : V → Bool) (t : Nat) (ret : List (Ret V) → Nat) : Nat → Nat → Prog V → Prop
  | _, k, .done rs => ret rs ≤ k
  | _, _, .panic => True
  | b, k, .acq _ _ p => Owing P t ret b k p
  | b, k, .rel _ _ p => Owing P t ret b k p
  | b, k, .act a f => a.puts P t ≤ b ∧ ∀ r, Owing P t ret (b - a.puts P t) (k + a.takes P t r) (f r)

namespace Prog
variable {P : V → Bool} {t : Nat} {ret : List (Ret V) → Nat} {cfg : Config}

theorem Owing.mono : ∀ {p : Prog V} {b b' k k' : Nat}, Owing P t ret b k p → b ≤ b' → k ≤ k' → Owing P t ret b' k' p
  | .done _, _, _, _, _, h, _, hk => Nat.le_trans h hk
  | .panic, _, _, _, _, _, _, _ => trivial
  | .acq _ _ p, _, _, _, _, h, hb, hk => Owing.mono (p := p) h hb hk
  | .rel _ _ p, _, _, _, _, h, hb, hk => Owing.mono (p := p) h hb hk
  | .act a f, _, _, _, _, h, hb, hk =>
    ⟨Nat.le_trans h.1 hb, fun r => Owing.mono (p := f r) (h.2 r) (by omega) (by omega)⟩

variable {b k : Nat}

theorem owing_act {a : Act V} {f : Ret V → Prog V} (ha : a.puts P t = 0) (h : ∀ r, Owing P t ret b k (f r)) :
    Owing P t ret b k (.act a f) :=
  ⟨by omega, fun r => (h r).mono (by omega) (by omega)⟩

theorem owing_store {u : Nat} {m : Mode} {p : Prog V} (h : Owing P t ret b k p) : Owing P t ret b k (store cfg u m p) := by
  unfold store
  split
  · exact h
  · trivial

theorem owing_lockGroups (u : Nat) (gs : List (Nat × Shape)) {p : Prog V} (h : Owing P t ret b k p) :
    Owing P t ret b k (lockGroups u gs p) := by
  induction gs with
  | nil => exact h
  | cons x rest ih =>
    obtain ⟨k, g⟩ := x
    simp only [lockGroups, Owing]
    split
    · exact ih
    · exact ih

theorem owing_groupLoop {a : Nat → Act V} (ha : ∀ k, (a k).puts P t = 0) (gs : List (Nat × Shape)) {p : Prog V}
    (h : Owing P t ret b k p) : Owing P t ret b k (groupLoop cfg a gs p) := by
  induction gs with
  | nil => exact h
  | cons x rest ih =>
    obtain ⟨k, g⟩ := x
    exact owing_store (owing_store (owing_act (ha k) fun _ => ih))

theorem owing_attach {id u : Nat} {v : V} {p : Prog V} (h : Owing P t ret b k p) :
    Owing P t ret (((HOp.attach u v).named t).countP P + b) k (attach cfg id u v p) := by
  have e : ((HOp.attach u v).named t).countP P = if u = t then [v].countP P else 0 := by
    simp only [HOp.named]; split <;> rfl
  unfold attach
  split
  · refine ⟨?_, fun r => owing_lockGroups _ _ (owing_groupLoop (fun k => rfl) _ (h.mono ?_ (Nat.le_refl _)))⟩
    · rw [e]; exact Nat.le_add_right _ _
    · rw [e]; simp only [Act.puts]; omega
  · trivial

theorem owing_detach {id u : Nat} {p : Ret V → Prog V} (h : ∀ r, Owing P t ret b (k + ((HOp.detach u).returned t r).countP P) (p r)) :
    Owing P t ret b k (detach cfg id u p) := by
  unfold detach
  split
  · refine owing_lockGroups _ _ (owing_groupLoop (fun k => rfl) _ ⟨Nat.zero_le _, fun r => (h r).mono (Nat.le_refl _) ?_⟩)
    cases r with
    | val o =>
      cases o with
      | none => exact Nat.le_add_right _ _
      | some v =>
        simp only [HOp.returned, Act.takes, Option.toList]
        split <;> simp
    | _ => exact Nat.le_refl _
  · trivial

theorem owing_read {id u : Nat} {p : Ret V → Prog V} (h : ∀ r, Owing P t ret b k (p r)) :
    Owing P t ret b k (read cfg u id p) := by
  unfold read
  split
  · exact owing_act rfl h
  · exact h _

theorem owing_write {id u : Nat} {v : V} {p : Ret V → Prog V} (h : ∀ r, Owing P t ret b k (p r)) :
    Owing P t ret (((HOp.write u v).named t).countP P + b) k (write cfg u id v p) := by
  have e : ((HOp.write u v).named t).countP P = if u = t then [v].countP P else 0 := by
    simp only [HOp.named]; split <;> rfl
  unfold write
  split
  · refine ⟨?_, fun r => (h r).mono ?_ (Nat.le_refl _)⟩
    · rw [e]; exact Nat.le_add_right _ _
    · rw [e]; simp only [Act.puts]; omega
  · exact (h _).mono (by omega) (Nat.le_refl _)

theorem owing_script {id : Nat} (ops : List (HOp V)) : ∀ {b k : Nat} {acc : List (Ret V)} {p : List (Ret V) → Prog V},
    (∀ (rs : List (Ret V)) k', k + (HOp.returnedAll t ops rs).countP P ≤ k' → Owing P t ret b k' (p (acc ++ rs))) →
    Owing P t ret ((ops.flatMap (HOp.named t)).countP P + b) k (script cfg id ops acc p) := by
  induction ops with
  | nil =>
    intro b k acc p h
    have := h [] k (by simp [HOp.returnedAll])
    simpa [script] using this
  | cons o ops ih =>
    intro b k acc p h
    have hn : ∀ r k1, k + (o.returned t r).countP P ≤ k1 → ∀ (rs : List (Ret V)) k', k1 + (HOp.returnedAll t ops rs).countP P ≤ k' →
        Owing P t ret b k' (p (acc ++ [r] ++ rs)) := by
      intro r k1 hk1 rs k' hk
      have := h (r :: rs) k' (by simp only [HOp.returnedAll, List.countP_append]; omega)
      simpa [List.append_assoc] using this
    rw [List.flatMap_cons, List.countP_append, Nat.add_assoc]
    cases o with
    | attach u v => exact owing_attach (ih (hn .unit k (by simp [HOp.returned])))
    | detach u =>
      refine (owing_detach fun r => ih (hn r _ (Nat.le_refl _))).mono (by simp [HOp.named]) (Nat.le_refl _)
    | read u =>
      refine (owing_read fun r => ih (hn r k (by simp [HOp.returned]))).mono (by simp [HOp.named]) (Nat.le_refl _)
    | write u v => exact owing_write fun r => ih (hn r k (by simp [HOp.returned]))

theorem owing_handle {id : Nat} (ops : List (HOp V)) {k : Nat} {acc : List (Ret V)}
    (h : ∀ rs : List (Ret V), ret (acc ++ rs) ≤ k + (HOp.returnedAll t ops rs).countP P) :
    Owing P t ret ((ops.flatMap (HOp.named t)).countP P) k (handle cfg id ops acc) := by
  unfold handle
  refine owing_act rfl fun r => ?_
  have hs := owing_script (P := P) (t := t) (ret := ret) (cfg := cfg) (id := id) ops (b := 0) (k := k) (acc := acc)
    (p := fun rs => .rel .em .ref (.done rs)) fun rs k' hk => Nat.le_trans (h rs) hk
  cases r with
  | bool b => cases b with
    | true => exact hs
    | false => trivial
  | _ => trivial

theorem owing_batches {start stop : Nat} (bs : List (Nat × List V)) {p : Prog V} (h : Owing P t ret b k p) :
    Owing P t ret ((bs.flatMap fun b => if b.1 = t then b.2 else []).countP P + b) k (batches cfg start stop bs p) := by
  induction bs with
  | nil => simpa [batches] using h
  | cons x bs ih =>
    obtain ⟨u, vs⟩ := x
    simp only [batches]
    have e : (if u = t then vs else []).countP P = if u = t then vs.countP P else 0 := by split <;> rfl
    split
    · refine owing_store ⟨?_, fun _ => ih.mono ?_ (Nat.le_refl _)⟩
      · simp only [List.flatMap_cons, List.countP_append, Act.puts, e]; omega
      · simp only [List.flatMap_cons, List.countP_append, Act.puts, e]; omega
    · trivial

theorem owing_scanGroups {id : Nat} (gs : List (Nat × Shape)) : ∀ {acc : List (Nat × Shape)}
    {p : List (Nat × Shape) → Prog V}, (∀ acc, Owing P t ret b k (p acc)) →
    Owing P t ret b k (scanGroups cfg id gs acc p) := by
  induction gs with
  | nil => intro acc p h; exact h _
  | cons x rest ih =>
    obtain ⟨k, g⟩ := x
    intro acc p h
    refine owing_store (cfg := cfg) (owing_store (owing_act rfl fun r => ?_))
    cases r with
    | bool b => cases b <;> exact ih h
    | _ => exact ih h

theorem owing_scanStores {id : Nat} (ts : List Nat) : ∀ {acc : List Nat} {p : List Nat → Prog V},
    (∀ acc, Owing P t ret b k (p acc)) → Owing P t ret b k (scanStores id ts acc p) := by
  induction ts with
  | nil => intro acc p h; exact h _
  | cons t rest ih =>
    intro acc p h
    refine owing_act rfl fun r => ?_
    cases r with
    | bool b => cases b <;> exact ih h
    | _ => exact ih h

theorem owing_eraseStores {id : Nat} (ts : List Nat) {p : Prog V} (h : Owing P t ret b k p) :
    Owing P t ret b k (eraseStores id ts p) := by
  induction ts with
  | nil => exact h
  | cons t rest ih => exact owing_act rfl fun _ => ih

theorem owing_visitGroups (ks : List Nat) {p : Prog V} (h : Owing P t ret b k p) : Owing P t ret b k (visitGroups ks p) := by
  induction ks with
  | nil => exact h
  | cons k ks ih => exact ih

theorem owing_openQuery (q : Query) : ∀ {p : Prog V}, Owing P t ret b k p → Owing P t ret b k (openQuery cfg q p) := by
  induction q with
  | comp m t => intro p h; exact owing_store h
  | with2 a b iha ihb => intro p h; exact iha (ihb h)
  | withoutL a b iha ihb => intro p h; exact iha (ihb h)
  | withoutR a b iha ihb => intro p h; exact iha (ihb h)
  | with3 a b c iha ihb ihc => intro p h; exact iha (ihb (ihc h))
  | with4 a b c d iha ihb ihc ihd => intro p h; exact iha (ihb (ihc (ihd h)))
  | with5 a b c d e iha ihb ihc ihd ihe => intro p h; exact iha (ihb (ihc (ihd (ihe h))))
  | group kd ma mb a b =>
    intro p h
    simp only [openQuery]
    split
    · refine owing_store (owing_store ?_)
      split
      · exact owing_visitGroups _ (owing_visitGroups _ h)
      · exact owing_visitGroups _ trivial
    · trivial

theorem owing_releaseAll (gs : List Guard) {p : Prog V} (h : Owing P t ret b k p) : Owing P t ret b k (releaseAll gs p) := by
  induction gs with
  | nil => exact h
  | cons g gs ih => exact ih

end Prog

open Prog in
theorem ApiCall.owing (P : V → Bool) (t : Nat) (cfg : Config) (c : ApiCall V) :
    Owing P t (fun rs => (c.returned t (some rs)).countP P) ((c.named t).countP P) 0 (c.prog cfg) := by
  cases c with
  | create s =>
    refine owing_act rfl fun r => ?_
    cases r with
    | id n => exact owing_handle (acc := [.id n]) s fun rs => by simp [ApiCall.returned]
    | _ => trivial
  | on id s => exact owing_handle s fun rs => by simp [ApiCall.returned]
  | createMany n bs =>
    refine owing_act rfl fun r => ?_
    cases r with
    | range a b => exact owing_batches (b := 0) (p := .rel .em .ref (.done [.range a b])) bs (Nat.zero_le _)
    | _ => trivial
  | fill x y bs => exact owing_batches (b := 0) (p := .rel .em .ref (.done [.range x y])) bs (Nat.zero_le _)
  | remove id =>
    refine owing_act rfl fun r => ?_
    have : Owing P t (fun rs => ((ApiCall.remove id : ApiCall V).returned t (some rs)).countP P) 0 0 (.rel .em .ref <| scanGroups cfg id cfg.indexed [] fun gs =>
        groupLoop cfg (fun k => .groupErase k id) gs <|
          scanStores id cfg.order [] fun ts => eraseStores id ts <|
              .acq .em .mut <| .act (.emRemove id) fun _ => .rel .em .mut (.done [.unit])) :=
      owing_scanGroups (cfg := cfg) _ fun gs => owing_groupLoop (fun _ => rfl) _ (owing_scanStores _ fun ts =>
        owing_eraseStores _ (owing_act rfl fun r => Nat.zero_le _))
    cases r with
    | bool b => cases b with
      | true => exact this
      | false => trivial
    | _ => trivial
  | exist id => exact owing_act rfl fun r => Nat.zero_le _
  | read t id => exact owing_read fun r => Nat.zero_le _
  | write u id v => exact owing_write (b := 0) fun r => Nat.zero_le _
  | count t =>
    simp only [ApiCall.prog]
    split
    · exact owing_act rfl fun r => Nat.zero_le _
    · exact Nat.zero_le _
  | resRead t =>
    simp only [ApiCall.prog]
    split
    · exact owing_act rfl fun r => Nat.zero_le _
    · exact Nat.zero_le _
  | resWrite t v =>
    simp only [ApiCall.prog]
    split
    · exact owing_act rfl fun r => Nat.zero_le _
    · exact Nat.zero_le _
  | query q =>
    exact owing_openQuery q (owing_act rfl fun r => owing_releaseAll _ (Nat.zero_le _))

/-! ### All threads -/

theorem sum_set {l : List Nat} {i a b : Nat} (h : l[i]? = some a) : (l.set i b).sum + a = l.sum + b := by
  induction l generalizing i with
  | nil => simp at h
  | cons x l ih =>
    cases i with
    | zero => simp at h; subst h; simp; omega
    | succ i => have := ih (i := i) (by simpa using h); simp; omega

/-- What the call of a thread names. -/
def Thread.names (P : V → Bool) (t : Nat) (th : Thread V) : Nat :=
  (match th.call with | some c => c.named t | none => []).countP P

/-- What is open in a thread: it may still store `b` and has taken out `k`, together `x`. -/
def Thread.Opens (P : V → Bool) (t : Nat) (th : Thread V) (x : Nat) : Prop :=
  match th.call with
  | some c => ∃ b k, x = b + k ∧ th.prog.Owing P t (fun rs => (c.returned t (some rs)).countP P) b k
  | none => x = 0 ∧ th.prog = .done []

/-- The books of the system: `xs` what is open in each thread. -/
structure Books (P : V → Bool) (t : Nat) (w0 : World V) (σ : Sys V) (xs : List Nat) : Prop where
  len : xs.length = σ.threads.length
  threads : ∀ (i : Nat) (th : Thread V), σ.threads[i]? = some th → ∃ x, xs[i]? = some x ∧ th.Opens P t x
  total : σ.world.num P t + (σ.returned t).countP P + xs.sum ≤
    w0.num P t + (σ.log.flatMap fun x => x.2.1.named t).countP P + (σ.threads.map (Thread.names P t)).sum

theorem Books.set {P : V → Bool} {t : Nat} {w0 : World V} {σ : Sys V} {xs : List Nat} (h : Books P t w0 σ xs) {i : Nat} {th th' : Thread V}
    (hi : σ.threads[i]? = some th) {x x' : Nat} (hx : xs[i]? = some x) (w : World V)
    (log : List (Nat × ApiCall V × Option (List (Ret V)))) (ho : th'.Opens P t x')
    (ht : w.num P t + (log.flatMap fun x => x.2.1.returned t x.2.2).countP P + x' + th.names P t +
        (σ.log.flatMap fun x => x.2.1.named t).countP P ≤
      σ.world.num P t + (σ.returned t).countP P + x + th'.names P t + (log.flatMap fun x => x.2.1.named t).countP P) :
    Books P t w0 { world := w, threads := σ.threads.set i th', log := log } (xs.set i x') := by
  have hil := (List.getElem?_eq_some_iff.1 hi).1
  refine ⟨by simp [h.len], ?_, ?_⟩
  · intro j thj hj
    simp only [List.getElem?_set] at hj ⊢
    by_cases hij : i = j
    · subst hij
      have : i < xs.length := by rw [h.len]; exact hil
      simp [hil] at hj
      subst hj
      exact ⟨x', by simp [this], ho⟩
    · simp only [hij, if_false] at hj ⊢
      exact h.threads j thj hj
  · have h1 := sum_set (b := x') hx
    have h2 := sum_set (l := σ.threads.map (Thread.names P t)) (i := i) (a := th.names P t) (b := th'.names P t) (by simp [hi])
    rw [← List.map_set] at h2
    have h3 := h.total
    show w.num P t + (log.flatMap fun x => x.2.1.returned t x.2.2).countP P + (xs.set i x').sum ≤ _ + _ + ((σ.threads.set i th').map _).sum
    simp only
    omega

theorem Books.step {P : V → Bool} {t : Nat} {w0 : World V} {cfg : Config} {may : Sys V → Nat → ApiCall V → Prop} {σ σ' : Sys V}
    {xs : List Nat} (h : Books P t w0 σ xs) (hs : σ.Step cfg may σ') : ∃ xs, Books P t w0 σ' xs := by
  cases hs with
  | start h1 h2 h3 =>
    rename_i i th c
    obtain ⟨x, hx, ho⟩ := h.threads i th h1
    simp only [Thread.Opens, h2] at ho
    refine ⟨_, h.set h1 hx σ.world σ.log (x' := (c.named t).countP P + 0) ⟨_, 0, rfl, c.owing P t cfg⟩ ?_⟩
    simp only [Thread.names, h2, List.countP_nil, Sys.returned]
    omega
  | acq h1 h2 h3 =>
    rename_i i th l m p
    obtain ⟨x, hx, ho⟩ := h.threads i th h1
    refine ⟨_, h.set h1 hx σ.world σ.log (x' := x) ?_ ?_⟩
    · unfold Thread.Opens at ho ⊢
      cases hc : th.call with
      | none => rw [hc] at ho; rw [ho.2] at h2; cases h2
      | some c => rw [hc] at ho; rw [h2] at ho; exact ho
    · simp only [Thread.names, Sys.returned]; omega
  | rel h1 h2 =>
    rename_i i th l m p
    obtain ⟨x, hx, ho⟩ := h.threads i th h1
    refine ⟨_, h.set h1 hx σ.world σ.log (x' := x) ?_ ?_⟩
    · unfold Thread.Opens at ho ⊢
      cases hc : th.call with
      | none => rw [hc] at ho; rw [ho.2] at h2; cases h2
      | some c => rw [hc] at ho; rw [h2] at ho; exact ho
    · simp only [Thread.names, Sys.returned]; omega
  | act h1 h2 h3 =>
    rename_i i th a f w r
    obtain ⟨x, hx, ho⟩ := h.threads i th h1
    unfold Thread.Opens at ho
    have hp := act_pays P t a σ.world
    rw [h3] at hp
    simp only at hp
    cases hc : th.call with
    | none => rw [hc] at ho; rw [ho.2] at h2; cases h2
    | some c =>
      rw [hc] at ho
      obtain ⟨b, k, rfl, ho⟩ := ho
      rw [h2] at ho
      obtain ⟨ho1, ho2⟩ := ho
      refine ⟨_, h.set h1 hx w σ.log (x' := (b - a.puts P t) + (k + a.takes P t r)) ?_ ?_⟩
      · exact ⟨_, _, rfl, ho2 r⟩
      · simp only [Thread.names, Sys.returned, hc]; omega
  | fault h1 h2 h3 h4 =>
    rename_i i th a f w e c
    obtain ⟨x, hx, ho⟩ := h.threads i th h1
    unfold Thread.Opens at ho
    have hp := act_pays P t a σ.world
    rw [h3] at hp
    simp only at hp
    rw [h4] at ho
    obtain ⟨b, k, rfl, ho⟩ := ho
    rw [h2] at ho
    obtain ⟨ho1, ho2⟩ := ho
    refine ⟨_, h.set h1 hx w ((i, c, none) :: σ.log) (x' := 0) (th' := .idle) ⟨rfl, rfl⟩ ?_⟩
    have e : c.returned t none = [] := by cases c <;> rfl
    simp only [Thread.names, Thread.idle, Sys.returned, h4, List.flatMap_cons, List.countP_append, List.countP_nil, e]
    omega
  | panic h1 h2 h3 =>
    rename_i i th c
    obtain ⟨x, hx, ho⟩ := h.threads i th h1
    refine ⟨_, h.set h1 hx σ.world ((i, c, none) :: σ.log) (x' := 0) (th' := .idle) ⟨rfl, rfl⟩ ?_⟩
    have e : c.returned t none = [] := by cases c <;> rfl
    simp only [Thread.names, Thread.idle, Sys.returned, h3, List.flatMap_cons, List.countP_append, List.countP_nil, e]
    omega
  | ret h1 h2 h3 =>
    rename_i i th c rs
    obtain ⟨x, hx, ho⟩ := h.threads i th h1
    unfold Thread.Opens at ho
    rw [h3] at ho
    obtain ⟨b, k, rfl, ho⟩ := ho
    rw [h2] at ho
    have ho : (c.returned t (some rs)).countP P ≤ k := ho
    refine ⟨_, h.set h1 hx σ.world ((i, c, some rs) :: σ.log) (x' := 0) (th' := .idle) ⟨rfl, rfl⟩ ?_⟩
    simp only [Thread.names, Thread.idle, Sys.returned, h3, List.flatMap_cons, List.countP_append, List.countP_nil]
    omega

theorem books {w : World V} {n : Nat} {cfg : Config} {may : Sys V → Nat → ApiCall V → Prop} {σ : Sys V}
    (h : (Sys.init w n).Sched cfg may σ) (P : V → Bool) (t : Nat) :
    (σ.world.held t).countP P + (σ.returned t).countP P ≤ (w.held t).countP P + (σ.named t).countP P := by
  have : ∃ xs, Books P t w σ xs := by
    refine Sys.Sched.inv (P := fun σ => ∃ xs, Books P t w σ xs) h ?_ fun σ σ' hb hs => ?_
    · refine ⟨List.replicate n 0, by simp [Sys.init], ?_, ?_⟩
      · intro i th hi
        simp only [Sys.init, List.getElem?_replicate] at hi
        split at hi
        · rename_i hin
          cases hi
          exact ⟨0, by simp [hin], rfl, rfl⟩
        · cases hi
      · have : (List.replicate n 0).sum = 0 := by simp
        rw [this]
        show w.num P t + 0 + 0 ≤ w.num P t + 0 + _
        omega
    · obtain ⟨xs, hb⟩ := hb
      exact hb.step hs
  obtain ⟨xs, hb⟩ := this
  have h1 := hb.total
  have h2 : (σ.threads.map (Thread.names P t)).sum =
      (σ.threads.flatMap fun th => match th.call with | some c => c.named t | none => []).countP P := by
    rw [List.countP_flatMap]; rfl
  have e : σ.named t = (σ.log.flatMap fun x => x.2.1.named t) ++ (σ.threads.flatMap fun th => match th.call with | some c => c.named t | none => []) := rfl
  rw [e, List.countP_append, ← h2]
  change (σ.world.held t).countP P + _ + _ ≤ (w.held t).countP P + _ + _ at h1
  omega

end Xecs
