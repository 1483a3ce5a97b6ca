import Verif.Spec.Phases
import Verif.Proofs.Handles
/-
The changes recorded for a thread are those its calls should make.
-/
set_option autoImplicit false
namespace Xecs
open Spec
variable {V : Type}

/-- Has done `so`, and will, when it returns `rs`, have done `did rs`. -/
def Prog.Tells (order : List Nat) (did : List (Ret V) → List (Op V × Out V)) : List (Op V × Out V) → Prog V → Prop
  | so, .done rs => did rs = so
  | so, .panic => ∃ rs, so <+: did rs
  | so, .acq _ _ p => Tells order did so p
  | so, .rel _ _ p => Tells order did so p
  | so, .act a f => (∃ rs, so <+: did rs) ∧ ∀ r, Tells order did (so ++ (a.change order r).toList) (f r)

namespace Prog
section
variable {order : List Nat} {did : List (Ret V) → List (Op V × Out V)} {so : List (Op V × Out V)} {cfg : Config}

theorem Tells.some : ∀ {so : List (Op V × Out V)} {p : Prog V}, Tells order did so p → ∃ rs, so <+: did rs
  | _, .done rs, h => ⟨rs, by rw [show did rs = _ from h]; exact List.prefix_rfl⟩
  | _, .panic, h => h
  | _, .acq _ _ p, h => Tells.some (p := p) h
  | _, .rel _ _ p, h => Tells.some (p := p) h
  | _, .act _ _, h => h.1

theorem tells_act {a : Act V} {f : Ret V → Prog V} (ha : ∀ r, a.change order r = none) (h : ∀ r, Tells order did so (f r)) :
    Tells order did so (.act a f) :=
  ⟨(h .unit).some, fun r => by rw [ha r]; simpa using h r⟩

theorem tells_store {t : Nat} {m : Mode} {p : Prog V} (h : Tells order did so p) : Tells order did so (store cfg t m p) := by
  unfold store
  split
  · exact h
  · exact h.some

theorem tells_lockGroups (t : Nat) (gs : List (Nat × Shape)) {p : Prog V} (h : Tells order did so p) :
    Tells order did so (lockGroups t gs p) := by
  induction gs with
  | nil => exact h
  | cons x rest ih =>
    obtain ⟨k, g⟩ := x
    simp only [lockGroups, Tells]
    split
    · exact ih
    · exact ih

theorem tells_groupLoop {a : Nat → Act V} (ha : ∀ k r, (a k).change order r = none) (gs : List (Nat × Shape)) {p : Prog V}
    (h : Tells order did so p) : Tells order did so (groupLoop cfg a gs p) := by
  induction gs with
  | nil => exact h
  | cons x rest ih =>
    obtain ⟨k, g⟩ := x
    exact tells_store (tells_store (tells_act (ha k) fun _ => ih))

theorem tells_attach {id t : Nat} {v : V} {p : Prog V} (h0 : ∃ rs, so <+: did rs)
    (h : Tells order did (so ++ [(.attach id t v, .unit)]) p) : Tells order did so (attach cfg id t v p) := by
  unfold attach
  split
  · refine ⟨h0, fun r => ?_⟩
    exact tells_lockGroups _ _ (tells_groupLoop (fun k r => rfl) _ h)
  · exact h0

theorem tells_detach {id t : Nat} {p : Ret V → Prog V} (h0 : ∃ rs, so <+: did rs)
    (h : ∀ r, Tells order did (so ++ (HOp.detach t).did id r) (p r)) : Tells order did so (detach cfg id t p) := by
  unfold detach
  split
  · refine tells_lockGroups _ _ (tells_groupLoop (fun k r => rfl) _ ⟨h0, fun r => ?_⟩)
    have := h r
    cases r with
    | val v => cases v <;> exact this
    | _ => exact this
  · exact h0

theorem tells_read {id t : Nat} {p : Ret V → Prog V} (h : ∀ r, Tells order did so (p r)) :
    Tells order did so (read cfg t id p) := by
  unfold read
  split
  · exact tells_act (fun _ => rfl) h
  · exact h _

theorem tells_write {id t : Nat} {v : V} {p : Ret V → Prog V} (h0 : ∃ rs, so <+: did rs)
    (h : ∀ r, Tells order did (so ++ (HOp.write t v).did id r) (p r)) : Tells order did so (write cfg t id v p) := by
  unfold write
  split
  · refine ⟨h0, fun r => ?_⟩
    have := h r
    cases r with
    | bool b => cases b <;> exact this
    | _ => exact this
  · have := h (.bool false)
    simpa [HOp.did] using this

theorem tells_script {id : Nat} (ops : List (HOp V)) : ∀ {so : List (Op V × Out V)} {acc : List (Ret V)}
    {p : List (Ret V) → Prog V}, (∀ rs, did (acc ++ rs) = so ++ HOp.allDid id ops rs) →
    (∀ so acc, did acc = so → Tells order did so (p acc)) → Tells order did so (script cfg id ops acc p) := by
  induction ops with
  | nil =>
    intro so acc p h hp
    exact hp _ _ (by simpa [HOp.allDid] using h [])
  | cons o ops ih =>
    intro so acc p h hp
    have h0 : ∃ rs, so <+: did rs := ⟨acc, by rw [show did acc = so by simpa [HOp.allDid] using h []]; exact List.prefix_rfl⟩
    have hn : ∀ r rs, did (acc ++ [r] ++ rs) = so ++ o.did id r ++ HOp.allDid id ops rs := by
      intro r rs
      have := h (r :: rs)
      simpa [HOp.allDid, List.append_assoc] using this
    cases o with
    | attach t v => exact tells_attach h0 (ih (hn .unit) hp)
    | detach t => exact tells_detach h0 fun r => ih (hn r) hp
    | read t => exact tells_read fun r => ih (by intro rs; simpa [HOp.did] using hn r rs) hp
    | write t v => exact tells_write h0 fun r => ih (hn r) hp

theorem tells_handle {id : Nat} (ops : List (HOp V)) {so : List (Op V × Out V)} {acc : List (Ret V)}
    (h : ∀ rs, did (acc ++ rs) = so ++ HOp.allDid id ops rs) : Tells order did so (handle cfg id ops acc) := by
  have h0 : ∃ rs, so <+: did rs := ⟨acc, by rw [show did acc = so by cases ops <;> simpa [HOp.allDid] using h []]; exact List.prefix_rfl⟩
  unfold handle
  refine tells_act (fun _ => rfl) fun r => ?_
  have hs := tells_script (order := order) (cfg := cfg) ops h (p := fun rs => .rel .em .ref (.done rs)) fun so acc h => h
  cases r with
  | bool b => cases b with
    | true => exact hs
    | false => exact h0
  | _ => exact h0

theorem tells_batches {start stop : Nat} (bs : List (Nat × List V)) {rs : List (Ret V)} : ∀ {so : List (Op V × Out V)}
    {p : Prog V}, did rs = so ++ bs.map (fun x => (.attachBatch start stop x.1 x.2, .unit)) →
    (∀ so, did rs = so → Tells order did so p) → Tells order did so (batches cfg start stop bs p) := by
  induction bs with
  | nil => intro so p h hp; exact hp so (by simpa using h)
  | cons b bs ih =>
    intro so p h hp
    obtain ⟨t, vs⟩ := b
    have h0 : ∃ rs, so <+: did rs := ⟨rs, by rw [h]; exact List.prefix_append _ _⟩
    simp only [batches]
    split
    · unfold store
      split
      · exact ⟨h0, fun r => ih (by simp [Act.change, h]) hp⟩
      · exact h0
    · exact h0

theorem tells_scanGroups {id : Nat} (gs : List (Nat × Shape)) : ∀ {acc : List (Nat × Shape)}
    {p : List (Nat × Shape) → Prog V}, (∀ acc, Tells order did so (p acc)) →
    Tells order did so (scanGroups cfg id gs acc p) := by
  induction gs with
  | nil => intro acc p h; exact h _
  | cons x rest ih =>
    obtain ⟨k, g⟩ := x
    intro acc p h
    refine tells_store (cfg := cfg) (tells_store (tells_act (fun _ => rfl) fun r => ?_))
    cases r with
    | bool b => cases b <;> exact ih h
    | _ => exact ih h

theorem tells_scanStores {id : Nat} (ts : List Nat) : ∀ {acc : List Nat} {p : List Nat → Prog V},
    (∀ acc, Tells order did so (p acc)) → Tells order did so (scanStores id ts acc p) := by
  induction ts with
  | nil => intro acc p h; exact h _
  | cons t rest ih =>
    intro acc p h
    refine tells_act (fun _ => rfl) fun r => ?_
    cases r with
    | bool b => cases b <;> exact ih h
    | _ => exact ih h

theorem tells_eraseStores {id : Nat} (ts : List Nat) {p : Prog V} (h : Tells order did so p) :
    Tells order did so (eraseStores id ts p) := by
  induction ts with
  | nil => exact h
  | cons t rest ih => exact tells_act (fun _ => rfl) fun _ => ih

theorem tells_visitGroups (ks : List Nat) {p : Prog V} (h : Tells order did so p) : Tells order did so (visitGroups ks p) := by
  induction ks with
  | nil => exact h
  | cons k ks ih => exact ih

theorem tells_openQuery (q : Query) : ∀ {p : Prog V}, Tells order did so p → Tells order did so (openQuery cfg q p) := by
  induction q with
  | comp m t => intro p h; exact tells_store h
  | with2 a b iha ihb => intro p h; exact iha (ihb h)
  | withoutL a b iha ihb => intro p h; exact iha (ihb h)
  | withoutR a b iha ihb => intro p h; exact iha (ihb h)
  | with3 a b c iha ihb ihc => intro p h; exact iha (ihb (ihc h))
  | with4 a b c d iha ihb ihc ihd => intro p h; exact iha (ihb (ihc (ihd h)))
  | with5 a b c d e iha ihb ihc ihd ihe => intro p h; exact iha (ihb (ihc (ihd (ihe h))))
  | group k ma mb a b =>
    intro p h
    simp only [openQuery]
    split
    · refine tells_store (tells_store ?_)
      split
      · exact tells_visitGroups _ (tells_visitGroups _ h)
      · exact tells_visitGroups _ h.some
    · exact h.some

theorem tells_releaseAll (gs : List Guard) {p : Prog V} (h : Tells order did so p) : Tells order did so (releaseAll gs p) := by
  induction gs with
  | nil => exact h
  | cons g gs ih => exact ih

end
end Prog

open Prog in
theorem ApiCall.tells (cfg : Config) (order : List Nat) (c : ApiCall V) :
    Tells order (c.did order) [] (c.prog cfg) := by
  cases c with
  | create s =>
    refine ⟨⟨[], List.nil_prefix⟩, fun r => ?_⟩
    cases r with
    | id n => exact tells_handle (acc := [.id n]) s fun rs => rfl
    | _ => exact ⟨[], List.nil_prefix⟩
  | on id s => exact tells_handle s fun rs => rfl
  | createMany n bs =>
    refine ⟨⟨[], List.nil_prefix⟩, fun r => ?_⟩
    cases r with
    | range a b =>
      exact tells_batches (p := .rel .em .ref (.done [.range a b])) bs (rs := [.range a b]) rfl fun so h => h
    | _ => exact ⟨[], List.nil_prefix⟩
  | fill x y bs =>
    exact tells_batches (p := .rel .em .ref (.done [.range x y])) bs (rs := [.range x y]) rfl fun so h => h
  | remove id =>
    refine tells_act (fun _ => rfl) fun r => ?_
    have : Tells order ((ApiCall.remove id : ApiCall V).did order) [] (.rel .em .ref <| scanGroups cfg id cfg.indexed [] fun gs =>
        groupLoop cfg (fun k => .groupErase k id) gs <|
          scanStores id cfg.order [] fun ts => eraseStores id ts <|
              .acq .em .mut <| .act (.emRemove id) fun _ => .rel .em .mut (.done [.unit])) := by
      refine tells_scanGroups (cfg := cfg) _ fun gs => tells_groupLoop (fun _ _ => rfl) _ (tells_scanStores _ fun ts =>
        tells_eraseStores _ ⟨⟨[], List.nil_prefix⟩, fun r => ?_⟩)
      exact rfl
    cases r with
    | bool b => cases b with
      | true => exact this
      | false => exact ⟨[], List.nil_prefix⟩
    | _ => exact ⟨[], List.nil_prefix⟩
  | exist id => exact tells_act (fun _ => rfl) fun r => rfl
  | read t id => exact tells_read fun r => rfl
  | write t id v =>
    refine tells_write ⟨[], List.nil_prefix⟩ fun r => ?_
    cases r with
    | bool b => cases b <;> exact rfl
    | _ => exact rfl
  | count t =>
    simp only [ApiCall.prog]
    split
    · exact tells_act (fun _ => rfl) fun r => rfl
    · exact rfl
  | resRead t =>
    simp only [ApiCall.prog]
    split
    · exact tells_act (fun _ => rfl) fun r => rfl
    · exact rfl
  | resWrite t v =>
    simp only [ApiCall.prog]
    split
    · refine ⟨⟨[], List.nil_prefix⟩, fun r => ?_⟩
      cases r with
      | bool b => cases b <;> exact rfl
      | _ => exact rfl
    · exact rfl
  | query q =>
    exact tells_openQuery q (tells_act (fun _ => rfl) fun r => tells_releaseAll _ rfl)

/-! ### All threads -/

/-- Where thread `i` is: the finished calls have made the changes `l0`, the running one the changes `part`. -/
def Accounted (order : List Nat) (log : List (ApiCall V × Option (List (Ret V)))) (l : List (Op V × Out V)) :
    Option (Thread V) → Prop
  | none => Told order log l
  | some th => ∃ part l0, l = part ++ l0 ∧ Told order log l0 ∧ (th.call = none → part = []) ∧
      ∀ c, th.call = some c → th.prog.Tells order (c.did order) part.reverse

theorem ofThread_cons_self {α : Type} (i : Nat) (x : α) (l : List (Nat × α)) : ofThread i ((i, x) :: l) = x :: ofThread i l := by
  simp [ofThread]

theorem ofThread_cons_ne {α : Type} {i j : Nat} (h : j ≠ i) (x : α) (l : List (Nat × α)) :
    ofThread i ((j, x) :: l) = ofThread i l := by
  simp [ofThread, h]

theorem Prog.later_ne (p : Prog V) : ∀ (a : Act V) (f : Ret V → Prog V), p = .act a f → ∀ r, f r ≠ p := by
  induction p with
  | act a f ih =>
    intro a' f' he r hr
    cases he
    exact ih r a f hr r rfl
  | _ => intro a f he; cases he

/-- The thread doing the work cannot be mistaken. -/
theorem Sys.Works.unique {σ σ' : Sys V} {i j : Nat} {a b : Act V} {r q : Ret V} (h : σ.Works i a r σ') (h' : σ.Works j b q σ') :
    i = j := by
  obtain ⟨th, f, w, h1, h2, h3, h4⟩ := h
  obtain ⟨th', f', w', h1', h2', h3', h4'⟩ := h'
  by_cases hij : i = j
  · exact hij
  · exfalso
    have a1 := setThread_threads { σ with world := w } i
      { th with prog := f r, subject := a.subjectAfter r th.subject } i h1
    have a2 := setThread_threads { σ with world := w' } j
      { th' with prog := f' q, subject := b.subjectAfter q th'.subject } i h1'
    rw [← h4] at a1
    rw [← h4', a1] at a2
    simp only [if_true, hij, if_false, h1] at a2
    have := congrArg Thread.prog (Option.some.inj a2)
    exact Prog.later_ne _ a f h2 r this

theorem Sys.Works.step {cfg : Config} {may : Sys V → Nat → ApiCall V → Prop} {σ σ' : Sys V} {i : Nat} {a : Act V} {r : Ret V}
    (h : σ.Works i a r σ') : σ.Step cfg may σ' := by
  obtain ⟨th, f, w, h1, h2, h3, rfl⟩ := h
  exact .act h1 h2 h3

theorem Sys.Record.sched {cfg : Config} {may : Sys V → Nat → ApiCall V → Prop} {σ σ' : Sys V} {l : List (Nat × Op V × Out V)}
    (h : σ.Record cfg may l σ') : σ.Sched cfg may σ' := by
  induction h with
  | refl => exact .refl
  | step _ hs _ ih => exact .step ih hs

/-- Every step has a label. -/
theorem Sys.makes (order : List Nat) (σ σ' : Sys V) : ∃ x, σ.Makes order σ' x := by
  by_cases h : ∃ i a r x, σ.Works i a r σ' ∧ a.change order r = some x
  · obtain ⟨i, a, r, x, h1, h2⟩ := h
    exact ⟨some (i, x), a, r, h1, h2⟩
  · refine ⟨none, fun i a r hw => ?_⟩
    cases hx : a.change order r with
    | none => rfl
    | some x => exact absurd ⟨i, a, r, x, hw, hx⟩ h

/-- Every schedule has a record. -/
theorem Sys.record_of {cfg : Config} {may : Sys V → Nat → ApiCall V → Prop} {σ σ' : Sys V} (h : σ.Sched cfg may σ') :
    ∃ l, σ.Record cfg may l σ' := by
  induction h with
  | refl => exact ⟨[], .refl⟩
  | step _ hs ih =>
    obtain ⟨l, hl⟩ := ih
    obtain ⟨x, hx⟩ := Sys.makes cfg.order _ _
    exact ⟨_, .step hl hs hx⟩

section
variable {cfg : Config} {may : Sys V → Nat → ApiCall V → Prop}

/-- Thread `i` has finished a call. -/
theorem Accounted.finish {order : List Nat} {log : List (ApiCall V × Option (List (Ret V)))} {l : List (Op V × Out V)}
    {th : Thread V} {c : ApiCall V} (h : Accounted order log l (some th)) (hc : th.call = some c) (r : Option (List (Ret V)))
    (hr : ∀ rs, r = some rs → th.prog = .done rs) : Accounted order ((c, r) :: log) l (some .idle) := by
  obtain ⟨part, l0, h1, h2, h3, h4⟩ := h
  have h5 := h4 c hc
  have h6 : ∀ rs, r = some rs → part.reverse = c.did order rs := by
    intro rs hrs
    rw [hr rs hrs] at h5
    exact Eq.symm h5
  refine ⟨[], l, rfl, ?_, fun _ => rfl, fun c' h => by simp [Thread.idle] at h⟩
  have := Told.cons (c := c) (r := r) part.reverse h2 h5.some h6
  rw [List.reverse_reverse, ← h1] at this
  exact this

theorem accounted {w : World V} {n : Nat} {l : List (Nat × Op V × Out V)} {σ : Sys V}
    (h : (Sys.init w n).Record cfg may l σ) :
    (∀ th ∈ σ.threads, th.call = none → th = .idle) ∧
    ∀ i, Accounted cfg.order (ofThread i σ.log) (ofThread i l) σ.threads[i]? := by
  induction h with
  | refl =>
    refine ⟨fun th hth _ => ?_, fun i => ?_⟩
    · exact (List.mem_replicate.1 hth).2
    · cases hi : (Sys.init w n).threads[i]? with
      | none => exact .nil
      | some th =>
        have := List.mem_of_getElem? hi
        rw [Sys.init, List.mem_replicate] at this
        rw [this.2]
        exact ⟨[], [], rfl, .nil, fun _ => rfl, fun c hc => by simp [Thread.idle] at hc⟩
  | step hrec hs hm ih =>
    rename_i l σ σ' x
    obtain ⟨hidle, hacc⟩ := ih
    -- a step of thread `i` to `th'`, which makes the change `x`
    have go : ∀ (i : Nat) (th th' : Thread V) (σ' : Sys V) (o : Option (Op V × Out V)), σ.threads[i]? = some th →
        (∀ (j : Nat), σ'.threads[j]? = if j = i then some th' else σ.threads[j]?) →
        (∀ j, j ≠ i → ofThread j σ'.log = ofThread j σ.log) →
        (th'.call = none → th' = .idle) →
        (Accounted cfg.order (ofThread i σ.log) (ofThread i l) (some th) →
          Accounted cfg.order (ofThread i σ'.log) (o.toList ++ ofThread i l) (some th')) →
        (∀ th ∈ σ'.threads, th.call = none → th = .idle) ∧
        ∀ j, Accounted cfg.order (ofThread j σ'.log) (ofThread j ((o.map fun y => (i, y)).toList ++ l)) σ'.threads[j]? := by
      intro i th th' σ' o hi hth hlog hid hA
      constructor
      · intro t ht
        obtain ⟨j, hj, he⟩ := List.getElem_of_mem ht
        have : σ'.threads[j]? = some t := by rw [List.getElem?_eq_getElem hj, he]
        rw [hth] at this
        by_cases hji : j = i
        · simp only [hji, if_true] at this; cases this; exact hid
        · simp only [hji, if_false] at this; exact hidle t (List.mem_of_getElem? this)
      · intro j
        rw [hth]
        by_cases hji : j = i
        · subst hji
          simp only [if_true]
          have h0 := hacc j
          rw [hi] at h0
          have h1 := hA h0
          cases o with
          | none => exact h1
          | some y => simpa [ofThread_cons_self] using h1
        · simp only [hji, if_false]
          rw [hlog j hji]
          cases o with
          | none => exact hacc j
          | some y =>
            have : ofThread j ((i, y) :: l) = ofThread j l := ofThread_cons_ne (fun h => hji h.symm) y l
            simpa [this] using hacc j
    -- a piece of work
    have work : ∀ (i : Nat) (a : Act V) (r : Ret V), σ.Works i a r σ' → 
        (∀ th ∈ σ'.threads, th.call = none → th = .idle) ∧
        ∀ j, Accounted cfg.order (ofThread j σ'.log) (ofThread j (((a.change cfg.order r).map fun y => (i, y)).toList ++ l)) σ'.threads[j]? := by
      intro i a r hw
      obtain ⟨th, f, w', h1, h2, h3, rfl⟩ := hw
      have hcall : th.call ≠ none := by
        intro hc
        have := hidle th (List.mem_of_getElem? h1) hc
        rw [this] at h2; simp [Thread.idle] at h2
      refine go i th _ _ (a.change cfg.order r) h1 (fun j => setThread_threads { σ with world := w' } i _ j h1) (fun _ _ => rfl)
        (fun hc => absurd hc hcall) ?_
      rintro ⟨part, l0, b1, b2, b3, b4⟩
      refine ⟨(a.change cfg.order r).toList ++ part, l0, ?_, b2, fun hc => absurd hc hcall, fun c hc => ?_⟩
      · show (a.change cfg.order r).toList ++ ofThread i l = _
        rw [b1, List.append_assoc]
      · have b5 := b4 c hc
        rw [h2] at b5
        have b6 := b5.2 r
        have : ((a.change cfg.order r).toList ++ part).reverse = part.reverse ++ (a.change cfg.order r).toList := by
          cases a.change cfg.order r <;> simp
        rw [this]; exact b6
    cases x with
    | some x =>
      obtain ⟨i, x⟩ := x
      obtain ⟨a, r, hw, hx⟩ := hm
      have := work i a r hw
      rw [hx] at this
      exact this
    | none =>
      cases hs with
      | start h1 h2 h3 =>
        rename_i i th c
        refine go i th _ _ none h1 (fun j => setThread_threads σ i _ j h1) (fun _ _ => rfl) (by simp) ?_
        rintro ⟨part, l0, b1, b2, b3, b4⟩
        refine ⟨[], l0, ?_, b2, fun _ => rfl, fun c' hc => ?_⟩
        · show ofThread i l = _
          rw [b1, b3 h2]
        · cases hc; exact ApiCall.tells cfg _ c
      | acq h1 h2 h3 =>
        rename_i i th lk m p
        refine go i th _ _ none h1 (fun j => setThread_threads σ i _ j h1) (fun _ _ => rfl) ?_ ?_
        · intro hc
          have := hidle th (List.mem_of_getElem? h1) hc
          rw [this] at h2; simp [Thread.idle] at h2
        · rintro ⟨part, l0, b1, b2, b3, b4⟩
          refine ⟨part, l0, b1, b2, b3, fun c hc => ?_⟩
          have := b4 c hc
          rw [h2] at this; exact this
      | rel h1 h2 =>
        rename_i i th lk m p
        refine go i th _ _ none h1 (fun j => setThread_threads σ i _ j h1) (fun _ _ => rfl) ?_ ?_
        · intro hc
          have := hidle th (List.mem_of_getElem? h1) hc
          rw [this] at h2; simp [Thread.idle] at h2
        · rintro ⟨part, l0, b1, b2, b3, b4⟩
          refine ⟨part, l0, b1, b2, b3, fun c hc => ?_⟩
          have := b4 c hc
          rw [h2] at this; exact this
      | act h1 h2 h3 =>
        rename_i i th a f w' r
        have hw : σ.Works i a r _ := ⟨th, f, w', h1, h2, h3, rfl⟩
        have h4 := hm i a r hw
        have := work i a r hw
        rw [h4] at this; exact this
      | fault h1 h2 h3 h4 =>
        rename_i i th a f w' e c
        refine go i th _ _ none h1 (fun j => setThread_threads { σ with world := w' } i .idle j h1)
          (fun j hj => ofThread_cons_ne (fun h => hj h.symm) _ _) (fun _ => rfl) fun hA => ?_
        have := hA.finish h4 none (by simp)
        rw [← ofThread_cons_self] at this
        exact this
      | panic h1 h2 h3 =>
        rename_i i th c
        refine go i th _ _ none h1 (fun j => setThread_threads σ i .idle j h1)
          (fun j hj => ofThread_cons_ne (fun h => hj h.symm) _ _) (fun _ => rfl) fun hA => ?_
        have := hA.finish h3 none (by simp)
        rw [← ofThread_cons_self] at this
        exact this
      | ret h1 h2 h3 =>
        rename_i i th c rs
        refine go i th _ _ none h1 (fun j => setThread_threads σ i .idle j h1)
          (fun j hj => ofThread_cons_ne (fun h => hj h.symm) _ _) (fun _ => rfl) fun hA => ?_
        have := hA.finish h3 (some rs) (by rintro _ ⟨⟩; exact h2)
        rw [← ofThread_cons_self] at this
        exact this

/-- When all calls are over, each thread's calls have made exactly the changes recorded for the thread. -/
theorem told {w : World V} {n : Nat} {l : List (Nat × Op V × Out V)} {σ : Sys V} (h : (Sys.init w n).Record cfg may l σ)
    (hq : σ.Quiet) (i : Nat) : Told cfg.order (ofThread i σ.log) (ofThread i l) := by
  have := (accounted h).2 i
  cases hi : σ.threads[i]? with
  | none => rw [hi] at this; exact this
  | some th =>
    rw [hi] at this
    obtain ⟨part, l0, h1, h2, h3, _⟩ := this
    rw [h1, h3 (hq th (List.mem_of_getElem? hi))]
    exact h2

end
end Xecs
