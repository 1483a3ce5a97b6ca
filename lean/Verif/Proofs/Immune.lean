import Verif.Spec.Reached
import Verif.Spec.Immune
import Verif.Proofs.LinearSys
import Verif.Proofs.Conserve
import Verif.Proofs.Steady
/-
Programs that do not panic as long as the storages are intact.
-/
set_option autoImplicit false
namespace Xecs
open Spec World
variable {V : Type}

/-- If `P` holds of the world when it works, the work does not fault, and the program never panics. -/
def Prog.Unfailing (P : World V → Prop) : Prog V → Prop
  | .done _ => True
  | .panic => False
  | .acq _ _ p => p.Unfailing P
  | .rel _ _ p => p.Unfailing P
  | .act a f => ∀ w w' x, a.run w = (w', x) → (P w → ∃ r, x = .ok r) ∧ ∀ r, x = .ok r → (f r).Unfailing P

theorem run_pure {α : Type} {m : M V α} {g : α → Ret V} {w w' : World V} {x : R (Ret V)}
    (h : (do pure (g (← m)) : M V (Ret V)) w = (w', x)) (hm : ∃ w1 a, m w = (w1, .ok a)) : ∃ a, x = .ok (g a) ∧ ∃ w1, m w = (w1, .ok a) := by
  obtain ⟨w1, a, hm⟩ := hm
  have : (do pure (g (← m)) : M V (Ret V)) w = (w1, .ok (g a)) := by
    exact M.bind_ok.2 ⟨w1, a, hm, rfl⟩
  rw [this] at h
  obtain ⟨rfl, rfl⟩ := Prod.mk.inj h
  exact ⟨a, rfl, w1, hm⟩

section
variable {cfg : Config} {w : World V}

theorem Matches.storage (hm : Matches cfg w) {t : Nat} (ht : cfg.registered t = true) : ∃ st, w.comps t = some st := by
  have := (hm.order t).1 (by simpa [Config.registered] using ht)
  exact Option.isSome_iff_exists.1 this

theorem Fit.read_ok (h : Fit w) (t id : Nat) : ∃ a, componentRead t id w = (w, .ok a) := by
  simp only [componentRead, M.read]
  cases hc : w.comps t with
  | none => exact ⟨none, rfl⟩
  | some st =>
    obtain ⟨h1, h2⟩ := h.st t st hc
    simp only [downcast, h1, if_true, ok_bind]
    by_cases he : st.set.exist id = true
    · have hm := (SparseSet.exist_iff h2).1 he
      obtain ⟨v, hv⟩ := Option.isSome_iff_exists.1 ((SparseSet.lookup_isSome h2).2 hm)
      simp only [he, if_true, SparseSet.getUnchecked_eq h2 hv]
      exact ⟨_, rfl⟩
    · rw [if_neg he]; exact ⟨_, rfl⟩

theorem addBatchLoop_total (es : List Nat) : ∀ (I : List (Option Nat)) (k : Nat), ∃ I', SparseSet.addBatchLoop I k es = .ok I' := by
  induction es with
  | nil => exact fun I k => ⟨I, rfl⟩
  | cons e es ih =>
    intro I k
    simp only [SparseSet.addBatchLoop]
    have : e < (SparseSet.enlarge I e).length := by
      rw [(SparseSet.enlarge_spec I e).1]; omega
    obtain ⟨I', hI⟩ := ih ((SparseSet.enlarge I e).set e (some (k + 1))) (k + 1)
    exact ⟨I', by simp only [setR, this, if_true, ok_bind, hI]⟩

theorem add_total {s : SparseSet V} (h : s.WF) (e : Nat) (v : V) : ∃ s', s.add e v = .ok s' := by
  by_cases he : e ∈ s.entities
  · exact (SparseSet.add_present h v he).imp fun _ h => h.1
  · exact (SparseSet.add_absent h v he).imp fun _ h => h.1

/-- A set can take an entity that it does not have, whatever else is wrong with it. -/
theorem add_new {α : Type} {s : SparseSet α} {e : Nat} (v : α) (he : s.exist e = false) : ∃ s', s.add e v = .ok s' := by
  have h1 : (SparseSet.enlarge s.indices e)[e]? = some none := by
    rw [(SparseSet.enlarge_spec s.indices e).2]
    simp only [SparseSet.exist] at he
    split
    · rename_i hl
      rw [List.getElem?_eq_getElem hl] at he ⊢
      simp only [Option.isSome_eq_false_iff, Option.isNone_iff_eq_none] at he
      rw [he]
    · simp
  have h2 : e < (SparseSet.enlarge s.indices e).length := by rw [(SparseSet.enlarge_spec s.indices e).1]; omega
  exact ⟨_, by simp only [SparseSet.add, getR, h1, ok_bind, setR, h2, if_true]; rfl⟩

theorem Fit.write_ok (h : Fit w) (t id : Nat) (v : V) : ∃ w' b, componentWrite t id v w = (w', .ok b) := by
  cases hc : w.comps t with
  | none => exact ⟨w, false, by simp [componentWrite, M.crit, hc]⟩
  | some st =>
    obtain ⟨h1, h2⟩ := h.st t st hc
    by_cases he : st.set.exist id = true
    · have hm := (SparseSet.exist_iff h2).1 he
      obtain ⟨s', hs, _⟩ := SparseSet.setUnchecked_present h2 v hm
      exact ⟨_, true, by simp [componentWrite, M.crit, hc, downcast, h1, he, hs]; rfl⟩
    · exact ⟨w, false, by simp [componentWrite, M.crit, hc, downcast, h1, he]⟩

theorem Fit.count_ok (h : Fit w) (t : Nat) : ∃ w' o, storageCount t w = (w', .ok o) := by
  cases hc : w.comps t with
  | none => exact ⟨w, none, by simp [storageCount, M.read, hc]⟩
  | some st => exact ⟨w, _, by simp [storageCount, M.read, hc, downcast, (h.st t st hc).1]; rfl⟩

theorem Fit.resRead_ok (h : Fit w) (t : Nat) : ∃ w' o, resourceRead t w = (w', .ok o) := by
  cases hc : w.res t with
  | none => exact ⟨w, none, by simp [resourceRead, M.read, hc]⟩
  | some r => exact ⟨w, _, by simp [resourceRead, M.read, hc, downcastRes, h.res t r hc]; rfl⟩

theorem Fit.resWrite_ok (h : Fit w) (t : Nat) (v : V) : ∃ w' o, resourceWrite t v w = (w', .ok o) := by
  cases hc : w.res t with
  | none => exact ⟨w, false, by simp [resourceWrite, M.crit, hc]⟩
  | some r => exact ⟨_, true, by simp [resourceWrite, M.crit, hc, downcastRes, h.res t r hc]; rfl⟩

theorem Fit.attach_ok (h : Fit w) (hm : Matches cfg w) {t : Nat} (ht : cfg.registered t = true) (id : Nat) (v : V) :
    ∃ w' u, M.crit (World.attachStore t id v) (attachStoreX t id v) w = (w', .ok u) := by
  obtain ⟨st, hc⟩ := hm.storage ht
  obtain ⟨h1, h2⟩ := h.st t st hc
  obtain ⟨s', hs⟩ := add_total h2 id v
  exact ⟨_, (), M.crit_ok (by simp [World.attachStore, hc, unwrapR, downcast, h1, hs]; rfl)⟩

theorem Fit.batch_ok (h : Fit w) (hm : Matches cfg w) {t : Nat} (ht : cfg.registered t = true) {start stop : Nat} {vs : List V}
    (hl : vs.length = stop - start) : ∃ w' u, attachBatch start stop t vs w = (w', .ok u) := by
  obtain ⟨st, hc⟩ := hm.storage ht
  obtain ⟨I, hI⟩ := addBatchLoop_total (List.range' start (stop - start)) st.set.indices st.set.entities.length
  have hb : World.batchStore start stop t vs w = .ok (w.setSet t { indices := I, entities := st.set.entities ++ List.range' start (stop - start), data := st.set.data ++ vs }, ()) := by
    simp [World.batchStore, hc, unwrapR, downcast, (h.st t st hc).1, SparseSet.addBatch, assertR, hl, hI]
  have : attachBatch start stop t vs w = (_, .ok ()) :=
    M.bind_ok.2 ⟨w, (), by simp [M.assert, M.read, assertR, hl], M.crit_ok hb⟩
  exact ⟨_, _, this⟩

theorem Fit.collect_usable (h : Fit w) {q : Query} (hq : q.Usable w) : ∃ l, w.results q = .ok l := by
  obtain ⟨h1, h2⟩ := hq
  have hg : q.Groupless := Hist.Parts.imp (fun _ _ => trivial) (fun _ _ _ h => h) q h1
  have hd : (fitState w).Defined q := by
    clear h2 hg
    induction q with
    | comp m t =>
      obtain ⟨st, hc⟩ := Option.isSome_iff_exists.1 h1
      simp [State.Defined, fitState, hc]
    | with2 a b iha ihb => exact ⟨iha h1.1, ihb h1.2⟩
    | with3 a b c iha ihb ihc => exact ⟨iha h1.1, ihb h1.2.1, ihc h1.2.2⟩
    | with4 a b c d iha ihb ihc ihd => exact ⟨iha h1.1, ihb h1.2.1, ihc h1.2.2.1, ihd h1.2.2.2⟩
    | with5 a b c d e iha ihb ihc ihd ihe => exact ⟨iha h1.1, ihb h1.2.1, ihc h1.2.2.1, ihd h1.2.2.2.1, ihe h1.2.2.2.2⟩
    | withoutL a b iha ihb => exact ⟨iha h1.1, ihb h1.2⟩
    | withoutR a b iha ihb => exact ⟨iha h1.1, ihb h1.2⟩
    | group k ma mb a b => exact h1.elim
  have hp := prepare_ok h.rel q [] hd (by simpa [Query.Conflictless] using h2)
  rw [← prepare_congr (w := { w with groups := [] }) (w' := w) rfl q hg []] at hp
  obtain ⟨l, hy, _⟩ := rel_lists h.rel hd (freshIn_plain _ q hg) h2
  exact ⟨_, (results_congr hg h.rel hp).trans hy⟩

theorem Fit.collect_ok (h : Fit w) (hm : Matches cfg w) {q : Query} (hq : q.plain cfg) : ∃ l, w.results q = .ok l :=
  h.collect_usable ⟨Hist.Parts.imp (fun t ht => (hm.order t).1 (by simpa [Config.registered] using ht)) (fun _ _ _ h => h) q hq.1, hq.2⟩

theorem groupAdd_ok (h : Fit w) (hm : Matches cfg w) {k : Nat} {g : Shape} (hk : cfg.groups[k]? = some g)
    (ha : cfg.registered g.a = true) (hb : cfg.registered g.b = true) (hg : g.kind = .non ∨ (g.kind = .part ∧ g.a ≠ g.b)) (id : Nat) :
    ∃ w' u, M.crit (World.groupAdd k id) (groupAddX k id) w = (w', .ok u) := by
  obtain ⟨A, hA⟩ := hm.storage ha
  obtain ⟨B, hB⟩ := hm.storage hb
  rw [hm.groups, List.getElem?_map, Option.map_eq_some_iff] at hk
  obtain ⟨G, hG, rfl⟩ := hk
  suffices ∃ r, G.add id A.set B.set = .ok r by
    obtain ⟨r, hr⟩ := this
    refine ⟨_, (), M.crit_ok (w' := w.putPair k r) ?_⟩
    have hl : w.lockPair G = .ok (A.set, B.set) := by
      have hA' : w.comps G.tyA = some A := by cases G <;> exact hA
      have hB' : w.comps G.tyB = some B := by cases G <;> exact hB
      have hn : ¬ (G.tyA = G.tyB ∧ G.kind ≠ .non) := by
        rintro ⟨e1, e2⟩
        rcases hg with hg | hg
        · exact e2 (by cases G <;> first | rfl | cases hg)
        · exact hg.2 (by cases G <;> exact e1)
      simp [World.lockPair, hA', hB', unwrapR, hn]
    simp [World.groupAdd, getR, hG, hl, hr]
  by_cases hc : G.inComponents id A.set B.set = true
  · have hc' := hc
    simp only [Group.inComponents, Bool.and_eq_true] at hc'
    obtain ⟨i, hi⟩ := Option.isSome_iff_exists.1 (SparseSet.exist_eq (s := A.set) ▸ hc'.1)
    obtain ⟨j, hj⟩ := Option.isSome_iff_exists.1 (SparseSet.exist_eq (s := B.set) ▸ hc'.2)
    have hil := SparseSet.getIndex_lt (h.st _ A hA).2 hi
    cases G with
    | full l a b => exact absurd hg (by simp [Group.shape, Group.kind])
    | part l a b =>
      simp only [Group.add, hc, Group.inGroup, hi, unwrapR]
      by_cases hlt : i < l
      · exact ⟨_, by simp [hlt]; rfl⟩
      · obtain ⟨A', hA', _⟩ := SparseSet.swapByIndex_spec (h.st _ A hA).2 hil (j := l) (by omega)
        exact ⟨_, by simp [hlt, hA']; rfl⟩
    | non set a b =>
      simp only [Group.add, hc, Group.inGroup, hi, hj, unwrapR]
      by_cases he : set.exist id = true
      · exact ⟨_, by simp [he]; rfl⟩
      · obtain ⟨s', hs⟩ := add_new (i, j) (by simpa using he : set.exist id = false)
        exact ⟨_, by simp [he, hs]; rfl⟩
  · exact ⟨_, by simp [Group.add, hc]; rfl⟩

theorem has_ok {id : Nat} (h : id < w.em.flags.length) : ∃ w' b, World.exist id w = (w', .ok b) := by
  cases hf : w.em.flags[id]? with
  | none => rw [List.getElem?_eq_none_iff] at hf; omega
  | some x => cases x <;> exact ⟨w, _, by simp [World.exist, M.read, EntityManager.has, getR, hf]; rfl⟩

/-! ### Programs -/

namespace Prog
variable {P : World V → Prop}

/-- An act that always succeeds. -/
theorem unfailing_act {a : Act V} {f : Ret V → Prog V} {α : Type} {m : M V α} {g : α → Ret V} (ha : a.run = do pure (g (← m)))
    (hm : ∀ w, P w → ∃ w1 a, m w = (w1, .ok a)) (hf : ∀ a, (f (g a)).Unfailing P) : (Prog.act a f).Unfailing P := by
  intro w w' x hr
  rw [ha] at hr
  refine ⟨fun hw => ?_, fun r e => ?_⟩
  · obtain ⟨y, rfl, _⟩ := run_pure hr (hm w hw)
    exact ⟨_, rfl⟩
  · subst e
    obtain ⟨w1, y, _, h2⟩ := M.bind_ok.1 hr
    cases h2
    exact hf y

theorem unfailing_store {t : Nat} {m : Mode} {p : Prog V} (ht : cfg.registered t = true) (h : p.Unfailing P) :
    (store cfg t m p).Unfailing P := by
  unfold store; rw [if_pos ht]; exact h

theorem unfailing_lockGroups (t : Nat) (gs : List (Nat × Shape)) {p : Prog V} (h : p.Unfailing P) :
    (lockGroups t gs p).Unfailing P := by
  induction gs with
  | nil => exact h
  | cons x gs ih =>
    simp only [lockGroups, Unfailing]
    split <;> exact ih

theorem unfailing_releaseAll (gs : List Guard) {p : Prog V} (h : p.Unfailing P) : (releaseAll gs p).Unfailing P := by
  induction gs with
  | nil => exact h
  | cons x gs ih => exact ih

theorem unfailing_read (hP : ∀ w, P w → Fit w) (t id : Nat) {p : Ret V → Prog V} (h : ∀ r, (p r).Unfailing P) :
    (read cfg t id p).Unfailing P := by
  unfold read
  split
  · exact unfailing_act (a := .storeRead t id) rfl (fun w hw => ⟨w, (hP w hw).read_ok t id⟩) fun _ => h _
  · exact h _

theorem unfailing_write (hP : ∀ w, P w → Fit w) (t id : Nat) (v : V) {p : Ret V → Prog V} (h : ∀ r, (p r).Unfailing P) :
    (write cfg t id v p).Unfailing P := by
  unfold write
  split
  · exact unfailing_act (a := .storeWrite t id v) rfl (fun w hw => (hP w hw).write_ok t id v) fun _ => h _
  · exact h _

theorem unfailing_attach (hP : ∀ w, P w → Fit w ∧ Matches cfg w) (t id : Nat) (v : V)
    (ht : (HOp.attach t v).immune cfg) {p : Prog V} (h : p.Unfailing P) : (attach cfg id t v p).Unfailing P := by
  unfold attach
  rw [if_pos ht.1]
  refine unfailing_act (a := .attachStore t id v) (g := fun _ => .unit) rfl
    (fun w hw => (hP w hw).1.attach_ok (hP w hw).2 ht.1 id v) fun _ => unfailing_lockGroups t _ ?_
  suffices ∀ gs : List (Nat × Shape), (∀ x ∈ gs, cfg.groups[x.1]? = some x.2 ∧ x.2.touches t = true) →
      (groupLoop cfg (fun k => .groupAdd k id) gs p).Unfailing P by
    refine this _ fun x hx => ?_
    simp only [touching, List.mem_filter] at hx
    exact ⟨mem_indexed hx.1, hx.2⟩
  intro gs hgs
  induction gs with
  | nil => exact h
  | cons x gs ih =>
    obtain ⟨k, g⟩ := x
    obtain ⟨hk, htt⟩ := hgs (k, g) (by simp)
    obtain ⟨ra, rb, hg⟩ := ht.2 g (List.mem_of_getElem? hk) htt
    refine unfailing_store ra (unfailing_store rb (unfailing_act (a := .groupAdd k id) (g := fun _ => .unit) rfl
      (fun w hw => groupAdd_ok (hP w hw).1 (hP w hw).2 hk ra rb hg id) fun _ => ?_))
    exact ih fun y hy => hgs y (List.mem_cons_of_mem _ hy)

theorem unfailing_script (hP : ∀ w, P w → Fit w ∧ Matches cfg w) (id : Nat) (ops : List (HOp V)) :
    ∀ (acc : List (Ret V)) (p : List (Ret V) → Prog V), (∀ o ∈ ops, o.immune cfg) → (∀ rs, (p rs).Unfailing P) →
      (script cfg id ops acc p).Unfailing P := by
  induction ops with
  | nil => exact fun acc p _ h => h acc
  | cons o ops ih =>
    intro acc p ho h
    have h1 := ho o (by simp)
    have h2 := fun acc => ih acc p (fun o' h' => ho o' (List.mem_cons_of_mem _ h')) h
    cases o with
    | attach t v => exact unfailing_attach hP t id v h1 (h2 _)
    | detach t => exact h1.elim
    | read t => exact unfailing_read (fun w hw => (hP w hw).1) t id fun r => h2 _
    | write t v => exact unfailing_write (fun w hw => (hP w hw).1) t id v fun r => h2 _

theorem unfailing_batches (hP : ∀ w, P w → Fit w ∧ Matches cfg w) {start stop : Nat} (bs : List (TypeId × List V))
    (hb : wellFormed cfg (stop - start) bs) {p : Prog V} (h : p.Unfailing P) : (batches cfg start stop bs p).Unfailing P := by
  induction bs with
  | nil => exact h
  | cons b bs ih =>
    obtain ⟨t, vs⟩ := b
    obtain ⟨h1, h2⟩ := hb (t, vs) (by simp)
    simp only [batches]
    rw [if_pos (by simpa using h2)]
    refine unfailing_store h1 (unfailing_act (a := .batchStore start stop t vs) (g := fun _ => .unit) rfl
      (fun w hw => (hP w hw).1.batch_ok (hP w hw).2 h1 h2) fun _ => ?_)
    exact ih fun b' h' => hb b' (List.mem_cons_of_mem _ h')

theorem unfailing_openQuery (q : Query) : ∀ {p : Prog V},
    Hist.Parts (fun t => cfg.registered t = true) (fun _ _ _ => False) q → p.Unfailing P → (openQuery cfg q p).Unfailing P := by
  induction q with
  | comp m t => exact fun hq h => unfailing_store hq h
  | with2 a b iha ihb => exact fun hq h => iha hq.1 (ihb hq.2 h)
  | with3 a b c iha ihb ihc => exact fun hq h => iha hq.1 (ihb hq.2.1 (ihc hq.2.2 h))
  | with4 a b c d iha ihb ihc ihd => exact fun hq h => iha hq.1 (ihb hq.2.1 (ihc hq.2.2.1 (ihd hq.2.2.2 h)))
  | with5 a b c d e iha ihb ihc ihd ihe =>
    exact fun hq h => iha hq.1 (ihb hq.2.1 (ihc hq.2.2.1 (ihd hq.2.2.2.1 (ihe hq.2.2.2.2 h))))
  | withoutL a b iha ihb => exact fun hq h => iha hq.1 (ihb hq.2 h)
  | withoutR a b iha ihb => exact fun hq h => iha hq.1 (ihb hq.2 h)
  | group k ma mb a b => exact fun hq => hq.elim

theorem unfailing_query (hP : ∀ w, P w → Fit w ∧ Matches cfg w) {q : Query} (hq : q.plain cfg) {f : Ret V → Prog V}
    (h : ∀ r, (f r).Unfailing P) : (openQuery cfg q (.act (.collect q) f)).Unfailing P :=
  unfailing_openQuery q hq.1 (unfailing_act (a := .collect q) (m := M.read fun w => w.results q) (g := .items) rfl
    (fun w hw => by
      obtain ⟨l, hl⟩ := (hP w hw).1.collect_ok (hP w hw).2 hq
      exact ⟨w, l, by simp [M.read, hl]⟩) fun _ => h _)

theorem unfailing_range (hP : ∀ w, P w → Fit w ∧ Matches cfg w) {n : Nat} {bs : List (TypeId × List V)} (hb : wellFormed cfg n bs)
    {p : Nat → Nat → Prog V} (h : ∀ a b, (p a b).Unfailing P) :
    (Prog.acq .em .mut <| .act (.allocateN n) fun
      | .range start stop => .rel .em .mut <| .acq .em .ref <| Prog.batches cfg start stop bs (p start stop)
      | _ => .panic : Prog V).Unfailing P := by
  intro w w' x hr
  simp only [Act.run, World.createEntities] at hr
  obtain ⟨y, rfl, w1, hy⟩ := run_pure (g := fun y : Nat × Nat => Ret.range y.1 y.2) hr ⟨_, _, M.crit_ok rfl⟩
  rw [M.crit_iff] at hy
  simp only [Except.ok.injEq, Prod.mk.injEq] at hy
  obtain ⟨_, rfl⟩ := hy
  refine ⟨fun _ => ⟨_, rfl⟩, fun r e => ?_⟩
  cases e
  refine unfailing_batches hP bs ?_ (h _ _)
  simpa [EntityManager.allocateN] using hb

theorem unfailing_call (hP : ∀ w, P w → Fit w ∧ Matches cfg w) {c : ApiCall V} (hc : c.immune cfg) :
    (c.prog cfg).Unfailing P := by
  have hf : ∀ w, P w → Fit w := fun w hw => (hP w hw).1
  cases c with
  | read t id => exact unfailing_read hf t id fun _ => trivial
  | write t id v => exact unfailing_write hf t id v fun _ => trivial
  | count t =>
    simp only [ApiCall.prog]
    split
    · exact unfailing_act (a := .storeCount t) rfl (fun w hw => (hf w hw).count_ok t) fun _ => trivial
    · trivial
  | resRead t =>
    simp only [ApiCall.prog]
    split
    · exact unfailing_act (a := .resRead t) rfl (fun w hw => (hf w hw).resRead_ok t) fun _ => trivial
    · trivial
  | resWrite t v =>
    simp only [ApiCall.prog]
    split
    · exact unfailing_act (a := .resWrite t v) rfl (fun w hw => (hf w hw).resWrite_ok t v) fun _ => trivial
    · trivial
  | query q => exact unfailing_query hP hc fun _ => unfailing_releaseAll _ trivial
  | createMany n bs => exact unfailing_range hP hc fun _ _ => trivial
  | fill a b bs => exact unfailing_batches hP bs hc trivial
  | create s => exact hc.elim
  | on id s => exact hc.elim
  | remove id => exact hc.elim
  | exist id => exact hc.elim

theorem unfailing_exist {id : Nat} (hP : ∀ w, P w → id < w.em.flags.length) :
    ((ApiCall.exist id : ApiCall V).prog cfg).Unfailing P :=
  unfailing_act (a := .has id) rfl (fun w hw => has_ok (hP w hw)) fun _ => trivial

theorem unfailing_kcall (hP : ∀ w, P w → Fit w ∧ Matches cfg w) {c : KCall V} (hc : c.immune cfg) :
    (c.prog cfg).Unfailing P := by
  have hf : ∀ w, P w → Fit w := fun w hw => (hP w hw).1
  cases c with
  | call c => exact unfailing_call hP hc
  | openHandle id => exact hc.elim
  | createHandle => exact hc.elim
  | createHandles n bs => exact unfailing_range hP hc fun _ _ => trivial
  | openStore t m => simp only [KCall.prog]; split <;> trivial
  | openView q => exact unfailing_query hP hc fun _ => trivial
  | openRes t m => simp only [KCall.prog]; split <;> trivial
  | viaHandle id ops => exact unfailing_script hP id ops [] _ hc fun _ => trivial
  | viaHandles a b bs => exact unfailing_batches hP bs hc trivial
  | storeGet t id =>
    simp only [KCall.prog]
    split
    · exact unfailing_act (a := .storeRead t id) rfl (fun w hw => ⟨w, (hf w hw).read_ok t id⟩) fun _ => trivial
    · trivial
  | storeSet t id v =>
    simp only [KCall.prog]
    split
    · exact unfailing_act (a := .storeWrite t id v) rfl (fun w hw => (hf w hw).write_ok t id v) fun _ => trivial
    · trivial
  | storeLen t =>
    simp only [KCall.prog]
    split
    · exact unfailing_act (a := .storeCount t) rfl (fun w hw => (hf w hw).count_ok t) fun _ => trivial
    · trivial
  | resGet t =>
    simp only [KCall.prog]
    split
    · exact unfailing_act (a := .resRead t) rfl (fun w hw => (hf w hw).resRead_ok t) fun _ => trivial
    · trivial
  | resSet t v =>
    simp only [KCall.prog]
    split
    · exact unfailing_act (a := .resWrite t v) rfl (fun w hw => (hf w hw).resWrite_ok t v) fun _ => trivial
    · trivial
  | drop k => exact unfailing_releaseAll _ trivial

end Prog

/-! ### Systems -/

/-- Statements that do not lower `φ`, even if they fault. -/
def Stm.Grows {σ α : Type} (φ : σ → Nat) (m : Stm σ α) : Prop := ∀ s, φ s ≤ φ (m s).1

namespace Stm.Grows
variable {σ α β : Type} {φ : σ → Nat}
theorem bind {m : Stm σ α} {f : α → Stm σ β} (h : Stm.Grows φ m) (h' : ∀ a, Stm.Grows φ (f a)) : Stm.Grows φ (m >>= f) := by
  intro s
  rw [Stm.bind_apply]
  have := h s
  rcases hm : m s with ⟨s', _ | a⟩
  · rw [hm] at this; exact this
  · rw [hm] at this; exact Nat.le_trans this (h' a s')
theorem pure (a : α) : Stm.Grows φ (Pure.pure a : Stm σ α) := fun _ => Nat.le_refl _
theorem read (f : σ → R α) : Stm.Grows φ (Stm.read f) := fun _ => Nat.le_refl _
theorem upd {f : σ → R σ} (h : ∀ s s', f s = .ok s' → φ s ≤ φ s') : Stm.Grows φ (Stm.upd f) := by
  intro s
  rw [Stm.upd_apply]
  cases hf : f s with
  | ok s' => exact h s s' hf
  | error e => exact Nat.le_refl _
end Stm.Grows

theorem grows_flag {f : EntityManager → R (List EntityFlag)} (h : ∀ m l, f m = .ok l → l.length = m.flags.length) :
    Stm.Grows (fun m : EntityManager => m.flags.length) (Stm.upd fun m => do .ok { m with flags := ← f m }) := by
  refine .upd fun s s' he => ?_
  rw [bind_eq_ok] at he
  obtain ⟨l, h1, h2⟩ := he
  cases h2
  exact Nat.le_of_eq (h s l h1).symm

theorem allocateX_grows : Stm.Grows (fun m : EntityManager => m.flags.length) EntityManager.allocateX := by
  refine .bind (.read _) fun x => ?_
  cases x with
  | available l =>
    refine .bind (.read _) fun y => .bind (.upd fun s s' h => by cases h; exact Nat.le_refl _) fun _ => .bind (grows_flag fun m l h => setR_length h) fun _ =>
      .bind (grows_flag fun m l h => setR_length h) fun _ => .pure _
  | unavailable i =>
    refine .bind (.read _) fun y => .bind (.upd fun s s' h => by cases h; exact Nat.le_refl _) fun _ =>
      .bind (.upd fun s s' h => by cases h; simp) fun _ => .pure _

theorem removeX_grows (id : Nat) : Stm.Grows (fun m : EntityManager => m.flags.length) (EntityManager.removeX id) := by
  refine .bind (.read _) fun x => ?_
  cases x with
  | unavailable l =>
    refine .bind (.read _) fun y => .bind (grows_flag fun m l h => setR_length h) fun _ => .bind (.upd fun s s' h => ?_) fun _ =>
      .bind (.upd fun s s' h => ?_) fun _ => grows_flag fun m l h => setR_length h
    · rw [bind_eq_ok] at h
      obtain ⟨_, _, h⟩ := h
      cases h; exact Nat.le_refl _
    · simp only [bind_eq_ok] at h
      obtain ⟨_, _, l, h1, h2⟩ := h
      cases h2
      exact Nat.le_of_eq (setR_length h1).symm
  | available i => exact .pure _

/-- The table of ids never shrinks, even if something faults. -/
theorem flags_mono {w w' : World V} (hm : Matches cfg w) {a : Act V} {x : R (Ret V)} (h : a.run w = (w', x)) :
    w.em.flags.length ≤ w'.em.flags.length := by
  have keep : ∀ {α : Type} (m : Stm EntityManager α) (f : World V → R (World V × α)) (g : α → Ret V),
      (∀ em, em.flags.length ≤ (m em).1.flags.length) → (∀ w1 a, f w = .ok (w1, a) → w.em.flags.length ≤ w1.em.flags.length) →
      (do pure (g (← M.crit f (World.onTable m))) : M V (Ret V)) w = (w', x) → w.em.flags.length ≤ w'.em.flags.length := by
    intro α m f g h1 h2 h3
    rw [M.bind_apply] at h3
    cases hf : f w with
    | ok y => rw [M.crit_ok hf] at h3; cases h3; exact h2 _ _ hf
    | error e => rw [M.crit_error hf] at h3; cases h3; exact h1 _
  cases x with
  | ok r => exact run_flags hm h
  | error e =>
    have fr := run_frame hm.groups h
    have em : (Lock.em, Mode.mut) ∉ a.footprint cfg → w.em.flags.length ≤ w'.em.flags.length := fun hn => by
      rw [fr.em hn]; exact Nat.le_refl _
    cases a with
    | allocate =>
      refine keep EntityManager.allocateX World.allocate (fun id => .id id) ?_ ?_ h
      · exact allocateX_grows
      · intro w1 a hf; exact run_flags hm (a := .allocate) (r := .id a) (M.bind_ok.2 ⟨w1, a, M.crit_ok hf, rfl⟩)
    | allocateN n => cases h
    | emRemove id =>
      refine keep (EntityManager.removeX id) (World.release id) (fun _ => .unit) ?_ ?_ h
      · exact removeX_grows id
      · intro w1 a hf; exact run_flags hm (a := .emRemove id) (r := .unit) (M.bind_ok.2 ⟨w1, a, M.crit_ok hf, rfl⟩)
    | collect q =>
      have : w' = w := by
        simp only [Act.run, M.bind_apply, M.read] at h
        split at h <;> cases h
        all_goals simp_all
      rw [this]; exact Nat.le_refl _
    | groupAdd k id => refine em ?_; simp only [Act.footprint, Act.footprint.pair]; split <;> simp
    | groupRemove k id => refine em ?_; simp only [Act.footprint, Act.footprint.pair]; split <;> simp
    | groupErase k id => refine em ?_; simp only [Act.footprint, Act.footprint.pair]; split <;> simp
    | groupHas k id => refine em ?_; simp only [Act.footprint]; split <;> simp
    | _ => exact em (by simp [Act.footprint])

/-! ### Ids that are returned -/

/-- If there are `n` entries in the table of ids, the ids that the program will return first have entries. -/
def Prog.Lists : Nat → Prog V → Prop
  | n, .done rs => ∀ r ∈ rs.head?, ∀ id ∈ r.ids, id < n
  | _, .panic => True
  | n, .acq _ _ p => p.Lists n
  | n, .rel _ _ p => p.Lists n
  | n, .act a f => ∀ w w' r, n ≤ w.em.flags.length → w.em.flags.length ≤ w'.em.flags.length → a.run w = (w', .ok r) →
      (f r).Lists w'.em.flags.length

namespace Prog

theorem Lists.mono {n m : Nat} (hnm : n ≤ m) {p : Prog V} : p.Lists n → p.Lists m := by
  induction p with
  | done rs => exact fun h r hr id hi => Nat.lt_of_lt_of_le (h r hr id hi) hnm
  | panic => exact fun _ => trivial
  | acq l m p ih => exact ih
  | rel l m p ih => exact ih
  | act a f ih => exact fun h w w' r h1 => h w w' r (Nat.le_trans hnm h1)

theorem robust_lists (n : Nat) : Robust (Lists (V := V) n) :=
  ⟨trivial, fun _ _ _ h => h, fun _ _ _ h => h, fun _ _ _ h _ _ r h1 h2 _ => (h r).mono (Nat.le_trans h1 h2)⟩

theorem lists_range {start n m : Nat} (h : start + n ≤ m) (rs : List (Ret V)) :
    (Prog.done (Ret.range start (start + n) :: rs)).Lists m := by
  intro r hr id hi
  cases hr
  simp only [Ret.ids, List.mem_range'_1] at hi
  omega

theorem lists_create (s : List (HOp V)) : ((ApiCall.create s).prog cfg).Lists 0 := by
  intro w w' r _ _ hr
  simp only [Act.run, M.bind_ok, M.crit_iff, M.pure_iff, World.allocate, bind_eq_ok] at hr
  obtain ⟨w1, id, ⟨⟨em, y⟩, h1, h2⟩, rfl, rfl⟩ := hr
  obtain ⟨rfl, rfl⟩ := Prod.mk.inj (Except.ok.inj h2)
  have hid : y < em.flags.length := by
    simp only [EntityManager.allocate, bind_eq_ok] at h1
    obtain ⟨f, h1, h2⟩ := h1
    split at h2
    · simp only [bind_eq_ok, Except.ok.injEq, Prod.mk.injEq] at h2
      obtain ⟨x, hx, l1, h3, l2, h4, h5, h6⟩ := h2
      subst h5 h6
      show _ < l2.length
      rw [setR_length h4, setR_length h3]
      have := getR_ok hx
      exact (List.getElem?_eq_some_iff.1 this).1
    · simp only [Except.ok.injEq, Prod.mk.injEq] at h2
      obtain ⟨rfl, rfl⟩ := h2
      simp
  have hP := robust_lists (V := V) em.flags.length
  refine hP.rel _ _ _ (hP.acq _ _ _ (hP.act _ _ trivial fun r => ?_))
  split
  · refine robust_script hP _ (x := .id y) rfl fun rs hrs => hP.rel _ _ _ ?_
    intro r hr e he
    rw [hrs] at hr
    cases hr
    simp only [Ret.ids, List.mem_singleton] at he
    exact he ▸ hid
  · trivial

theorem lists_many {p : Nat → Nat → Prog V} (n : Nat) (bs : List (TypeId × List V))
    (h : ∀ a m, a + n ≤ m → (p a (a + n)).Lists m) :
    (Prog.acq .em .mut <| .act (.allocateN n) fun
      | .range start stop => .rel .em .mut <| .acq .em .ref <| Prog.batches cfg start stop bs (p start stop)
      | _ => .panic : Prog V).Lists 0 := by
  intro w w' r _ _ hr
  simp only [Act.run, World.createEntities, M.bind_ok, M.crit_iff, M.pure_iff, Except.ok.injEq, Prod.mk.injEq] at hr
  obtain ⟨w1, y, ⟨h1, h2⟩, rfl, rfl⟩ := hr
  subst h1 h2
  refine robust_batches (robust_lists _) bs (h _ _ ?_)
  simp [EntityManager.allocateN]

theorem lists_createHandle : ((KCall.createHandle : KCall V).prog cfg).Lists 0 := by
  have := lists_create (V := V) (cfg := cfg) []
  intro w w' r h0 h1 hr
  have := this w w' r h0 h1 hr
  revert this
  cases r with
  | id id =>
    intro h w1 w2 r1 a1 a2 a3
    have := h w1 w2 r1 a1 a2 a3
    revert this
    dsimp only [Prog.handle]
    cases r1 with
    | bool b => cases b <;> exact fun h => h
    | _ => exact fun _ => trivial
  | _ => exact fun _ => trivial

end Prog

/-! ### Steps -/

section
variable {P : World V → Prop} {Q : ApiCall V → Prop} {may : Sys V → Nat → ApiCall V → Prop}

/-- The running calls with `Q` have programs that do not fail while `P` holds. -/
def Sys.Sturdy (P : World V → Prop) (Q : ApiCall V → Prop) (σ : Sys V) : Prop :=
  ∀ th ∈ σ.threads, ∀ c, th.call = some c → Q c → th.prog.Unfailing P

theorem Sys.Sturdy.set {σ : Sys V} (h : σ.Sturdy P Q) {σ' : Sys V} {i : Nat} {th : Thread V} (he : σ'.threads = σ.threads.set i th)
    (hth : ∀ c, th.call = some c → Q c → th.prog.Unfailing P) : σ'.Sturdy P Q := by
  intro x hx
  rw [he] at hx
  rcases List.mem_or_eq_of_mem_set hx with hx | rfl
  · exact h x hx
  · exact hth

theorem Sys.Sturdy.step (hQ : ∀ c, Q c → (c.prog cfg).Unfailing P) {σ σ' : Sys V} (h : σ.Sturdy P Q)
    (hs : σ.Step cfg may σ') :
    σ'.Sturdy P Q ∧ ∃ new, σ'.log = new ++ σ.log ∧ (P σ.world → ∀ i c, (i, c, none) ∈ new → ¬ Q c) := by
  have old : ∀ {i : Nat} {th : Thread V}, σ.threads[i]? = some th → ∀ c, th.call = some c → Q c → th.prog.Unfailing P :=
    fun hi => h _ (List.mem_of_getElem? hi)
  cases hs with
  | start hi hc hm => exact ⟨h.set rfl fun c e q => by cases e; exact hQ _ q, [], rfl, by simp⟩
  | acq hi hp hf =>
    refine ⟨h.set rfl fun c e q => ?_, [], rfl, by simp⟩
    have := old hi c e q; rw [hp] at this; exact this
  | rel hi hp =>
    refine ⟨h.set rfl fun c e q => ?_, [], rfl, by simp⟩
    have := old hi c e q; rw [hp] at this; exact this
  | act hi hp hr =>
    refine ⟨h.set rfl fun c e q => ?_, [], rfl, by simp⟩
    have := old hi c e q; rw [hp] at this; exact (this _ _ _ hr).2 _ rfl
  | @fault i th a f w e c hi hp hr hc =>
    refine ⟨h.set rfl fun c e => by simp [Thread.idle] at e, [(i, c, none)], rfl, fun hw j c' hm q => ?_⟩
    simp only [List.mem_singleton, Prod.mk.injEq] at hm
    obtain ⟨_, rfl, _⟩ := hm
    have := old hi _ hc q
    rw [hp] at this
    obtain ⟨r, hx⟩ := (this _ _ _ hr).1 hw
    cases hx
  | @panic i th c hi hp hc =>
    refine ⟨h.set rfl fun c e => by simp [Thread.idle] at e, [(i, c, none)], rfl, fun hw j c' hm q => ?_⟩
    simp only [List.mem_singleton, Prod.mk.injEq] at hm
    obtain ⟨_, rfl, _⟩ := hm
    have := old hi _ hc q
    rw [hp] at this
    exact this
  | @ret i th c rs hi hp hc =>
    exact ⟨h.set rfl fun c e => by simp [Thread.idle] at e, [(i, c, some rs)], rfl, fun _ j c' hm => by simp at hm⟩

theorem Sys.Sturdy.init (w : World V) (n : Nat) : (Sys.init w n).Sturdy P Q := by
  intro th hth c hc
  rw [(List.mem_replicate.1 hth).2] at hc
  cases hc

/-- The same for clients that keep things. -/
def KSys.Sturdy (P : World V → Prop) (Q : KCall V → Prop) (σ : KSys V) : Prop :=
  ∀ th ∈ σ.threads, ∀ c, th.call = some c → Q c → th.prog.Unfailing P

theorem KSys.Sturdy.set {Q : KCall V → Prop} {σ : KSys V} (h : σ.Sturdy P Q) {σ' : KSys V} {i : Nat} {th : KThread V}
    (he : σ'.threads = σ.threads.set i th) (hth : ∀ c, th.call = some c → Q c → th.prog.Unfailing P) : σ'.Sturdy P Q := by
  intro x hx
  rw [he] at hx
  rcases List.mem_or_eq_of_mem_set hx with hx | rfl
  · exact h x hx
  · exact hth

theorem KSys.Sturdy.step {Q : KCall V → Prop} {may : KSys V → Nat → KCall V → Prop} (hQ : ∀ c, Q c → (c.prog cfg).Unfailing P)
    {σ σ' : KSys V} (h : σ.Sturdy P Q) (hs : σ.Step cfg may σ') :
    σ'.Sturdy P Q ∧ ∃ new, σ'.log = new ++ σ.log ∧ (P σ.world → ∀ i c, (i, c, none) ∈ new → ¬ Q c) := by
  have old : ∀ {i : Nat} {th : KThread V}, σ.threads[i]? = some th → ∀ c, th.call = some c → Q c → th.prog.Unfailing P :=
    fun hi => h _ (List.mem_of_getElem? hi)
  cases hs with
  | start hi hc _ hm => exact ⟨h.set rfl fun c e q => by cases e; exact hQ _ q, [], rfl, by simp⟩
  | acq hi hp hf =>
    refine ⟨h.set rfl fun c e q => ?_, [], rfl, by simp⟩
    have := old hi c e q; rw [hp] at this; exact this
  | rel hi hp =>
    refine ⟨h.set rfl fun c e q => ?_, [], rfl, by simp⟩
    have := old hi c e q; rw [hp] at this; exact this
  | act hi hp hr =>
    refine ⟨h.set rfl fun c e q => ?_, [], rfl, by simp⟩
    have := old hi c e q; rw [hp] at this; exact (this _ _ _ hr).2 _ rfl
  | @fault i th a f w e c hi hp hr hc =>
    refine ⟨h.set rfl fun c e => by simp at e, [(i, c, none)], rfl, fun hw j c' hm q => ?_⟩
    simp only [List.mem_singleton, Prod.mk.injEq] at hm
    obtain ⟨_, rfl, _⟩ := hm
    have := old hi _ hc q
    rw [hp] at this
    obtain ⟨r, hx⟩ := (this _ _ _ hr).1 hw
    cases hx
  | @panic i th c hi hp hc =>
    refine ⟨h.set rfl fun c e => by simp at e, [(i, c, none)], rfl, fun hw j c' hm q => ?_⟩
    simp only [List.mem_singleton, Prod.mk.injEq] at hm
    obtain ⟨_, rfl, _⟩ := hm
    have := old hi _ hc q
    rw [hp] at this
    exact this
  | @ret i th c rs hi hp hc =>
    exact ⟨h.set rfl fun c e => by simp at e, [(i, c, some rs)], rfl, fun _ j c' hm => by simp at hm⟩

theorem KSys.Sturdy.init {Q : KCall V → Prop} (w : World V) (n : Nat) : (KSys.init w n).Sturdy P Q := by
  intro th hth c hc
  rw [(List.mem_replicate.1 hth).2] at hc
  cases hc

end

/-- The ids handed out, now and by the calls that are running, have entries in the table. -/
structure Sys.Listed (σ : Sys V) : Prop where
  progs : ∀ th ∈ σ.threads, ∀ c, th.call = some c → c.creates = true → th.prog.Lists σ.world.em.flags.length
  log : ∀ id ∈ σ.issued, id < σ.world.em.flags.length

theorem Sys.Listed.init (w : World V) (n : Nat) : (Sys.init w n).Listed := by
  refine ⟨fun th hth c hc => ?_, fun id hid => by simp [Sys.issued, Sys.init] at hid⟩
  rw [(List.mem_replicate.1 hth).2] at hc
  cases hc

theorem lists_call {c : ApiCall V} (hc : c.creates = true) (n : Nat) : (c.prog cfg).Lists n := by
  refine Prog.Lists.mono (Nat.zero_le n) ?_
  cases c with
  | create s => exact Prog.lists_create s
  | createMany n bs => exact Prog.lists_many n bs fun a m h => Prog.lists_range h []
  | _ => cases hc

theorem issuedBy_creates {c : ApiCall V} {r : Option (List (Ret V))} {id : Nat} (h : id ∈ issuedBy (c, r)) :
    c.creates = true ∧ ∃ rs, r = some rs ∧ ∃ x ∈ rs.head?, id ∈ x.ids := by
  cases c <;> cases r with
  | none => simp [issuedBy] at h
  | some rs => cases rs <;> simp_all [issuedBy, ApiCall.creates]

theorem Sys.Listed.step {may : Sys V → Nat → ApiCall V → Prop} {σ σ' : Sys V} (h : σ.Listed) (hm : Matches cfg σ.world)
    (hs : σ.Step cfg may σ') : σ'.Listed := by
  have old : ∀ {i : Nat} {th : Thread V}, σ.threads[i]? = some th → ∀ c, th.call = some c → c.creates = true →
      th.prog.Lists σ.world.em.flags.length := fun hi => h.progs _ (List.mem_of_getElem? hi)
  have put : ∀ {i : Nat} {th : Thread V} {σ' : Sys V}, σ'.threads = σ.threads.set i th →
      σ.world.em.flags.length ≤ σ'.world.em.flags.length → (∀ id ∈ σ'.issued, id ∉ σ.issued → id < σ'.world.em.flags.length) →
      (∀ c, th.call = some c → c.creates = true → th.prog.Lists σ'.world.em.flags.length) → σ'.Listed := by
    intro i th σ' h1 h2 h3 h4
    refine ⟨fun x hx c hc hcc => ?_, fun id hid => ?_⟩
    · rw [h1] at hx
      rcases List.mem_or_eq_of_mem_set hx with hx | rfl
      · exact (h.progs x hx c hc hcc).mono h2
      · exact h4 c hc hcc
    · by_cases ho : id ∈ σ.issued
      · exact Nat.lt_of_lt_of_le (h.log id ho) h2
      · exact h3 id hid ho
  have idle : ∀ c : ApiCall V, (Thread.idle (V := V)).call = some c → c.creates = true →
      (Thread.idle (V := V)).prog.Lists σ'.world.em.flags.length := fun c hc => by cases hc
  cases hs with
  | start hi hc hm => exact put rfl (Nat.le_refl _) (fun id h1 h2 => absurd h1 h2) fun c e q => by cases e; exact lists_call q _
  | acq hi hp hf =>
    refine put rfl (Nat.le_refl _) (fun id h1 h2 => absurd h1 h2) fun c e q => ?_
    have := old hi c e q; rw [hp] at this; exact this
  | rel hi hp =>
    refine put rfl (Nat.le_refl _) (fun id h1 h2 => absurd h1 h2) fun c e q => ?_
    have := old hi c e q; rw [hp] at this; exact this
  | act hi hp hr =>
    refine put rfl (flags_mono hm hr) (fun id h1 h2 => absurd h1 h2) fun c e q => ?_
    have := old hi c e q; rw [hp] at this; exact this _ _ _ (Nat.le_refl _) (flags_mono hm hr) hr
  | fault hi hp hr hc =>
    refine put rfl (flags_mono hm hr) (fun id h1 h2 => ?_) idle
    have h1 : id ∈ issuedBy (_, none) ++ σ.issued := h1
    rcases List.mem_append.1 h1 with h1 | h1
    · obtain ⟨_, _, e, _⟩ := issuedBy_creates h1; cases e
    · exact absurd h1 h2
  | panic hi hp hc =>
    refine put rfl (Nat.le_refl _) (fun id h1 h2 => ?_) idle
    have h1 : id ∈ issuedBy (_, none) ++ σ.issued := h1
    rcases List.mem_append.1 h1 with h1 | h1
    · obtain ⟨_, _, e, _⟩ := issuedBy_creates h1; cases e
    · exact absurd h1 h2
  | ret hi hp hc =>
    refine put rfl (Nat.le_refl _) (fun id h1 h2 => ?_) idle
    have h1 : id ∈ issuedBy (_, some _) ++ σ.issued := h1
    rcases List.mem_append.1 h1 with h1 | h1
    · obtain ⟨h3, _, e, x, hx, hid⟩ := issuedBy_creates h1
      cases e
      have := old hi _ hc h3
      rw [hp] at this
      exact this x hx id hid
    · exact absurd h1 h2

theorem Sys.Listed.sched {may : Sys V → Nat → ApiCall V → Prop} {σ σ' : Sys V} (h : σ.Listed) (hm : Matches cfg σ.world)
    (hs : σ.Sched cfg may σ') : σ'.Listed ∧ Matches cfg σ'.world ∧ σ.world.em.flags.length ≤ σ'.world.em.flags.length := by
  induction hs with
  | refl => exact ⟨h, hm, Nat.le_refl _⟩
  | step _ hs ih =>
    refine ⟨ih.1.step ih.2.1 hs, ih.2.1.step hs, Nat.le_trans ih.2.2 ?_⟩
    cases hs with
    | act hi hp hr => exact flags_mono ih.2.1 hr
    | fault hi hp hr hc => exact flags_mono ih.2.1 hr
    | _ => exact Nat.le_refl _

end
end Xecs
