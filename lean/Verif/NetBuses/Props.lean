import Verif.NetBuses.Lemmas
import Verif.NodeBreaker.Model
import Verif.BusBreaker.Model

/-!
C61: a bus looked up from the network by its id is the one the same view lists under that id, and it exists.
-/

namespace Verif.NetBuses

open Verif

/-- The first bus of a list with that id. -/
def firstWith (id : String) : List Ref → Option Nat
  | [] => none
  | r :: rs => if r.1 = id then some r.2 else firstWith id rs

theorem firstWith_eq (id : String) (rs : List Ref) : firstWith id rs = (rs.find? (fun r => r.1 == id)).map Prod.snd := by
  induction rs with
  | nil => rfl
  | cons r rs ih =>
    unfold firstWith
    rw [List.find?_cons]
    by_cases h : r.1 = id
    · simp [h]
    · have : (r.1 == id) = false := by simp [h]
      simp [h, this, ih]

theorem firstWith_some {id : String} {rs : List Ref} {a : Nat} (h : firstWith id rs = some a) : (id, a) ∈ rs := by
  induction rs with
  | nil => cases h
  | cons r rs ih =>
    unfold firstWith at h
    by_cases e : r.1 = id
    · rw [if_pos e] at h
      cases h
      rw [← e]
      exact List.mem_cons_self
    · rw [if_neg e] at h
      exact List.mem_cons_of_mem _ (ih h)

theorem firstWith_none {id : String} {rs : List Ref} (h : firstWith id rs = none) : ∀ r ∈ rs, r.1 ≠ id := by
  induction rs with
  | nil => intro r hr; cases hr
  | cons r rs ih =>
    unfold firstWith at h
    by_cases e : r.1 = id
    · rw [if_pos e] at h; cases h
    · rw [if_neg e] at h
      intro q hq
      cases hq with
      | head => exact e
      | tail _ hq => exact ih h q hq

/-- The assumption of the model on voltage levels without equipment holds in the models of the two kinds of voltage levels: a bus
    of the bus view has a terminal. -/
theorem bus_needs_terminal :
    (∀ (g : NodeBreaker.Gr) (nodes : List Nat), NodeBreaker.isBusValid .bus g nodes = true → NodeBreaker.terminalsOn g nodes ≠ []) ∧
    (∀ (types : Nat → List NodeBreaker.EqType) (bs : List BusBreaker.CBus), BusBreaker.isBusValid types bs = .ok true →
      ∃ b ∈ bs, types b.handle ≠ []) := by
  refine ⟨fun g nodes h e => ?_, fun types bs h => ?_⟩
  · simp [NodeBreaker.isBusValid, e, NodeBreaker.counts] at h
  · apply Classical.byContradiction
    intro hn
    have e : bs.flatMap (fun b => types b.handle) = [] := by
      apply List.flatMap_eq_nil_iff.2
      intro b hb
      apply Classical.byContradiction
      intro hne
      exact hn ⟨b, hb, hne⟩
    simp [BusBreaker.isBusValid, e, BusBreaker.branchCount, Out.map] at h

theorem inv_run (os : List Op) : ∀ n, Good n.refs n.next → BInv n →
    Good (run os n).refs (run os n).next ∧ BInv (run os n) := by
  induction os with
  | nil => intro n g b; exact ⟨g, b⟩
  | cons o os ih => intro n g b; exact ih (step n o) (good_step o g) (binv_step o b)

theorem inv_init (os : List Op) : Good (run os init).refs (run os init).next ∧ BInv (run os init) :=
  inv_run os init ⟨fun r h => (by cases h), fun r h => (by cases h)⟩ (binv_none (fun v h => (by cases h)) rfl)

/-- C61, bus view.  After any history, the bus got by its id from the bus view of the network is the first one that the bus view of
    the network lists under that id, and it is an existing object. -/
theorem busView_lookup (os : List Op) (id : String) :
    ((run os init).busViewBus id).1 = firstWith id (run os init).busViewBuses.1 ∧
    (run os init).askBus id = .ok (if ∃ r ∈ (run os init).busViewBuses.1, r.1 = id then some id else none) := by
  obtain ⟨g, b⟩ := inv_init os
  generalize run os init = n at g b
  have key : (n.busViewBus id).1 = firstWith id n.busViewBuses.1 := by
    unfold Net.busViewBus Net.busViewBuses
    cases hb : n.busView with
    | some m =>
      show m.get? id = firstWith id (listAll VL.listBus n.vls n.next).1
      rw [listAll_settled (fun v hv => ⟨b.settled (by rw [hb]; simp) v hv, b.empty v hv⟩), firstWith_eq]
      exact b.right m hb id
    | none =>
      show (fill (listAll VL.listBus n.vls n.next).1 []).get? id = _
      rw [fill_get?, firstWith_eq]
      simp
  refine ⟨key, ?_⟩
  have g' := good_step (.busViewBus id) g
  have hin : ∀ r ∈ n.busViewBuses.1, r ∈ (n.busViewBus id).2.refs := by
    intro r hr
    unfold Net.busViewBus
    cases hb : n.busView with
    | some m =>
      have : r ∈ (listAll VL.listBus n.vls n.next).1 := hr
      rw [listAll_settled (fun v hv => ⟨b.settled (by rw [hb]; simp) v hv, b.empty v hv⟩), List.mem_flatMap] at this
      obtain ⟨v, hv, hr⟩ := this
      refine List.mem_flatMap.2 ⟨v, hv, ?_⟩
      simp only [VL.refs, List.mem_append]
      exact Or.inl (Or.inr hr)
    | none => exact listAll_listed lister_bus n.vls n.next r hr
  unfold Net.askBus
  cases ha : n.busViewBus id with
  | mk o n' =>
    rw [ha] at key hin
    have g' : Good n'.refs n'.next := by simpa [step, ha] using g'
    simp only at key hin
    cases o with
    | none =>
      have hn := firstWith_none key.symm
      rw [if_neg]
      rintro ⟨r, hr, e⟩
      exact hn r hr e
    | some a =>
      have hm := firstWith_some key.symm
      have hu := use_of_mem g' (hin _ hm)
      simp only at hu
      rw [if_pos ⟨(id, a), hm, rfl⟩]
      simp [hu, Out.map]

/-- A history with two voltage levels whose buses change after the network cache was filled. -/
def sample : List Op :=
  [.addVL false, .addVL true, .addBus 1 "B", .topology 0 true ["V_0"] ["V_0", "V_3"], .topology 1 true ["W_0"] [],
   .busViewBus "V_0", .busBreakerViewBuses, .silent 0 [] [], .topology 0 true ["V_0", "V_2"] ["V_0"]]

example : (run sample init).askBus "V_2" = .ok (some "V_2") ∧ (run sample init).askBus "W_0" = .ok (some "W_0") ∧
    (run sample init).askBus "V_1" = .ok none ∧ (run sample init).busView = none := by decide

/-- No change of a node/breaker voltage level happens while the network keeps the buses of its bus/breaker view. -/
def Calm : List Op → Net → Prop
  | [], _ => True
  | o :: os, n => (n.busBreakerView ≠ none → ¬ o.touches n) ∧ Calm os (step n o)

theorem cinv_run (os : List Op) : ∀ n, CInv n → Calm os n → CInv (run os n) := by
  induction os with
  | nil => intro n h _; exact h
  | cons o os ih => intro n h c; exact ih (step n o) (cinv_step o h c.1) c.2

/-- C61, bus/breaker view.  When no change of a node/breaker voltage level happens while the network keeps its cache, the bus got by its
    id from the bus/breaker view of the network is one that this view lists under that id, a configured one if there is one, and it is an
    existing object.  Missing: the histories with such changes, for which the claim is false (`busBreakerView_destroyed`). -/
theorem busBreakerView_lookup_partial (os : List Op) (hc : Calm os init) (id : String) :
    (∀ a, ((run os init).busBreakerViewBus id).1 = some a → (id, a) ∈ (run os init).busBreakerViewBuses.1) ∧
    (∀ v ∈ (run os init).vls, v.busBreaker = true → ∀ a, (id, a) ∈ v.configured → ∃ w ∈ (run os init).vls, w.busBreaker = true ∧
      ∃ b, (id, b) ∈ w.configured ∧ ((run os init).busBreakerViewBus id).1 = some b) ∧
    (run os init).askBB id = .ok (if ∃ r ∈ (run os init).busBreakerViewBuses.1, r.1 = id then some id else none) := by
  obtain ⟨g, _⟩ := inv_init os
  have c := cinv_run os init (cinv_none rfl) hc
  generalize run os init = n at g c
  have hcalc : (n.busBreakerViewBus id).1 =
      (findConfigured id n.vls).or (firstWith id (listAll VL.listCalculated n.vls n.next).1) := by
    unfold Net.busBreakerViewBus
    cases findConfigured id n.vls with
    | some a => rfl
    | none =>
      cases hb : n.busBreakerView with
      | some m =>
        show m.get? id = firstWith id (listAll VL.listCalculated n.vls n.next).1
        rw [listAll_ready (c.ready (by rw [hb]; simp)), firstWith_eq]
        exact c.right m hb id
      | none =>
        show (fill (listAll VL.listCalculated n.vls n.next).1 []).get? id = firstWith id _
        rw [fill_get?, firstWith_eq]
        simp
  have hsome : ∀ a, (n.busBreakerViewBus id).1 = some a → (id, a) ∈ n.busBreakerViewBuses.1 := by
    intro a h
    rw [hcalc] at h
    refine (mem_listBB n.vls n.next (id, a)).2 ?_
    cases hf : findConfigured id n.vls with
    | some b =>
      rw [hf] at h
      cases h
      obtain ⟨v, hv, k⟩ := findConfigured_some hf
      exact Or.inl ⟨v, hv, k⟩
    | none =>
      rw [hf] at h
      exact Or.inr (firstWith_some h)
  have hnone : (n.busBreakerViewBus id).1 = none → ∀ r ∈ n.busBreakerViewBuses.1, r.1 ≠ id := by
    intro h r hr
    rw [hcalc] at h
    cases hf : findConfigured id n.vls with
    | some b => rw [hf] at h; cases h
    | none =>
      rw [hf] at h
      rcases (mem_listBB n.vls n.next r).1 hr with ⟨v, hv, hb, hr⟩ | hr
      · exact findConfigured_none hf v hv hb r hr
      · exact firstWith_none h r hr
  have hin : ∀ a, (n.busBreakerViewBus id).1 = some a → (id, a) ∈ (n.busBreakerViewBus id).2.refs := by
    intro a h
    unfold Net.busBreakerViewBus at h ⊢
    cases hf : findConfigured id n.vls with
    | some b =>
      rw [hf] at h
      cases h
      obtain ⟨v, hv, hb, k⟩ := findConfigured_some hf
      refine List.mem_flatMap.2 ⟨v, hv, ?_⟩
      simp only [VL.refs, List.mem_append]
      exact Or.inl (Or.inl k)
    | none =>
      rw [hf] at h
      cases hb : n.busBreakerView with
      | some m =>
        simp only [hb] at h
        rw [c.right m hb, ← firstWith_eq] at h
        have := firstWith_some h
        rw [List.mem_flatMap] at this
        obtain ⟨v, hv, k⟩ := this
        refine List.mem_flatMap.2 ⟨v, hv, ?_⟩
        unfold held at k
        cases hk : v.busBreaker with
        | true => simp [hk] at k
        | false =>
          simp only [hk, Bool.false_eq_true, if_false] at k
          simp only [VL.refs, List.mem_append]
          exact Or.inr k
      | none =>
        simp only [hb] at h
        rw [fill_get?, ← firstWith_eq] at h
        simp at h
        exact listAll_listed lister_calculated n.vls n.next _ (firstWith_some h)
  refine ⟨hsome, fun v hv hb a ha => ?_, ?_⟩
  · cases hf : findConfigured id n.vls with
    | none => exact absurd rfl (findConfigured_none hf v hv hb _ ha)
    | some b =>
      obtain ⟨w, hw, hk, k⟩ := findConfigured_some hf
      exact ⟨w, hw, hk, b, k, by rw [hcalc, hf]; rfl⟩
  · have g' := good_step (.busBreakerViewBus id) g
    unfold Net.askBB
    cases ha : n.busBreakerViewBus id with
    | mk o n' =>
      rw [ha] at hsome hnone hin
      have g' : Good n'.refs n'.next := by simpa [step, ha] using g'
      simp only at hsome hnone hin
      cases o with
      | none =>
        have hn := hnone rfl
        rw [if_neg]
        rintro ⟨r, hr, e⟩
        exact hn r hr e
      | some a =>
        have hu := use_of_mem g' (hin a rfl)
        simp only at hu
        rw [if_pos ⟨(id, a), hsome a rfl, rfl⟩]
        simp [hu, Out.map]

/-- A history that respects the condition: the cache is filled, then a bus/breaker voltage level changes. -/
def calmSample : List Op :=
  [.addVL false, .addVL true, .topology 0 true ["V_0"] ["V_0", "V_3"], .busBreakerViewBus "V_3", .addBus 1 "B",
   .topology 1 true ["W_0"] []]

example : Calm calmSample init ∧ (run calmSample init).askBB "V_3" = .ok (some "V_3") ∧
    (run calmSample init).askBB "B" = .ok (some "B") ∧ (run calmSample init).askBB "V_1" = .ok none := by
  refine ⟨?_, by decide⟩
  simp [Calm, calmSample, Op.touches, step, init, run, Net.busBreakerViewBus, findConfigured, Net.invalidate,
    Net.dropBusView, Net.dropBusBreakerView, listAll, VL.listCalculated, VL.listBB, VL.dropped]

/-- C61 is false for the bus/breaker view: its cache is never invalidated (NetworkViews.cpp l.88-90 invalidates the other one).  A bus is looked up,
    a switch of its voltage level is opened and closed again, the bus is looked up again: the answer is the destroyed bus. -/
theorem busBreakerView_destroyed : ∃ os id, (id ∈ (run os init).busBreakerViewBuses.1.map Prod.fst) ∧
    (run os init).askBB id = .ub :=
  ⟨[.addVL false, .topology 0 true ["V_0"] ["V_0"], .busBreakerViewBus "V_0", .topology 0 true ["V_0"] ["V_0"]], "V_0",
    by decide⟩

/-- C61 is false for the bus/breaker view in the other way too: a bus that appeared after the cache was filled is not found. -/
theorem busBreakerView_missed : ∃ os id, (id ∈ (run os init).busBreakerViewBuses.1.map Prod.fst) ∧
    (run os init).askBB id = .ok none :=
  ⟨[.addVL false, .topology 0 true ["V_0"] ["V_0"], .busBreakerViewBus "V_0", .topology 0 true ["V_0"] ["V_0", "V_1"]], "V_1",
    by decide⟩

end Verif.NetBuses
