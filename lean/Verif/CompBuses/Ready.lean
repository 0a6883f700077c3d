import Verif.CompBuses.LevelLemmas

/-! The numbers stored by `update`, and their invariant over histories. -/

namespace Verif.CompBuses

open Verif Verif.Graph
open Verif.NodeBreaker (Gr EqType)
open Verif.BusBreaker (BGr)
open Verif.BusState (Bus Holder Owns Valid)
open Verif.NetComponents (Snap Sorter Adds At AnyLink Right numberLoop computeWith computeCache)

theorem numbers_ok {fill : Filler} {R : Snap → String → String → Prop} (hf : Fills fill R) {srt : Sorter} (hs : srt.Ok) {s : Snap} (hw : s.WF) :
    ∃ adj r, fill s (numberLoop s.buses 0 []) (List.replicate s.buses.length []) = .ok adj ∧ computeWith srt adj = .ok r ∧
      r.number.length = s.buses.length ∧ (∀ (k z : Nat), r.size[k]? = some z → z = r.number.count k) ∧
      (s.buses ≠ [] → r.size ≠ []) ∧ (∀ k ∈ r.number, k < r.size.length) ∧
      Right s (R s) (NetComponents.componentOf ⟨s.buses.zip r.number, r.size⟩) := by
  have hin : ∀ a b, R s a b → a ∈ s.buses ∧ b ∈ s.buses := fun a b h => hw.ends a b (hf.among s a b h)
  obtain ⟨k, e, hr, hne⟩ := NetComponents.compute_right hw.nodup hin (hf.adds s hw) hs
  obtain ⟨adj, e1, l1, n1⟩ := hf.adds s hw (List.replicate s.buses.length []) (by simp)
  have hrange : Components.InRange adj := by
    intro v ws hv w hw'
    rcases (n1 v w).1 ⟨ws, hv, hw'⟩ with ⟨ws', h1, h2⟩ | ⟨x, y, _, hor⟩
    · rw [List.getElem?_replicate] at h1
      split at h1
      · cases h1; exact absurd h2 List.not_mem_nil
      · cases h1
    · rw [l1]
      rcases hor with ⟨_, h⟩ | ⟨_, h⟩ <;> exact (List.getElem?_eq_some_iff.mp h).1
  have hcomp : Components.Compute adj (computeWith srt adj) := by
    unfold Components.Compute computeWith
    cases hse : Components.search adj with
    | ok p => exact ⟨_, hs _ _, rfl⟩
    | thrown => rfl
    | ub => rfl
  obtain ⟨res, hres, hlen, hnum, hcount, _⟩ := (Components.components_numbered hrange).2 _ hcomp
  have e' : computeCache fill srt s = .ok ⟨s.buses.zip res.number, res.size⟩ := by
    simp only [computeCache, e1, Out.bind, hres, Out.map]
  rw [e] at e'; cases e'
  refine ⟨adj, res, e1, hres, hlen.trans l1, hcount, hne, fun k hk => ?_, hr⟩
  obtain ⟨u, hu⟩ := List.mem_iff_getElem?.1 hk
  exact (hnum k).2 ⟨u, hu⟩

/-- The components are computed, and their numbers stored: each object of a bus of the bus view has the number of the bus;
    the others have none. -/
structure Ready (R : Snap → String → String → Prop) (st : St) (bs bbs : List Named) (num : List Nat) : Prop where
  list : NetList st.levels bs
  breaker : listAll breakerBuses st.levels = .ok bbs
  length : num.length = bs.length
  range : ∀ k ∈ num, k < st.sizes.length
  count : ∀ (k z : Nat), st.sizes[k]? = some z → z = num.count k
  right : Right (st.snap bs) (R (st.snap bs)) (NetComponents.componentOf ⟨(bs.map Prod.fst).zip num, st.sizes⟩)
  stored : ∀ (i : Nat) k b, num[i]? = some k → bs[i]? = some b → ∀ h, Owns b.2 h → st.marks.at h = some k
  cleared : ∀ b ∈ bbs, ∀ h, Owns b.2 h → (∀ p ∈ bs, ¬ Owns p.2 h) → st.marks.at h = none

theorem snap_wf {levels : List Level} {links : Snap} {bs : List Named} (hb : NetList levels bs) (he : EndsOk levels links) :
    ({ links with buses := bs.map Prod.fst } : Snap).WF :=
  ⟨hb.nodup, fun a b h => he bs hb.list a b h⟩

/-- The network is well formed, and what the manager knows is right. -/
structure Inv (R : Snap → String → String → Prop) (st : St) : Prop where
  levels : LevelsOk st.levels
  ends : EndsOk st.levels st.links
  known : st.sizes ≠ [] → ∃ bs bbs num, Ready R st bs bbs num

theorem update_ready {fill : Filler} {R : Snap → String → String → Prop} (hf : Fills fill R) {srt : Sorter} (hs : srt.Ok) {st : St} (h : Inv R st) :
    ∃ st' bs bbs num, update fill srt st = .ok st' ∧ Ready R st' bs bbs num ∧ st'.levels = st.levels ∧ st'.links = st.links ∧
      st'.era = st.era ∧ (st.sizes ≠ [] → st' = st) := by
  by_cases hz : st.sizes ≠ []
  · obtain ⟨bs, bbs, num, hr⟩ := h.known hz
    have e : update fill srt st = .ok st := by rw [update, if_pos hz]
    exact ⟨st, bs, bbs, num, e, hr, rfl, rfl, rfl, fun _ => rfl⟩
  · obtain ⟨bs, hb⟩ := net_list h.levels
    obtain ⟨bbs, e1, hbb⟩ := listAll_ok (f := breakerBuses) (levels := st.levels) fun v hv => by
      obtain ⟨l, hl, _⟩ := breaker_level (h.levels.each v hv); exact ⟨l, hl⟩
    have hval : ∀ b ∈ bbs, Valid b.2 := by
      intro b hb
      obtain ⟨v, hv, l, hl, hm⟩ := (hbb b).1 hb
      obtain ⟨l', hl', hall⟩ := breaker_level (h.levels.each v hv)
      rw [hl] at hl'; cases hl'
      exact hall b hm
    obtain ⟨adj, r, f1, f2, hlen, hcount, hne, hrange, hright⟩ := numbers_ok hf hs (s := st.snap bs) (snap_wf hb h.ends)
    have hlen : r.number.length = bs.length := by rw [hlen]; simp [St.snap]
    have hgen : ∀ m0 : Marks, ∃ m2, update fill srt { st with marks := m0 } = .ok { st with marks := m2, sizes := r.size } ∧
        Ready R { st with marks := m2, sizes := r.size } bs bbs r.number := by
      intro m0
      obtain ⟨m1, e2, hm1, _⟩ := reset_at bbs m0 hval
      obtain ⟨m2, e3, hm2, hm3⟩ := store_at r.number bs m1 hlen (fun b hb' => (hb.self b hb').valid) hb.alone
      refine ⟨m2, ?_, hb, e1, hlen, hrange, hcount, hright, hm2, fun b hb' h ho hno => by rw [hm3 h hno]; exact hm1 b hb' h ho⟩
      have f1' : fill (St.snap { st with marks := m0 } bs) (numberLoop (bs.map Prod.fst) 0 []) (List.replicate bs.length []) = .ok adj := by
        have : (st.snap bs).buses.length = bs.length := by simp [St.snap]
        rw [this] at f1
        exact f1
      rw [update, if_neg hz]
      simp only [e1, Out.bind_ok, e2, hb.list, f1', f2, e3]
      rfl
    obtain ⟨m2, e2, hr⟩ := hgen st.marks
    refine ⟨{ st with marks := m2, sizes := r.size }, bs, bbs, r.number, e2, hr, rfl, rfl, rfl, fun hz' => absurd hz' hz⟩

theorem Inv.update {fill : Filler} {R : Snap → String → String → Prop} (hf : Fills fill R) {srt : Sorter} (hs : srt.Ok) {st : St} (h : Inv R st)
    {st' : St} (e : update fill srt st = .ok st') : Inv R st' := by
  obtain ⟨st1, bs, bbs, num, e1, hr, h1, h2, _, _⟩ := update_ready hf hs h
  rw [e] at e1; cases e1
  exact ⟨h1 ▸ h.levels, by rw [h1, h2]; exact h.ends, fun _ => ⟨bs, bbs, num, hr⟩⟩

theorem component_state {fill : Filler} {srt : Sorter} {st : St} {b : Bus} {r : Option Comp × St} (h : componentOf fill srt st b = .ok r) :
    update fill srt st = .ok r.2 := by
  have key : ∀ {α : Type} {o : Out St} {f : St → Out α} {g : α → St → Option Comp}, (o.bind fun s => (f s).map fun a => (g a s, s)) = .ok r → o = .ok r.2 := by
    intro α o f g h
    obtain ⟨s, h1, h2⟩ := Out.bind_eq_ok.1 h
    cases hf : f s with
    | ok a => rw [hf] at h2; cases h2; exact h1
    | thrown => rw [hf] at h2; cases h2
    | ub => rw [hf] at h2; cases h2
  cases b with
  | calculated valid ts ref =>
    cases valid with
    | false => cases h
    | true =>
      cases ref with
      | none =>
        obtain ⟨s, h1, h2⟩ := Out.bind_eq_ok.1 h
        cases h2; exact h1
      | some t => exact key (g := fun a _ => a) h
  | conf c => exact key (g := fun a _ => a) h
  | merged valid bs =>
    cases valid with
    | false => cases h
    | true =>
      cases bs with
      | nil => cases h
      | cons a as => exact key (g := fun a _ => some a) h

/-- After any history of changes of topology and of queries. -/
theorem run_inv {fill : Filler} {R : Snap → String → String → Prop} (hf : Fills fill R) {srt : Sorter} (hs : srt.Ok) :
    ∀ (ops : List Op) (st : St), (∀ op ∈ ops, OpOk op) → Inv R st → Inv R (run fill srt ops st)
  | [], _, _, h => h
  | op :: ops, st, ho, h => by
    refine run_inv hf hs ops _ (fun o hm => ho o (List.mem_cons_of_mem _ hm)) ?_
    have h1 := ho op List.mem_cons_self
    cases op with
    | topology levels links => exact ⟨h1.1, h1.2, fun hz => absurd rfl hz⟩
    | ask b =>
      show Inv R (match componentOf fill srt st b with | .ok r => r.2 | .thrown => st | .ub => st)
      cases hc : componentOf fill srt st b with
      | ok r => exact h.update hf hs (component_state hc)
      | thrown => exact h
      | ub => exact h

theorem init_inv {R : Snap → String → String → Prop} : Inv R init := by
  refine ⟨⟨fun v hv => absurd hv List.not_mem_nil, .nil, .nil⟩, ?_, fun hz => absurd rfl hz⟩
  rintro bs h a b (h' | h')
  · rcases h' with h' | h' | h' | h' | h' <;> exact absurd h' List.not_mem_nil
  · exact absurd h' List.not_mem_nil

end Verif.CompBuses
