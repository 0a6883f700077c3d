import Verif.BusRefs.Spec
import Verif.Electric.Lemmas

/-! Lemmas for C92: the buses of the terminals. -/

namespace Verif.BusRefs

open Verif Verif.Graph
open Verif.NodeBreaker (Passing OnBus getBus_eq_some compute_ok)
open Verif.BusBreaker (BusAt)
open Verif.CompBuses (Level LevelsOk)
open Verif.Electric (End Spot OnView levelAt levelAt_eq viewBus node_level conf_level level_unique)

theorem confId_eq {g : BusBreaker.BGr} (hf : BusBreaker.Furnished g) {u : Nat} {b : BusBreaker.CBus} (hb : BusAt g u b) : confId g b.handle = some b.id := by
  unfold confId
  cases h : (g.vertices.filterMap Option.join).find? fun c => c.handle == b.handle with
  | none =>
    have := List.find?_eq_none.1 h b (CompBuses.mem_confs.2 ⟨u, hb⟩)
    exact absurd (beq_self_eq_true _) this
  | some c =>
    obtain ⟨w, hw⟩ := CompBuses.mem_confs.1 (List.mem_of_find?_eq_some h)
    have e0 : (c.handle == b.handle) = true := List.find?_some (p := fun (c : BusBreaker.CBus) => c.handle == b.handle) h
    have e : c.handle = b.handle := eq_of_beq e0
    have := hf.handles w u c b hw hb e
    subst this
    have : c = b := Option.some.inj (Option.some.inj (hw.symm.trans hb))
    rw [this]
    rfl

theorem viewBus_placed {levels : List Level} (hl : LevelsOk levels) {a : End} (ha : Placed levels a) : ∃ r, viewBus levels a = .ok r ∧ ∀ i, r = some i ↔ SitsOn levels .busBranch a i := by
  cases a with
  | node vl n =>
    obtain ⟨g, o, r, hv, hn⟩ := ha
    obtain ⟨c, e1, hm, htot⟩ := node_level hl hv
    obtain ⟨x, hx⟩ := htot n hn
    refine ⟨x, ?_, fun i => ?_⟩
    · have := levelAt_eq hl hv
      simp only [CompBuses.Level.id] at this
      simp only [viewBus, this, e1, Out.bind_ok, hx]
    · constructor
      · rintro rfl
        exact ⟨g, o, r, hv, (hm n i).1 ⟨g, o, r, c, hv, e1, hx⟩⟩
      · rintro ⟨g', o', r', hv', k⟩
        cases level_unique hl hv' hv rfl
        obtain ⟨g'', o'', r'', c', hv'', e', k'⟩ := (hm n i).2 k
        cases level_unique hl hv'' hv rfl
        rw [e1] at e'
        cases Out.ok.inj e'
        rw [hx] at k'
        exact Out.ok.inj k'
  | bus vl h conn =>
    obtain ⟨g, o, t, u, b, hv, hb, rfl⟩ := ha
    obtain ⟨c, e1, hC, hm⟩ := conf_level hl hv
    cases conn with
    | false => exact ⟨none, rfl, fun i => ⟨fun k => (by cases k), fun k => (by cases k.1)⟩⟩
    | true =>
      refine ⟨c.byBus.get? b.handle, ?_, fun i => ?_⟩
      · have := levelAt_eq hl hv
        simp only [CompBuses.Level.id] at this
        simp only [viewBus, this, e1, if_true, Out.map]
      · exact ⟨fun k => ⟨rfl, (hm _ _).2 k⟩, fun k => (hm _ _).1 k.2⟩

theorem breakerBus_placed {levels : List Level} (hl : LevelsOk levels) {a : End} (ha : Placed levels a) : ∃ r, breakerBus levels a = .ok r ∧ ∀ i, r = some i ↔ SitsOn levels .busBreaker a i := by
  cases a with
  | node vl n =>
    obtain ⟨g, o, r, hv, hn⟩ := ha
    have hg : Reached g := (hl.each _ hv).1
    obtain ⟨c, e1, _, e3, _⟩ := compute_ok vl hg .busBreaker o r
    obtain ⟨c', e1', htot⟩ := NodeBreaker.compute_total vl hg .busBreaker o r
    rw [e1] at e1'
    cases Out.ok.inj e1'
    obtain ⟨x, hx⟩ := htot n hn
    refine ⟨x, ?_, fun i => ?_⟩
    · have := levelAt_eq hl hv
      simp only [CompBuses.Level.id] at this
      simp only [breakerBus, this, e1, Out.bind_ok, hx]
    · constructor
      · rintro rfl
        exact ⟨g, o, r, hv, (e3 n i).1 (getBus_eq_some.1 hx)⟩
      · rintro ⟨g', o', r', hv', k⟩
        cases level_unique hl hv' hv rfl
        have := getBus_eq_some.2 ((e3 n i).2 k)
        rw [hx] at this
        exact Out.ok.inj this
  | bus vl h conn =>
    obtain ⟨g, o, t, u, b, hv, hb, rfl⟩ := ha
    cases conn with
    | false => exact ⟨none, rfl, fun i => ⟨fun k => (by cases k), fun k => (by cases k.1)⟩⟩
    | true =>
      refine ⟨some b.id, ?_, fun i => ?_⟩
      · have := levelAt_eq hl hv
        simp only [CompBuses.Level.id] at this
        simp only [breakerBus, this, if_true, confId_eq (hl.each _ hv).2.1 hb]
      · constructor
        · intro k
          exact ⟨rfl, g, o, t, u, b, hv, hb, rfl, Option.some.inj k⟩
        · rintro ⟨_, g', o', t', u', b', hv', hb', e, rfl⟩
          cases level_unique hl hv' hv rfl
          have := (hl.each _ hv).2.1.handles u' u b' b hb' hb e
          subst this
          have : b' = b := Option.some.inj (Option.some.inj (hb'.symm.trans hb))
          rw [this]

theorem chooseBus_placed {levels : List Level} (hl : LevelsOk levels) {a : End} (ha : Placed levels a) {level : Topo} (hn : level ≠ .nodeBreaker) :
    ∃ r, chooseBus levels a level = .ok r ∧ ∀ i, r = some i ↔ SitsOn levels level a i := by
  cases level with
  | nodeBreaker => exact absurd rfl hn
  | busBreaker => exact breakerBus_placed hl ha
  | busBranch => exact viewBus_placed hl ha

theorem firstView_ok {levels : List Level} (hl : LevelsOk levels) {vl : String} {h : Nat} (hp : Placed levels (.bus vl h true)) : ∀ as : List End, (∀ a ∈ as, a = .bus vl h true) →
    ∃ r, firstView levels as = .ok r ∧ ∀ i, r = some i ↔ as ≠ [] ∧ OnView levels (.bus vl h) i
  | [], _ => ⟨none, rfl, fun i => ⟨fun k => (by cases k), fun k => absurd rfl k.1⟩⟩
  | a :: as, h' => by
    obtain ⟨r, hr, hm⟩ := viewBus_placed hl hp
    rw [← h' a List.mem_cons_self] at hr
    cases r with
    | some i =>
      refine ⟨some i, by simp only [firstView, hr, Out.bind_ok], fun j => ?_⟩
      rw [hm]
      exact ⟨fun k => ⟨by simp, k.2⟩, fun k => ⟨rfl, k.2⟩⟩
    | none =>
      obtain ⟨r', hr', hm'⟩ := firstView_ok hl hp as fun b hb => h' b (List.mem_cons_of_mem _ hb)
      refine ⟨r', by simp only [firstView, hr, Out.bind_ok, hr'], fun j => ?_⟩
      have hno : ¬ OnView levels (.bus vl h) j := fun k => by
        have := (hm j).2 ⟨rfl, k⟩
        cases this
      rw [hm']
      exact ⟨fun k => absurd k.2 hno, fun k => absurd k.2 hno⟩

end Verif.BusRefs
