import Verif.BusBreaker.VLInv
import Verif.BusBreaker.BusProps

/-!
C24: the merged buses answered are those of the current topology.
C25: a terminal is listed exactly once, on its bus, in every variant.
-/

namespace Verif.BusBreaker

open Verif
open Verif.Graph hiding upd
open Verif.NodeBreaker (EqType Conn Branchy upd)

theorem init_loc (id : String) (S : Prop) : Loc { id := id } (fun _ => none) S (fun _ => False) := by
  refine ⟨fun t b h => (nomatch h), ?_, fun _ _ _ _ => Or.inl rfl, fun _ _ _ _ _ b h => (nomatch h)⟩
  intro v hv u b hu; cases hu

theorem init_inv (id : String) : VInv { id := id } := by
  refine ⟨⟨[], rfl⟩, ⟨fun u hu => absurd rfl hu, fun u v b b' hu => (nomatch hu)⟩, fun u b hu => (nomatch hu),
    fun _ _ h => (nomatch h), fun e ed h => (nomatch h), fun _ _ h => (nomatch h), fun _ _ _ _ h => (nomatch h), by show [0].Nodup; decide⟩

theorem reach_inv {id : String} {s : VL} (h : VReach id s) : VInv s ∧ ∃ loc, Loc s loc False (fun _ => False) := by
  induction h with
  | init => exact ⟨init_inv id, _, init_loc id False⟩
  | step _ _ ho ih =>
    obtain ⟨h1, loc, h2⟩ := ih
    exact good_run h1 h2 ho False.elim

/-! ### C25 -/

/-- Histories in which terminals are moved to another bus only while the network has one variant. -/
inductive SReach (id : String) : VL → Prop
  | init : SReach id { id := id }
  | step {s : VL} {a : Act} : SReach id s → s.dangling = false → Ok s a → Single s a → SReach id (run1 s a)

theorem SReach.reach {id : String} {s : VL} (h : SReach id s) : VReach id s := by
  induction h with
  | init => exact .init
  | step _ h1 h2 _ ih => exact .step ih h1 h2

theorem sreach_inv {id : String} {s : VL} (h : SReach id s) : VInv s ∧ ∃ loc, Loc s loc True (fun _ => False) := by
  induction h with
  | init => exact ⟨init_inv id, _, init_loc id True⟩
  | step _ _ ho hs ih =>
    obtain ⟨h1, loc, h2⟩ := ih
    exact good_run h1 h2 ho (fun _ => hs)

/-- C25: after any history, in every variant, a terminal is listed by at most one bus of the voltage level, at most once;
    the bus it refers to lists it; and the variants agree on the bus that lists it. -/
theorem terminal_listed_where_it_refers {id : String} {s : VL} (h : VReach id s) (t : Nat) :
    (∀ v ∈ s.variants, ∀ u b, BusAt s.graph u b → (s.terms v b.handle).count t ≤ 1 ∧
      (s.busOf v t = b.id → (s.terms v b.handle).count t = 1) ∧
      ∀ u' b', BusAt s.graph u' b' → t ∈ s.terms v b.handle → t ∈ s.terms v b'.handle → b' = b) ∧
    (∀ v ∈ s.variants, s.busOf v t ≠ "" → ∃ u b, BusAt s.graph u b ∧ b.id = s.busOf v t) ∧
    ∀ v ∈ s.variants, ∀ v' ∈ s.variants, ∀ u b, BusAt s.graph u b → (t ∈ s.terms v b.handle ↔ t ∈ s.terms v' b.handle) := by
  obtain ⟨hI, loc, hl⟩ := reach_inv h
  have hmem : ∀ v ∈ s.variants, ∀ u b, BusAt s.graph u b → (t ∈ s.terms v b.handle ↔ loc t = some b) := by
    intro v hv u b hu
    rw [← List.count_pos_iff, hl.count v hv u b hu t]
    by_cases hh : loc t = some b <;> simp [hh]
  refine ⟨?_, ?_, ?_⟩
  · intro v hv u b hu
    have hc := hl.count v hv u b hu t
    refine ⟨by rw [hc]; split <;> omega, ?_, ?_⟩
    · intro he
      rcases hl.bus v hv t (fun hh => hh) with hh | ⟨c, h1, h2⟩
      · exact absurd (he.symm.trans hh) (hI.busKey u b hu).2
      · obtain ⟨x, hx⟩ := hl.live t c h1
        obtain ⟨_, e⟩ := hI.id_inj hx hu (h2.symm.trans he)
        rw [hc, if_pos (by rw [h1, e])]
    · intro u' b' hu' k1 k2
      have e1 := (hmem v hv u b hu).mp k1
      have e2 := (hmem v hv u' b' hu').mp k2
      rw [e1] at e2
      exact (Option.some.inj e2).symm
  · intro v hv hne
    rcases hl.bus v hv t (fun hh => hh) with hh | ⟨c, h1, h2⟩
    · exact absurd hh hne
    · obtain ⟨x, hx⟩ := hl.live t c h1
      exact ⟨x, c, hx, h2.symm⟩
  · intro v hv v' hv' u b hu
    rw [hmem v hv u b hu, hmem v' hv' u b hu]

/-- C25: in every variant the terminal is listed exactly once by the bus it refers to and by no other bus.
    Missing for the full property: terminals moved with `setConnectableBus` while there are several variants
    (`moved_terminal_lost`). -/
theorem terminal_listed_once_partial {id : String} {s : VL} (h : SReach id s) (t : Nat) :
    ∀ v ∈ s.variants, ∀ u b, BusAt s.graph u b →
      (s.terms v b.handle).count t = if s.busOf v t = b.id then 1 else 0 := by
  obtain ⟨hI, loc, hl⟩ := sreach_inv h
  intro v hv u b hu
  rw [hl.count v hv u b hu t]
  by_cases he : s.busOf v t = b.id
  · rw [if_pos he]
    rcases hl.bus v hv t (fun hh => hh) with hh | ⟨c, h1, h2⟩
    · exact absurd (he.symm.trans hh) (hI.busKey u b hu).2
    · obtain ⟨x, hx⟩ := hl.live t c h1
      obtain ⟨_, e⟩ := hI.id_inj hx hu (h2.symm.trans he)
      rw [if_pos (by rw [h1, e])]
  · rw [if_neg he, if_neg (fun hh => he (hl.strong trivial v hv t (fun hh => hh) b hh))]

/-- C25: detaching a terminal that refers to a bus of the voltage level succeeds, and then no bus lists it. -/
theorem detach_unlists {id : String} {s : VL} (h : VReach id s) {w t : Nat} (hw : w ∈ s.variants) (ht : s.busOf w t ≠ "") :
    (s.detach w t).1 = .ok () ∧ ∀ v ∈ s.variants, ∀ u b, BusAt s.graph u b →
      t ∉ (s.detach w t).2.terms v b.handle ∧ (s.detach w t).2.busOf v t = "" ∧
      ∀ t', t' ≠ t → ((s.detach w t).2.terms v b.handle).count t' = (s.terms v b.handle).count t' := by
  obtain ⟨hI, loc, hl⟩ := reach_inv h
  rcases detach_good (t := t) hI hl hw with e | ⟨tm, bo, ca, b0, e1, e2, e3, e4, e5, e6, e7, e8⟩
  · exfalso
    rcases hl.bus w hw t (fun hh => hh) with hh | ⟨c, h1, h2⟩
    · exact ht hh
    · obtain ⟨x, hx⟩ := hl.live t c h1
      rcases getConfiguredBus_cases hI (s.busOf w t) with ⟨u, b, k1, k2, k3⟩ | ⟨k, k'⟩
      · have hmem : ∀ v ∈ s.variants, t ∈ s.terms v b.handle := by
          intro v hv
          have := hl.count v hv u b k1 t
          obtain ⟨_, e'⟩ := hI.id_inj hx k1 (h2.symm.trans k2.symm)
          rw [if_pos (by rw [h1, e'])] at this
          exact List.count_pos_iff.mp (by omega)
        obtain ⟨tm, bo, ca, f, _⟩ := detachLoop_eff b.handle t s.variants s hI.nd hmem
        unfold VL.detach at e
        rw [k3] at e
        simp only [f] at e
        cases congrArg Prod.fst e
      · exact k' x c hx h2.symm
  · rw [e1]
    refine ⟨rfl, ?_⟩
    intro v hv u b hu
    have hc := e6.count v hv u b hu
    refine ⟨?_, e8 v hv, ?_⟩
    · rw [← List.count_eq_zero, hc t]; simp [upd]
    · intro t' htt
      show _ = _
      rw [hc t', hl.count v hv u b hu t']
      simp [upd, htt]

/-- C25: moving a terminal to an existing bus succeeds, and then that bus lists it once and no other bus does, in every
    variant; the other terminals stay where they are. -/
theorem move_relists {id : String} {s : VL} (h : VReach id s) {w t : Nat} (hw : w ∈ s.variants) {bid : String}
    (hok : (s.setConnectableBus w t bid).1 = .ok ()) :
    (s.setConnectableBus w t bid).2.busOf w t = bid ∧ ∀ v ∈ s.variants, ∀ u b, BusAt s.graph u b →
      ((s.setConnectableBus w t bid).2.terms v b.handle).count t = (if b.id = bid then 1 else 0) ∧
      ∀ t', t' ≠ t → ((s.setConnectableBus w t bid).2.terms v b.handle).count t' = (s.terms v b.handle).count t' := by
  obtain ⟨hI, loc, hl⟩ := reach_inv h
  rcases setConnectableBus_good (t := t) (id := bid) hI hl hw False.elim with
    e | ⟨tm, bo, ca, b0, e1, e2, ⟨u0, hu0⟩, e3, e4, e5, e6, e7⟩
  · rw [e] at hok; cases hok
  · rw [e1]
    refine ⟨e6, ?_⟩
    intro v hv u b hu
    have hc := e4.count v hv u b hu
    refine ⟨?_, ?_⟩
    · show (tm v b.handle).count t = _
      have := hc t
      simp only [upd, if_true] at this
      rw [this]
      by_cases hb : b.id = bid
      · obtain ⟨_, e'⟩ := hI.id_inj hu0 hu (e2.trans hb.symm)
        rw [if_pos hb, if_pos (by rw [e'])]
      · rw [if_neg hb, if_neg (fun hh => hb (by rw [← Option.some.inj hh, e2]))]
    · intro t' htt
      rw [hc t', hl.count v hv u b hu t']
      simp [upd, htt]

/-! ### C24 -/

/-- The calls after which the caches are kept though the switches changed. -/
def Quiet (s : VL) : Act → Prop
  | .addSwitch _ _ _ _ _ => ∀ v ∈ s.variants, s.cache v = none
  | .removeSwitch _ => ∀ v ∈ s.variants, s.cache v = none
  | .removeAllSwitches => ∀ v ∈ s.variants, s.cache v = none
  | _ => True

/-- Histories in which switches are added or removed only while no variant has computed its merged buses. -/
inductive QReach (id : String) : VL → Prop
  | init : QReach id { id := id }
  | step {s : VL} {a : Act} : QReach id s → s.dangling = false → Ok s a → Quiet s a → QReach id (run1 s a)

theorem QReach.reach {id : String} {s : VL} (h : QReach id s) : VReach id s := by
  induction h with
  | init => exact .init
  | step _ h1 h2 _ ih => exact .step ih h1 h2

/-- The caches are up to date. -/
def Fresh (s : VL) : Prop := ∀ w ∈ s.variants, ∀ c, s.cache w = some c → Correct s.graph (s.opened w) (s.types w) c

theorem conn_same {g g' : BGr} {P : Option BSw → Prop} (hE : g'.edgeAt = g.edgeAt) (u v : Nat) : Conn g' P u v ↔ Conn g P u v := by
  constructor
  · intro h
    induction h with
    | refl => exact .refl
    | step _ h1 h2 h3 ih => exact .step ih (by rw [← hE]; exact h1) h2 h3
  · intro h
    induction h with
    | refl => exact .refl
    | step _ h1 h2 h3 ih => exact .step ih (by rw [hE]; exact h1) h2 h3

theorem correct_same {g g' : BGr} {opened : Nat → Bool} {types types' : Nat → List EqType} {c : Cache}
    (h : Correct g opened types c) (hV : ∀ u b, BusAt g' u b ↔ BusAt g u b) (hE : g'.edgeAt = g.edgeAt)
    (ht : ∀ u b, BusAt g u b → types' b.handle = types b.handle) : Correct g' opened types' c := by
  refine ⟨?_, ?_, h.listed, h.lists, h.ids⟩
  · intro u v b b' hu hv
    rw [h.same u v b b' ((hV u b).mp hu) ((hV v b').mp hv)]
    unfold Qualifies Linked
    constructor
    · rintro ⟨⟨x, d, t, k1, k2, k3, k4⟩, k5⟩
      exact ⟨⟨x, d, t, (conn_same hE u x).mpr k1, (hV x d).mpr k2, by rw [ht x d k2]; exact k3, k4⟩, (conn_same hE u v).mpr k5⟩
    · rintro ⟨⟨x, d, t, k1, k2, k3, k4⟩, k5⟩
      have k2' := (hV x d).mp k2
      exact ⟨⟨x, d, t, (conn_same hE u x).mp k1, k2', by rw [← ht x d k2']; exact k3, k4⟩, (conn_same hE u v).mp k5⟩
  · intro x id hx
    obtain ⟨u, b, k1, k2⟩ := h.known x id hx
    exact ⟨u, b, (hV u b).mpr k1, k2⟩

/-- No switch at a vertex: it is linked to itself only. -/
theorem alone {g : BGr} {P : Option BSw → Prop} {u : Nat} (h : ∀ e ed, g.edgeAt e = some ed → ed.v1 ≠ u ∧ ed.v2 ≠ u) {x : Nat}
    (hc : Conn g P u x) : x = u := by
  induction hc with
  | refl => rfl
  | step _ h1 _ h3 ih =>
    subst ih
    have := h _ _ h1
    rcases h3 with ⟨k, _⟩ | ⟨k, _⟩
    · exact absurd k this.1
    · exact absurd k this.2

/-- A bus without equipment and switches has no merged bus. -/
theorem alone_unmerged {g : BGr} {opened : Nat → Bool} {types : Nat → List EqType} {c : Cache} (h : Correct g opened types c)
    {u : Nat} {b : CBus} (hu : BusAt g u b) (he : ∀ e ed, g.edgeAt e = some ed → ed.v1 ≠ u ∧ ed.v2 ≠ u)
    (ht : types b.handle = []) : c.byBus.get? b.handle = none := by
  cases hh : c.byBus.get? b.handle with
  | none => rfl
  | some id =>
    obtain ⟨⟨x, d, t, k1, k2, k3, _⟩, _⟩ := (h.same u u b b hu hu).mp ⟨id, hh, hh⟩
    have := alone he k1
    subst this
    have := hu.unique k2
    subst this
    rw [ht] at k3; cases k3

theorem types_nil {s : VL} {w h : Nat} (ht : s.terms w h = []) : s.types w h = [] := by unfold VL.types; rw [ht]; rfl

theorem fresh_run {s : VL} {a : Act} {loc : Nat → Option CBus} (h : VInv s) (hl : Loc s loc False (fun _ => False)) (hf : Fresh s)
    (ho : Ok s a) (hq : Quiet s a) : Fresh (run1 s a) := by
  cases a with
  | addBus reg b =>
    cases reg with
    | false => exact hf
    | true =>
      obtain ⟨o1, o2, o3⟩ := ho rfl
      obtain ⟨v, g', e1, e2, e3, e4, e5⟩ := addBus_eff h b
      intro w hw c hc
      show Correct (s.addBus true b).2.graph ((s.addBus true b).2.opened w) ((s.addBus true b).2.types w) c
      have hc' : (s.addBus true b).2.cache w = some c := hc
      have hw' : w ∈ (s.addBus true b).2.variants := hw
      rw [e1] at hc' hw' ⊢
      have hC := hf w hw' c hc'
      have hsame : ∀ u d, BusAt s.graph u d → VL.types ({ s with
          graph := g'
          buses := AMap.emplace s.buses b.id v
          terms := fun w => upd (s.terms w) b.handle [] } : VL) w d.handle = s.types w d.handle := by
        intro u d hu
        unfold VL.types
        show ((upd (s.terms w) b.handle [] d.handle).filter _).map _ = _
        unfold upd
        rw [if_neg (o3 u d hu)]
      have hnew : VL.types ({ s with
          graph := g'
          buses := AMap.emplace s.buses b.id v
          terms := fun w => upd (s.terms w) b.handle [] } : VL) w b.handle = [] := types_nil (by simp [upd])
      revert hsame hnew
      generalize VL.types ({ s with
          graph := g'
          buses := AMap.emplace s.buses b.id v
          terms := fun w => upd (s.terms w) b.handle [] } : VL) w = types'
      intro hsame hnew
      have hat : ∀ u d, BusAt g' u d ↔ (u = v ∧ d = b) ∨ BusAt s.graph u d := by
        intro u d
        unfold BusAt
        rw [e4]
        by_cases hu : u = v
        · subst hu
          rw [if_pos rfl, e3]
          constructor
          · intro hh; exact Or.inl ⟨rfl, (Option.some.inj (Option.some.inj hh)).symm⟩
          · rintro (⟨_, rfl⟩ | hh)
            · rfl
            · cases hh
        · rw [if_neg hu]; simp [hu]
      have hends : ∀ e ed, s.graph.edgeAt e = some ed → ed.v1 ≠ v ∧ ed.v2 ≠ v := by
        intro e ed he
        obtain ⟨q1, q2⟩ := h.g.wf.ends e ed he
        exact ⟨fun hh => q1 (by rw [hh]; exact e3), fun hh => q2 (by rw [hh]; exact e3)⟩
      have hnone : c.byBus.get? b.handle = none := by
        cases hh : c.byBus.get? b.handle with
        | none => rfl
        | some id =>
          obtain ⟨x, d, k1, k2⟩ := hC.known _ id hh
          exact absurd k2 (o3 x d k1)
      have hnotq : ¬ Qualifies g' (s.opened w) types' v := by
        rintro ⟨x, d, t, k1, k2, k3, _⟩
        have := alone hends ((conn_same e5 v x).mp k1)
        subst this
        rcases (hat x d).mp k2 with ⟨_, rfl⟩ | k2
        · rw [hnew] at k3; cases k3
        · unfold BusAt at k2; rw [e3] at k2; cases k2
      have hlive : ∀ u d, BusAt s.graph u d → s.graph.vertexAt u ≠ none := by
        intro u d hu hh; unfold BusAt at hu; rw [hh] at hu; cases hu
      refine ⟨?_, ?_, hC.listed, hC.lists, hC.ids⟩
      · intro u x d d' hu hx
        rcases (hat u d).mp hu with ⟨rfl, rfl⟩ | hu'
        · constructor
          · rintro ⟨id, k, _⟩; rw [hnone] at k; cases k
          · rintro ⟨k, _⟩; exact absurd k hnotq
        · rcases (hat x d').mp hx with ⟨rfl, rfl⟩ | hx'
          · constructor
            · rintro ⟨id, _, k⟩; rw [hnone] at k; cases k
            · rintro ⟨_, k⟩
              have := alone hends ((conn_same e5 u x).mp k).symm
              subst this
              exact absurd e3 (hlive _ _ hu')
          · rw [hC.same u x d d' hu' hx']
            unfold Qualifies Linked
            constructor
            · rintro ⟨⟨y, z, t, k1, k2, k3, k4⟩, k5⟩
              exact ⟨⟨y, z, t, (conn_same e5 u y).mpr k1, (hat y z).mpr (Or.inr k2), by rw [hsame y z k2]; exact k3, k4⟩,
                (conn_same e5 u x).mpr k5⟩
            · rintro ⟨⟨y, z, t, k1, k2, k3, k4⟩, k5⟩
              have k1' := (conn_same e5 u y).mp k1
              rcases (hat y z).mp k2 with ⟨rfl, _⟩ | k2'
              · have := alone hends k1'.symm
                subst this
                exact absurd e3 (hlive _ _ hu')
              · exact ⟨⟨y, z, t, k1', k2', by rw [← hsame y z k2']; exact k3, k4⟩, (conn_same e5 u x).mp k5⟩
      · intro x id hx
        obtain ⟨y, d, k1, k2⟩ := hC.known x id hx
        exact ⟨y, d, (hat y d).mpr (Or.inr k1), k2⟩
  | addSwitch reg sw o id1 id2 =>
    intro w hw c hc
    have hc' : (s.addSwitch reg sw o id1 id2).2.cache w = some c := hc
    have hw' : w ∈ (s.addSwitch reg sw o id1 id2).2.variants := hw
    rcases addSwitch_eff h reg sw o id1 id2 with e | ⟨v1, v2, e, g', e1, _⟩
    · rw [e] at hc' hw'
      have := hq w hw'
      rw [this] at hc'; cases hc'
    · rw [e1] at hc' hw'
      have := hq w hw'
      have hc'' : s.cache w = some c := hc'
      rw [this] at hc''; cases hc''
  | removeSwitch id =>
    intro w hw c hc
    have hc' : (s.removeSwitch id).2.cache w = some c := hc
    have hw' : w ∈ (s.removeSwitch id).2.variants := hw
    rcases removeSwitch_eff h id with e | ⟨e, g', e1, _⟩
    · rw [e] at hc' hw'
      have := hq w hw'
      rw [this] at hc'; cases hc'
    · rw [e1] at hc' hw'
      have := hq w hw'
      have hc'' : s.cache w = some c := hc'
      rw [this] at hc''; cases hc''
  | removeAllSwitches =>
    intro w hw c hc
    have hc' : s.cache w = some c := hc
    rw [hq w hw] at hc'; cases hc'
  | removeBus w0 id =>
    have hw0 : w0 ∈ s.variants := ho
    intro w hw c hc
    show Correct (s.removeBus w0 id).2.graph ((s.removeBus w0 id).2.opened w) ((s.removeBus w0 id).2.types w) c
    have hc' : (s.removeBus w0 id).2.cache w = some c := hc
    have hw' : w ∈ (s.removeBus w0 id).2.variants := hw
    rcases removeBus_eff h w0 id with e | ⟨u, b, g', e1, e2, e3, e4, e5, e6, e7, e8⟩
    · rw [e] at hc' hw' ⊢; exact hf w hw' c hc'
    · rw [e1] at hc' hw' ⊢
      have hC := hf w hw' c hc'
      show Correct g' (s.opened w) (s.types w) c
      have htm : s.terms w b.handle = [] := by
        rw [List.eq_nil_iff_forall_not_mem]
        intro t ht
        have h1 := hl.count w hw' u b e2 t
        have h2 := hl.count w0 hw0 u b e2 t
        rw [e4] at h2
        rw [← h2] at h1
        have := List.count_pos_iff.mpr ht
        rw [h1] at this
        cases this
      have hnone := alone_unmerged hC e2 e5 (types_nil htm)
      have hat : ∀ x d, BusAt g' x d ↔ x ≠ u ∧ BusAt s.graph x d := by
        intro x d
        unfold BusAt
        rw [e7]
        by_cases hx : x = u
        · simp [hx]
        · simp [hx]
      refine ⟨?_, ?_, hC.listed, hC.lists, hC.ids⟩
      · intro x y d d' hx hy
        obtain ⟨hxu, hx⟩ := (hat x d).mp hx
        obtain ⟨_, hy⟩ := (hat y d').mp hy
        rw [hC.same x y d d' hx hy]
        unfold Qualifies Linked
        constructor
        · rintro ⟨⟨z, e, t, k1, k2, k3, k4⟩, k5⟩
          refine ⟨⟨z, e, t, (conn_same e8 x z).mpr k1, (hat z e).mpr ⟨?_, k2⟩, k3, k4⟩, (conn_same e8 x y).mpr k5⟩
          rintro rfl
          exact hxu (alone e5 k1.symm)
        · rintro ⟨⟨z, e, t, k1, k2, k3, k4⟩, k5⟩
          exact ⟨⟨z, e, t, (conn_same e8 x z).mp k1, ((hat z e).mp k2).2, k3, k4⟩, (conn_same e8 x y).mp k5⟩
      · intro x i hx
        obtain ⟨y, d, k1, k2⟩ := hC.known x i hx
        refine ⟨y, d, (hat y d).mpr ⟨?_, k1⟩, k2⟩
        rintro rfl
        have := k1.unique e2
        subst this
        rw [← k2, hnone] at hx; cases hx
  | removeAllBuses w0 =>
    have hw0 : w0 ∈ s.variants := ho
    intro w hw c hc
    show Correct (s.removeAllBuses w0).2.graph ((s.removeAllBuses w0).2.opened w) ((s.removeAllBuses w0).2.types w) c
    have hc' : (s.removeAllBuses w0).2.cache w = some c := hc
    have hw' : w ∈ (s.removeAllBuses w0).2.variants := hw
    rcases removeAllBuses_eff h w0 with ⟨d, _, e⟩ | ⟨g', e1, e2, e3, e4, e5, e6⟩
    · rw [e] at hc' hw' ⊢; exact hf w hw' c hc'
    · rw [e1] at hc' hw' ⊢
      have hC := hf w hw' c hc'
      show Correct g' (s.opened w) (s.types w) c
      have hnone : ∀ x, c.byBus.get? x = none := by
        intro x
        cases hh : c.byBus.get? x with
        | none => rfl
        | some id =>
          obtain ⟨u, b, k1, k2⟩ := hC.known x id hh
          have htm : s.terms w b.handle = [] := by
            rw [List.eq_nil_iff_forall_not_mem]
            intro t ht
            have h1 := hl.count w hw' u b k1 t
            have h2 := hl.count w0 hw0 u b k1 t
            rw [e6 u b k1] at h2
            rw [← h2] at h1
            have := List.count_pos_iff.mpr ht
            rw [h1] at this
            cases this
          have := alone_unmerged hC k1 (by intro e ed he; rw [e5] at he; cases he) (types_nil htm)
          rw [k2, hh] at this; cases this
      refine ⟨?_, ?_, hC.listed, hC.lists, hC.ids⟩
      · intro x y d d' hx; unfold BusAt at hx; rw [e3] at hx; cases hx
      · intro x id hx; rw [hnone] at hx; cases hx
  | setOpen w0 sw b =>
    intro w hw c hc
    show Correct (s.setOpen w0 sw b).graph ((s.setOpen w0 sw b).opened w) ((s.setOpen w0 sw b).types w) c
    have hc' : (s.setOpen w0 sw b).cache w = some c := hc
    have hw' : w ∈ (s.setOpen w0 sw b).variants := hw
    unfold VL.setOpen at hc' hw' ⊢
    split at hc' <;> rename_i hcond
    · rw [if_pos hcond] at hw' ⊢
      by_cases hww : w = w0
      · subst hww
        have hc'' : upd s.cache w none w = some c := hc'
        simp [upd] at hc''
      · have hc'' : upd s.cache w0 none w = some c := hc'
        simp only [upd, if_neg hww] at hc''
        have hC := hf w hw' c hc''
        show Correct s.graph (upd s.opened w0 (upd (s.opened w0) sw b) w) (s.types w) c
        simp only [upd, if_neg hww]
        exact hC
    · rw [if_neg hcond] at hw' ⊢
      exact hf w hw' c hc'
  | attachNew w0 t k cn id =>
    intro w hw c hc
    show Correct (s.attachNew w0 t k cn id).2.graph ((s.attachNew w0 t k cn id).2.opened w) ((s.attachNew w0 t k cn id).2.types w) c
    have hc' : (s.attachNew w0 t k cn id).2.cache w = some c := hc
    have hw' : w ∈ (s.attachNew w0 t k cn id).2.variants := hw
    rcases attachNew_good h hl ho with e | ⟨tm, ca, b, e1, _, e2, e3, e4⟩
    · rw [e] at hc' hw' ⊢; exact hf w hw' c hc'
    · rw [e1] at hc' hw'
      have hc'' : ca w = some c := hc'
      rw [e4 w hw'] at hc''; cases hc''
  | detach w0 t =>
    intro w hw c hc
    show Correct (s.detach w0 t).2.graph ((s.detach w0 t).2.opened w) ((s.detach w0 t).2.types w) c
    have hc' : (s.detach w0 t).2.cache w = some c := hc
    have hw' : w ∈ (s.detach w0 t).2.variants := hw
    rcases detach_good (t := t) h hl ho with e | ⟨tm, bo, ca, b0, e1, e2, e3, e4, e5, e6, e7, e8⟩
    · rw [e] at hc' hw' ⊢; exact hf w hw' c hc'
    · rw [e1] at hc' hw'
      have hc'' : ca w = some c := hc'
      rw [e7 w hw'] at hc''; cases hc''
  | setConnectableBus w0 t id =>
    intro w hw c hc
    show Correct (s.setConnectableBus w0 t id).2.graph ((s.setConnectableBus w0 t id).2.opened w) ((s.setConnectableBus w0 t id).2.types w) c
    have hc' : (s.setConnectableBus w0 t id).2.cache w = some c := hc
    have hw' : w ∈ (s.setConnectableBus w0 t id).2.variants := hw
    rcases setConnectableBus_good (t := t) (id := id) h hl ho False.elim with e | ⟨tm, bo, ca, b, e1, _, _, e2, e3, e5, _⟩
    · rw [e] at hc' hw' ⊢; exact hf w hw' c hc'
    · rw [e1] at hc' hw'
      have hc'' : ca w = some c := hc'
      rw [e5 w hw'] at hc''; cases hc''
  | connect w0 t =>
    intro w hw c hc
    show Correct (s.connect w0 t).2.graph ((s.connect w0 t).2.opened w) ((s.connect w0 t).2.types w) c
    have hc' : (s.connect w0 t).2.cache w = some c := hc
    have hw' : w ∈ (s.connect w0 t).2.variants := hw
    unfold VL.connect at hc' hw' ⊢
    split at hc' <;> rename_i hcond
    · rw [if_pos hcond] at hw' ⊢
      exact hf w hw' c hc'
    · rw [if_neg hcond] at hw' ⊢
      by_cases hww : w = w0
      · subst hww
        have hc'' : upd s.cache w none w = some c := hc'
        simp [upd] at hc''
      · have hc'' : upd s.cache w0 none w = some c := hc'
        simp only [upd, if_neg hww] at hc''
        refine correct_same (hf w hw' c hc'') (fun _ _ => Iff.rfl) rfl ?_
        intro u b hu
        unfold VL.types
        show ((s.terms w b.handle).filter (fun x => upd s.connected w0 (upd (s.connected w0) t true) w x)).map s.kind = _
        simp only [upd, if_neg hww]
  | disconnect w0 t =>
    intro w hw c hc
    show Correct (s.disconnect w0 t).2.graph ((s.disconnect w0 t).2.opened w) ((s.disconnect w0 t).2.types w) c
    have hc' : (s.disconnect w0 t).2.cache w = some c := hc
    have hw' : w ∈ (s.disconnect w0 t).2.variants := hw
    unfold VL.disconnect at hc' hw' ⊢
    split at hc' <;> rename_i hcond
    · rw [if_pos hcond] at hw' ⊢
      by_cases hww : w = w0
      · subst hww
        have hc'' : upd s.cache w none w = some c := hc'
        simp [upd] at hc''
      · have hc'' : upd s.cache w0 none w = some c := hc'
        simp only [upd, if_neg hww] at hc''
        refine correct_same (hf w hw' c hc'') (fun _ _ => Iff.rfl) rfl ?_
        intro u b hu
        unfold VL.types
        show ((s.terms w b.handle).filter (fun x => upd s.connected w0 (upd (s.connected w0) t false) w x)).map s.kind = _
        simp only [upd, if_neg hww]
    · rw [if_neg hcond] at hw' ⊢
      exact hf w hw' c hc'
  | getMergedBus w0 id =>
    intro w hw c hc
    show Correct (s.getMergedBus w0 id).2.graph ((s.getMergedBus w0 id).2.opened w) ((s.getMergedBus w0 id).2.types w) c
    have hc' : (s.getMergedBus w0 id).2.cache w = some c := hc
    have hw' : w ∈ (s.getMergedBus w0 id).2.variants := hw
    rcases getMergedBus_snd s w0 id with e | e
    · rw [e] at hc' hw' ⊢; exact hf w hw' c hc'
    · obtain ⟨g', ca, e1, e2, e3, e4, _, _, e5, e6⟩ := update_eff h w0
      rw [e, e1] at hc' hw' ⊢
      have hc'' : ca w = some c := hc'
      have hC : Correct s.graph (s.opened w) (s.types w) c := by
        by_cases hww : w = w0
        · subst hww
          rcases e6 with ⟨_, e6⟩ | ⟨_, e6⟩ | ⟨c', _, e7, e8⟩
          · rw [e6] at hc''; exact hf w hw' c hc''
          · rw [e6] at hc''; exact hf w hw' c hc''
          · rw [e7] at hc''
            cases hc''
            rcases e8 with e8 | ⟨_, e8⟩
            · exact hf w hw' c e8
            · exact merged_buses_correct h.g h.furn (h.noBusbar hw') e8
        · rw [e5 w hww] at hc''; exact hf w hw' c hc''
      exact correct_same hC (busAt_of e3) e4 (fun _ _ _ => rfl)
  | cloneVariant src dst =>
    intro w hw c hc
    show Correct s.graph ((s.cloneVariant src dst).opened w) ((s.cloneVariant src dst).types w) c
    have hc' : upd s.cache dst none w = some c := hc
    have hw' : w ∈ (if dst ∈ s.variants then s.variants else s.variants ++ [dst]) := hw
    by_cases hwd : w = dst
    · simp [upd, hwd] at hc'
    · simp only [upd, if_neg hwd] at hc'
      have hws : w ∈ s.variants := by
        split at hw'
        · exact hw'
        · simpa [hwd] using hw'
      have hC := hf w hws c hc'
      have e1 : (s.cloneVariant src dst).opened w = s.opened w := by simp [VL.cloneVariant, upd, hwd]
      have e2 : (s.cloneVariant src dst).types w = s.types w := by
        funext x
        simp [VL.types, VL.cloneVariant, upd, hwd]
      rw [e1, e2]; exact hC
  | removeVariant w0 =>
    intro w hw c hc
    show Correct s.graph (s.opened w) ((s.removeVariant w0).types w) c
    have hc' : upd s.cache w0 none w = some c := hc
    obtain ⟨hne, hws⟩ := (h.nd.mem_erase_iff).mp hw
    simp only [upd, if_neg hne] at hc'
    have e2 : (s.removeVariant w0).types w = s.types w := by
      funext x
      simp [VL.types, VL.removeVariant, upd, hne]
    rw [e2]; exact hf w hws c hc'

theorem fresh_reach {id : String} {s : VL} (h : QReach id s) : Fresh s := by
  induction h with
  | init => intro w _ c hc; cases hc
  | step hs h1 h2 h3 ih =>
    obtain ⟨k1, loc, k2⟩ := reach_inv hs.reach
    exact fresh_run k1 k2 ih h2 h3

/-- C24: in histories where switches are added or removed only while no variant has computed its merged buses, two buses
    asked in a row are answered the same merged bus exactly when, in the current topology of the working variant, they are
    linked by closed switches and their class qualifies.
    Missing for the full property: adding or removing switches afterwards (`stale_after_addSwitch`,
    `stale_after_removeSwitch`). -/
theorem merged_bus_current_partial {id : String} {s : VL} (h : QReach id s) {w : Nat} (hw : w ∈ s.variants) {u v : Nat}
    {b b' : CBus} (hu : BusAt s.graph u b) (hv : BusAt s.graph v b') {r r' : Option String}
    (h1 : (s.getMergedBus w b.id).1 = .ok r) (h2 : (((s.getMergedBus w b.id).2).getMergedBus w b'.id).1 = .ok r') :
    (r.isSome ↔ Qualifies s.graph (s.opened w) (s.types w) u) ∧
    ((∃ m, r = some m ∧ r' = some m) ↔
      Qualifies s.graph (s.opened w) (s.types w) u ∧ Linked s.graph (s.opened w) u v) := by
  obtain ⟨hI, loc, hl⟩ := reach_inv h.reach
  have hgc : ∀ {x : VL} {y : Nat} {d : CBus}, VInv x → BusAt x.graph y d → x.getConfiguredBus d.id = .ok d := by
    intro x y d hx hy
    rcases getConfiguredBus_cases hx d.id with ⟨z, d', k1, k2, k3⟩ | ⟨_, k⟩
    · obtain ⟨_, e⟩ := hx.id_inj k1 hy k2
      rw [k3, e]
    · exact absurd rfl (k y d hy)
  obtain ⟨g', ca, e1, e2, e3, e4, e5, e5', _, e6⟩ := update_eff hI w
  have hst : (s.getMergedBus w b.id).2 = (s.update w).2 := by
    unfold VL.getMergedBus
    rw [hgc hI hu]
    simp only []
    rcases s.update w with ⟨o, s'⟩
    cases o <;> rfl
  unfold VL.getMergedBus at h1
  rw [hgc hI hu] at h1
  simp only [] at h1
  rw [hst] at h2
  obtain ⟨hI', _⟩ := good_run (a := .getMergedBus w b.id) hI hl hw False.elim
  have hI'' : VInv (s.update w).2 := by rw [← hst]; exact hI'
  rcases e6 with ⟨e6, _⟩ | ⟨e6, _⟩ | ⟨c, f1, f2, f3⟩
  · revert h1 e6; rcases s.update w with ⟨o, s'⟩; intro h1 e6; simp only [] at e6; subst e6; cases h1
  · revert h1 e6; rcases s.update w with ⟨o, s'⟩; intro h1 e6; simp only [] at e6; subst e6; cases h1
  · have hC : Correct s.graph (s.opened w) (s.types w) c := by
      rcases f3 with f3 | ⟨_, f3⟩
      · exact fresh_reach h w hw c f3
      · exact merged_buses_correct hI.g hI.furn (hI.noBusbar hw) f3
    have hr : r = c.byBus.get? b.handle := by
      revert h1 f1; rcases s.update w with ⟨o, s'⟩; intro h1 f1; simp only [] at f1; subst f1
      simp only [] at h1; cases h1; rfl
    have hr' : r' = c.byBus.get? b'.handle := by
      unfold VL.getMergedBus at h2
      rw [hgc hI'' (by rw [e1]; exact (busAt_of e3 v b').mpr hv)] at h2
      simp only [] at h2
      have hup : (s.update w).2.update w = (.ok c, (s.update w).2) := by
        have hca : (s.update w).2.cache w = some c := by rw [e1]; exact f2
        rw [VL.update.eq_1 (s.update w).2, hca]
      rw [hup] at h2
      simp only [] at h2
      cases h2; rfl
    have hs := hC.same u v b b' hu hv
    have hs' := hC.same u u b b hu hu
    refine ⟨?_, ?_⟩
    · rw [hr]
      constructor
      · intro hh
        obtain ⟨m, hm⟩ := Option.isSome_iff_exists.mp hh
        exact (hs'.mp ⟨m, hm, hm⟩).1
      · intro hh
        obtain ⟨m, hm, _⟩ := hs'.mpr ⟨hh, .refl⟩
        rw [hm]; rfl
    · rw [← hs, hr, hr']; exact Iff.rfl

/-! ### Samples and findings -/

/-- A decidable form of the preconditions. -/
def okB (s : VL) : Act → Bool
  | .addBus reg b => !reg || (decide (b.id ≠ "") && decide (s.buses.get? b.id = none) &&
      (s.graph.vertices.filterMap Option.join).all (fun b' => decide (b'.handle ≠ b.handle)))
  | .addSwitch reg sw _ _ _ => !reg || decide (s.switches.get? sw.id = none)
  | .attachNew w t k _ _ => decide (w ∈ s.variants) && decide (k ≠ .busbarSection) &&
      s.variants.all (fun v => (s.graph.vertices.filterMap Option.join).all (fun b => decide (t ∉ s.terms v b.handle)))
  | .removeBus w _ | .removeAllBuses w | .setOpen w _ _ | .detach w _ | .setConnectableBus w _ _ | .connect w _
  | .disconnect w _ | .getMergedBus w _ | .cloneVariant w _ => decide (w ∈ s.variants)
  | .removeVariant w => decide (w ∈ s.variants) && decide (w ≠ 0)
  | .removeSwitch _ | .removeAllSwitches => true

theorem okB_ok {s : VL} {a : Act} (h : okB s a = true) : Ok s a := by
  cases a with
  | addBus reg b =>
    intro hr
    subst hr
    simp only [okB, Bool.not_true, Bool.false_or, Bool.and_eq_true, decide_eq_true_eq, List.all_eq_true] at h
    exact ⟨h.1.1, h.1.2, fun u b' hu => h.2 b' (mem_objects hu)⟩
  | addSwitch reg sw _ _ _ =>
    intro hr
    subst hr
    simpa [okB] using h
  | attachNew w t k _ _ =>
    simp only [okB, Bool.and_eq_true, decide_eq_true_eq, List.all_eq_true] at h
    exact ⟨h.1.1, h.1.2, fun v hv u b hu => h.2 v hv b (mem_objects hu)⟩
  | removeVariant w => simpa [okB, Ok] using h
  | removeSwitch _ => trivial
  | removeAllSwitches => trivial
  | _ => simpa [okB, Ok] using h

/-- Run a history, checking the preconditions. -/
def history (s : VL) : List Act → Option VL
  | [] => some s
  | a :: as => if okB s a && !s.dangling then history (run1 s a) as else none

theorem history_reach {id : String} {s' : VL} : ∀ {as : List Act} {s : VL}, VReach id s → history s as = some s' → VReach id s'
  | [], s, h, e => by cases e; exact h
  | a :: as, s, h, e => by
    unfold history at e
    split at e
    · rename_i hc
      simp only [Bool.and_eq_true, Bool.not_eq_true'] at hc
      exact history_reach (.step h hc.2 (okB_ok hc.1)) e
    · cases e

/-- Buses A, B and C; switch S1 A-B closed, S2 B-C open; a line on A (terminal 1), a load on B (2), a dangling line on C (3). -/
def sampleActs : List Act :=
  [.addBus true ⟨10, "A"⟩, .addBus true ⟨11, "B"⟩, .addBus true ⟨12, "C"⟩, .addSwitch true ⟨20, "S1"⟩ false "A" "B",
   .addSwitch true ⟨21, "S2"⟩ true "B" "C", .attachNew 0 1 .line true "A", .attachNew 0 2 .load true "B",
   .attachNew 0 3 .danglingLine true "C", .getMergedBus 0 "A", .cloneVariant 0 1]

def runs (s : VL) : List Act → VL
  | [] => s
  | a :: as => runs (run1 s a) as

/-- Every call of the history meets its preconditions, moves terminals with one variant only and changes switches with
    empty caches only. -/
def quietB (s : VL) : List Act → Bool
  | [] => true
  | a :: as => okB s a && !s.dangling && (match a with
      | .addSwitch _ _ _ _ _ | .removeSwitch _ | .removeAllSwitches => s.variants.all (fun v => (s.cache v).isNone)
      | .setConnectableBus w _ _ => decide (s.variants = [w])
      | _ => true) && quietB (run1 s a) as

theorem quietB_reach {id : String} : ∀ {as : List Act} {s : VL}, QReach id s → SReach id s → quietB s as = true →
    QReach id (runs s as) ∧ SReach id (runs s as)
  | [], s, h, h', _ => ⟨h, h'⟩
  | a :: as, s, h, h', e => by
    unfold quietB at e
    simp only [Bool.and_eq_true, Bool.not_eq_true'] at e
    obtain ⟨⟨⟨e1, e2⟩, e3⟩, e4⟩ := e
    show QReach id (runs (run1 s a) as) ∧ SReach id (runs (run1 s a) as)
    refine quietB_reach (.step h e2 (okB_ok e1) ?_) (.step h' e2 (okB_ok e1) ?_) e4
    · cases a <;> simp only [Quiet] <;> simp only [List.all_eq_true, Option.isNone_iff_eq_none] at e3 <;> first | exact e3 | trivial
    · cases a <;> simp only [Single] <;> simp only [decide_eq_true_eq] at e3 <;> first | exact e3 | trivial

def sampleVL : VL := runs { id := "VL" } sampleActs

theorem sampleVL_reach : QReach "VL" sampleVL ∧ SReach "VL" sampleVL := quietB_reach .init .init (by decide)

example : sampleVL.variants = [0, 1] ∧ sampleVL.busOf 1 2 = "B" ∧ sampleVL.terms 1 11 = [2] ∧ sampleVL.terms 1 10 = [1] := by decide

example : (sampleVL.terms 1 11).count 2 = 1 :=
  terminal_listed_once_partial sampleVL_reach.2 2 1 (by decide) 1 ⟨11, "B"⟩ (by unfold BusAt; decide)

example : (sampleVL.terms 0 11).count 2 ≤ 1 :=
  ((terminal_listed_where_it_refers sampleVL_reach.2.reach 2).1 0 (by decide) 1 ⟨11, "B"⟩ (by unfold BusAt; decide)).1

example : (sampleVL.detach 0 2).1 = .ok () := (detach_unlists sampleVL_reach.2.reach (by decide) (by decide)).1

example : (sampleVL.setConnectableBus 1 2 "C").2.busOf 1 2 = "C" :=
  (move_relists sampleVL_reach.2.reach (by decide) (by decide)).1

/-- S2 is closed and the dangling line disconnected in variant 1. -/
def sampleVL2 : VL := runs sampleVL [.setOpen 1 21 false, .disconnect 1 3, .getMergedBus 1 "C"]

theorem sampleVL2_reach : QReach "VL" sampleVL2 := (quietB_reach sampleVL_reach.1 sampleVL_reach.2 (by decide)).1

example : Qualifies sampleVL2.graph (sampleVL2.opened 1) (sampleVL2.types 1) 0 ∧
    Linked sampleVL2.graph (sampleVL2.opened 1) 0 2 :=
  (merged_bus_current_partial sampleVL2_reach (w := 1) (by decide) (u := 0) (v := 2) (b := ⟨10, "A"⟩) (b' := ⟨12, "C"⟩)
    (r := some "VL_0") (r' := some "VL_0")
    (by unfold BusAt; decide) (by unfold BusAt; decide) (by decide) (by decide)).2.mp ⟨"VL_0", rfl, rfl⟩

/-- Finding (C24): `addSwitch` keeps the cached merged buses (BusBreakerVoltageLevel.cpp l.44-53). -/
def staleAdd : VL := runs { id := "VL" } [.addBus true ⟨10, "A"⟩, .addBus true ⟨11, "B"⟩, .attachNew 0 1 .line true "A",
  .attachNew 0 2 .line true "B", .getMergedBus 0 "A", .addSwitch true ⟨20, "S1"⟩ false "A" "B"]

theorem stale_after_addSwitch : VReach "VL" staleAdd ∧ Linked staleAdd.graph (staleAdd.opened 0) 0 1 ∧
    Qualifies staleAdd.graph (staleAdd.opened 0) (staleAdd.types 0) 0 ∧
    (staleAdd.getMergedBus 0 "A").1 = .ok (some "VL_0") ∧ (staleAdd.getMergedBus 0 "B").1 = .ok (some "VL_1") := by
  have hl : Linked staleAdd.graph (staleAdd.opened 0) 0 1 :=
    Conn.step (P := Closed (staleAdd.opened 0)) (e := 0) (ed := ⟨0, 1, some ⟨20, "S1"⟩⟩) .refl (by decide)
      (by show staleAdd.opened 0 20 = false; decide) (Or.inl ⟨rfl, rfl⟩)
  refine ⟨history_reach (s' := staleAdd) (as := [.addBus true ⟨10, "A"⟩, .addBus true ⟨11, "B"⟩, .attachNew 0 1 .line true "A",
    .attachNew 0 2 .line true "B", .getMergedBus 0 "A", .addSwitch true ⟨20, "S1"⟩ false "A" "B"]) .init rfl, hl,
    ⟨0, ⟨10, "A"⟩, .line, .refl, by unfold BusAt; decide, by decide, by simp [Branchy]⟩, by decide, by decide⟩

/-- Finding (C24): `removeSwitch` keeps the cached merged buses (BusBreakerVoltageLevel.cpp l.348-357). -/
def staleRemove : VL := runs { id := "VL" } [.addBus true ⟨10, "A"⟩, .addBus true ⟨11, "B"⟩, .attachNew 0 1 .line true "A",
  .addSwitch true ⟨20, "S1"⟩ false "A" "B", .getMergedBus 0 "A", .removeSwitch "S1"]

theorem stale_after_removeSwitch : VReach "VL" staleRemove ∧ ¬ Linked staleRemove.graph (staleRemove.opened 0) 0 1 ∧
    (staleRemove.getMergedBus 0 "A").1 = .ok (some "VL_0") ∧ (staleRemove.getMergedBus 0 "B").1 = .ok (some "VL_0") := by
  refine ⟨history_reach (s' := staleRemove) (as := [.addBus true ⟨10, "A"⟩, .addBus true ⟨11, "B"⟩, .attachNew 0 1 .line true "A",
    .addSwitch true ⟨20, "S1"⟩ false "A" "B", .getMergedBus 0 "A", .removeSwitch "S1"]) .init rfl, ?_, by decide, by decide⟩
  intro h
  have hno : ∀ e, staleRemove.graph.edgeAt e = none := by
    intro e
    have : staleRemove.graph.edges = [] := by decide
    unfold G.edgeAt; rw [this]; rfl
  have := alone (u := 0) (fun e ed he => by rw [hno] at he; cases he) h
  cases this

/-- Finding (C25): moving a terminal while there are two variants leaves it, in the other variant, listed by the new bus but
    referring to no bus (BusTerminalViews.cpp l.45-56). -/
def movedVL : VL := runs { id := "VL" } [.addBus true ⟨10, "A"⟩, .addBus true ⟨11, "B"⟩, .attachNew 0 1 .line true "A",
  .cloneVariant 0 1, .setConnectableBus 0 1 "B"]

theorem moved_terminal_lost : VReach "VL" movedVL ∧ 1 ∈ movedVL.variants ∧ movedVL.busOf 1 1 = "" ∧
    1 ∈ movedVL.terms 1 11 ∧ movedVL.busOf 0 1 = "B" ∧ (movedVL.detach 1 1).1 = .thrown :=
  ⟨history_reach (s' := movedVL) (as := [.addBus true ⟨10, "A"⟩, .addBus true ⟨11, "B"⟩, .attachNew 0 1 .line true "A",
    .cloneVariant 0 1, .setConnectableBus 0 1 "B"]) .init rfl, by decide⟩

/-- Finding: `removeAllBuses` destroys the buses before the graph refuses to remove its vertices, which it does when the
    edge list keeps a freed slot (BusBreakerVoltageLevel.cpp l.296-312, UndirectedGraph.hxx). -/
def danglingVL : VL := runs { id := "VL" } [.addBus true ⟨10, "A"⟩, .addBus true ⟨11, "B"⟩,
  .addSwitch true ⟨20, "S1"⟩ false "A" "B", .addSwitch true ⟨21, "S2"⟩ false "A" "B", .removeSwitch "S1", .removeSwitch "S2"]

theorem removeAllBuses_dangles : VReach "VL" danglingVL ∧ danglingVL.switches = [] ∧ (danglingVL.removeAllBuses 0).1 = .thrown ∧
    (danglingVL.removeAllBuses 0).2.dangling = true ∧ (danglingVL.removeAllBuses 0).2.graph.vertexAt 0 ≠ none :=
  ⟨history_reach (s' := danglingVL) (as := [.addBus true ⟨10, "A"⟩, .addBus true ⟨11, "B"⟩,
    .addSwitch true ⟨20, "S1"⟩ false "A" "B", .addSwitch true ⟨21, "S2"⟩ false "A" "B", .removeSwitch "S1",
    .removeSwitch "S2"]) .init rfl, by decide⟩

end Verif.BusBreaker
