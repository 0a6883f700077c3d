import Verif.RegTerm.Spec

/-! Every reachable world holds what the calls have asked for. -/

namespace Verif.RegTerm

open Verif

/-- What a call that is defined does. -/
inductive Does (w : World) : Fact → World → Prop
  | nothing : Does w .nothing w
  | born (net k : Nat) : Does w (.born w.next net k none) (w.make net k [])
  | bornD (net : Nat) (t : Term) (h : t = ⟨w.next, 0⟩ ∨ w.netOf t = some net) :
      Does w (.born w.next net 1 (some t)) (w.make net 1 [(.own, some t)])
  | told (e : Nat) (q : Equip) (s : Slot) (t : Option Term) (hq : w.live.get? e = some q)
      (hh : ∀ x, t = some x → (w.netOf x).isSome ∨ (s = .own ∧ x = ⟨e, 0⟩))
      (hn : s = .own ∨ (∃ i, s = .phase i) → ∀ x, t = some x → w.netOf x = some q.net ∨ x = ⟨e, 0⟩)
      (ho : s = .own → (q.refs.get? .own).isSome) :
      Does w (.told e s t) (w.put e q s t)
  | dropped (e : Nat) (q : Equip) (s : Slot) (hq : w.live.get? e = some q) (hs : s ≠ .own) :
      Does w (.dropped e s) { w with live := w.live.set e { q with refs := q.refs.erase s } }
  | gone (e : Nat) (q : Equip) (hq : w.live.get? e = some q) : Does w (.gone e) { w with live := w.live.erase e }
  | merged (a b : Nat) : Does w (.merged a b)
      { w with live := w.live.map fun p => (p.1, { p.2 with net := if p.2.net = b then a else p.2.net }) }

theorem checkReg_ok {w : World} {t : Option Term} {net : Nat} {u : Unit} (h : checkRegulatingTerminal w t net = .ok u) {x : Term}
    (hx : t = some x) : w.netOf x = some net := by
  subst hx
  simp only [checkRegulatingTerminal] at h
  cases hn : w.netOf x with
  | none => rw [hn] at h; cases h
  | some n =>
    rw [hn] at h
    by_cases e : n = net
    · rw [e]
    · simp [e] at h

theorem given_ok {w : World} {t : Option Term} (h : given w t ≠ false) {x : Term} (hx : t = some x) : (w.netOf x).isSome := by
  subst hx
  cases hn : w.netOf x with
  | none => simp [given, hn] at h
  | some n => rfl

theorem checkTap_phase_ok {w : World} {i : Nat} {r l p : Bool} {t : Option Term} {net : Nat} {u : Unit}
    (h : checkTap w (.phase i) r l p t net = .ok u) {x : Term} (hx : t = some x) : w.netOf x = some net := by
  subst hx
  simp only [checkTap, checkPhase] at h
  by_cases hp : p = false
  · simp [hp] at h
  · rw [if_neg hp] at h
    cases hn : w.netOf x with
    | none => simp [hn] at h
    | some n =>
      by_cases e : n = net
      · rw [e]
      · simp [hn, e] at h

theorem checkTap_own {w : World} {r l p : Bool} {t : Option Term} {net : Nat} {u : Unit}
    (h : checkTap w .own r l p t net = .ok u) : False := by
  simp [checkTap] at h

theorem step_does (w : World) (o : Op) (h : (step w o).1 ≠ .ub) : Does w (fact o (step w o).1) (step w o).2 := by
  cases o with
  | addDevice net t pre post =>
    simp only [step, addDevice] at h ⊢
    split at h
    · rename_i hp; rw [if_pos hp]; exact .nothing
    · rename_i hp
      rw [if_neg hp]
      cases hc : checkRegulatingTerminal w t net with
      | ub => simp [hc] at h
      | thrown => exact .nothing
      | ok u =>
        by_cases hpost : post = true
        · simp only [hpost, if_true]
          have : Does w (.born w.next net 1 (some (t.getD ⟨w.next, 0⟩))) (w.make net 1 [(.own, some (t.getD ⟨w.next, 0⟩))]) :=
            .bornD net _ (by
              cases t with
              | none => exact .inl rfl
              | some x => exact .inr (checkReg_ok hc rfl))
          cases t <;> exact this
        · simp only [hpost]
          exact .nothing
  | addOther net terms => exact .born net terms
  | setReg e t =>
    simp only [step, setReg] at h ⊢
    cases hq : w.live.get? e with
    | none => simp [hq] at h
    | some q =>
      simp only [hq] at h ⊢
      cases ho : q.refs.get? .own with
      | none => exact .nothing
      | some t0 =>
        simp only [ho] at h ⊢
        cases hc : checkRegulatingTerminal w t q.net with
        | ub => simp [hc] at h
        | thrown => exact .nothing
        | ok u =>
          have : Does w (.told e .own (some (t.getD ⟨e, 0⟩))) (w.put e q .own (some (t.getD ⟨e, 0⟩))) :=
            .told e q .own _ hq
              (by
                intro x hx
                cases t with
                | none => exact .inr ⟨rfl, by cases hx; rfl⟩
                | some y => cases hx; exact .inl (by simp [checkReg_ok hc rfl]))
              (by
                intro _ x hx
                cases t with
                | none => exact .inr (by cases hx; rfl)
                | some y => cases hx; exact .inl (checkReg_ok hc rfl))
              (by simp [ho])
          cases t <;> exact this
  | addTap e s r l pre post t =>
    simp only [step, addTap] at h ⊢
    cases hq : w.live.get? e with
    | none => simp [hq] at h
    | some q =>
      simp only [hq] at h ⊢
      by_cases hg : given w t = false
      · simp [hg] at h
      · simp only [hg] at h ⊢
        cases hc : checkTap w s r l pre t q.net with
        | ub => simp [hc] at h
        | thrown => exact .nothing
        | ok u =>
          by_cases hpost : post = true
          · simp only [hpost, if_true]
            refine .told e q s t hq (fun x hx => .inl (given_ok hg hx)) ?_ ?_
            · rintro (rfl | ⟨i, rfl⟩) x hx
              · exact absurd hc (fun h => checkTap_own h)
              · exact .inl (checkTap_phase_ok hc hx)
            · rintro rfl
              exact absurd hc (fun h => checkTap_own h)
          · simp only [hpost]
            exact .nothing
  | setTap e s r l pre t =>
    simp only [step, setTap] at h ⊢
    cases hq : w.live.get? e with
    | none => simp [hq] at h
    | some q =>
      simp only [hq] at h ⊢
      cases ho : q.refs.get? s with
      | none => exact .nothing
      | some t0 =>
        simp only [ho] at h ⊢
        cases hc : checkTap w s r l pre t q.net with
        | ub => simp [hc] at h
        | thrown => exact .nothing
        | ok u =>
          simp only [hc] at h ⊢
          cases hd : checkRegulatingTerminal w t q.net with
          | ub => simp [hd] at h
          | thrown => exact .nothing
          | ok v =>
            refine .told e q s t hq (fun x hx => .inl (by simp [checkReg_ok hd hx])) ?_ ?_
            · intro _ x hx
              exact .inl (checkReg_ok hd hx)
            · rintro rfl
              exact absurd hc (fun h => checkTap_own h)
  | touchTap e s r l pre =>
    simp only [step, touchTap] at h ⊢
    cases hq : w.live.get? e with
    | none => simp [hq] at h
    | some q =>
      simp only [hq] at h ⊢
      cases ho : q.refs.get? s with
      | none => exact .nothing
      | some t0 =>
        simp only [ho] at h ⊢
        cases hc : checkTap w s r l pre t0 q.net with
        | ub => simp [hc] at h
        | thrown => exact .nothing
        | ok u => exact .nothing
  | addCtrl e t =>
    simp only [step, addCtrl] at h ⊢
    cases hq : w.live.get? e with
    | none => simp [hq] at h
    | some q =>
      simp only [hq] at h ⊢
      cases t with
      | none => exact .nothing
      | some x =>
        simp only at h ⊢
        cases hn : w.netOf x with
        | none => simp [hn] at h
        | some n =>
          refine .told e q .ctrl (some x) hq (fun y hy => .inl (by cases hy; simp [hn])) ?_ (fun hs => by cases hs)
          rintro (hs | ⟨i, hs⟩) <;> cases hs
  | drop e s =>
    simp only [step, drop] at h ⊢
    cases hq : w.live.get? e with
    | none => simp [hq] at h
    | some q =>
      simp only
      by_cases hs : s = .own
      · simp only [hs, if_true]; exact .nothing
      · simp only [hs, if_false]; exact .dropped e q s hq hs
  | remove e =>
    simp only [step, remove] at h ⊢
    cases hq : w.live.get? e with
    | none => simp [hq] at h
    | some q => exact .gone e q hq
  | merge a b => exact .merged a b
  | write e =>
    simp only [step, write] at h ⊢
    cases hq : w.live.get? e with
    | none => simp [hq] at h
    | some q =>
      simp only [hq] at h ⊢
      cases hw : writeRefs w e q.refs with
      | ub => simp [hw] at h
      | thrown => exact .nothing
      | ok l => exact .nothing

/-- What links the facts and the world. -/
structure Inv (h : List Fact) (w : World) : Prop where
  nodup : w.live.NodupKeys
  made : ∀ e, (∃ net k own, Fact.born e net k own ∈ h) ↔ e < w.next
  here : ∀ e, (w.live.get? e).isSome ↔ Here h e
  refs : ∀ e q, w.live.get? e = some q → (∀ s, q.refs.get? s = asked e s h) ∧ home e h = some q.net ∧ size e h = q.terms ∧ q.refs.NodupKeys
  own : ∀ e q, w.live.get? e = some q → (q.refs.get? .own).isSome → q.terms = 1
  ever : ∀ e q s t, w.live.get? e = some q → q.refs.get? s = some (some t) → t.eq < w.next ∧ t.ix < size t.eq h
  same : ∀ e q s t, w.live.get? e = some q → s = .own ∨ (∃ i, s = .phase i) → q.refs.get? s = some (some t) →
    ∀ q', w.live.get? t.eq = some q' → q'.net = q.net
  fresh : ∀ e, w.next ≤ e → (∀ s, asked e s h = none) ∧ home e h = none ∧ size e h = 0
  gones : ∀ e, Fact.gone e ∈ h → e < w.next

theorem netOf_some {w : World} {t : Term} {n : Nat} (h : w.netOf t = some n) :
    ∃ q, w.live.get? t.eq = some q ∧ t.ix < q.terms ∧ q.net = n := by
  unfold World.netOf at h
  cases hq : w.live.get? t.eq with
  | none => simp [hq] at h
  | some q =>
    by_cases hl : t.ix < q.terms
    · simp [hq, hl] at h
      exact ⟨q, rfl, hl, h⟩
    · simp [hq, hl] at h

theorem get?_map_net (l : AMap Nat Equip) (a b e : Nat) :
    AMap.get? (l.map fun p => (p.1, { p.2 with net := if p.2.net = b then a else p.2.net })) e =
      (l.get? e).map fun q => { q with net := if q.net = b then a else q.net } := by
  induction l with
  | nil => rfl
  | cons p r ih =>
    obtain ⟨k, q⟩ := p
    simp only [List.map_cons, AMap.get?_cons]
    by_cases hk : k = e
    · simp [hk]
    · simp only [hk, if_false]; exact ih

theorem keys_map_net (l : AMap Nat Equip) (a b : Nat) (h : l.NodupKeys) :
    AMap.NodupKeys (l.map fun p => (p.1, { p.2 with net := if p.2.net = b then a else p.2.net })) := by
  simp only [AMap.NodupKeys, List.map_map] at h ⊢
  exact h

theorem here_cons_other {f : Fact} {h : List Fact} (hb : ∀ e net k own, f ≠ .born e net k own) (hg : ∀ e, f ≠ .gone e) (e : Nat) :
    Here (f :: h) e ↔ Here h e := by
  constructor
  · rintro ⟨⟨net, k, own, hm⟩, hn⟩
    refine ⟨⟨net, k, own, ?_⟩, fun hm' => hn (List.mem_cons_of_mem _ hm')⟩
    rcases List.mem_cons.mp hm with rfl | hm
    · exact absurd rfl (hb e net k own)
    · exact hm
  · rintro ⟨⟨net, k, own, hm⟩, hn⟩
    refine ⟨⟨net, k, own, List.mem_cons_of_mem _ hm⟩, fun hm' => ?_⟩
    rcases List.mem_cons.mp hm' with rfl | hm'
    · exact absurd rfl (hg e)
    · exact hn hm'

theorem made_cons_other {f : Fact} {h : List Fact} (hb : ∀ e net k own, f ≠ .born e net k own) (e : Nat) :
    (∃ net k own, Fact.born e net k own ∈ f :: h) ↔ ∃ net k own, Fact.born e net k own ∈ h := by
  constructor
  · rintro ⟨net, k, own, hm⟩
    refine ⟨net, k, own, ?_⟩
    rcases List.mem_cons.mp hm with rfl | hm
    · exact absurd rfl (hb e net k own)
    · exact hm
  · rintro ⟨net, k, own, hm⟩
    exact ⟨net, k, own, List.mem_cons_of_mem _ hm⟩

theorem gone_cons_other {f : Fact} {h : List Fact} (hg : ∀ e, f ≠ .gone e) (e : Nat) : Fact.gone e ∈ f :: h ↔ Fact.gone e ∈ h := by
  constructor
  · intro hm
    rcases List.mem_cons.mp hm with rfl | hm
    · exact absurd rfl (hg e)
    · exact hm
  · exact List.mem_cons_of_mem _

theorem live_lt {h : List Fact} {w : World} (hi : Inv h w) {e : Nat} {q : Equip} (hq : w.live.get? e = some q) : e < w.next :=
  (hi.made e).mp ((hi.here e).mp (by simp [hq])).1

/-- A new equipment, with a reference of its own or none. -/
theorem inv_make {h : List Fact} {w : World} (hi : Inv h w) (net k : Nat) (own : Option Term) (hk : own.isSome → k = 1)
    (ht : ∀ t, own = some t → t = ⟨w.next, 0⟩ ∨ w.netOf t = some net) :
    Inv (.born w.next net k own :: h) (w.make net k (match own with | none => [] | some t => [(.own, some t)])) := by
  have hnl : w.live.get? w.next = none := by
    cases hq : w.live.get? w.next with
    | none => rfl
    | some q => exact absurd (live_lt hi hq) (Nat.lt_irrefl _)
  have hne : ∀ e q, w.live.get? e = some q → w.next ≠ e := by
    intro e q hq hc
    rw [← hc, hnl] at hq; cases hq
  obtain ⟨hfa, hfh, hfs⟩ := hi.fresh w.next (Nat.le_refl _)
  refine ⟨AMap.nodupKeys_set hi.nodup _ _, ?_, ?_, ?_, ?_, ?_, ?_, ?_, ?_⟩
  · intro e
    simp only [World.make]
    constructor
    · rintro ⟨a, b, c, hm⟩
      rcases List.mem_cons.mp hm with hm | hm
      · cases hm; omega
      · have := (hi.made e).mp ⟨a, b, c, hm⟩; omega
    · intro hlt
      by_cases he : e = w.next
      · subst he; exact ⟨net, k, own, List.mem_cons_self⟩
      · obtain ⟨a, b, c, hm⟩ := (hi.made e).mpr (by omega)
        exact ⟨a, b, c, List.mem_cons_of_mem _ hm⟩
  · intro e
    simp only [World.make, AMap.get?_set]
    by_cases he : e = w.next
    · subst he
      simp only [if_true, Option.isSome_some, true_iff]
      refine ⟨⟨net, k, own, List.mem_cons_self⟩, fun hm => ?_⟩
      rcases List.mem_cons.mp hm with hm | hm
      · cases hm
      · exact absurd (hi.gones _ hm) (Nat.lt_irrefl _)
    · simp only [he, Ne.symm he, if_false]
      rw [hi.here e]
      constructor
      · rintro ⟨⟨a, b, c, hm⟩, hn⟩
        refine ⟨⟨a, b, c, List.mem_cons_of_mem _ hm⟩, fun hm' => ?_⟩
        rcases List.mem_cons.mp hm' with hm' | hm'
        · cases hm'
        · exact hn hm'
      · rintro ⟨⟨a, b, c, hm⟩, hn⟩
        refine ⟨⟨a, b, c, ?_⟩, fun hm' => hn (List.mem_cons_of_mem _ hm')⟩
        rcases List.mem_cons.mp hm with hm | hm
        · cases hm; exact absurd rfl he
        · exact hm
  · intro e q hq
    simp only [World.make, AMap.get?_set] at hq
    by_cases he : w.next = e
    · subst he
      simp only [if_true, Option.some.injEq] at hq
      subst hq
      refine ⟨fun s => ?_, by simp [home], by simp [size], ?_⟩
      · cases own with
        | none => simp [asked, hfa]
        | some t =>
          by_cases hs : s = .own
          · subst hs; simp [asked, AMap.get?_cons]
          · simp [asked, AMap.get?_cons, hfa, hs, Ne.symm hs]
      · cases own <;> simp [AMap.NodupKeys]
    · simp only [he, if_false] at hq
      obtain ⟨h1, h2, h3, h4⟩ := hi.refs e q hq
      refine ⟨fun s => ?_, ?_, ?_, h4⟩
      · simp [asked, he, h1]
      · simp [home, he, h2]
      · simp [size, he, h3]
  · intro e q hq ho
    simp only [World.make, AMap.get?_set] at hq
    by_cases he : w.next = e
    · subst he
      simp only [if_true, Option.some.injEq] at hq
      subst hq
      cases own with
      | none => simp at ho
      | some t => exact hk rfl
    · simp only [he, if_false] at hq
      exact hi.own e q hq ho
  · intro e q s t hq hr
    simp only [World.make, AMap.get?_set] at hq ⊢
    by_cases he : w.next = e
    · subst he
      simp only [if_true, Option.some.injEq] at hq
      subst hq
      cases own with
      | none => simp at hr
      | some x =>
        simp only [AMap.get?_cons, AMap.get?_nil] at hr
        split at hr
        · cases hr
          have hk1 := hk rfl
          rcases ht t rfl with rfl | hn
          · exact ⟨Nat.lt_succ_self _, by simp [size, hk1]⟩
          · obtain ⟨q', hq', hl, _⟩ := netOf_some hn
            have hlt := live_lt hi hq'
            refine ⟨by omega, ?_⟩
            simp only [size, hne _ _ hq', if_false]
            rw [(hi.refs _ _ hq').2.2.1]; exact hl
        · cases hr
    · simp only [he, if_false] at hq
      obtain ⟨h1, h2⟩ := hi.ever e q s t hq hr
      refine ⟨by omega, ?_⟩
      have : w.next ≠ t.eq := by omega
      simp only [size, this, if_false]; exact h2
  · intro e q s t hq hs hr q' hq'
    simp only [World.make, AMap.get?_set] at hq hq'
    by_cases he : w.next = e
    · subst he
      simp only [if_true, Option.some.injEq] at hq
      subst hq
      cases own with
      | none => simp at hr
      | some x =>
        simp only [AMap.get?_cons, AMap.get?_nil] at hr
        split at hr
        · cases hr
          rcases ht t rfl with rfl | hn
          · simp only [if_true, Option.some.injEq] at hq'
            subst hq'; rfl
          · obtain ⟨q2, hq2, _, h4⟩ := netOf_some hn
            simp only [hne _ _ hq2, if_false] at hq'
            rw [hq2] at hq'; cases hq'; exact h4
        · cases hr
    · simp only [he, if_false] at hq
      have hlt := (hi.ever e q s t hq hr).1
      have hne' : w.next ≠ t.eq := by omega
      simp only [hne', if_false] at hq'
      exact hi.same e q s t hq hs hr q' hq'
  · intro e hle
    simp only [World.make] at hle
    obtain ⟨h1, h2, h3⟩ := hi.fresh e (by omega)
    have : w.next ≠ e := by omega
    exact ⟨fun s => by simp [asked, this, h1], by simp [home, this, h2], by simp [size, this, h3]⟩
  · intro e hm
    simp only [World.make]
    rcases List.mem_cons.mp hm with hm | hm
    · cases hm
    · have := hi.gones e hm; omega

theorem inv_does {h : List Fact} {w w' : World} {f : Fact} (hi : Inv h w) (hd : Does w f w') : Inv (f :: h) w' := by
  cases hd with
  | nothing =>
    have hH := here_cons_other (f := .nothing) (h := h) (by intros; simp) (by intros; simp)
    have hM := made_cons_other (f := .nothing) (h := h) (by intros; simp)
    have hG := gone_cons_other (f := .nothing) (h := h) (by intros; simp)
    exact ⟨hi.nodup, fun e => by rw [hM]; exact hi.made e, fun e => by rw [hH]; exact hi.here e, hi.refs, hi.own, hi.ever, hi.same, hi.fresh,
      fun e he => hi.gones e ((hG e).mp he)⟩
  | born net k => exact inv_make hi net k none (by simp) (by simp)
  | bornD net t ht => exact inv_make hi net 1 (some t) (by simp) (by intro x hx; cases hx; exact ht)
  | told e q s t hq hh hn ho =>
    have hH := here_cons_other (f := .told e s t) (h := h) (by intros; simp) (by intros; simp)
    have hM := made_cons_other (f := .told e s t) (h := h) (by intros; simp)
    have hG := gone_cons_other (f := .told e s t) (h := h) (by intros; simp)
    have hlook : ∀ e' q', (w.put e q s t).live.get? e' = some q' →
        ∃ q0, w.live.get? e' = some q0 ∧ q'.net = q0.net ∧ q'.terms = q0.terms ∧
          ∀ s', q'.refs.get? s' = if e = e' ∧ s = s' then some t else q0.refs.get? s' := by
      intro e' q' hq'
      simp only [World.put, AMap.get?_set] at hq'
      by_cases he : e = e'
      · subst he
        simp only [if_true, Option.some.injEq] at hq'
        subst hq'
        refine ⟨q, hq, rfl, rfl, fun s' => ?_⟩
        simp only [AMap.get?_set, true_and]
      · simp only [he, if_false] at hq'
        exact ⟨q', hq', rfl, rfl, fun s' => by simp [he]⟩
    have hself : s = .own → q.terms = 1 := fun hs => hi.own e q hq (ho hs)
    refine ⟨AMap.nodupKeys_set hi.nodup _ _, fun e' => ?_, fun e' => ?_, ?_, ?_, ?_, ?_, ?_, ?_⟩
    · rw [hM]; exact hi.made e'
    · rw [hH, ← hi.here e']
      simp only [World.put, AMap.get?_set]
      by_cases he : e = e'
      · subst he; simp [hq]
      · simp [he]
    · intro e' q' hq'
      have hnd : q'.refs.NodupKeys := by
        simp only [World.put, AMap.get?_set] at hq'
        by_cases he : e = e'
        · subst he
          simp only [if_true, Option.some.injEq] at hq'
          subst hq'
          exact AMap.nodupKeys_set (hi.refs e q hq).2.2.2 _ _
        · simp only [he, if_false] at hq'
          exact (hi.refs e' q' hq').2.2.2
      obtain ⟨q0, h0, h1, h2, h3⟩ := hlook e' q' hq'
      obtain ⟨k1, k2, k3, _⟩ := hi.refs e' q0 h0
      refine ⟨fun s' => ?_, by rw [h1]; exact k2, by rw [h2]; exact k3, hnd⟩
      rw [h3, k1]; rfl
    · intro e' q' hq' hown
      obtain ⟨q0, h0, h1, h2, h3⟩ := hlook e' q' hq'
      rw [h2]
      rw [h3] at hown
      by_cases he : e = e' ∧ s = .own
      · obtain ⟨rfl, hs⟩ := he
        rw [hq] at h0; cases h0
        exact hself hs
      · rw [if_neg he] at hown
        exact hi.own e' q0 h0 hown
    · intro e' q' s' t' hq' hr
      obtain ⟨q0, h0, h1, h2, h3⟩ := hlook e' q' hq'
      rw [h3] at hr
      by_cases he : e = e' ∧ s = s'
      · rw [if_pos he] at hr
        obtain ⟨rfl, rfl⟩ := he
        simp only [Option.some.injEq] at hr
        rcases hh t' hr with hl | ⟨hs, rfl⟩
        · obtain ⟨n, hn'⟩ := Option.isSome_iff_exists.mp hl
          obtain ⟨q2, g1, g2, _⟩ := netOf_some hn'
          refine ⟨live_lt hi g1, ?_⟩
          show t'.ix < size t'.eq h
          rw [(hi.refs _ _ g1).2.2.1]; exact g2
        · refine ⟨live_lt hi hq, ?_⟩
          show 0 < size e h
          rw [(hi.refs _ _ hq).2.2.1, hself hs]; exact Nat.one_pos
      · rw [if_neg he] at hr
        exact hi.ever e' q0 s' t' h0 hr
    · intro e' q' s' t' hq' hs' hr q2 hq2
      obtain ⟨q0, h0, h1, h2, h3⟩ := hlook e' q' hq'
      obtain ⟨p0, p1, p2, _⟩ := hlook t'.eq q2 hq2
      rw [h1, p2]
      rw [h3] at hr
      by_cases he : e = e' ∧ s = s'
      · rw [if_pos he] at hr
        obtain ⟨rfl, rfl⟩ := he
        simp only [Option.some.injEq] at hr
        rw [hq] at h0; cases h0
        rcases hn hs' t' hr with hl | rfl
        · obtain ⟨q3, g1, _, g3⟩ := netOf_some hl
          rw [p1] at g1; cases g1; exact g3
        · have p1' : w.live.get? e = some p0 := p1
          rw [hq] at p1'; cases p1'; rfl
      · rw [if_neg he] at hr
        exact hi.same e' q0 s' t' h0 hs' hr p0 p1
    · intro e' hle
      obtain ⟨k1, k2, k3⟩ := hi.fresh e' hle
      have : e ≠ e' := by
        have := live_lt hi hq
        have hle' : w.next ≤ e' := hle
        omega
      exact ⟨fun s' => by simp [asked, this, k1], k2, k3⟩
    · intro e' hm
      exact hi.gones e' ((hG e').mp hm)
  | dropped e q s hq hs =>
    have hH := here_cons_other (f := .dropped e s) (h := h) (by intros; simp) (by intros; simp)
    have hM := made_cons_other (f := .dropped e s) (h := h) (by intros; simp)
    have hG := gone_cons_other (f := .dropped e s) (h := h) (by intros; simp)
    have hlook : ∀ e' q', AMap.get? (w.live.set e { q with refs := q.refs.erase s }) e' = some q' →
        ∃ q0, w.live.get? e' = some q0 ∧ q'.net = q0.net ∧ q'.terms = q0.terms ∧
          (∀ s', q'.refs.get? s' = if e = e' ∧ s = s' then none else q0.refs.get? s') ∧ q'.refs.NodupKeys := by
      intro e' q' hq'
      simp only [AMap.get?_set] at hq'
      by_cases he : e = e'
      · subst he
        simp only [if_true, Option.some.injEq] at hq'
        subst hq'
        refine ⟨q, hq, rfl, rfl, fun s' => ?_, AMap.nodupKeys_erase (hi.refs e q hq).2.2.2 _⟩
        simp only [AMap.get?_erase, true_and]
      · simp only [he, if_false] at hq'
        exact ⟨q', hq', rfl, rfl, fun s' => by simp [he], (hi.refs e' q' hq').2.2.2⟩
    refine ⟨AMap.nodupKeys_set hi.nodup _ _, fun e' => ?_, fun e' => ?_, ?_, ?_, ?_, ?_, ?_, ?_⟩
    · rw [hM]; exact hi.made e'
    · rw [hH, ← hi.here e']
      simp only [AMap.get?_set]
      by_cases he : e = e'
      · subst he; simp [hq]
      · simp [he]
    · intro e' q' hq'
      obtain ⟨q0, h0, h1, h2, h3, h4⟩ := hlook e' q' hq'
      obtain ⟨k1, k2, k3, _⟩ := hi.refs e' q0 h0
      refine ⟨fun s' => ?_, by rw [h1]; exact k2, by rw [h2]; exact k3, h4⟩
      rw [h3, k1]; rfl
    · intro e' q' hq' hown
      obtain ⟨q0, h0, h1, h2, h3, _⟩ := hlook e' q' hq'
      rw [h2]
      rw [h3] at hown
      by_cases he : e = e' ∧ s = .own
      · rw [if_pos he] at hown; cases hown
      · rw [if_neg he] at hown
        exact hi.own e' q0 h0 hown
    · intro e' q' s' t' hq' hr
      obtain ⟨q0, h0, h1, h2, h3, _⟩ := hlook e' q' hq'
      rw [h3] at hr
      by_cases he : e = e' ∧ s = s'
      · rw [if_pos he] at hr; cases hr
      · rw [if_neg he] at hr
        exact hi.ever e' q0 s' t' h0 hr
    · intro e' q' s' t' hq' hs' hr q2 hq2
      obtain ⟨q0, h0, h1, h2, h3, _⟩ := hlook e' q' hq'
      obtain ⟨p0, p1, p2, _⟩ := hlook t'.eq q2 hq2
      rw [h1, p2]
      rw [h3] at hr
      by_cases he : e = e' ∧ s = s'
      · rw [if_pos he] at hr; cases hr
      · rw [if_neg he] at hr
        exact hi.same e' q0 s' t' h0 hs' hr p0 p1
    · intro e' hle
      obtain ⟨k1, k2, k3⟩ := hi.fresh e' hle
      exact ⟨fun s' => by simp [asked, k1], k2, k3⟩
    · intro e' hm
      exact hi.gones e' ((hG e').mp hm)
  | gone e q hq =>
    have hM := made_cons_other (f := .gone e) (h := h) (by intros; simp)
    have hlook : ∀ e' q', (w.live.erase e).get? e' = some q' → e ≠ e' ∧ w.live.get? e' = some q' := by
      intro e' q' hq'
      simp only [AMap.get?_erase] at hq'
      by_cases he : e = e'
      · simp [he] at hq'
      · exact ⟨he, by simpa [he] using hq'⟩
    refine ⟨AMap.nodupKeys_erase hi.nodup _, fun e' => ?_, fun e' => ?_, ?_, ?_, ?_, ?_, hi.fresh, ?_⟩
    · rw [hM]; exact hi.made e'
    · simp only [AMap.get?_erase]
      by_cases he : e = e'
      · subst he
        simp only [if_true, Option.isSome_none, Bool.false_eq_true, false_iff]
        rintro ⟨_, hn⟩
        exact hn List.mem_cons_self
      · simp only [he, if_false, hi.here e']
        constructor
        · rintro ⟨hm, hn⟩
          refine ⟨(hM e').mpr hm, fun hm' => ?_⟩
          rcases List.mem_cons.mp hm' with hm' | hm'
          · cases hm'; exact he rfl
          · exact hn hm'
        · rintro ⟨hm, hn⟩
          exact ⟨(hM e').mp hm, fun hm' => hn (List.mem_cons_of_mem _ hm')⟩
    · intro e' q' hq'
      exact hi.refs e' q' (hlook e' q' hq').2
    · intro e' q' hq'
      exact hi.own e' q' (hlook e' q' hq').2
    · intro e' q' s t hq' hr
      exact hi.ever e' q' s t (hlook e' q' hq').2 hr
    · intro e' q' s t hq' hs hr q2 hq2
      exact hi.same e' q' s t (hlook e' q' hq').2 hs hr q2 (hlook _ q2 hq2).2
    · intro e' hm
      rcases List.mem_cons.mp hm with hm | hm
      · cases hm; exact live_lt hi hq
      · exact hi.gones e' hm
  | merged a b =>
    have hH := here_cons_other (f := .merged a b) (h := h) (by intros; simp) (by intros; simp)
    have hM := made_cons_other (f := .merged a b) (h := h) (by intros; simp)
    have hG := gone_cons_other (f := .merged a b) (h := h) (by intros; simp)
    have hlook : ∀ e' q', AMap.get? (w.live.map fun p => (p.1, { p.2 with net := if p.2.net = b then a else p.2.net })) e' = some q' →
        ∃ q0, w.live.get? e' = some q0 ∧ q'.net = (if q0.net = b then a else q0.net) ∧ q'.terms = q0.terms ∧ q'.refs = q0.refs := by
      intro e' q' hq'
      rw [get?_map_net] at hq'
      cases h0 : w.live.get? e' with
      | none => simp [h0] at hq'
      | some q0 =>
        simp only [h0, Option.map_some, Option.some.injEq] at hq'
        subst hq'
        exact ⟨q0, rfl, rfl, rfl, rfl⟩
    refine ⟨keys_map_net _ _ _ hi.nodup, fun e' => ?_, fun e' => ?_, ?_, ?_, ?_, ?_, ?_, ?_⟩
    · rw [hM]; exact hi.made e'
    · rw [hH, ← hi.here e', get?_map_net]; simp
    · intro e' q' hq'
      obtain ⟨q0, h0, h1, h2, h3⟩ := hlook e' q' hq'
      obtain ⟨k1, k2, k3, k4⟩ := hi.refs e' q0 h0
      refine ⟨fun s' => by rw [h3, k1]; rfl, ?_, by rw [h2]; exact k3, by rw [h3]; exact k4⟩
      simp only [home, k2, Option.map_some, h1]
    · intro e' q' hq' hown
      obtain ⟨q0, h0, h1, h2, h3⟩ := hlook e' q' hq'
      rw [h2]; rw [h3] at hown
      exact hi.own e' q0 h0 hown
    · intro e' q' s t hq' hr
      obtain ⟨q0, h0, h1, h2, h3⟩ := hlook e' q' hq'
      rw [h3] at hr
      exact hi.ever e' q0 s t h0 hr
    · intro e' q' s t hq' hs hr q2 hq2
      obtain ⟨q0, h0, h1, h2, h3⟩ := hlook e' q' hq'
      obtain ⟨p0, p1, p2, _⟩ := hlook _ q2 hq2
      rw [h3] at hr
      rw [h1, p2, hi.same e' q0 s t h0 hs hr p0 p1]
    · intro e' hle
      obtain ⟨k1, k2, k3⟩ := hi.fresh e' hle
      exact ⟨k1, by simp [home, k2], k3⟩
    · intro e' hm
      exact hi.gones e' ((hG e').mp hm)

theorem reach_inv {h : List Fact} {w : World} (hr : Reach h w) : Inv h w := by
  induction hr with
  | init =>
    exact ⟨by simp [init], fun e => by simp [init], fun e => by simp [init, Here], by simp [init], by simp [init], by simp [init],
      by simp [init], fun e _ => by simp [asked, home, size], by simp⟩
  | step o _ hu ih => exact inv_does ih (step_does _ o hu)

end Verif.RegTerm
