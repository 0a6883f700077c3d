import Verif.BusEquip.Spec

namespace Verif.BusEquip

open Verif Spec

/-- What is true of every network made by calls. -/
structure WF (n : Net) : Prop where
  owned : ∀ t x, n.terms t = some x → ∃ e q, x.owner = some e ∧ n.equips e = some q ∧ t ∈ q.terms
  owns : ∀ e q, n.equips e = some q → q.terms.length = q.cls.arity ∧ q.terms.Nodup ∧
    ∀ t ∈ q.terms, ∃ x, n.terms t = some x ∧ x.owner = some e
  freshE : ∀ e q, n.equips e = some q → e < n.next
  freshT : ∀ t x, n.terms t = some x → t < n.next
  noP : ∀ e q t x, n.equips e = some q → t ∈ q.terms → n.terms t = some x →
    q.cls = .busbarSection ∨ q.cls = .shunt → x.p = .nan
  noQ : ∀ e q t x, n.equips e = some q → t ∈ q.terms → n.terms t = some x → q.cls = .busbarSection → x.q = .nan

theorem wf_init : WF Net.init := by
  refine ⟨?_, ?_, ?_, ?_, ?_, ?_⟩ <;> simp [Net.init]

theorem mem_addTerms {n a c : Nat} : a ∈ (List.range c).map (fun i => n + 1 + i) ↔ n < a ∧ a ≤ n + c := by
  simp only [List.mem_map, List.mem_range]
  constructor
  · rintro ⟨i, hi, rfl⟩; omega
  · intro h; exact ⟨a - n - 1, by omega, by omega⟩

theorem wf_add {n : Net} (h : WF n) (c : Cls) (b : Bool) : WF (n.add c b) := by
  have hE : ∀ a, (n.add c b).equips a = if a = n.next then some ⟨c, (List.range c.arity).map (fun i => n.next + 1 + i)⟩
      else n.equips a := fun _ => rfl
  have hT : ∀ a, (n.add c b).terms a = if n.next < a ∧ a ≤ n.next + c.arity then
      some ⟨some n.next, b, .nan, .nan⟩ else n.terms a := fun _ => rfl
  have hN : (n.add c b).next = n.next + 1 + c.arity := rfl
  refine ⟨?_, ?_, ?_, ?_, ?_, ?_⟩
  · intro t x ht
    rw [hT] at ht
    split at ht
    · rename_i hr
      cases ht
      exact ⟨n.next, _, rfl, by rw [hE, if_pos rfl], mem_addTerms.mpr hr⟩
    · obtain ⟨e, q, h1, h2, h3⟩ := h.owned t x ht
      have := h.freshE e q h2
      exact ⟨e, q, h1, by rw [hE, if_neg (by omega)]; exact h2, h3⟩
  · intro e q he
    rw [hE] at he
    split at he
    · rename_i hr
      cases he
      refine ⟨by simp, ?_, ?_⟩
      · refine List.Pairwise.map _ (fun a b hab => ?_) List.nodup_range
        omega
      · intro t ht
        exact ⟨_, by rw [hT, if_pos (mem_addTerms.mp ht)], by rw [hr]⟩
    · obtain ⟨h1, h2, h3⟩ := h.owns e q he
      refine ⟨h1, h2, fun t ht => ?_⟩
      obtain ⟨x, hx, ho⟩ := h3 t ht
      have := h.freshT t x hx
      exact ⟨x, by rw [hT, if_neg (by omega)]; exact hx, ho⟩
  · intro e q he
    rw [hE] at he
    rw [hN]
    split at he
    · omega
    · have := h.freshE e q he
      omega
  · intro t x ht
    rw [hT] at ht
    rw [hN]
    split at ht
    · omega
    · have := h.freshT t x ht
      omega
  · intro e q t x he hm ht hc
    rw [hT] at ht
    split at ht
    · cases ht; rfl
    · rw [hE] at he
      split at he
      · cases he
        have := mem_addTerms.mp hm
        contradiction
      · exact h.noP e q t x he hm ht hc
  · intro e q t x he hm ht hc
    rw [hT] at ht
    split at ht
    · cases ht; rfl
    · rw [hE] at he
      split at he
      · cases he
        have := mem_addTerms.mp hm
        contradiction
      · exact h.noQ e q t x he hm ht hc

theorem wf_put {n : Net} (h : WF n) {t : Nat} {x y : Term} (ht : n.terms t = some x) (ho : y.owner = x.owner)
    (hp : ∀ e q, n.equips e = some q → t ∈ q.terms → q.cls = .busbarSection ∨ q.cls = .shunt → y.p = .nan)
    (hq : ∀ e q, n.equips e = some q → t ∈ q.terms → q.cls = .busbarSection → y.q = .nan) : WF (n.put t y) := by
  have hT : ∀ a, (n.put t y).terms a = if a = t then some y else n.terms a := fun _ => rfl
  have hE : (n.put t y).equips = n.equips := rfl
  refine ⟨?_, ?_, ?_, ?_, ?_, ?_⟩
  · intro a z ha
    rw [hT] at ha
    rw [hE]
    split at ha
    · rename_i hr
      cases ha
      obtain ⟨e, q, h1, h2, h3⟩ := h.owned t x ht
      exact ⟨e, q, by rw [ho]; exact h1, h2, by rw [hr]; exact h3⟩
    · exact h.owned a z ha
  · intro e q he
    rw [hE] at he
    obtain ⟨h1, h2, h3⟩ := h.owns e q he
    refine ⟨h1, h2, fun a ha => ?_⟩
    obtain ⟨z, hz, hzo⟩ := h3 a ha
    by_cases hr : a = t
    · subst hr
      rw [ht] at hz
      cases hz
      exact ⟨y, by rw [hT, if_pos rfl], by rw [ho]; exact hzo⟩
    · exact ⟨z, by rw [hT, if_neg hr]; exact hz, hzo⟩
  · intro e q he; exact h.freshE e q he
  · intro a z ha
    rw [hT] at ha
    split at ha
    · rename_i hr
      rw [hr]
      exact h.freshT t x ht
    · exact h.freshT a z ha
  · intro e q a z he hm ha hc
    rw [hT] at ha
    split at ha
    · rename_i hr
      cases ha
      rw [hr] at hm
      exact hp e q he hm hc
    · exact h.noP e q a z he hm ha hc
  · intro e q a z he hm ha hc
    rw [hT] at ha
    split at ha
    · rename_i hr
      cases ha
      rw [hr] at hm
      exact hq e q he hm hc
    · exact h.noQ e q a z he hm ha hc

theorem connectable_ok {n : Net} (h : WF n) {t : Nat} {x : Term} (ht : n.terms t = some x) :
    ∃ e q, n.connectable t = .ok (e, q) ∧ x.owner = some e ∧ n.equips e = some q ∧ t ∈ q.terms := by
  obtain ⟨e, q, h1, h2, h3⟩ := h.owned t x ht
  exact ⟨e, q, by simp [Net.connectable, ht, h1, h2], h1, h2, h3⟩

theorem owner_unique {n : Net} (h : WF n) {t e e' : Nat} {q q' : Equip} (he : n.equips e = some q) (hm : t ∈ q.terms)
    (he' : n.equips e' = some q') (hm' : t ∈ q'.terms) : e = e' ∧ q = q' := by
  obtain ⟨x, hx, ho⟩ := (h.owns e q he).2.2 t hm
  obtain ⟨y, hy, ho'⟩ := (h.owns e' q' he').2.2 t hm'
  rw [hx] at hy
  cases hy
  rw [ho] at ho'
  cases ho'
  rw [he] at he'
  cases he'
  exact ⟨rfl, rfl⟩

theorem wf_setP {n : Net} (h : WF n) (t : Nat) (p : Dbl) : WF (n.setP t p).2 := by
  unfold Net.setP
  cases ht : n.terms t with
  | none => simp [Net.connectable, ht]; exact h
  | some x =>
    obtain ⟨e, q, hc, ho, he, hm⟩ := connectable_ok h ht
    rw [hc]
    show WF (if q.cls.type = .busbarSection then ((Out.thrown : Out Unit), n)
      else if p.isNan = false ∧ q.cls.type = .shunt then (.thrown, n) else (.ok (), n.put t { x with p := p })).2
    split
    · exact h
    · rename_i hb
      split
      · exact h
      · rename_i hs
        refine wf_put h ht rfl ?_ ?_
        · intro e' q' he' hm' hcl
          obtain ⟨_, rfl⟩ := owner_unique h he hm he' hm'
          rcases hcl with hcl | hcl
          · exact absurd (by rw [hcl]; rfl) hb
          · cases p with
            | nan => rfl
            | _ => exact absurd ⟨rfl, by rw [hcl]; rfl⟩ hs
        · intro e' q' he' hm' hcl
          exact h.noQ e' q' t x he' hm' ht hcl

theorem wf_setQ {n : Net} (h : WF n) (t : Nat) (v : Dbl) : WF (n.setQ t v).2 := by
  unfold Net.setQ
  cases ht : n.terms t with
  | none => simp [Net.connectable, ht]; exact h
  | some x =>
    obtain ⟨e, q, hc, ho, he, hm⟩ := connectable_ok h ht
    rw [hc]
    show WF (if q.cls.type = .busbarSection then ((Out.thrown : Out Unit), n) else (.ok (), n.put t { x with q := v })).2
    split
    · exact h
    · rename_i hb
      refine wf_put h ht rfl ?_ ?_
      · intro e' q' he' hm' hcl
        exact h.noP e' q' t x he' hm' ht hcl
      · intro e' q' he' hm' hcl
        obtain ⟨_, rfl⟩ := owner_unique h he hm he' hm'
        exact absurd (by rw [hcl]; rfl) hb

theorem wf_setConnected {n : Net} (h : WF n) (t : Nat) (b : Bool) : WF (n.setConnected t b).2 := by
  unfold Net.setConnected
  cases ht : n.terms t with
  | none => exact h
  | some x =>
    exact wf_put h ht rfl (fun e q he hm hc => h.noP e q t x he hm ht hc) (fun e q he hm hc => h.noQ e q t x he hm ht hc)

theorem wf_remove {n : Net} (h : WF n) (e : Nat) : WF (n.remove e).2 := by
  unfold Net.remove
  cases he : n.equips e with
  | none => exact h
  | some q =>
    refine ⟨?_, ?_, ?_, ?_, ?_, ?_⟩
    · intro t x ht
      change (if t ∈ q.terms then none else n.terms t) = some x at ht
      split at ht
      · cases ht
      · rename_i hm
        obtain ⟨e', q', h1, h2, h3⟩ := h.owned t x ht
        refine ⟨e', q', h1, ?_, h3⟩
        show (if e' = e then none else n.equips e') = some q'
        rw [if_neg ?_]
        · exact h2
        · rintro rfl
          rw [he] at h2
          cases h2
          exact hm h3
    · intro e' q' he'
      change (if e' = e then none else n.equips e') = some q' at he'
      split at he'
      · cases he'
      · rename_i hne
        obtain ⟨h1, h2, h3⟩ := h.owns e' q' he'
        refine ⟨h1, h2, fun t ht => ?_⟩
        obtain ⟨x, hx, hxo⟩ := h3 t ht
        refine ⟨x, ?_, hxo⟩
        show (if t ∈ q.terms then none else n.terms t) = some x
        rw [if_neg ?_]
        · exact hx
        · intro hm
          exact hne (owner_unique h he' ht he hm).1
    · intro e' q' he'
      change (if e' = e then none else n.equips e') = some q' at he'
      split at he'
      · cases he'
      · exact h.freshE e' q' he'
    · intro t x ht
      change (if t ∈ q.terms then none else n.terms t) = some x at ht
      split at ht
      · cases ht
      · exact h.freshT t x ht
    · intro e' q' t x he' hm ht hc
      change (if e' = e then none else n.equips e') = some q' at he'
      change (if t ∈ q.terms then none else n.terms t) = some x at ht
      split at he'
      · cases he'
      · split at ht
        · cases ht
        · exact h.noP e' q' t x he' hm ht hc
    · intro e' q' t x he' hm ht hc
      change (if e' = e then none else n.equips e') = some q' at he'
      change (if t ∈ q.terms then none else n.terms t) = some x at ht
      split at he'
      · cases he'
      · split at ht
        · cases ht
        · exact h.noQ e' q' t x he' hm ht hc

theorem reach_wf {n : Net} (h : Reach n) : WF n := by
  induction h with
  | init => exact wf_init
  | step op _ _ ih =>
    cases op with
    | add c b => exact wf_add ih c b
    | setP t p => exact wf_setP ih t p
    | setQ t q => exact wf_setQ ih t q
    | setConnected t b => exact wf_setConnected ih t b
    | remove e => exact wf_remove ih e

theorem filterConnected_ok {n : Net} : ∀ {ts : List Nat}, (∀ t ∈ ts, n.terms t ≠ none) →
    n.filterConnected ts = .ok (ts.filter (connected n)) := by
  intro ts
  induction ts with
  | nil => intro _; rfl
  | cons t ts ih =>
    intro h
    cases ht : n.terms t with
    | none => exact absurd ht (h t (by simp))
    | some x =>
      have := ih (fun a ha => h a (by simp [ha]))
      cases hx : x.connected <;> simp [Net.filterConnected, ht, this, Out.map, connected, hx]

theorem flatConnected_ok {n : Net} : ∀ {bs : List (List Nat)}, (∀ t ∈ bs.flatten, n.terms t ≠ none) →
    n.flatConnected bs = .ok (bs.flatten.filter (connected n)) := by
  intro bs
  induction bs with
  | nil => intro _; rfl
  | cons b bs ih =>
    intro h
    have h1 := filterConnected_ok (n := n) (ts := b) (fun t ht => h t (by simp [ht]))
    have h2 := ih (fun t ht => h t (by rw [List.flatten_cons]; exact List.mem_append_right _ ht))
    simp [Net.flatConnected, h1, h2, Out.map]

theorem connectedTerminals_ok {n : Net} {b : Bus} (h : Usable n b) : n.connectedTerminals b = .ok (on n b) := by
  cases b with
  | calculated v ts => simp only [Usable] at h; simp [Net.connectedTerminals, h.1, on]
  | configured ts => exact filterConnected_ok h.2
  | merged v bs =>
    simp only [Usable] at h
    simp only [Net.connectedTerminals, h.1, if_true, on]
    exact flatConnected_ok h.2

theorem countConnected_ok {n : Net} : ∀ {ts : List Nat} (k : Nat), (∀ t ∈ ts, n.terms t ≠ none) →
    n.countConnected ts k = .ok (k + (ts.filter (connected n)).length) := by
  intro ts
  induction ts with
  | nil => intro k _; rfl
  | cons t ts ih =>
    intro k h
    cases ht : n.terms t with
    | none => exact absurd ht (h t (by simp))
    | some x =>
      have := fun k => ih k (fun a ha => h a (by simp [ha]))
      cases hx : x.connected <;> simp [Net.countConnected, ht, this, connected, hx]
      omega

theorem countMerged_ok {n : Net} : ∀ {bs : List (List Nat)} (k : Nat), (∀ t ∈ bs.flatten, n.terms t ≠ none) →
    n.countMerged bs k = .ok (k + (bs.flatten.filter (connected n)).length) := by
  intro bs
  induction bs with
  | nil => intro k _; rfl
  | cons b bs ih =>
    intro k h
    have h1 := countConnected_ok (n := n) (ts := b) 0 (fun t ht => h t (by simp [ht]))
    have h2 := fun k => ih k (fun t ht => h t (by rw [List.flatten_cons]; exact List.mem_append_right _ ht))
    simp [Net.countMerged, h1, h2]
    omega

theorem connectedCount_ok {n : Net} {b : Bus} (h : Usable n b) : n.connectedCount b = .ok (on n b).length := by
  cases b with
  | calculated v ts => simp only [Usable] at h; simp [Net.connectedCount, h.1, on]
  | configured ts =>
    have := countConnected_ok 0 h.2
    simpa [Net.connectedCount, on, held] using this
  | merged v bs =>
    simp only [Usable] at h
    have := countMerged_ok 0 h.2
    simpa [Net.connectedCount, h.1, on, held] using this

theorem on_sub {n : Net} {b : Bus} {t : Nat} (h : t ∈ on n b) : t ∈ held b := by
  cases b with
  | calculated v ts => exact h
  | configured ts => exact (List.mem_filter.mp h).1
  | merged v bs => exact (List.mem_filter.mp h).1

theorem branchSide_ok {q : Equip} {t : Nat} (h2 : q.terms.length = 2) (hm : t ∈ q.terms) :
    ∃ s, branchSide q t = .ok s ∧ q.terms[pos s]? = some t ∧ s ≠ .three := by
  match hq : q.terms, h2 with
  | [a, b], _ =>
    rw [hq] at hm
    by_cases ha : t = a
    · exact ⟨.one, by simp [branchSide, hq, ha], by simp [pos, ha], by simp⟩
    · have hb : t = b := by simpa [ha] using hm
      subst hb
      exact ⟨.two, by simp [branchSide, hq, ha], by simp [pos], by simp⟩

theorem legSide_ok {q : Equip} {t : Nat} (h3 : q.terms.length = 3) (hm : t ∈ q.terms) :
    ∃ s, legSide q t = .ok s ∧ q.terms[pos s]? = some t := by
  match hq : q.terms, h3 with
  | [a, b, c], _ =>
    rw [hq] at hm
    by_cases ha : a = t
    · exact ⟨.one, by simp [legSide, hq, ha], by simp [pos, ha]⟩
    · by_cases hb : b = t
      · exact ⟨.two, by simp [legSide, hq, ha, hb], by simp [pos, hb]⟩
      · have hc : c = t := by
          have : t = a ∨ t = b ∨ t = c := by simpa using hm
          rcases this with h | h | h
          · exact absurd h.symm ha
          · exact absurd h.symm hb
          · exact h.symm
        exact ⟨.three, by simp [legSide, hq, ha, hb, hc], by simp [pos, hc]⟩

theorem single {q : Equip} {t : Nat} (h1 : q.terms.length = 1) (hm : t ∈ q.terms) : q.terms[0]? = some t := by
  match hq : q.terms, h1 with
  | [a], _ =>
    rw [hq] at hm
    have : t = a := by simpa using hm
    simp [this]

theorem callOf_ok {n : Net} (h : WF n) {t : Nat} (ht : n.terms t ≠ none) :
    ∃ c, callOf n t = .ok c ∧ Tells n t c ∧ n.visited c = .ok t := by
  cases hx : n.terms t with
  | none => exact absurd hx ht
  | some x =>
    obtain ⟨e, q, hc, ho, he, hm⟩ := connectable_ok h hx
    have hl := (h.owns e q he).1
    unfold callOf
    rw [hc, Out.bind_ok]
    rcases q with ⟨cls, terms⟩
    cases cls with
    | line =>
      obtain ⟨s, hs, hp, h3⟩ := branchSide_ok hl hm
      refine ⟨.line e s, by simp [castTo, Cls.type, Cls.isA, hs, Out.map], Or.inl ⟨_, he, rfl, hp⟩, ?_⟩
      cases s with
      | one => simpa [Net.visited, Net.branchTerminal, Net.terminalOf, he, pos] using by simp [pos] at hp; simp [hp]
      | two => simpa [Net.visited, Net.branchTerminal, Net.terminalOf, he, pos] using by simp [pos] at hp; simp [hp]
      | three => exact absurd rfl h3
    | tieLine =>
      obtain ⟨s, hs, hp, h3⟩ := branchSide_ok hl hm
      refine ⟨.line e s, by simp [castTo, Cls.type, Cls.isA, hs, Out.map], Or.inr ⟨_, he, rfl, hp⟩, ?_⟩
      cases s with
      | one => simpa [Net.visited, Net.branchTerminal, Net.terminalOf, he, pos] using by simp [pos] at hp; simp [hp]
      | two => simpa [Net.visited, Net.branchTerminal, Net.terminalOf, he, pos] using by simp [pos] at hp; simp [hp]
      | three => exact absurd rfl h3
    | twoWindings =>
      obtain ⟨s, hs, hp, h3⟩ := branchSide_ok hl hm
      refine ⟨.twoWindings e s, by simp [castTo, Cls.type, Cls.isA, hs, Out.map], ⟨_, he, rfl, hp⟩, ?_⟩
      cases s with
      | one => simpa [Net.visited, Net.branchTerminal, Net.terminalOf, he, pos] using by simp [pos] at hp; simp [hp]
      | two => simpa [Net.visited, Net.branchTerminal, Net.terminalOf, he, pos] using by simp [pos] at hp; simp [hp]
      | three => exact absurd rfl h3
    | threeWindings =>
      obtain ⟨s, hs, hp⟩ := legSide_ok hl hm
      refine ⟨.threeWindings e s, by simp [castTo, Cls.type, Cls.isA, hs, Out.map], ⟨_, he, rfl, hp⟩, ?_⟩
      cases s <;> · simp [pos] at hp; simp [Net.visited, Net.terminalOf, he, hp]
    | lcc =>
      have hp := single hl hm
      exact ⟨.station e, by simp [castTo, Cls.type, Cls.isA], Or.inl ⟨_, he, rfl, hp⟩, by
        simp only at hp; simp [Net.visited, Net.terminalOf, he, hp]⟩
    | vsc =>
      have hp := single hl hm
      exact ⟨.station e, by simp [castTo, Cls.type, Cls.isA], Or.inr ⟨_, he, rfl, hp⟩, by
        simp only at hp; simp [Net.visited, Net.terminalOf, he, hp]⟩
    | busbarSection =>
      have hp := single hl hm
      exact ⟨.busbarSection e, by simp [castTo, Cls.type, Cls.isA], ⟨_, he, rfl, hp⟩, by
        simp only at hp; simp [Net.visited, Net.terminalOf, he, hp]⟩
    | generator =>
      have hp := single hl hm
      exact ⟨.generator e, by simp [castTo, Cls.type, Cls.isA], ⟨_, he, rfl, hp⟩, by
        simp only at hp; simp [Net.visited, Net.terminalOf, he, hp]⟩
    | battery =>
      have hp := single hl hm
      exact ⟨.battery e, by simp [castTo, Cls.type, Cls.isA], ⟨_, he, rfl, hp⟩, by
        simp only at hp; simp [Net.visited, Net.terminalOf, he, hp]⟩
    | load =>
      have hp := single hl hm
      exact ⟨.load e, by simp [castTo, Cls.type, Cls.isA], ⟨_, he, rfl, hp⟩, by
        simp only at hp; simp [Net.visited, Net.terminalOf, he, hp]⟩
    | shunt =>
      have hp := single hl hm
      exact ⟨.shunt e, by simp [castTo, Cls.type, Cls.isA], ⟨_, he, rfl, hp⟩, by
        simp only at hp; simp [Net.visited, Net.terminalOf, he, hp]⟩
    | danglingLine =>
      have hp := single hl hm
      exact ⟨.danglingLine e, by simp [castTo, Cls.type, Cls.isA], ⟨_, he, rfl, hp⟩, by
        simp only at hp; simp [Net.visited, Net.terminalOf, he, hp]⟩
    | svc =>
      have hp := single hl hm
      exact ⟨.svc e, by simp [castTo, Cls.type, Cls.isA], ⟨_, he, rfl, hp⟩, by
        simp only at hp; simp [Net.visited, Net.terminalOf, he, hp]⟩

theorem tells_unique {n : Net} (h : WF n) {t : Nat} {c c' : Call} (hc : Tells n t c) (hc' : Tells n t c') : c = c' := by
  have key : ∀ {e e' : Nat} {k k' : Cls} {i j : Nat}, HasTerm n e k i t → HasTerm n e' k' j t → e = e' ∧ k = k' ∧ i = j := by
    rintro e e' k k' i j ⟨q, h1, h2, h3⟩ ⟨q', h1', h2', h3'⟩
    obtain ⟨rfl, rfl⟩ := owner_unique h h1 (List.mem_of_getElem? h3) h1' (List.mem_of_getElem? h3')
    refine ⟨rfl, by rw [← h2, ← h2'], ?_⟩
    have hn := (h.owns e q h1).2.1
    have hi := (List.getElem?_eq_some_iff.mp h3)
    have hj := (List.getElem?_eq_some_iff.mp h3')
    obtain ⟨hi1, hi2⟩ := hi
    obtain ⟨hj1, hj2⟩ := hj
    exact (List.getElem_inj hn).mp (by rw [hi2, hj2])
  have hpos : ∀ s s' : Side, pos s = pos s' → s = s' := by
    intro s s'; cases s <;> cases s' <;> simp [pos]
  cases c <;> cases c' <;> simp only [Tells] at hc hc' <;>
    first
    | (obtain ⟨h1, h2, h3⟩ := key hc hc'; first | cases h2; done | (subst h1; rfl))
    | (obtain ⟨h1, h2, h3⟩ := key hc hc'; subst h1; rw [hpos _ _ h3])
    | (rcases hc with hc | hc <;> obtain ⟨h1, h2, h3⟩ := key hc hc' <;> cases h2; done)
    | (rcases hc' with hc' | hc' <;> obtain ⟨h1, h2, h3⟩ := key hc hc' <;> cases h2; done)
    | (rcases hc with hc | hc <;> rcases hc' with hc' | hc' <;> obtain ⟨h1, h2, h3⟩ := key hc hc' <;>
        first | (cases h2; done) | (subst h1; first | rfl | rw [hpos _ _ h3]))

theorem visitEquipments_ok {n : Net} (h : WF n) : ∀ {ts : List Nat}, (∀ t ∈ ts, n.terms t ≠ none) →
    ∃ cs, TellsAll n ts cs ∧ ∀ {σ : Type} (v : Call → σ → Out σ) (s : σ), visitEquipments n v ts s = doAll v cs s := by
  intro ts
  induction ts with
  | nil => intro _; exact ⟨[], .nil, fun _ _ => rfl⟩
  | cons t ts ih =>
    intro ha
    obtain ⟨c, hc, ht, _⟩ := callOf_ok h (ha t (by simp))
    obtain ⟨cs, hcs, hv⟩ := ih (fun a hm => ha a (by simp [hm]))
    refine ⟨c :: cs, .cons ht hcs, fun v s => ?_⟩
    simp only [visitEquipments, hc, Out.bind_ok, doAll]
    cases v c s with
    | ok s' => exact hv v s'
    | thrown => rfl
    | ub => rfl

theorem terminalVisitor_ok {n : Net} (h : WF n) {σ : Type} (f : Nat → σ → Out σ) : ∀ {ts : List Nat}
    (_ : ∀ t ∈ ts, n.terms t ≠ none) (s : σ), visitEquipments n (terminalVisitor n f) ts s = doAll f ts s := by
  intro ts
  induction ts with
  | nil => intro _ s; rfl
  | cons t ts ih =>
    intro ha s
    obtain ⟨c, hc, _, hv⟩ := callOf_ok h (ha t (by simp))
    simp only [visitEquipments, hc, Out.bind_ok, doAll, terminalVisitor, hv]
    cases f t s with
    | ok s' => exact ih (fun a hm => ha a (by simp [hm])) s'
    | thrown => rfl
    | ub => rfl

theorem visitEquipments_append {n : Net} {σ : Type} (v : Call → σ → Out σ) : ∀ (xs ys : List Nat) (s : σ),
    visitEquipments n v (xs ++ ys) s = (visitEquipments n v xs s).bind (visitEquipments n v ys) := by
  intro xs ys
  induction xs with
  | nil => intro s; rfl
  | cons x xs ih =>
    intro s
    simp only [List.cons_append, visitEquipments]
    cases callOf n x with
    | ok c =>
      simp only [Out.bind_ok]
      cases v c s with
      | ok s' => simp only [Out.bind_ok]; exact ih s'
      | thrown => rfl
      | ub => rfl
    | thrown => rfl
    | ub => rfl

theorem visitMerged_eq {n : Net} {σ : Type} (v : Call → σ → Out σ) : ∀ (bs : List (List Nat)) (s : σ),
    visitMerged n v bs s = visitEquipments n v bs.flatten s := by
  intro bs
  induction bs with
  | nil => intro s; rfl
  | cons b bs ih =>
    intro s
    rw [List.flatten_cons, visitEquipments_append, visitMerged]
    cases visitEquipments n v b s with
    | ok s' => exact ih s'
    | thrown => rfl
    | ub => rfl

theorem isA_iff {c : Cls} {ty : Ty} : c.isA ty = true ↔ c ∈ listed ty := by
  cases c <;> cases ty <;> simp [Cls.isA, listed]

theorem inP_iff {c : Cls} : c.type.inP = true ↔ c ∈ active := by
  cases c <;> simp [Cls.type, CType.inP, active]

theorem inQ_iff {c : Cls} : c.type.inQ = true ↔ c ∈ reactive := by
  cases c <;> simp [Cls.type, CType.inQ, reactive]

theorem of_iff {n : Net} {e t : Nat} : Of n e t = true ↔ ∃ q, n.equips e = some q ∧ t ∈ q.terms := by
  unfold Of
  cases n.equips e with
  | none => simp
  | some q => simp

theorem allOf_ok {n : Net} (h : WF n) (ty : Ty) : ∀ {ts : List Nat}, (∀ t ∈ ts, n.terms t ≠ none) →
    ∃ es, n.allOf ty ts = .ok es ∧
      ∀ e, es.count e = if ∃ q, n.equips e = some q ∧ q.cls ∈ listed ty then ts.countP (Of n e) else 0 := by
  intro ts
  induction ts with
  | nil => intro _; exact ⟨[], rfl, fun e => by simp⟩
  | cons t ts ih =>
    intro ha
    obtain ⟨es, he, hcount⟩ := ih (fun a hm => ha a (by simp [hm]))
    cases hx : n.terms t with
    | none => exact absurd hx (ha t (by simp))
    | some x =>
      obtain ⟨e0, q, hc, ho, hq, hm⟩ := connectable_ok h hx
      have hof : ∀ e, Of n e t = decide (e = e0) := by
        intro e
        by_cases h0 : e = e0
        · subst h0
          rw [of_iff.mpr ⟨q, hq, hm⟩]; simp
        · have : ¬ Of n e t = true := by
            intro hh
            obtain ⟨q', h1, h2⟩ := of_iff.mp hh
            exact h0 (owner_unique h h1 h2 hq hm).1
          simp [h0, this]
      by_cases hty : q.cls.isA ty = true
      · refine ⟨e0 :: es, by simp [Net.allOf, hx, ho, hq, hty, he, Out.map], fun e => ?_⟩
        rw [List.count_cons, hcount, List.countP_cons, hof]
        by_cases h0 : e = e0
        · subst h0
          have : ∃ q, n.equips e = some q ∧ q.cls ∈ listed ty := ⟨q, hq, isA_iff.mp hty⟩
          simp [this]
        · have h1 : ¬ e0 = e := fun hh => h0 hh.symm
          simp [h0, h1]
      · refine ⟨es, by simp [Net.allOf, hx, ho, hq, hty, he], fun e => ?_⟩
        rw [hcount, List.countP_cons, hof]
        by_cases h0 : e = e0
        · subst h0
          have : ¬ ∃ q, n.equips e = some q ∧ q.cls ∈ listed ty := by
            rintro ⟨q', h1, h2⟩
            rw [hq] at h1
            cases h1
            exact hty (isA_iff.mpr h2)
          simp [this]
        · simp [h0]

theorem sumLoop_ok {n : Net} (h : WF n) (add : Dbl → Dbl → Dbl) {kind : CType → Bool} {cs : List Cls}
    (hk : ∀ c : Cls, kind c.type = true ↔ c ∈ cs) (value : Term → Dbl) : ∀ {ts : List Nat},
    (∀ t ∈ ts, n.terms t ≠ none) → ∃ vs, Amounts n cs value ts vs ∧
      ∀ acc, n.sumLoop add kind value ts acc = .ok (vs.foldl add acc) := by
  intro ts
  induction ts with
  | nil => intro _; exact ⟨[], .nil, fun _ => rfl⟩
  | cons t ts ih =>
    intro ha
    obtain ⟨vs, hv, hs⟩ := ih (fun a hm => ha a (by simp [hm]))
    cases hx : n.terms t with
    | none => exact absurd hx (ha t (by simp))
    | some x =>
      obtain ⟨e, q, hc, ho, hq, hm⟩ := connectable_ok h hx
      by_cases hkq : kind q.cls.type = true
      · by_cases hn : value x = .nan
        · refine ⟨vs, .unset hx hn hv, fun acc => ?_⟩
          simp [Net.sumLoop, hc, hx, hn, Dbl.isNan, hs]
        · refine ⟨value x :: vs, .counted ⟨e, q, hq, hm, (hk _).mp hkq⟩ hx hn hv, fun acc => ?_⟩
          have : (value x).isNan = false := by cases hv : value x <;> simp_all [Dbl.isNan]
          simp [Net.sumLoop, hc, hx, hkq, this, hs]
      · refine ⟨vs, .other ?_ hv, fun acc => ?_⟩
        · rintro ⟨e', q', h1, h2, h3⟩
          obtain ⟨_, rfl⟩ := owner_unique h hq hm h1 h2
          exact hkq ((hk _).mpr h3)
        · simp [Net.sumLoop, hc, hx, hkq, hs]

theorem amounts_unique {n : Net} {cs : List Cls} {value : Term → Dbl} : ∀ {ts : List Nat} {vs ws : List Dbl},
    Amounts n cs value ts vs → Amounts n cs value ts ws → vs = ws := by
  intro ts vs ws h
  induction h generalizing ws with
  | nil => intro h'; cases h'; rfl
  | other hno _ ih =>
    intro h'
    cases h' with
    | other _ hr => exact ih hr
    | unset _ _ hr => exact ih hr
    | counted hc _ _ _ => exact absurd hc hno
  | unset hx hn _ ih =>
    intro h'
    cases h' with
    | other _ hr => exact ih hr
    | unset _ _ hr => exact ih hr
    | counted hc hx' hn' _ =>
      rw [hx] at hx'; cases hx'
      exact absurd hn hn'
  | counted hc hx hn _ ih =>
    intro h'
    cases h' with
    | other hno _ => exact absurd hc hno
    | unset hx' hn' _ =>
      rw [hx] at hx'; cases hx'
      exact absurd hn' hn
    | counted hc' hx' hn' hr =>
      rw [hx] at hx'; cases hx'
      rw [ih hr]

theorem amounts_mem {n : Net} {cs : List Cls} {value : Term → Dbl} {ts : List Nat} {vs : List Dbl}
    (h : Amounts n cs value ts vs) : ∀ v ∈ vs, ∃ t x, t ∈ ts ∧ n.terms t = some x ∧ v = value x ∧ v ≠ .nan := by
  induction h with
  | nil => simp
  | other _ _ ih =>
    intro v hv
    obtain ⟨t, x, h1, h2⟩ := ih v hv
    exact ⟨t, x, by simp [h1], h2⟩
  | unset _ _ _ ih =>
    intro v hv
    obtain ⟨t, x, h1, h2⟩ := ih v hv
    exact ⟨t, x, by simp [h1], h2⟩
  | @counted t x ts vs _ hx hn _ ih =>
    intro v hv
    rcases List.mem_cons.mp hv with rfl | hv
    · exact ⟨t, x, by simp, hx, rfl, hn⟩
    · obtain ⟨t, x, h1, h2⟩ := ih v hv
      exact ⟨t, x, by simp [h1], h2⟩

theorem foldl_finite : ∀ (vs : List Dbl) (r : Rat), (∀ v ∈ vs, Finite v) →
    vs.foldl Dbl.add (.fin r) = .fin (r + total vs) := by
  intro vs
  induction vs with
  | nil => intro r _; simp [total, Rat.add_zero]
  | cons v vs ih =>
    intro r h
    obtain ⟨q, rfl⟩ := h v (by simp)
    rw [List.foldl_cons]
    show vs.foldl Dbl.add (.fin (r + q)) = _
    rw [ih _ (fun w hw => h w (by simp [hw]))]
    simp [total, number, Rat.add_assoc]

theorem amounts_append {n : Net} {cs : List Cls} {value : Term → Dbl} {ts ss : List Nat} {vs ws : List Dbl}
    (h : Amounts n cs value ts vs) (h' : Amounts n cs value ss ws) : Amounts n cs value (ts ++ ss) (vs ++ ws) := by
  induction h with
  | nil => exact h'
  | other a _ ih => exact .other a ih
  | unset a b _ ih => exact .unset a b ih
  | counted a b c _ ih => exact .counted a b c ih

theorem total_append (vs ws : List Dbl) : total (vs ++ ws) = total vs + total ws := by
  induction vs with
  | nil => simp [total, Rat.zero_add]
  | cons v vs ih => simp [total, ih, Rat.add_assoc]

theorem total_perm {vs ws : List Dbl} (h : vs.Perm ws) : total vs = total ws := by
  induction h with
  | nil => rfl
  | cons _ _ ih => simp [total, ih]
  | swap a b l => simp only [total, ← Rat.add_assoc, Rat.add_comm (number a)]
  | trans _ _ ih1 ih2 => exact ih1.trans ih2

theorem amounts_perm {n : Net} {cs : List Cls} {value : Term → Dbl} {ts ss : List Nat} (hp : ts.Perm ss) :
    ∀ {vs : List Dbl}, Amounts n cs value ts vs → ∃ ws, Amounts n cs value ss ws ∧ vs.Perm ws := by
  induction hp with
  | nil => intro vs h; exact ⟨vs, h, .refl _⟩
  | cons t _ ih =>
    intro vs h
    cases h with
    | other a hr => obtain ⟨ws, h1, h2⟩ := ih hr; exact ⟨ws, .other a h1, h2⟩
    | unset a b hr => obtain ⟨ws, h1, h2⟩ := ih hr; exact ⟨ws, .unset a b h1, h2⟩
    | counted a b c hr => obtain ⟨ws, h1, h2⟩ := ih hr; exact ⟨_, .counted a b c h1, h2.cons _⟩
  | swap s t l =>
    intro vs h
    cases h with
    | other a hr =>
      cases hr with
      | other a' hr => exact ⟨_, .other a' (.other a hr), .refl _⟩
      | unset a' b' hr => exact ⟨_, .unset a' b' (.other a hr), .refl _⟩
      | counted a' b' c' hr => exact ⟨_, .counted a' b' c' (.other a hr), .refl _⟩
    | unset a b hr =>
      cases hr with
      | other a' hr => exact ⟨_, .other a' (.unset a b hr), .refl _⟩
      | unset a' b' hr => exact ⟨_, .unset a' b' (.unset a b hr), .refl _⟩
      | counted a' b' c' hr => exact ⟨_, .counted a' b' c' (.unset a b hr), .refl _⟩
    | counted a b c hr =>
      cases hr with
      | other a' hr => exact ⟨_, .other a' (.counted a b c hr), .refl _⟩
      | unset a' b' hr => exact ⟨_, .unset a' b' (.counted a b c hr), .refl _⟩
      | counted a' b' c' hr => exact ⟨_, .counted a' b' c' (.counted a b c hr), .swap _ _ _⟩
  | trans _ _ ih1 ih2 =>
    intro vs h
    obtain ⟨ws, h1, h2⟩ := ih1 h
    obtain ⟨us, h3, h4⟩ := ih2 h1
    exact ⟨us, h3, h2.trans h4⟩

end Verif.BusEquip
