import Verif.Adders.Model
import Verif.UniqueId.Props

/-! Lemmas about the adders. -/

namespace Verif.Adders

open Verif

/-! ### Where terminals are listed -/

/-- The place of a terminal in its voltage level: a node or a bus. -/
def Place.key : Place → Nat ⊕ String
  | .node n => .inl n
  | .bus b _ => .inr b

/-- The terminal of a vertex, if any. -/
def asList : Option (Option TermId) → List TermId
  | some (some x) => [x]
  | some none => []
  | none => []

/-- The terminals a topology lists at a node or bus. -/
def objectsAt : Topo → Nat ⊕ String → List TermId
  | .nodeBreaker nodes _, .inl n => asList (nodes.get? n)
  | .busBreaker buses, .inr b =>
    match buses.get? b with
    | some l => l
    | none => []
  | _, _ => []

def listed (s : Net) (vl : String) (k : Nat ⊕ String) : List TermId :=
  match s.vls.get? vl with
  | some v => objectsAt v.topo k
  | none => []

/-- A terminal can be attached: the node is free, or the bus exists. -/
def fits : Topo → Place → Prop
  | .nodeBreaker nodes _, .node n => ∀ x, nodes.get? n ≠ some (some x)
  | .busBreaker buses, .bus b _ => buses.get? b ≠ none
  | _, _ => False

theorem attachTopo_some_iff (t : Topo) (x : TermId) (p : Place) : (∃ t', attachTopo t x p = some t') ↔ fits t p := by
  cases t with
  | nodeBreaker nodes touched =>
    cases p with
    | node n =>
      simp only [attachTopo, fits]
      cases h : nodes.get? n with
      | none => simp
      | some o => cases o <;> simp
    | bus b c => simp [attachTopo, fits]
  | busBreaker buses =>
    cases p with
    | node n => simp [attachTopo, fits]
    | bus b c =>
      simp only [attachTopo, fits]
      cases h : buses.get? b <;> simp

theorem attachTopo_objects {t t' : Topo} {x : TermId} {p : Place} (h : attachTopo t x p = some t') (k : Nat ⊕ String) :
    objectsAt t' k = if p.key = k then objectsAt t k ++ [x] else objectsAt t k := by
  cases t with
  | nodeBreaker nodes touched =>
    cases p with
    | bus b c => simp [attachTopo] at h
    | node n =>
      simp only [attachTopo] at h
      have hfree : ∀ y, nodes.get? n ≠ some (some y) := by
        intro y e
        rw [e] at h
        cases h
      have h' : t' = .nodeBreaker (nodes.set n (some x)) touched := by
        cases e : nodes.get? n with
        | none => rw [e] at h; cases h; rfl
        | some o =>
          cases o with
          | none => rw [e] at h; cases h; rfl
          | some y => exact absurd e (hfree y)
      subst h'
      cases k with
      | inr b => simp [objectsAt, Place.key]
      | inl m =>
        simp only [objectsAt, Place.key, AMap.get?_set, Sum.inl.injEq]
        by_cases e : n = m
        · subst e
          simp only [if_true]
          cases e : nodes.get? n with
          | none => rfl
          | some o =>
            cases o with
            | none => rfl
            | some y => exact absurd e (hfree y)
        · simp only [if_neg e]
  | busBreaker buses =>
    cases p with
    | node n => simp [attachTopo] at h
    | bus b c =>
      simp only [attachTopo] at h
      cases e : buses.get? b with
      | none => rw [e] at h; cases h
      | some l =>
        rw [e] at h
        cases h
        cases k with
        | inl n => simp [objectsAt, Place.key]
        | inr b' =>
          simp only [objectsAt, Place.key, AMap.get?_set, Sum.inr.injEq]
          by_cases e' : b = b'
          · subst e'; simp [e]
          · simp only [if_neg e']

theorem attachTopo_fits {t t' : Topo} {x : TermId} {p : Place} (h : attachTopo t x p = some t') (p' : Place) :
    fits t' p' ↔ fits t p' ∧ ¬ ∃ n, p = .node n ∧ p' = .node n := by
  cases t with
  | nodeBreaker nodes touched =>
    cases p with
    | bus b c => simp [attachTopo] at h
    | node n =>
      simp only [attachTopo] at h
      have h' : t' = .nodeBreaker (nodes.set n (some x)) touched := by
        cases e : nodes.get? n with
        | none => rw [e] at h; cases h; rfl
        | some o =>
          cases o with
          | none => rw [e] at h; cases h; rfl
          | some y => rw [e] at h; cases h
      subst h'
      cases p' with
      | bus b c => simp [fits]
      | node m =>
        simp only [fits, AMap.get?_set, Place.node.injEq]
        by_cases e : n = m
        · subst e; simp
        · simp only [if_neg e]
          constructor
          · intro hf; exact ⟨hf, by rintro ⟨k, rfl, rfl⟩; exact e rfl⟩
          · exact And.left
  | busBreaker buses =>
    cases p with
    | node n => simp [attachTopo] at h
    | bus b c =>
      simp only [attachTopo] at h
      cases e : buses.get? b with
      | none => rw [e] at h; cases h
      | some l =>
        rw [e] at h
        cases h
        cases p' with
        | node n => simp [fits]
        | bus b' c' =>
          simp only [fits, AMap.get?_set]
          by_cases e' : b = b'
          · subst e'; simp [e]
          · simp [if_neg e']

theorem fits_dryRun {t : Topo} {p : Place} (h : fits t p) : dryRun t p = true := by
  cases t <;> cases p <;> simp_all [fits, dryRun]
  rename_i b _
  cases e : AMap.get? _ b with
  | none => exact absurd e h
  | some _ => rfl

/-- A dry run passes but the attachment fails exactly when the node is occupied. -/
theorem dryRun_not_fits {t : Topo} {p : Place} (h : dryRun t p = true) : ¬ fits t p ↔ ∃ n x, p = .node n ∧ objectsAt t (.inl n) = [x] := by
  cases t with
  | nodeBreaker nodes touched =>
    cases p with
    | bus b c => simp [dryRun] at h
    | node n =>
      simp only [fits, objectsAt]
      constructor
      · intro hn
        cases e : nodes.get? n with
        | none => exact absurd (fun x => by rw [e]; simp) hn
        | some o =>
          cases o with
          | none => exact absurd (fun x => by rw [e]; simp) hn
          | some x => exact ⟨n, x, rfl, by rw [e]; rfl⟩
      · rintro ⟨m, x, hp, hx⟩ hf
        cases hp
        cases e : nodes.get? n with
        | none => rw [e] at hx; cases hx
        | some o =>
          cases o with
          | none => rw [e] at hx; cases hx
          | some y => exact hf y e
  | busBreaker buses =>
    cases p with
    | node n => simp [dryRun] at h
    | bus b c =>
      simp only [dryRun] at h
      constructor
      · intro hn
        exfalso
        apply hn
        simp only [fits]
        intro e
        rw [e] at h
        cases h
      · rintro ⟨n, x, hp, _⟩
        cases hp

theorem clean_get? (nodes : AMap Nat (Option TermId)) (touched : List Nat) (n : Nat) (x : TermId) (h : nodes.NodupKeys) :
    (clean nodes touched).get? n = some (some x) ↔ nodes.get? n = some (some x) := by
  have hn : (clean nodes touched).NodupKeys := by
    unfold AMap.NodupKeys clean at *
    exact h.sublist (List.filter_sublist.map _)
  constructor
  · intro e
    have := AMap.mem_of_get? e
    unfold clean at this
    exact AMap.get?_of_mem h (List.mem_filter.1 this).1
  · intro e
    have := AMap.mem_of_get? e
    refine AMap.get?_of_mem hn ?_
    unfold clean
    exact List.mem_filter.2 ⟨this, by simp⟩

/-- The vertices of a topology have distinct numbers, as do its buses. -/
def topoWF : Topo → Prop
  | .nodeBreaker nodes _ => nodes.NodupKeys
  | .busBreaker buses => buses.NodupKeys

theorem attachTopo_wf {t t' : Topo} {x : TermId} {p : Place} (hw : topoWF t) (h : attachTopo t x p = some t') : topoWF t' := by
  cases t with
  | nodeBreaker nodes touched =>
    cases p with
    | bus b c => simp [attachTopo] at h
    | node n =>
      simp only [attachTopo] at h
      split at h
      · cases h
      · cases h; exact AMap.nodupKeys_set hw _ _
  | busBreaker buses =>
    cases p with
    | node n => simp [attachTopo] at h
    | bus b c =>
      simp only [attachTopo] at h
      split at h
      · cases h
      · cases h; exact AMap.nodupKeys_set hw _ _

/-- What detaching leaves at a place. -/
def afterDetach (x : TermId) : Nat ⊕ String → List TermId → List TermId
  | .inl _, _ => []
  | .inr _, l => l.erase x

theorem opt_eq_of_iff {o o' : Option (Option TermId)} (h : ∀ x, o = some (some x) ↔ o' = some (some x)) :
    asList o = asList o' := by
  cases o with
  | none =>
    cases o' with
    | none => rfl
    | some p =>
      cases p with
      | none => rfl
      | some x => have := (h x).2 rfl; cases this
  | some q =>
    cases q with
    | some x => rw [(h x).1 rfl]
    | none =>
      cases o' with
      | none => rfl
      | some p =>
        cases p with
        | none => rfl
        | some x => have := (h x).2 rfl; cases this

theorem detachTopo_spec {debug : Bool} {t t' : Topo} {x : TermId} {p : Place} (hw : topoWF t) (h : detachTopo debug t x p = .ok t') :
    topoWF t' ∧ ∀ k, objectsAt t' k = if p.key = k then afterDetach x k (objectsAt t k) else objectsAt t k := by
  cases t with
  | nodeBreaker nodes touched =>
    cases p with
    | bus b c => simp [detachTopo] at h
    | node n =>
      simp only [detachTopo] at h
      split at h
      · cases h
      · split at h
        · cases h
        · cases h
          have hs := AMap.nodupKeys_set hw n (none : Option TermId)
          refine ⟨?_, ?_⟩
          · unfold topoWF clean AMap.NodupKeys at *
            exact hs.sublist (List.filter_sublist.map _)
          · intro k
            cases k with
            | inr b => simp [objectsAt, Place.key]
            | inl m =>
              simp only [objectsAt, Place.key, Sum.inl.injEq]
              rw [opt_eq_of_iff (o' := AMap.get? (AMap.set nodes n none) m) (fun y => clean_get? _ _ _ _ hs)]
              simp only [AMap.get?_set]
              by_cases e : n = m
              · subst e; simp [afterDetach, asList]
              · simp only [if_neg e]
  | busBreaker buses =>
    cases p with
    | node n => simp [detachTopo] at h
    | bus b c =>
      simp only [detachTopo] at h
      cases e : buses.get? b with
      | none => rw [e] at h; cases h
      | some l =>
        rw [e] at h
        simp only at h
        split at h
        · cases h
          refine ⟨AMap.nodupKeys_set hw _ _, ?_⟩
          intro k
          cases k with
          | inl n => simp [objectsAt, Place.key]
          | inr b' =>
            simp only [objectsAt, Place.key, AMap.get?_set, Sum.inr.injEq]
            by_cases e' : b = b'
            · subst e'; simp [e, afterDetach]
            · simp only [if_neg e']
        · cases h

/-- A listed terminal can be detached, assertions included. -/
theorem detachTopo_listed (debug : Bool) {t : Topo} {x : TermId} {p : Place} (h : x ∈ objectsAt t p.key) : ∃ t', detachTopo debug t x p = .ok t' := by
  cases t with
  | nodeBreaker nodes touched =>
    cases p with
    | bus b c => simp [objectsAt, Place.key] at h
    | node n =>
      simp only [objectsAt, Place.key] at h
      cases e : nodes.get? n with
      | none => rw [e] at h; cases h
      | some o =>
        cases o with
        | none => rw [e] at h; cases h
        | some y =>
          rw [e] at h
          simp only [asList, List.mem_singleton] at h
          subst h
          simp [detachTopo, e]
  | busBreaker buses =>
    cases p with
    | node n => simp [objectsAt, Place.key] at h
    | bus b c =>
      simp only [objectsAt, Place.key] at h
      cases e : buses.get? b with
      | none => rw [e] at h; cases h
      | some l =>
        rw [e] at h
        simp only at h
        simp [detachTopo, e, h]

/-! ### Attachment -/

theorem attach_cases (s : Net) (x : TermId) (vl : String) (p : Place) :
    (s.vls.get? vl = none ∧ attach s x vl p = (.ub, s)) ∨
    (∃ v, s.vls.get? vl = some v ∧ ¬ fits v.topo p ∧ attach s x vl p = (.thrown, s)) ∨
    (∃ v t, s.vls.get? vl = some v ∧ fits v.topo p ∧ attachTopo v.topo x p = some t ∧
      attach s x vl p = (.ok (), { s with vls := s.vls.set vl { v with topo := t } })) := by
  unfold attach
  cases h : s.vls.get? vl with
  | none => left; exact ⟨rfl, rfl⟩
  | some v =>
    right
    cases e : attachTopo v.topo x p with
    | none =>
      left
      refine ⟨v, rfl, ?_, by simp only [e]⟩
      intro hf
      obtain ⟨t, ht⟩ := (attachTopo_some_iff v.topo x p).2 hf
      rw [e] at ht
      cases ht
    | some t => right; exact ⟨v, t, rfl, (attachTopo_some_iff v.topo x p).1 ⟨t, e⟩, e, by simp only [e]⟩

/-- A terminal can be attached to a voltage level of the network. -/
def Fit (s : Net) (vl : String) (p : Place) : Prop := ∃ v, s.vls.get? vl = some v ∧ fits v.topo p

theorem attach_ok_iff (s : Net) (x : TermId) (vl : String) (p : Place) : (attach s x vl p).1 = .ok () ↔ Fit s vl p := by
  rcases attach_cases s x vl p with ⟨h, e⟩ | ⟨v, h, hf, e⟩ | ⟨v, t, h, hf, ht, e⟩
  · rw [e]
    refine ⟨fun h => (by cases h), ?_⟩
    rintro ⟨v, hv, _⟩; rw [h] at hv; cases hv
  · rw [e]
    refine ⟨fun h => (by cases h), ?_⟩
    rintro ⟨v', hv, hf'⟩; rw [h] at hv; cases hv; exact absurd hf' hf
  · rw [e]; exact ⟨fun _ => ⟨v, h, hf⟩, fun _ => rfl⟩

theorem attach_state {s s' : Net} {x : TermId} {vl : String} {p : Place} (h : attach s x vl p = (.ok (), s')) :
    s'.equips = s.equips ∧ s'.others = s.others ∧
    (∀ vl' k, listed s' vl' k = if vl = vl' ∧ p.key = k then listed s vl' k ++ [x] else listed s vl' k) ∧
    (∀ vl' p', Fit s' vl' p' ↔ Fit s vl' p' ∧ ¬ (vl = vl' ∧ ∃ n, p = .node n ∧ p' = .node n)) := by
  rcases attach_cases s x vl p with ⟨_, e⟩ | ⟨v, _, _, e⟩ | ⟨v, t, hv, _, ht, e⟩
  · rw [e] at h; cases h
  · rw [e] at h; cases h
  · rw [e] at h
    cases h
    refine ⟨rfl, rfl, ?_, ?_⟩
    · intro vl' k
      simp only [listed, AMap.get?_set]
      by_cases e1 : vl = vl'
      · subst e1
        simp only [hv, if_true, true_and]
        exact attachTopo_objects ht k
      · simp [e1]
    · intro vl' p'
      unfold Fit
      simp only [AMap.get?_set]
      by_cases e1 : vl = vl'
      · subst e1
        simp only [if_true, Option.some.injEq, exists_eq_left', hv, true_and]
        exact attachTopo_fits ht p'
      · simp [e1]

/-- All ends can be attached, one after the other. -/
def Fits (s : Net) (ends : List (String × Place)) : Prop :=
  (∀ e, e ∈ ends → Fit s e.1 e.2) ∧ ends.Pairwise fun a b => ¬ (a.1 = b.1 ∧ ∃ n, a.2 = .node n ∧ b.2 = .node n)

theorem attachAll_ok_iff (ends : List (String × Place)) : ∀ (s : Net) (id : String) (i : Nat), (attachAll s id i ends).1 = .ok () ↔ Fits s ends := by
  induction ends with
  | nil => intro s id i; simp [attachAll, Fits]
  | cons e r ih =>
    intro s id i
    obtain ⟨vl, p⟩ := e
    unfold attachAll
    rcases h : attach s (id, i) vl p with ⟨o, t⟩
    cases o with
    | ok u =>
      simp only
      rw [ih t id (i + 1)]
      have hf : Fit s vl p := (attach_ok_iff s (id, i) vl p).1 (by rw [h])
      have hst := (attach_state h).2.2.2
      unfold Fits
      constructor
      · rintro ⟨h1, h2⟩
        refine ⟨?_, ?_⟩
        · intro e he
          rcases List.mem_cons.1 he with rfl | he
          · exact hf
          · exact ((hst _ _).1 (h1 e he)).1
        · refine List.pairwise_cons.2 ⟨?_, h2⟩
          intro b hb
          exact ((hst _ _).1 (h1 b hb)).2
      · rintro ⟨h1, h2⟩
        rw [List.pairwise_cons] at h2
        exact ⟨fun e he => (hst _ _).2 ⟨h1 e (List.mem_cons_of_mem _ he), h2.1 e he⟩, h2.2⟩
    | thrown =>
      simp only
      refine ⟨fun h => (by cases h), ?_⟩
      rintro ⟨h1, _⟩
      have := (attach_ok_iff s (id, i) vl p).2 (h1 _ List.mem_cons_self)
      rw [h] at this; cases this
    | ub =>
      simp only
      refine ⟨fun h => (by cases h), ?_⟩
      rintro ⟨h1, _⟩
      have := (attach_ok_iff s (id, i) vl p).2 (h1 _ List.mem_cons_self)
      rw [h] at this; cases this

theorem attachAll_equips (ends : List (String × Place)) : ∀ (s : Net) (id : String) (i : Nat), (attachAll s id i ends).2.equips = s.equips := by
  induction ends with
  | nil => intro s id i; rfl
  | cons e r ih =>
    intro s id i
    obtain ⟨vl, p⟩ := e
    unfold attachAll
    rcases attach_cases s (id, i) vl p with ⟨_, e⟩ | ⟨v, _, _, e⟩ | ⟨v, t, _, _, _, e⟩ <;> rw [e]
    simp only
    rw [ih]

/-- No attachment ends in undefined behaviour when the voltage levels are alive. -/
theorem attachAll_not_ub (ends : List (String × Place)) : ∀ (s : Net) (id : String) (i : Nat), (∀ e, e ∈ ends → s.vls.get? e.1 ≠ none) →
    (attachAll s id i ends).1 ≠ .ub := by
  induction ends with
  | nil => intro s id i _ h; cases h
  | cons e r ih =>
    intro s id i hl
    obtain ⟨vl, p⟩ := e
    unfold attachAll
    rcases attach_cases s (id, i) vl p with ⟨h, e⟩ | ⟨v, _, _, e⟩ | ⟨v, t, _, _, _, e⟩
    · exact absurd h (hl _ List.mem_cons_self)
    · rw [e]; simp
    · rw [e]
      simp only
      apply ih
      intro e' he'
      simp only [AMap.get?_set]
      split
      · simp
      · exact hl e' (List.mem_cons_of_mem _ he')

theorem resolve_live {s : Net} {sub : Option String} {e : String × Args} {x : String × Place} (h : resolve s sub e = some x) :
    x.1 = e.1 ∧ s.vls.get? x.1 ≠ none ∧ build e.2 = .ok x.2 := by
  unfold resolve at h
  split at h
  · cases h
  · split at h
    · cases h
    · rename_i v hv
      split at h
      · cases h
      · split at h
        · rename_i p hp
          cases h
          exact ⟨rfl, by simp [hv], hp⟩
        · cases h

theorem resolveAll_live {s : Net} {sub : Option String} : ∀ {ends : List (String × Args)} {l : List (String × Place)}, resolveAll s sub ends = some l →
    ∀ e, e ∈ l → s.vls.get? e.1 ≠ none
  | [], l, h, e, he => by cases h; cases he
  | x :: r, l, h, e, he => by
    unfold resolveAll at h
    split at h
    · cases h
    · rename_i y hy
      split at h
      · cases h
      · rename_i l' hl'
        cases h
        rcases List.mem_cons.1 he with rfl | he
        · exact (resolve_live hy).2.1
        · exact resolveAll_live hl' e he

theorem newId_fresh {s : Net} {ensure : Bool} {id n : String} (h : newId s ensure id = some n) : n ∉ used s := by
  unfold newId at h
  split at h
  · cases h
  · split at h
    · split at h
      · cases h
      · rename_i hn; cases h; exact hn
    · split at h
      · cases h
      · rename_i hn; cases h; exact hn

theorem fresh_equips {s : Net} {n : String} (h : n ∉ used s) : s.equips.get? n = none := by
  rw [AMap.get?_eq_none_iff]
  intro hk
  apply h
  unfold used
  exact List.mem_append_left _ (List.mem_append_left _ hk)

theorem build_not_ub (a : Args) : build a ≠ .ub := by
  obtain ⟨n, b, c⟩ := a
  have hc : connectionBus ⟨n, b, c⟩ ≠ .ub := by
    unfold connectionBus
    intro h
    split at h
    · split at h <;> cases h
    · cases h
  unfold build createBusTerminal
  intro h
  split at h
  · cases h
  · rename_i e; exact hc e
  · split at h
    · split at h <;> cases h
    · split at h <;> cases h

end Verif.Adders
