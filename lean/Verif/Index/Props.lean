import Verif.Index.Lemmas

/-!
C01, C02, C04: the network index refines a plain table of names.
-/

namespace Verif.Index

open Verif

/-- One call of the abstract naming service. -/
def Spec.Step (S : Spec) (op : Op) (out : Out (Option Nat)) (S' : Spec) : Prop :=
  match op with
  | .add id ty e => S.Add id ty e out S'
  | .remove u => S.Remove u out S'
  | .addAlias u a t e => S.AddAlias u a t e out S'
  | .removeAlias u a => S.RemoveAlias u a out S'

/-- A history of calls of the abstract naming service with the outcome of each call. -/
inductive Spec.Exec : Spec → List Op → List (Out (Option Nat)) → Spec → Prop where
  | nil (S) : Spec.Exec S [] [] S
  | cons {S S' S'' op ops out outs} : S.Step op out S' → Spec.Exec S' ops outs S'' →
      Spec.Exec S (op :: ops) (out :: outs) S''

/-- The service without any name. -/
def Spec.empty : Spec := { names := fun _ => none, listing := fun _ => [], next := 0 }

/-- Outcomes of a history of calls of the model. -/
def outcomes (s : State) : List Op → List (Out (Option Nat))
  | [] => []
  | op :: ops => (step s op).1 :: outcomes (step s op).2 ops

theorem abs_init : abs init = Spec.empty := rfl

theorem add_refines {s : State} (h : Inv s) (hs : Small s) (id : String) (ty : Nat) (e : Bool) :
    (abs s).Add id ty e ((add s id ty e).1.map some) (abs (add s id ty e).2) ∧ Inv (add s id ty e).2 ∧
      (usedNames (add s id ty e).2).length ≤ (usedNames s).length + 1 := by
  by_cases hid : id = ""
  · subst hid
    have hr : add s "" ty e = (.thrown, s) := rfl
    rw [hr]
    refine ⟨?_, h, by simp⟩
    cases e with
    | true => exact ⟨_, chosen_ensure h hs "", by simp [Out.map]⟩
    | false => exact ⟨"", by simp [Spec.Chosen], by simp [Out.map]⟩
  · have done : ∀ n, n ≠ "" → absNames s n = none → (abs s).Chosen e id n →
        (abs s).Add id ty e ((checkAndAdd s n ty).1.map some) (abs (checkAndAdd s n ty).2) ∧
        Inv (checkAndAdd s n ty).2 ∧
        (usedNames (checkAndAdd s n ty).2).length ≤ (usedNames s).length + 1 := by
      intro n hn hfree hch
      obtain ⟨r1, r2, r3, r4, r5, r6⟩ := checkAndAdd_spec h n ty hn hfree
      refine ⟨⟨n, hch, ?_⟩, r2, by omega⟩
      have : ¬ (id = "" ∨ (abs s).names n ≠ none) := by simp [hid, abs, hfree]
      rw [if_neg this, r1]
      exact ⟨rfl, r3, r4, r5⟩
    cases e with
    | true =>
      have hr : add s id ty true = checkAndAdd s (UniqueId.getUniqueId id (inUse s)) ty := by
        simp [add, hid]
      rw [hr]
      have hch := chosen_ensure h hs id
      have hfree : absNames s (UniqueId.getUniqueId id (inUse s)) = none := by
        have := UniqueId.getUniqueId_fresh id (usedNames s) hs
        rw [← getUniqueId_inUse h, mem_usedNames h] at this
        exact Classical.not_not.mp this
      have hne : UniqueId.getUniqueId id (inUse s) ≠ "" := by
        rw [getUniqueId_inUse h]; exact UniqueId.getUniqueId_nonempty id (usedNames s) hs
      exact done _ hne hfree hch
    | false =>
      obtain ⟨r, h1, h2⟩ := find_eq h id (Or.inl hid)
      cases r with
      | some o =>
        have hr : add s id ty false = (.thrown, s) := by simp [add, hid, h1]
        rw [hr]
        refine ⟨⟨id, by simp [Spec.Chosen], ?_⟩, h, by simp⟩
        have : id = "" ∨ (abs s).names id ≠ none := by
          right; intro hc
          simp only [abs] at hc
          rw [hc] at h2; simp at h2
        rw [if_pos this]; exact ⟨rfl, rfl⟩
      | none =>
        have hr : add s id ty false = checkAndAdd s id ty := by simp [add, hid, h1]
        rw [hr]
        have hfree : absNames s id = none := by
          cases k : absNames s id with
          | none => rfl
          | some e => rw [k] at h2; simp at h2
        exact done id hid hfree (by simp [Spec.Chosen])

theorem remove_refines {s : State} (h : Inv s) (u : Nat) :
    (abs s).Remove u ((remove s u).1.map (fun _ => none)) (abs (remove s u).2) ∧ Inv (remove s u).2 ∧
      (usedNames (remove s u).2).length ≤ (usedNames s).length := by
  cases hl : live s u with
  | none =>
    have hr : remove s u = (.ub, s) := by simp [remove, hl]
    rw [hr]
    refine ⟨Or.inl ⟨?_, rfl, rfl⟩, h, by simp⟩
    rw [alive_iff]; exact (live_none_iff h).mp hl
  | some o =>
    obtain ⟨ho, hu⟩ := (live_iff h).mp hl
    obtain ⟨l, hl1, hl2, hinv, hn, hg, hnext, hlen⟩ := removeObj_spec h ho
    have hr : remove s u = (.ok (), { s with
              alias := eraseAliases s.alias o.aliases
              types := s.types.set o.ty (l.erase o.uid)
              objs := s.objs.erase o.id }) := by
      simp [remove, hl, ho, hl1, hl2]
    rw [hr]
    refine ⟨Or.inr ⟨o.id, o.ty, ?_, rfl, ?_, ?_, hnext⟩, hinv, hlen⟩
    · simp [abs, absNames, ho, hu]
    · subst hu; exact hn
    · subst hu; exact hg

theorem addAlias_refines {s : State} (h : Inv s) (hs : Small s) (u : Nat) (a t : String) (e : Bool) :
    (abs s).AddAlias u a t e ((addAlias s u a t e).1.map (fun _ => none)) (abs (addAlias s u a t e).2) ∧
      Inv (addAlias s u a t e).2 ∧
      (usedNames (addAlias s u a t e).2).length ≤ (usedNames s).length + 1 := by
  cases hl : live s u with
  | none =>
    have hr : addAlias s u a t e = (.ub, s) := by simp [addAlias, hl]
    rw [hr]
    refine ⟨Or.inl ⟨?_, rfl, rfl⟩, h, by simp⟩
    rw [alive_iff]; exact (live_none_iff h).mp hl
  | some o =>
    obtain ⟨ho, hu⟩ := (live_iff h).mp hl
    have halive : (abs s).Alive u := alive_iff.mpr ⟨_, _, ho, hu⟩
    have hch : (abs s).Chosen e a (if e then UniqueId.getUniqueId a (inUse s) else a) := by
      cases e with
      | true => exact chosen_ensure h hs a
      | false => simp [Spec.Chosen]
    have hty : (t ≠ "" ∧ (o.byType.get? t).isSome) ↔
        (t ≠ "" ∧ ∃ m, (abs s).names m = some ⟨u, .alias t⟩) := by
      constructor
      · rintro ⟨h1, h2⟩; exact ⟨h1, by subst hu; exact (typed_alias_iff h ho t h1).mp h2⟩
      · rintro ⟨h1, h2⟩; exact ⟨h1, (typed_alias_iff h ho t h1).mpr (by subst hu; exact h2)⟩
    generalize hn : (if e then UniqueId.getUniqueId a (inUse s) else a) = n at hch
    by_cases hc : t ≠ "" ∧ (o.byType.get? t).isSome
    · have hr : addAlias s u a t e = (.thrown, s) := by
        unfold addAlias
        simp only [hl]
        rw [if_pos hc]
      rw [hr]
      exact ⟨Or.inr ⟨halive, n, hch, Or.inl ⟨hc.1, (hty.mp hc).2, rfl, rfl⟩⟩, h, by simp⟩
    · have ht : t = "" ∨ o.byType.get? t = none := by
        by_cases e1 : t = ""
        · exact Or.inl e1
        · right
          cases k : o.byType.get? t with
          | none => rfl
          | some x => exact absurd ⟨e1, by simp [k]⟩ hc
      have hr : addAlias s u a t e = match indexAddAlias s o n with
          | (.ok true, s') =>
            if t = "" then
              (.ok (), updateObj s' { o with noType := setInsert o.noType n })
            else
              (.ok (), updateObj s' { o with byType := o.byType.set t n })
          | (.ok false, s') => (.ok (), s')
          | (.thrown, s') => (.thrown, s')
          | (.ub, s') => (.ub, s') := by
        unfold addAlias
        simp only [hl]
        rw [if_neg hc, hn]
        rcases indexAddAlias s o n with ⟨b | _ | _, s'⟩
        · cases b <;> rfl
        · rfl
        · rfl
      have hneg : ¬ (t ≠ "" ∧ ∃ m, (abs s).names m = some ⟨u, .alias t⟩) := fun hh => hc (hty.mpr hh)
      cases hname : absNames s n with
      | some x =>
        have hidx := indexAddAlias_spec h o n
        rw [hname] at hidx
        by_cases hx : x.owner = o.uid
        · simp only [hx, if_true] at hidx
          rw [hidx] at hr
          simp only [] at hr
          rw [hr]
          refine ⟨Or.inr ⟨halive, n, hch, Or.inr ⟨hneg, ?_⟩⟩, h, by simp⟩
          have : (abs s).names n = some x := hname
          rw [this]
          simp only []
          rw [if_pos (by rw [hx, hu])]
          simp [Out.map]
        · simp only [hx, if_false] at hidx
          rw [hidx] at hr
          simp only [] at hr
          rw [hr]
          refine ⟨Or.inr ⟨halive, n, hch, Or.inr ⟨hneg, ?_⟩⟩, h, by simp⟩
          have : (abs s).names n = some x := hname
          rw [this]
          simp only []
          rw [if_neg (by rw [← hu]; exact hx)]
          simp [Out.map]
      | none =>
        have hidx := indexAddAlias_spec h o n
        rw [hname] at hidx
        simp only [] at hidx
        rw [hidx] at hr
        obtain ⟨r1, r2, r3, r4, r5⟩ := freshAlias_spec h ho hname ht
        have hr' : addAlias s u a t e =
            (.ok (), updateObj { s with alias := s.alias.emplace n o.id } (withAlias o t n)) := by
          rw [hr]
          unfold withAlias
          by_cases e1 : t = "" <;> simp [e1]
        rw [hr']
        refine ⟨Or.inr ⟨halive, n, hch, Or.inr ⟨hneg, ?_⟩⟩, r1, Nat.le_of_eq r5⟩
        have : (abs s).names n = none := hname
        rw [this]
        simp only []
        refine ⟨rfl, ?_, r3, r4⟩
        subst hu
        exact r2

theorem removeAlias_refines {s : State} (h : Inv s) (u : Nat) (a : String) :
    (abs s).RemoveAlias u a ((removeAlias s u a).1.map (fun _ => none)) (abs (removeAlias s u a).2) ∧
      Inv (removeAlias s u a).2 ∧
      (usedNames (removeAlias s u a).2).length ≤ (usedNames s).length := by
  cases hl : live s u with
  | none =>
    have hr : removeAlias s u a = (.ub, s) := by simp [removeAlias, hl]
    rw [hr]
    refine ⟨Or.inl ⟨?_, rfl, rfl⟩, h, by simp⟩
    rw [alive_iff]; exact (live_none_iff h).mp hl
  | some o =>
    obtain ⟨ho, hu⟩ := (live_iff h).mp hl
    have halive : (abs s).Alive u := alive_iff.mpr ⟨_, _, ho, hu⟩
    have hiff : (∃ t, (abs s).names a = some ⟨u, .alias t⟩) ↔ s.alias.get? a = some o.id := by
      constructor
      · rintro ⟨t, ht⟩
        unfold abs absNames at ht
        simp only [] at ht
        cases k1 : s.objs.get? a with
        | some x => simp [k1] at ht
        | none =>
          cases k2 : s.alias.get? a with
          | none => simp [k1, k2] at ht
          | some i =>
            obtain ⟨_, x, k3, _⟩ := h.fwd _ _ k2
            simp [k1, k2, k3] at ht
            rw [h.uidInj _ _ _ _ k3 ho (by rw [ht.1, hu])]
      · intro k
        obtain ⟨k1, _⟩ := h.fwd _ _ k
        exact ⟨o.aliasType a, by simp [abs, absNames, k1, k, ho, hu]⟩
    by_cases hc : s.alias.get? a = some o.id
    · have hr : removeAlias s u a =
          (.ok (), updateObj { s with alias := s.alias.erase a } (withoutAlias o a)) := by
        unfold removeAlias withoutAlias
        simp only [hl, hc]
        simp only [ne_eq, not_true_eq_false, if_false]
        cases o.byType.find? (fun p => p.2 == a) <;> rfl
      obtain ⟨r1, r2, r3, r4, r5⟩ := dropAlias_spec h ho hc
      rw [hr]
      exact ⟨Or.inr ⟨halive, Or.inl ⟨hiff.mpr hc, rfl, r2, r3, r4⟩⟩, r1, r5⟩
    · have hr : removeAlias s u a = (.thrown, s) := by
        unfold removeAlias
        simp only [hl]
        cases k : s.alias.get? a with
        | none => rfl
        | some i =>
          have : i ≠ o.id := by rintro rfl; exact hc k
          simp [this]
      rw [hr]
      exact ⟨Or.inr ⟨halive, Or.inr ⟨fun hh => hc (hiff.mp hh), rfl, rfl⟩⟩, h, by simp⟩

theorem step_refines {s : State} (h : Inv s) (hs : Small s) (op : Op) :
    (abs s).Step op (step s op).1 (abs (step s op).2) ∧ Inv (step s op).2 ∧
      (usedNames (step s op).2).length ≤ (usedNames s).length + 1 := by
  cases op with
  | add id ty e => exact add_refines h hs id ty e
  | remove u => have := remove_refines h u; exact ⟨this.1, this.2.1, Nat.le_succ_of_le this.2.2⟩
  | addAlias u a t e => exact addAlias_refines h hs u a t e
  | removeAlias u a => have := removeAlias_refines h u a; exact ⟨this.1, this.2.1, Nat.le_succ_of_le this.2.2⟩

theorem run_refines_from {s : State} (h : Inv s) (ops : List Op)
    (hs : (usedNames s).length + ops.length < UniqueId.ulongMax) :
    (abs s).Exec ops (outcomes s ops) (abs (run s ops)) ∧ Inv (run s ops) ∧
      (usedNames (run s ops)).length ≤ (usedNames s).length + ops.length := by
  induction ops generalizing s with
  | nil => exact ⟨.nil _, h, by simp [run]⟩
  | cons op ops ih =>
    simp only [List.length_cons] at hs
    obtain ⟨h1, h2, h3⟩ := step_refines h (by unfold Small; omega) op
    obtain ⟨g1, g2, g3⟩ := ih h2 (by omega)
    refine ⟨.cons h1 g1, g2, ?_⟩
    have : run s (op :: ops) = run (step s op).2 ops := rfl
    rw [this, List.length_cons]; omega

/-- States reachable by a history shorter than the range of `unsigned long`. -/
def Reachable (s : State) : Prop := ∃ ops : List Op, ops.length < UniqueId.ulongMax - 1 ∧ s = run init ops

theorem reachable_inv {s : State} (h : Reachable s) : Inv s ∧ Small s := by
  obtain ⟨ops, h1, rfl⟩ := h
  have := run_refines_from inv_init ops (by simp [usedNames, init]; omega)
  refine ⟨this.2.1, ?_⟩
  have h2 := this.2.2
  simp [usedNames, init] at h2
  unfold Small
  simp [usedNames]
  simp [init]
  omega

/-! ## The properties -/

/-- C01, C02, C04 (refinement): every history of calls, accepted or refused, is a history of the plain name
    table with the same outcomes; and in the state reached, every lookup gives what the name table says. -/
theorem history_refines (ops : List Op) (hlen : ops.length < UniqueId.ulongMax - 1) :
    ∃ S : Spec, Spec.empty.Exec ops (outcomes init ops) S ∧
      (∀ n, n ≠ "" → ∃ r, find (run init ops) n = .ok r ∧ r.map (·.uid) = (S.names n).map (·.owner)) ∧
      (∀ t, getAll (run init ops) t = S.listing t ∧ getObjectCount (run init ops) t = (S.listing t).length) := by
  have := run_refines_from inv_init ops (by simp [usedNames, init]; omega)
  refine ⟨abs (run init ops), this.1, fun n hn => find_eq this.2.1 n (Or.inl hn), fun t => ⟨rfl, ?_⟩⟩
  unfold getObjectCount abs getAll
  simp only []
  cases (run init ops).types.get? t <;> rfl

/-- C01: `find` never throws for a non-empty name (so the uniqueness predicates of the adders do not either). -/
theorem reachable_find_total {s : State} (h : Reachable s) (n : String) (hn : n ≠ "") :
    ∃ r, find s n = .ok r := by
  obtain ⟨r, hr, _⟩ := find_eq (reachable_inv h).1 n (Or.inl hn)
  exact ⟨r, hr⟩

/-- C01: a lookup that finds something finds an object whose id is the name looked up, or one of whose aliases
    it is; and it is the only object of the network for which this holds. -/
theorem find_sound {s : State} (h : Reachable s) {n : String} {o : Obj} (hf : find s n = .ok (some o)) :
    (o.id = n ∨ n ∈ o.aliases) ∧ live s o.uid = some o ∧
    ∀ u o', live s u = some o' → (o'.id = n ∨ n ∈ o'.aliases) → o' = o := by
  have hi := (reachable_inv h).1
  have hobj : (s.alias.get? n = none ∧ s.objs.get? n = some o) ∨
      (∃ i, s.alias.get? n = some i ∧ s.objs.get? i = some o) := by
    unfold find resolve at hf
    cases ha : s.alias.get? n with
    | none =>
      by_cases e : n = ""
      · simp [ha, e] at hf
        rw [e] at ha; simp [ha] at hf
      · simp [ha, e] at hf; exact Or.inl ⟨rfl, hf⟩
    | some i =>
      by_cases e : i = ""
      · simp [ha, e] at hf
      · simp [ha, e] at hf; exact Or.inr ⟨i, rfl, hf⟩
  have hlive : ∀ k, s.objs.get? k = some o → live s o.uid = some o := fun k hk =>
    (live_iff hi).mpr ⟨by rw [(hi.key _ _ hk).1]; exact hk, rfl⟩
  rcases hobj with ⟨ha, ho⟩ | ⟨i, ha, ho⟩
  · refine ⟨Or.inl (hi.key _ _ ho).1, hlive _ ho, ?_⟩
    intro u o' hl hn
    obtain ⟨g1, g2⟩ := (live_iff hi).mp hl
    rcases hn with hn | hn
    · rw [hn, ho] at g1; cases g1; rfl
    · rw [hi.bwd _ _ g1 n hn] at ha; cases ha
  · obtain ⟨k1, x, k2, k3⟩ := hi.fwd _ _ ha
    rw [ho] at k2; cases k2
    refine ⟨Or.inr k3, hlive _ ho, ?_⟩
    intro u o' hl hn
    obtain ⟨g1, g2⟩ := (live_iff hi).mp hl
    rcases hn with hn | hn
    · rw [hn, k1] at g1; cases g1
    · have := hi.bwd _ _ g1 n hn
      rw [ha] at this; cases this
      rw [ho] at g1; cases g1; rfl

/-- C01: a lookup that finds nothing means that no living object has this name. -/
theorem find_none {s : State} (h : Reachable s) {n : String} (hf : find s n = .ok none)
    {u : Nat} {o : Obj} (hl : live s u = some o) : o.id ≠ n ∧ n ∉ o.aliases := by
  have hi := (reachable_inv h).1
  obtain ⟨g1, g2⟩ := (live_iff hi).mp hl
  have hne : n ≠ "" ∨ s.alias.get? n ≠ none := by
    by_cases e : n = ""
    · right; intro ha
      rw [e] at hf ha
      simp [find, resolve, ha] at hf
    · exact Or.inl e
  obtain ⟨r, h1, h2⟩ := find_eq hi n hne
  rw [hf] at h1; cases h1
  have hnone : absNames s n = none := by
    cases k : absNames s n with
    | none => rfl
    | some e => rw [k] at h2; simp at h2
  obtain ⟨k1, k2⟩ := (absNames_none_iff hi n).mp hnone
  constructor
  · intro e; rw [e, k1] at g1; cases g1
  · intro e; rw [hi.bwd _ _ g1 n e] at k2; cases k2

/-- C01: a refused call (exception) leaves the whole index as it was. -/
theorem refused_unchanged {s : State} (h : Reachable s) (op : Op) (ht : (step s op).1 = .thrown) :
    ∀ n, find (step s op).2 n = find s n ∧ ∀ t, getAll (step s op).2 t = getAll s t := by
  suffices hsame : (step s op).2 = s by rw [hsame]; exact fun n => ⟨rfl, fun t => rfl⟩
  obtain ⟨hi, hs⟩ := reachable_inv h
  cases op with
  | add id ty e =>
    unfold step add at ht ⊢
    simp only [] at ht ⊢
    have key : ∀ n, (checkAndAdd s n ty).1.map some = .thrown → (checkAndAdd s n ty).2 = s := by
      intro n hn
      unfold checkAndAdd at hn ⊢
      by_cases e1 : n = ""
      · simp [e1]
      · simp only [e1, if_false] at hn ⊢
        cases k : s.objs.get? n with
        | some x => rfl
        | none => simp [k, Out.map] at hn
    by_cases e1 : id = ""
    · simp [e1]
    · simp only [e1, if_false] at ht ⊢
      cases e with
      | true => exact key _ ht
      | false =>
        simp only [Bool.false_eq_true, if_false] at ht ⊢
        cases k : find s id with
        | thrown => rfl
        | ub => rfl
        | ok r =>
          cases r with
          | some o => rfl
          | none => simp only [k] at ht; exact key _ ht
  | remove u =>
    have := (remove_refines hi u).1
    unfold step at ht ⊢
    simp only [] at ht ⊢
    unfold Spec.Remove at this
    rw [ht] at this
    rcases this with ⟨_, h2, _⟩ | ⟨_, _, _, h2, _⟩ <;> cases h2
  | addAlias u a t e =>
    unfold step addAlias at ht ⊢
    simp only [] at ht ⊢
    cases hl : live s u with
    | none => rfl
    | some o =>
      simp only [hl] at ht ⊢
      split
      · rfl
      · rename_i hc
        rw [if_neg hc] at ht
        have hidx := indexAddAlias_spec hi o (if e = true then UniqueId.getUniqueId a (inUse s) else a)
        rw [hidx] at ht ⊢
        cases k : absNames s (if e = true then UniqueId.getUniqueId a (inUse s) else a) with
        | none =>
          simp only [k] at ht
          by_cases e1 : t = "" <;> simp [e1, Out.map] at ht
        | some x =>
          by_cases hx : x.owner = o.uid <;> simp [hx]
  | removeAlias u a =>
    unfold step removeAlias at ht ⊢
    simp only [] at ht ⊢
    cases hl : live s u with
    | none => rfl
    | some o =>
      simp only [hl] at ht ⊢
      cases k : s.alias.get? a with
      | none => rfl
      | some i =>
        simp only [k] at ht ⊢
        by_cases e1 : i = o.id
        · simp only [e1, ne_eq, not_true_eq_false, if_false] at ht
          cases k2 : o.byType.find? (fun p => p.2 == a) <;> simp [k2, Out.map] at ht
        · simp [e1]

/-- C01: an addition under a name in use (id or alias) is refused. -/
theorem add_in_use_refused {s : State} {id : String} {o : Obj}
    (hf : find s id = .ok (some o)) (ty : Nat) : (step s (.add id ty false)).1 = .thrown := by
  unfold step add
  by_cases e : id = ""
  · simp [e, Out.map]
  · simp [e, hf, Out.map]

/-- C01: an accepted addition returns a new handle, under which the object is found by its id; every other name
    resolves as before. -/
theorem add_then_find {s : State} (h : Reachable s) {id : String} {ty : Nat} {u : Nat}
    (hok : (step s (.add id ty false)).1 = .ok (some u)) :
    let s' := (step s (.add id ty false)).2
    live s u = none ∧
    (∃ o, find s' id = .ok (some o) ∧ o.uid = u ∧ o.id = id ∧ o.ty = ty ∧ o.aliases = []) ∧
    (∀ n, n ≠ id → find s' n = find s n) := by
  obtain ⟨hi, hs⟩ := reachable_inv h
  have hid : id ≠ "" := by rintro rfl; simp [step, add, Out.map] at hok
  have hfn : find s id = .ok none := by
    unfold step add at hok
    simp only [hid, if_false, Bool.false_eq_true] at hok
    cases k : find s id with
    | thrown => simp [k, Out.map] at hok
    | ub => simp [k, Out.map] at hok
    | ok r =>
      cases r with
      | none => rfl
      | some o => simp [k, Out.map] at hok
  have hr : step s (.add id ty false) = ((checkAndAdd s id ty).1.map some, (checkAndAdd s id ty).2) := by
    simp [step, add, hid, hfn]
  obtain ⟨r, h1, h2⟩ := find_eq hi id (Or.inl hid)
  rw [hfn] at h1; cases h1
  have hfree : absNames s id = none := by
    cases k : absNames s id with
    | none => rfl
    | some e => rw [k] at h2; simp at h2
  obtain ⟨k1, k2⟩ := (absNames_none_iff hi id).mp hfree
  obtain ⟨r1, _, _, _, _, _⟩ := checkAndAdd_spec hi id ty hid hfree
  have hu : u = s.next := by
    rw [hr, r1] at hok
    simp [Out.map] at hok; exact hok.symm
  rw [hr]
  have hobj : ∀ k, (checkAndAdd s id ty).2.objs.get? k =
      if id = k then some (Obj.mk s.next id ty [] []) else s.objs.get? k := by
    intro k
    simp only [checkAndAdd, hid, if_false, k1]
    rw [AMap.get?_emplace, k1]; simp
  have hal : (checkAndAdd s id ty).2.alias = s.alias := by
    simp only [checkAndAdd, hid, if_false, k1]
  refine ⟨?_, ⟨Obj.mk s.next id ty [] [], ?_, hu.symm, rfl, rfl, rfl⟩, ?_⟩
  · rw [live_none_iff hi]
    rintro ⟨k, o, g1, g2⟩
    have := (hi.key _ _ g1).2.2
    omega
  · unfold find resolve
    simp [hal, k2, hid, hobj]
  · intro n hn
    unfold find resolve
    simp only [hal]
    cases ka : s.alias.get? n with
    | none => simp [hobj, Ne.symm hn]
    | some i =>
      obtain ⟨_, x, g2, _⟩ := hi.fwd _ _ ka
      have : id ≠ i := by rintro rfl; rw [k1] at g2; cases g2
      simp [hobj, this]

/-- C01/C02: a name once given keeps designating the same object until that object or that alias is removed. -/
theorem find_stable {s : State} (h : Reachable s) {n : String} {o : Obj}
    (hf : find s n = .ok (some o)) (op : Op)
    (hrem : op ≠ .remove o.uid) (hal : op ≠ .removeAlias o.uid n) :
    ∃ o', find (step s op).2 n = .ok (some o') ∧ o'.uid = o.uid := by
  obtain ⟨hi, hs⟩ := reachable_inv h
  have hne : n ≠ "" ∨ s.alias.get? n ≠ none := by
    by_cases e : n = ""
    · right; intro ha
      rw [e] at hf ha
      simp [find, resolve, ha] at hf
    · exact Or.inl e
  obtain ⟨r, h1, h2⟩ := find_eq hi n hne
  rw [hf] at h1; cases h1
  obtain ⟨e, he, heo⟩ : ∃ e, absNames s n = some e ∧ e.owner = o.uid := by
    cases k : absNames s n with
    | none => rw [k] at h2; simp at h2
    | some e => rw [k] at h2; simp at h2; exact ⟨e, rfl, h2.symm⟩
  obtain ⟨k1, k2, _⟩ := step_refines hi hs op
  -- the abstract name survives
  have hkeep : ∃ e', absNames (step s op).2 n = some e' ∧ e'.owner = o.uid := by
    have he' : (abs s).names n = some e := he
    have hsame : ∀ S' : Spec, S' = abs s → ∃ e', S'.names n = some e' ∧ e'.owner = o.uid := by
      rintro _ rfl; exact ⟨e, he, heo⟩
    show ∃ e', (abs (step s op).2).names n = some e' ∧ e'.owner = o.uid
    cases op with
    | add id ty en =>
      obtain ⟨m, _, hm⟩ := k1
      split at hm
      · exact hsame _ hm.2
      · rename_i hc
        rw [hm.2.1]
        have : n ≠ m := by
          rintro rfl; apply hc; right; rw [he']; simp
        exact ⟨e, by simp [this, he'], heo⟩
    | remove u =>
      have hu : u ≠ o.uid := by rintro rfl; exact hrem rfl
      rcases k1 with ⟨_, _, k⟩ | ⟨_, _, _, _, k, _⟩
      · exact hsame _ k
      · rw [k]
        simp only [he']
        exact ⟨e, by simp [heo, Ne.symm hu], heo⟩
    | addAlias u a t en =>
      rcases k1 with ⟨_, _, k⟩ | ⟨_, m, _, hm⟩
      · exact hsame _ k
      · rcases hm with ⟨_, _, _, k⟩ | ⟨_, hm⟩
        · exact hsame _ k
        · cases km : (abs s).names m with
          | some x =>
            rw [km] at hm
            simp only [] at hm
            split at hm
            · exact hsame _ hm.2
            · exact hsame _ hm.2
          | none =>
            rw [km] at hm
            simp only [] at hm
            rw [hm.2.1]
            have : n ≠ m := by rintro rfl; rw [he'] at km; cases km
            exact ⟨e, by simp [this, he'], heo⟩
    | removeAlias u a =>
      rcases k1 with ⟨_, _, k⟩ | ⟨_, hm⟩
      · exact hsame _ k
      · rcases hm with ⟨⟨t, ht⟩, _, k, _⟩ | ⟨_, _, k⟩
        · rw [k]
          have : n ≠ a := by
            rintro rfl
            rw [he'] at ht; cases ht
            apply hal; rw [← heo]
          exact ⟨e, by simp [this, he'], heo⟩
        · exact hsame _ k
  obtain ⟨e', he1, he2⟩ := hkeep
  have hne' : n ≠ "" ∨ (step s op).2.alias.get? n ≠ none := by
    by_cases e0 : n = ""
    · right; intro ha
      have : (step s op).2.objs.get? n = none := by
        cases k : (step s op).2.objs.get? n with
        | none => rfl
        | some x => exact absurd e0 (k2.key _ _ k).2.1
      rw [(absNames_none_iff k2 n).mpr ⟨this, ha⟩] at he1; cases he1
    · exact Or.inl e0
  obtain ⟨r', g1, g2⟩ := find_eq k2 n hne'
  rw [he1] at g2
  cases r' with
  | none => simp at g2
  | some o' => simp at g2; exact ⟨o', g1, by rw [g2, he2]⟩

/-- C02: after `addAlias` succeeds, the alias resolves to the object (for any alias but the empty string it is not
    refused for; with unicity asked for, the alias actually given does). -/
theorem addAlias_then_find {s : State} (h : Reachable s) {u : Nat} {a t : String}
    (hok : (step s (.addAlias u a t false)).1 = .ok none) :
    ∃ o, find (step s (.addAlias u a t false)).2 a = .ok (some o) ∧ o.uid = u ∧
      (a ∈ o.aliases ∨ a = o.id) := by
  obtain ⟨hi, hs⟩ := reachable_inv h
  obtain ⟨k1, k2, _⟩ := step_refines hi hs (.addAlias u a t false)
  generalize (step s (.addAlias u a t false)).1 = out at *
  generalize (step s (.addAlias u a t false)).2 = s' at *
  subst hok
  have hn : ∃ e, absNames s' a = some e ∧ e.owner = u := by
    rcases k1 with ⟨_, k, _⟩ | ⟨_, m, hc, hm⟩
    · cases k
    · simp [Spec.Chosen] at hc
      subst hc
      rcases hm with ⟨_, _, k, _⟩ | ⟨_, hm⟩
      · cases k
      · cases km : (abs s).names m with
        | some x =>
          rw [km] at hm
          simp only [] at hm
          split at hm
          · rename_i hx
            have : absNames s' = absNames s := congrArg Spec.names hm.2
            exact ⟨x, by rw [this]; exact km, hx⟩
          · cases hm.1
        | none =>
          rw [km] at hm
          simp only [] at hm
          refine ⟨⟨u, .alias t⟩, ?_, rfl⟩
          have : absNames s' = _ := hm.2.1
          rw [this]; simp
  obtain ⟨e, he1, he2⟩ := hn
  unfold absNames at he1
  cases ko : s'.objs.get? a with
  | some x =>
    have ha : s'.alias.get? a = none := by
      cases ka : s'.alias.get? a with
      | none => rfl
      | some i => have := (k2.fwd _ _ ka).1; rw [ko] at this; cases this
    simp [ko] at he1
    subst he1
    have := k2.key _ _ ko
    exact ⟨x, by simp [find, resolve, ha, this.2.1, ko], he2, Or.inr this.1.symm⟩
  | none =>
    simp only [ko] at he1
    cases ka : s'.alias.get? a with
    | none => simp [ka] at he1
    | some i =>
      obtain ⟨_, x, g1, g2⟩ := k2.fwd _ _ ka
      simp [ka, g1] at he1
      subst he1
      exact ⟨x, by simp [find, resolve, ka, (k2.key _ _ g1).2.1, g1], he2, Or.inl g2⟩

/-- C02: an alias in use by another object, as id or alias, is refused. -/
theorem addAlias_in_use_refused {s : State} (h : Reachable s) {u : Nat} {a t : String} {o : Obj}
    (hf : find s a = .ok (some o)) (hu : o.uid ≠ u) (halive : (live s u).isSome) :
    (step s (.addAlias u a t false)).1 = .thrown := by
  obtain ⟨hi, hs⟩ := reachable_inv h
  obtain ⟨k1, k2, _⟩ := step_refines hi hs (.addAlias u a t false)
  generalize (step s (.addAlias u a t false)).1 = out at *
  generalize (step s (.addAlias u a t false)).2 = s' at *
  have hne : a ≠ "" ∨ s.alias.get? a ≠ none := by
    by_cases e : a = ""
    · right; intro ha
      rw [e] at hf ha
      simp [find, resolve, ha] at hf
    · exact Or.inl e
  obtain ⟨r, h1, h2⟩ := find_eq hi a hne
  rw [hf] at h1; cases h1
  obtain ⟨x, hx⟩ := Option.isSome_iff_exists.mp halive
  rcases k1 with ⟨k, _, _⟩ | ⟨_, m, hc, hm⟩
  · exact absurd (alive_iff.mpr ⟨_, _, (live_iff hi).mp hx⟩) k
  · simp [Spec.Chosen] at hc
    subst hc
    rcases hm with ⟨_, _, k, _⟩ | ⟨_, hm⟩
    · exact k
    · cases km : (abs s).names m with
      | some y =>
        rw [km] at hm
        have : absNames s m = some y := km
        rw [this] at h2
        simp at h2
        simp only [] at hm
        rw [if_neg (by rw [← h2]; exact hu)] at hm
        exact hm.1
      | none =>
        have : absNames s m = none := km
        rw [this] at h2; simp at h2

/-- C02: removing an object frees its id and all its aliases, and touches no other name. -/
theorem remove_frees {s : State} (h : Reachable s) {u : Nat} {o : Obj} (hl : live s u = some o) :
    (step s (.remove u)).1 = .ok none ∧
    let s' := (step s (.remove u)).2
    find s' o.id = .ok none ∧ (∀ a ∈ o.aliases, a ≠ "" → find s' a = .ok none) ∧ live s' u = none ∧
    (∀ n, n ≠ o.id → n ∉ o.aliases → find s' n = find s n) := by
  obtain ⟨hi, hs⟩ := reachable_inv h
  obtain ⟨ho, hu⟩ := (live_iff hi).mp hl
  obtain ⟨l, hl1, hl2, hinv, hn, hg, hnext, hlen⟩ := removeObj_spec hi ho
  have hr : step s (.remove u) = (.ok none, { s with
            alias := eraseAliases s.alias o.aliases
            types := s.types.set o.ty (l.erase o.uid)
            objs := s.objs.erase o.id }) := by
    simp [step, remove, hl, ho, hl1, hl2, Out.map]
  rw [hr]
  have hidne := (hi.key _ _ ho).2.1
  refine ⟨rfl, ?_, ?_, ?_, ?_⟩
  · have : (eraseAliases s.alias o.aliases).get? o.id = none := by
      rw [get?_eraseAliases]
      split
      · rfl
      · cases k : s.alias.get? o.id with
        | none => rfl
        | some i => have := (hi.fwd _ _ k).1; rw [ho] at this; cases this
    simp [find, resolve, this, hidne, AMap.get?_erase]
  · intro a ha hane
    have h1 : (eraseAliases s.alias o.aliases).get? a = none := by rw [get?_eraseAliases]; simp [ha]
    have h2 : s.objs.get? a = none := (hi.fwd _ _ (hi.bwd _ _ ho a ha)).1
    simp [find, resolve, h1, hane, AMap.get?_erase, h2]
  · rw [live_none_iff hinv]
    rintro ⟨k, x, g1, g2⟩
    simp only [AMap.get?_erase] at g1
    by_cases e : o.id = k
    · simp [e] at g1
    · simp [e] at g1
      exact e (hi.uidInj _ _ _ _ ho g1 (by rw [hu, g2]))
  · intro n hn1 hn2
    have h1 : (eraseAliases s.alias o.aliases).get? n = s.alias.get? n := by rw [get?_eraseAliases]; simp [hn2]
    unfold find resolve
    simp only [h1, AMap.get?_erase]
    cases ka : s.alias.get? n with
    | none => simp [Ne.symm hn1]
    | some i =>
      have : o.id ≠ i := by
        rintro rfl
        obtain ⟨_, x, g2, g3⟩ := hi.fwd _ _ ka
        rw [ho] at g2; cases g2; exact hn2 g3
      simp [this]

/-- C02: a freed id can be used again at once. -/
theorem remove_then_add {s : State} (h : Reachable s) {u : Nat} {o : Obj} (hl : live s u = some o) (ty : Nat) :
    ∃ v, (step (step s (.remove u)).2 (.add o.id ty false)).1 = .ok (some v) := by
  obtain ⟨hi, hs⟩ := reachable_inv h
  obtain ⟨_, h1, _⟩ := remove_frees h hl
  obtain ⟨ho, hu⟩ := (live_iff hi).mp hl
  have hidne := (hi.key _ _ ho).2.1
  have hi' := (step_refines hi hs (.remove u)).2.1
  have : (step s (.remove u)).2.objs.get? o.id = none := by
    obtain ⟨r, g1, g2⟩ := find_eq hi' o.id (Or.inl hidne)
    rw [h1] at g1; cases g1
    have hnone : absNames (step s (.remove u)).2 o.id = none := by
      cases k : absNames (step s (.remove u)).2 o.id with
      | none => rfl
      | some e => rw [k] at g2; simp at g2
    exact ((absNames_none_iff hi' _).mp hnone).1
  refine ⟨(step s (.remove u)).2.next, ?_⟩
  generalize (step s (.remove u)).2 = s' at *
  simp [step, add, hidne, h1, checkAndAdd, this, Out.map]

/-- C04: the listing of a type is exactly the living objects of that type, each once, in registration order
    (handles are numbered by registration, see `add_handle`), and the count is its length. -/
theorem getAll_exact {s : State} (h : Reachable s) (t : Nat) :
    (getAll s t).Pairwise (· < ·) ∧
    (∀ u, u ∈ getAll s t ↔ ∃ o, live s u = some o ∧ o.ty = t) ∧
    getObjectCount s t = (getAll s t).length := by
  obtain ⟨hi, hs⟩ := reachable_inv h
  refine ⟨hi.typNodup t, ?_, ?_⟩
  · intro u
    rw [hi.typ]
    constructor
    · rintro ⟨k, o, h1, h2, h3⟩
      exact ⟨o, (live_iff hi).mpr ⟨by rw [(hi.key _ _ h1).1]; exact h1, h2⟩, h3⟩
    · rintro ⟨o, h1, h2⟩
      obtain ⟨g1, g2⟩ := (live_iff hi).mp h1
      exact ⟨_, o, g1, g2, h2⟩
  · unfold getObjectCount getAll
    cases s.types.get? t <;> rfl

/-- C04: handles are numbered in registration order: a new object gets a number above every living one. -/
theorem add_handle {s : State} (h : Reachable s) {id : String} {ty : Nat} {e : Bool} {u : Nat}
    (hok : (step s (.add id ty e)).1 = .ok (some u)) :
    (∀ v o, live s v = some o → v < u) ∧
    getAll (step s (.add id ty e)).2 ty = getAll s ty ++ [u] ∧
    ∀ t, t ≠ ty → getAll (step s (.add id ty e)).2 t = getAll s t := by
  obtain ⟨hi, hs⟩ := reachable_inv h
  obtain ⟨k1, k2, _⟩ := step_refines hi hs (.add id ty e)
  obtain ⟨n, _, hm⟩ := k1
  rw [hok] at hm
  split at hm
  · cases hm.1
  · obtain ⟨h1, h2, h3, h4⟩ := hm
    cases h1
    refine ⟨?_, ?_, ?_⟩
    · intro v o hv
      obtain ⟨g1, g2⟩ := (live_iff hi).mp hv
      have := (hi.key _ _ g1).2.2
      show v < s.next
      omega
    · have := congrFun h3 ty
      simp at this
      exact this
    · intro t ht
      have := congrFun h3 t
      simp [ht] at this
      exact this

/-! ## Non-vacuity -/

/-- A small history: two lines and a load, an alias of each kind, a refused addition, a removal. -/
def demoOps : List Op :=
  [.add "L1" 0 false, .add "L2" 0 false, .add "LOAD" 1 false, .addAlias 0 "alias1" "" false,
   .addAlias 0 "alias2" "CGMES" false, .add "alias1" 1 false, .addAlias 1 "L1" "" false, .remove 0,
   .add "alias1" 1 false]

example : Reachable (run init demoOps) := ⟨demoOps, by simp [demoOps, UniqueId.ulongMax], rfl⟩

example : outcomes init demoOps =
    [.ok (some 0), .ok (some 1), .ok (some 2), .ok none, .ok none, .thrown, .thrown, .ok none, .ok (some 3)] := by
  decide

example : (live (run init (demoOps.take 5)) 0).map (·.aliases) = some ["alias1", "alias2"] := by decide

example : getAll (run init demoOps) 0 = [1] ∧ getAll (run init demoOps) 1 = [2, 3] := by decide

example : (find (run init (demoOps.take 5)) "alias2").map (·.map (·.id)) = .ok (some "L1") := by decide

end Verif.Index
