import Verif.Hvdc.Model

/-! Property C28: HVDC stations know their line. -/

namespace Verif.Hvdc

open Verif

/-- The line `l` has the station `h` as an end. -/
def EndOf (s : St) (l h : Nat) : Prop := ∃ a b, s.lines.get? l = some (a, b) ∧ (h = a ∨ h = b)

/-- The station says it belongs to the line. -/
def Says (s : St) (h l : Nat) : Prop := s.stations.get? h = some (some l)

theorem setLine_ok {s : St} {h : Nat} {l : Option Nat} (hh : s.stations.get? h ≠ none) :
    setLine s h l = (.ok (), { s with stations := s.stations.set h l }) := by
  unfold setLine
  cases e : s.stations.get? h with
  | none => exact absurd e hh
  | some _ => rfl

theorem set_keeps {m : AMap Nat (Option Nat)} {a b : Nat} {v : Option Nat} (h : m.get? b ≠ none) : (m.set a v).get? b ≠ none := by
  rw [AMap.get?_set]; split
  · simp
  · exact h

theorem addLine_ok {s : St} {a b : Nat} (ha : s.stations.get? a ≠ none) (hb : s.stations.get? b ≠ none) :
    addLine s true a b = (.ok s.next, ⟨(s.stations.set a (some s.next)).set b (some s.next), s.lines.set s.next (a, b), s.next + 1⟩) := by
  unfold addLine
  simp only [Bool.not_true, Bool.false_eq_true, if_false, if_neg ha, if_neg hb, setLine_ok ha]
  rw [setLine_ok (s := { s with stations := s.stations.set a (some s.next) }) (set_keeps hb)]

/-- An addition either adds the line or changes nothing, and never ends in undefined behaviour. -/
theorem addLine_cases (s : St) (v : Bool) (a b : Nat) :
    addLine s v a b = (.thrown, s) ∨ (s.stations.get? a ≠ none ∧ s.stations.get? b ≠ none ∧
      addLine s v a b = (.ok s.next, ⟨(s.stations.set a (some s.next)).set b (some s.next), s.lines.set s.next (a, b), s.next + 1⟩)) := by
  cases v with
  | false => left; rfl
  | true =>
    by_cases ha : s.stations.get? a = none
    · left; simp [addLine, ha]
    · by_cases hb : s.stations.get? b = none
      · left; simp [addLine, ha, hb]
      · right; exact ⟨ha, hb, addLine_ok ha hb⟩

theorem removeLine_cases (s : St) (l : Nat) :
    (removeLine s l).1 = .ub ∨ ∃ a b, s.lines.get? l = some (a, b) ∧ s.stations.get? a ≠ none ∧ s.stations.get? b ≠ none ∧
      removeLine s l = (.ok (), ⟨(s.stations.set a none).set b none, s.lines.erase l, s.next⟩) := by
  unfold removeLine
  cases e : s.lines.get? l with
  | none => left; rfl
  | some p =>
    obtain ⟨a, b⟩ := p
    by_cases ha : s.stations.get? a = none
    · left; simp [setLine, ha]
    · by_cases hb : s.stations.get? b = none
      · left
        by_cases hab : a = b
        · subst hab; exact absurd hb ha
        · simp only [setLine_ok ha]
          have : (s.stations.set a none).get? b = none := by rw [AMap.get?_set, if_neg hab, hb]
          simp [setLine, this]
      · right
        refine ⟨a, b, rfl, ha, hb, ?_⟩
        simp only [setLine_ok ha]
        rw [setLine_ok (s := { s with stations := s.stations.set a none }) (set_keeps hb)]

/-- The facts that hold after every history. -/
structure Inv (s : St) : Prop where
  says : ∀ h l, Says s h l → EndOf s l h
  freshL : ∀ l, s.lines.get? l ≠ none → l < s.next
  freshS : ∀ h, s.stations.get? h ≠ none → h < s.next

theorem inv_addStation {s : St} (i : Inv s) : Inv (addStation s).2 := by
  refine ⟨?_, ?_, ?_⟩
  · intro h l hs
    unfold Says addStation at hs
    simp only [AMap.get?_set] at hs
    split at hs
    · simp at hs
    · exact i.says h l hs
  · intro l hl
    exact Nat.lt_succ_of_lt (i.freshL l hl)
  · intro h hh
    unfold addStation at hh ⊢
    simp only [AMap.get?_set] at hh ⊢
    split at hh
    · omega
    · exact Nat.lt_succ_of_lt (i.freshS h hh)

theorem inv_addLine {s : St} (i : Inv s) (v : Bool) (a b : Nat) : Inv (addLine s v a b).2 := by
  rcases addLine_cases s v a b with e | ⟨ha, hb, e⟩
  · rw [e]; exact i
  · rw [e]
    refine ⟨?_, ?_, ?_⟩
    · intro h l hs
      unfold Says at hs
      unfold EndOf
      simp only [AMap.get?_set] at hs ⊢
      by_cases h1 : b = h
      · simp only [if_pos h1, Option.some.injEq] at hs
        subst hs
        exact ⟨a, b, by simp, .inr h1.symm⟩
      · simp only [if_neg h1] at hs
        by_cases h2 : a = h
        · simp only [if_pos h2, Option.some.injEq] at hs
          subst hs
          exact ⟨a, b, by simp, .inl h2.symm⟩
        · simp only [if_neg h2] at hs
          obtain ⟨x, y, e1, e2⟩ := i.says h l hs
          have : s.next ≠ l := by
            have := i.freshL l (by rw [e1]; simp)
            omega
          exact ⟨x, y, by rw [if_neg this]; exact e1, e2⟩
    · intro l hl
      simp only [AMap.get?_set] at hl ⊢
      split at hl
      · omega
      · exact Nat.lt_succ_of_lt (i.freshL l hl)
    · intro h hh
      simp only [AMap.get?_set] at hh ⊢
      split at hh
      · rename_i e; subst e; exact Nat.lt_succ_of_lt (i.freshS _ hb)
      · split at hh
        · rename_i e; subst e; exact Nat.lt_succ_of_lt (i.freshS _ ha)
        · exact Nat.lt_succ_of_lt (i.freshS h hh)

theorem inv_removeLine {s : St} (i : Inv s) (l : Nat) (hub : (removeLine s l).1 ≠ .ub) : Inv (removeLine s l).2 := by
  rcases removeLine_cases s l with e | ⟨a, b, hl, ha, hb, e⟩
  · exact absurd e hub
  · rw [e]
    refine ⟨?_, ?_, ?_⟩
    · intro h l' hs
      unfold Says at hs
      unfold EndOf
      simp only [AMap.get?_set, AMap.get?_erase] at hs ⊢
      split at hs
      · simp at hs
      · rename_i hb'
        split at hs
        · simp at hs
        · rename_i ha'
          obtain ⟨x, y, e1, e2⟩ := i.says h l' hs
          refine ⟨x, y, ?_, e2⟩
          rw [if_neg, e1]
          intro hll
          subst hll
          rw [hl] at e1
          cases e1
          rcases e2 with e2 | e2
          · exact ha' e2.symm
          · exact hb' e2.symm
    · intro l' hl'
      simp only [AMap.get?_erase] at hl' ⊢
      split at hl'
      · exact absurd rfl hl'
      · exact i.freshL l' hl'
    · intro h hh
      simp only [AMap.get?_set] at hh ⊢
      split at hh
      · rename_i e; subst e; exact i.freshS _ hb
      · split at hh
        · rename_i e; subst e; exact i.freshS _ ha
        · exact i.freshS h hh

theorem inv_removeStation {s : St} (i : Inv s) (h : Nat) : Inv (removeStation s h).2 := by
  unfold removeStation
  cases e : s.stations.get? h with
  | none => exact i
  | some o =>
    cases o with
    | some _ => exact i
    | none =>
      refine ⟨?_, i.freshL, ?_⟩
      · intro h' l hs
        unfold Says at hs
        simp only [AMap.get?_erase] at hs
        split at hs
        · simp at hs
        · exact i.says h' l hs
      · intro h' hh
        simp only [AMap.get?_erase] at hh
        split at hh
        · exact absurd rfl hh
        · exact i.freshS h' hh

theorem reach_inv {s : St} (h : Reach s) : Inv s := by
  induction h with
  | init => exact ⟨fun h l hs => by simp [Says, init] at hs, fun l hl => by simp [init] at hl, fun h hh => by simp [init] at hh⟩
  | step op _ hub ih =>
    cases op with
    | addStation => exact inv_addStation ih
    | addLine v a b => exact inv_addLine ih v a b
    | removeLine l =>
      refine inv_removeLine ih l ?_
      intro e
      apply hub
      simp [step, e, Out.map]
    | removeStation h => exact inv_removeStation ih h

/-- **C28**, partial: after every history a station linked to a line is an end of that line.  Missing: the converse (`in_use_but_free`), true when a line is
    added only between stations that are not in use (`linked_iff_partial`). -/
theorem linked_is_end_partial {s : St} (h : Reach s) {st l : Nat} (hs : s.stations.get? st = some (some l)) :
    ∃ a b, s.lines.get? l = some (a, b) ∧ (st = a ∨ st = b) := (reach_inv h).says st l hs

/-- Adding a line is all or nothing and needs two known stations. -/
theorem addLine_spec (s : St) (a b : Nat) :
    ((addLine s true a b).1.isOk = true ↔ s.stations.get? a ≠ none ∧ s.stations.get? b ≠ none) ∧
    (∀ v, (addLine s v a b).1 = .thrown → (addLine s v a b).2 = s) ∧ (∀ v, (addLine s v a b).1 ≠ .ub) := by
  refine ⟨?_, ?_, ?_⟩
  · constructor
    · intro h
      rcases addLine_cases s true a b with e | ⟨ha, hb, _⟩
      · rw [e] at h; cases h
      · exact ⟨ha, hb⟩
    · rintro ⟨ha, hb⟩
      rw [addLine_ok ha hb]; rfl
  · intro v h
    rcases addLine_cases s v a b with e | ⟨_, _, e⟩
    · rw [e]
    · rw [e] at h; cases h
  · intro v h
    rcases addLine_cases s v a b with e | ⟨_, _, e⟩ <;> rw [e] at h <;> cases h

/-! ### Lines between free stations -/

/-- The station is an end of some line. -/
def InUse (s : St) (h : Nat) : Prop := ∃ l, EndOf s l h

/-- Histories in which a line is added only between stations that are not in use, and calls are made on live objects. -/
inductive Careful : St → Prop where
  | init : Careful init
  | addStation {s : St} : Careful s → Careful (addStation s).2
  | addLine {s : St} (v : Bool) (a b : Nat) : Careful s → ¬ InUse s a → ¬ InUse s b → Careful (addLine s v a b).2
  | removeLine {s : St} (l : Nat) : Careful s → s.lines.get? l ≠ none → Careful (removeLine s l).2
  | removeStation {s : St} (h : Nat) : Careful s → s.stations.get? h ≠ none → Careful (removeStation s h).2

/-- What holds after a careful history. -/
structure Full (s : St) : Prop extends Inv s where
  ends : ∀ l h, EndOf s l h → Says s h l

theorem full_removeLine {s : St} (i : Full s) {l : Nat} (hl : s.lines.get? l ≠ none) : (removeLine s l).1 = .ok () := by
  cases e : s.lines.get? l with
  | none => exact absurd e hl
  | some p =>
    obtain ⟨a, b⟩ := p
    have ha := i.ends l a ⟨a, b, e, .inl rfl⟩
    have hb := i.ends l b ⟨a, b, e, .inr rfl⟩
    unfold Says at ha hb
    unfold removeLine
    simp only [e]
    rw [setLine_ok (by rw [ha]; simp)]
    simp only
    rw [setLine_ok (s := { s with stations := s.stations.set a none }) (set_keeps (by rw [hb]; simp))]

theorem careful_full {s : St} (h : Careful s) : Full s := by
  induction h with
  | init => exact ⟨reach_inv .init, fun l h he => by obtain ⟨a, b, e, _⟩ := he; simp [init] at e⟩
  | addStation _ ih =>
    refine ⟨inv_addStation ih.toInv, ?_⟩
    intro l h he
    have := ih.ends l h he
    unfold Says at this ⊢
    unfold Hvdc.addStation
    simp only [AMap.get?_set]
    rw [if_neg]
    · exact this
    · intro e
      have := ih.freshS h (by rw [this]; simp)
      omega
  | @addLine s v a b _ ha hb ih =>
    refine ⟨inv_addLine ih.toInv v a b, ?_⟩
    rcases addLine_cases s v a b with e | ⟨la, lb, e⟩
    · rw [e]; exact ih.ends
    · rw [e]
      intro l h he
      obtain ⟨x, y, e1, e2⟩ := he
      unfold Says
      simp only [AMap.get?_set] at e1 ⊢
      split at e1
      · rename_i hn
        cases e1
        subst hn
        rcases e2 with e2 | e2
        · subst e2
          split
          · rfl
          · simp
        · subst e2; simp
      · have hs : Says s h l := ih.ends l h ⟨x, y, e1, e2⟩
        rw [if_neg, if_neg]
        · exact hs
        · rintro rfl; exact ha ⟨l, x, y, e1, e2⟩
        · rintro rfl; exact hb ⟨l, x, y, e1, e2⟩
  | @removeLine s l _ hl ih =>
    have hok := full_removeLine ih hl
    refine ⟨inv_removeLine ih.toInv l (by rw [hok]; simp), ?_⟩
    rcases removeLine_cases s l with e | ⟨a, b, hl', _, _, e⟩
    · rw [e] at hok; cases hok
    · rw [e]
      intro l' h he
      obtain ⟨x, y, e1, e2⟩ := he
      unfold Says
      simp only [AMap.get?_set, AMap.get?_erase] at e1 ⊢
      split at e1
      · cases e1
      · rename_i hne
        have hs : Says s h l' := ih.ends l' h ⟨x, y, e1, e2⟩
        have hd : ∀ z, (z = a ∨ z = b) → z ≠ h := by
          rintro z hz rfl
          have h1 : Says s z l := ih.ends l z ⟨a, b, hl', hz⟩
          unfold Says at hs h1
          rw [hs] at h1
          cases h1
          exact hne rfl
        rw [if_neg (hd b (.inr rfl)), if_neg (hd a (.inl rfl))]
        exact hs
  | @removeStation s h _ hl ih =>
    refine ⟨inv_removeStation ih.toInv h, ?_⟩
    unfold Hvdc.removeStation
    cases e : s.stations.get? h with
    | none => exact absurd e hl
    | some o =>
      cases o with
      | some _ => exact ih.ends
      | none =>
        intro l h' he
        have hs : Says s h' l := ih.ends l h' he
        unfold Says at hs ⊢
        simp only [AMap.get?_erase]
        rw [if_neg]
        · exact hs
        · rintro rfl
          rw [e] at hs
          cases hs

/-- **C28**, partial: when lines are added only between stations not in use, a station is linked to a line exactly when the line has it as an end. -/
theorem linked_iff_partial {s : St} (h : Careful s) (st l : Nat) :
    s.stations.get? st = some (some l) ↔ ∃ a b, s.lines.get? l = some (a, b) ∧ (st = a ∨ st = b) :=
  ⟨(careful_full h).says st l, (careful_full h).ends l st⟩

/-- **C28**, partial: in such a history, removing a station is refused without effect exactly when it is in use. -/
theorem removal_refused_iff_partial {s : St} (h : Careful s) {st : Nat} (hl : s.stations.get? st ≠ none) :
    (removeStation s st = (.thrown, s) ↔ ∃ l a b, s.lines.get? l = some (a, b) ∧ (st = a ∨ st = b)) ∧
    ((∀ l a b, s.lines.get? l = some (a, b) → st ≠ a ∧ st ≠ b) → removeStation s st = (.ok (), { s with stations := s.stations.erase st })) := by
  have f := careful_full h
  have key : (∃ l, Says s st l) ∨ s.stations.get? st = some none := by
    cases e : s.stations.get? st with
    | none => exact absurd e hl
    | some o =>
      cases o with
      | none => right; rfl
      | some l => left; exact ⟨l, e⟩
  constructor
  · constructor
    · intro hr
      rcases key with ⟨l, hs⟩ | e
      · obtain ⟨a, b, e1, e2⟩ := f.says st l hs
        exact ⟨l, a, b, e1, e2⟩
      · unfold removeStation at hr
        rw [e] at hr
        cases hr
    · rintro ⟨l, a, b, e1, e2⟩
      have hs := f.ends l st ⟨a, b, e1, e2⟩
      unfold Says at hs
      unfold removeStation
      rw [hs]
  · intro hno
    rcases key with ⟨l, hs⟩ | e
    · obtain ⟨a, b, e1, e2⟩ := f.says st l hs
      obtain ⟨n1, n2⟩ := hno l a b e1
      rcases e2 with e2 | e2
      · exact absurd e2 n1
      · exact absurd e2 n2
    · unfold removeStation
      rw [e]

/-- **C28**, partial: in such a history, a live line can always be removed, and then its stations are free. -/
theorem removeLine_frees_partial {s : St} (h : Careful s) {l a b : Nat} (hl : s.lines.get? l = some (a, b)) :
    (removeLine s l).1 = .ok () ∧ (removeLine s l).2.stations.get? a = some none ∧ (removeLine s l).2.stations.get? b = some none ∧
    ∀ l', (removeLine s l).2.lines.get? l' = if l = l' then none else s.lines.get? l' := by
  have hok := full_removeLine (careful_full h) (l := l) (by rw [hl]; simp)
  refine ⟨hok, ?_⟩
  rcases removeLine_cases s l with e | ⟨a', b', hl', _, _, e⟩
  · rw [e] at hok; cases hok
  · rw [hl] at hl'
    cases hl'
    rw [e]
    simp only [AMap.get?_set, AMap.get?_erase]
    refine ⟨?_, by simp, fun _ => trivial⟩
    split <;> simp

theorem careful_nodup {s : St} (h : Careful s) : s.lines.NodupKeys := by
  induction h with
  | init => simp [init]
  | addStation _ ih => exact ih
  | @addLine s v a b _ _ _ ih =>
    rcases addLine_cases s v a b with e | ⟨_, _, e⟩
    · rw [e]; exact ih
    · rw [e]; exact AMap.nodupKeys_set ih _ _
  | @removeLine s l h hl ih =>
    have hok := full_removeLine (careful_full h) hl
    rcases removeLine_cases s l with e | ⟨a, b, _, _, _, e⟩
    · rw [e] at hok; cases hok
    · rw [e]; exact AMap.nodupKeys_erase ih _
  | @removeStation s h _ hl ih =>
    unfold Hvdc.removeStation
    split <;> exact ih

/-- **C28**, partial: in such a history, the search of the network for the line of a station finds the line the station is linked to. -/
theorem findHvdcLine_agrees_partial {s : St} (h : Careful s) {st : Nat} {o : Option Nat} (hl : s.stations.get? st = some o) : findHvdcLine s st = o := by
  have f := careful_full h
  have hn := careful_nodup h
  unfold findHvdcLine
  cases e : s.lines.find? (fun p => decide (p.2.1 = st) || decide (p.2.2 = st)) with
  | some p =>
    obtain ⟨l, a, b⟩ := p
    have hm := List.mem_of_find?_eq_some e
    have hp := List.find?_some e
    simp only [Bool.or_eq_true, decide_eq_true_eq] at hp
    have hs := f.ends l st ⟨a, b, AMap.get?_of_mem hn hm, hp.imp Eq.symm Eq.symm⟩
    unfold Says at hs
    rw [hl] at hs
    cases hs
    rfl
  | none =>
    cases o with
    | none => rfl
    | some l =>
      obtain ⟨a, b, e1, e2⟩ := f.says st l hl
      have := List.find?_eq_none.1 e _ (AMap.mem_of_get? e1)
      simp only [Bool.or_eq_true, decide_eq_true_eq, not_or] at this
      rcases e2 with e2 | e2
      · exact absurd e2.symm this.1
      · exact absurd e2.symm this.2

/-- Three stations, a line between the first two. -/
example : Careful (step (step (step (step init .addStation).2 .addStation).2 .addStation).2 (.addLine true 0 1)).2 :=
  .addLine true 0 1 (.addStation (.addStation (.addStation .init))) (by rintro ⟨l, a, b, e, _⟩; cases e) (by rintro ⟨l, a, b, e, _⟩; cases e)

/-! ### What goes wrong otherwise -/

/-- Three stations 0, 1, 2; line 3 between 0 and 1, line 4 between 0 and 2, then line 4 is removed. -/
def shared : St := (step (step (step (step (step (step init .addStation).2 .addStation).2 .addStation).2 (.addLine true 0 1)).2 (.addLine true 0 2)).2 (.removeLine 4)).2

theorem shared_reach : Reach shared :=
  .step (.removeLine 4) (.step (.addLine true 0 2) (.step (.addLine true 0 1) (.step .addStation (.step .addStation (.step .addStation .init
    (by decide)) (by decide)) (by decide)) (by decide)) (by decide)) (by decide)

/-- The station 0 is an end of line 3 but says it has no line. -/
theorem in_use_but_free : shared.lines.get? 3 = some (0, 1) ∧ shared.stations.get? 0 = some none := by decide

/-- So it can be removed although it is in use, and removing the line then touches the destroyed station. -/
theorem in_use_removed : (removeStation shared 0).1 = .ok () ∧ (removeLine (removeStation shared 0).2 3).1 = .ub := by decide

end Verif.Hvdc
