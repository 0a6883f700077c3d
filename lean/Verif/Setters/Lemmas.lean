import Verif.Setters.Spec
import Verif.XmlNet.ImportLemmas

/-!
What the calls keep of the parts of an equipment.  Helper lemmas of C94.
-/

namespace Verif.Setters

open Verif Verif.Xml Verif.XmlNet

theorem grd_ok {α : Type} {bad : Bool} {y z : α} : grd bad y = .ok z ↔ bad = false ∧ y = z := by cases bad <;> simp [grd]

theorem grd_thrown {α : Type} {bad : Bool} {y : α} : grd bad y = .thrown ↔ bad = true := by cases bad <;> simp [grd]

theorem setReg_ok {α : Type} {r : Option Ref} {s : Bool} {y z : α} (h : setReg r s y = .ok z) : y = z := (grd_ok.1 h).2

theorem lift_ok {α β : Type} {x : Out α} {f : α → β} {b : β} (h : x.map f = .ok b) : ∃ a, x = .ok a ∧ f a = b := map_ok_iff.1 h

/-! ### Identifiers and terminals -/

theorem own_false {x : Ident} {n : String} (h : ¬ own x n = true) : n ≠ x.head.id ∧ n ∉ x.aliases.map Prod.fst := by
  simp only [own, Bool.or_eq_true, beq_iff_eq, List.contains_iff_mem, not_or] at h
  exact h

theorem ident_valid {o : IdentOp} {x y : Ident} (hx : IdentValid x) (h : o.set x = .ok y) : IdentValid y := by
  cases o with
  | setFictitious b =>
    simp only [IdentOp.set, Out.ok.injEq] at h
    subst h
    exact ⟨hx.ids, hx.nodup, hx.types, hx.props⟩
  | addAlias others a t e =>
    simp only [IdentOp.set] at h
    generalize (if e = true then UniqueId.getUniqueId a fun n => own x n || others n else a) = n at h
    split at h
    · cases h
    · rename_i ht
      split at h
      · simp only [Out.ok.injEq] at h; exact h ▸ hx
      · rename_i ho
        split at h
        · cases h
        · exact addAlias_valid (a := n) (t := t) hx (by
            have := own_false ho
            unfold Ident.addAlias
            rw [if_neg ht, if_neg (by simpa [not_or] using this)]
            exact h)
  | removeAlias a =>
    simp only [IdentOp.set, grd_ok] at h
    obtain ⟨_, rfl⟩ := h
    refine ⟨fun b hb => hx.ids b (List.mem_filter.1 hb).1, ?_, hx.types.sublist List.filter_sublist, hx.props⟩
    exact hx.nodup.sublist (List.filter_sublist.map _)
  | setProperty k v =>
    simp only [IdentOp.set, Out.ok.injEq] at h
    subst h
    exact ⟨hx.ids, hx.nodup, hx.types, propset_nodup k v x.props hx.props⟩

/-- The identifier and the name stay. -/
theorem ident_head {o : IdentOp} {x y : Ident} (h : o.set x = .ok y) : y.head.id = x.head.id ∧ y.head.name = x.head.name := by
  cases o with
  | setFictitious b => simp only [IdentOp.set, Out.ok.injEq] at h; subst h; exact ⟨rfl, rfl⟩
  | addAlias others a t e =>
    simp only [IdentOp.set] at h
    generalize (if e = true then UniqueId.getUniqueId a fun n => own x n || others n else a) = n at h
    split at h
    · cases h
    split at h
    · simp only [Out.ok.injEq] at h; subst h; exact ⟨rfl, rfl⟩
    split at h
    · cases h
    simp only [Out.ok.injEq] at h; subst h; exact ⟨rfl, rfl⟩
  | removeAlias a => simp only [IdentOp.set, grd_ok] at h; obtain ⟨_, rfl⟩ := h; exact ⟨rfl, rfl⟩
  | setProperty k v => simp only [IdentOp.set, Out.ok.injEq] at h; subst h; exact ⟨rfl, rfl⟩

theorem ident_fictitious {o : IdentOp} {x y : Ident} (h : o.set x = .ok y) (ho : ∀ b, o ≠ .setFictitious b) : y.head.fictitious = x.head.fictitious := by
  cases o with
  | setFictitious b => exact absurd rfl (ho b)
  | addAlias others a t e =>
    simp only [IdentOp.set] at h
    generalize (if e = true then UniqueId.getUniqueId a fun n => own x n || others n else a) = n at h
    split at h
    · cases h
    split at h
    · simp only [Out.ok.injEq] at h; subst h; rfl
    split at h
    · cases h
    simp only [Out.ok.injEq] at h; subst h; rfl
  | removeAlias a => simp only [IdentOp.set, grd_ok] at h; obtain ⟨_, rfl⟩ := h; rfl
  | setProperty k v => simp only [IdentOp.set, Out.ok.injEq] at h; subst h; rfl

theorem term_valid {o : TermOp} {t u : Term} (ht : PlaceValid t.place) (h : o.set t = .ok u) : PlaceValid u.place := by
  obtain ⟨pl, p, q⟩ := t
  cases o <;> cases pl <;> simp only [TermOp.set, Out.ok.injEq, grd_ok] at h
  all_goals first
    | cases h; done
    | (subst h; exact ht)
    | (obtain ⟨hb, rfl⟩ := h
       simp only [Bool.or_eq_false_iff, beq_eq_false_iff_ne] at hb
       exact hb.1)

theorem shTerm_valid {o : TermOp} {t u : Term} (ht : PlaceValid t.place) (h : shTermSet o t = .ok u) : PlaceValid u.place := by
  unfold shTermSet at h
  split at h
  · obtain ⟨_, rfl⟩ := grd_ok.1 h; exact ht
  · exact term_valid ht h

theorem side_valid {o : TermOp} {s u : Side} (ht : PlaceValid s.term.place) (h : sideSet o s = .ok u) : PlaceValid u.term.place := by
  obtain ⟨t, h1, rfl⟩ := lift_ok h
  exact term_valid ht h1

/-! ### Limits -/

theorem reactive_valid {o : ReactiveOp} {l : Reactive} (h : o.set = .ok l) : ReactiveValid l := by
  cases o with
  | minMax a b =>
    obtain ⟨x, hc, rfl⟩ := lift_ok h
    unfold Curve.buildMinMax at hc
    split at hc
    · cases hc
    · rename_i hn
      split at hc
      · cases hc
      · rename_i hlt
        simp only [Out.ok.injEq] at hc
        subst hc
        simp only [Bool.or_eq_true, not_or, Bool.not_eq_true] at hn hlt
        exact ⟨hn.1, hn.2, hlt⟩
  | curve pts =>
    obtain ⟨x, hc, rfl⟩ := lift_ok h
    obtain ⟨c, hp, h2⟩ := Out.bind_eq_ok.1 hc
    split at h2
    · cases h2
    · rename_i hl
      simp only [Out.ok.injEq] at h2
      subst h2
      have := Curve.addPoints_spec pts [] c trivial (by simp) hp
      exact ⟨this.1, by omega, this.2.2⟩

theorem uniqueLoop_named {ts : Limits.TLs} {base : String} : ∀ (n i : Nat) (cur : String), cur ≠ "" → Limits.uniqueLoop ts base n i cur ≠ "" := by
  intro n
  induction n with
  | zero => intro i cur h; exact h
  | succ n ih =>
    intro i cur h
    simp only [Limits.uniqueLoop]
    split
    · refine ih _ _ ?_
      intro he
      have := congrArg String.toList he
      simp [UniqueId.candidate] at this
    · exact h

theorem runAdder_named : ∀ (as : List Limits.Args) (ts : Limits.TLs), (∀ t ∈ ts, Dbl.lt 0 t.value = true ∧ t.name ≠ "") →
    ∀ t ∈ Limits.runAdder ts as, Dbl.lt 0 t.value = true ∧ t.name ≠ "" := by
  intro as
  induction as with
  | nil => intro ts h; exact h
  | cons a as ih =>
    intro ts h
    refine ih _ ?_
    unfold Limits.endTemporaryLimit
    split
    · exact h
    · rename_i h1
      split
      · exact h
      · rename_i h2
        split
        · exact h
        · split
          · exact h
          · rename_i h3
            intro t ht
            rcases Limits.mem_emplace ht with rfl | ht
            · refine ⟨Dbl.lt_of_not_le (by simpa using h1) rfl (by simpa using h2), ?_⟩
              show (if a.ensureNameUnicity = true then _ else _) ≠ ""
              split
              · exact uniqueLoop_named _ _ _ h3
              · exact h3
            · exact h t ht

theorem putLims_valid {k : Kind} {o : Limits.LL} {l : Lims} (hl : LimsValid l) (ho : LimitsValid o) : LimsValid (putLims k o l) := by
  obtain ⟨h1, h2, h3⟩ := hl
  cases k with
  | active => exact ⟨fun x hx => by cases hx; exact ho, h2, h3⟩
  | apparent => exact ⟨h1, fun x hx => by cases hx; exact ho, h3⟩
  | current => exact ⟨h1, h2, fun x hx => by cases hx; exact ho⟩

theorem getLims_valid {k : Kind} {o : Limits.LL} {l : Lims} (hl : LimsValid l) (h : getLims k l = some o) : LimitsValid o := by
  cases k with
  | active => exact hl.1 o h
  | apparent => exact hl.2.1 o h
  | current => exact hl.2.2 o h

theorem lims_valid {o : LimsOp} {l m : Lims} (hl : LimsValid l) (h : o.set l = .ok m) : LimsValid m := by
  cases o with
  | new k p ts =>
    obtain ⟨x, hx, rfl⟩ := lift_ok h
    have hadd := (Limits.add_accepts_iff p _).1 ⟨_, hx⟩
    obtain ⟨rfl, _⟩ := Limits.add_ok hx
    exact putLims_valid hl ⟨hadd.1, Limits.desc_runAdder ts [] List.Pairwise.nil, hadd.2, runAdder_named ts [] (by simp)⟩
  | setPermanent k p =>
    simp only [LimsOp.set] at h
    split at h
    · cases h
    · rename_i x hx
      obtain ⟨hp, rfl⟩ := grd_ok.1 h
      have := getLims_valid hl hx
      exact putLims_valid hl ⟨hp, this.desc, this.names, this.temps⟩

theorem branchLims_valid {b : BSide} {o : LimsOp} {l m : BranchLims} (hl : LimsValid l.one ∧ LimsValid l.two) (h : branchLimsSet b o l = .ok m) :
    LimsValid m.one ∧ LimsValid m.two := by
  cases b with
  | one => obtain ⟨a, h1, rfl⟩ := lift_ok h; exact ⟨lims_valid hl.1 h1, hl.2⟩
  | two => obtain ⟨a, h1, rfl⟩ := lift_ok h; exact ⟨hl.1, lims_valid hl.2 h1⟩

/-! ### Checks -/

theorem control_valid {on : Bool} {v q : Dbl} (h : badControl on v q = false) : ControlValid on v q := by
  cases on with
  | false => exact ⟨nofun, fun _ => by simpa [badControl] using h⟩
  | true =>
    simp only [badControl, if_true, Bool.or_eq_false_iff] at h
    exact ⟨fun _ => Dbl.lt_of_not_le h.1 rfl h.2, nofun⟩

theorem rated_valid {s : Dbl} (h : badRatedS s = false) : RatedValid s := by
  intro hs
  simp only [badRatedS, hs, Bool.not_false, Bool.true_and] at h
  exact Dbl.lt_of_not_le hs rfl h

theorem loss_valid {f : Dbl} (h : badLoss f = false) : Dbl.le 0 f = true ∧ Dbl.le f 100 = true := by
  simp only [badLoss, Bool.or_eq_false_iff] at h
  exact ⟨Dbl.le_of_not_lt h.1.1 rfl h.1.2, Dbl.le_of_not_lt rfl h.1.1 h.2⟩

theorem power_valid {f : Dbl} (h : badPowerFactor f = false) : Dbl.le (.fin (-1)) f = true ∧ Dbl.le f 1 = true := by
  simp only [badPowerFactor, Bool.or_eq_false_iff] at h
  exact ⟨Dbl.le_of_not_lt h.1.1 rfl h.2, Dbl.le_of_not_lt rfl h.1.1 h.1.2⟩

theorem maxP_valid {a d : Dbl} (ha : IsSet a) (h : (d.isNan || Dbl.lt d a) = false) : IsSet d ∧ Dbl.le a d = true := by
  simp only [Bool.or_eq_false_iff] at h
  exact ⟨h.1, Dbl.le_of_not_lt h.1 ha h.2⟩

theorem minP_valid {a d : Dbl} (ha : IsSet a) (h : (d.isNan || Dbl.lt a d) = false) : IsSet d ∧ Dbl.le d a = true := by
  simp only [Bool.or_eq_false_iff] at h
  exact ⟨h.1, Dbl.le_of_not_lt ha h.1 h.2⟩

theorem deadband_valid {on : Bool} {d : Dbl} (h : badDeadband on d = false) : Dbl.lt d 0 = false ∧ (on = true → IsSet d) := by
  simp only [badDeadband, Bool.or_eq_false_iff, Bool.and_eq_false_iff] at h
  refine ⟨h.2, fun ho => ?_⟩
  rcases h.1 with h | h
  · rw [ho] at h; cases h
  · exact h

theorem target_valid {on : Bool} {v : Dbl} (h : badTarget on v = false) : on = true → Dbl.lt 0 v = true := by
  rintro rfl
  simp only [badTarget, Bool.true_and, Bool.or_eq_false_iff] at h
  exact Dbl.lt_of_not_le h.1 rfl h.2

theorem nominal_valid {d : Dbl} (h : (d.isNan || Dbl.le d 0) = false) : Dbl.lt 0 d = true := by
  simp only [Bool.or_eq_false_iff] at h
  exact Dbl.lt_of_not_le h.1 rfl h.2

theorem positive_valid {d : Dbl} (h : (d.isNan || Dbl.lt d 0) = false) : Dbl.le 0 d = true := by
  simp only [Bool.or_eq_false_iff] at h
  exact Dbl.le_of_not_lt h.1 rfl h.2

theorem highTap_le {low : Int} {n : Nat} (h : -2 ^ 63 ≤ low) (hn : n ≠ 0) : highTap low n ≤ low + n - 1 := by
  unfold highTap
  omega

theorem tap_inside {low tap : Int} {n : Nat} (hl : -2 ^ 63 ≤ low) (hn : n ≠ 0) (h : badTap low tap n = false) : Inside low tap n := by
  simp only [badTap, Bool.or_eq_false_iff, decide_eq_false_iff_not] at h
  have := highTap_le hl hn
  exact ⟨hl, by omega, by omega⟩

theorem shift_ok {tap low old t : Int} (h : shift tap low old = .ok t) : t = tap + low - old := by
  unfold shift at h
  split at h
  · simp only [Out.ok.injEq] at h; exact h.symm
  · cases h

/-! ### Lists -/

theorem mem_modify {α : Type} {f : α → α} : ∀ {l : List α} {i : Nat} {y : α}, y ∈ l.modify i f → y ∈ l ∨ ∃ x ∈ l, y = f x := by
  intro l
  induction l with
  | nil => intro i y h; simp at h
  | cons a l ih =>
    intro i y h
    cases i with
    | zero =>
      simp only [List.modify_zero_cons, List.mem_cons] at h
      rcases h with rfl | h
      · exact .inr ⟨a, List.mem_cons_self, rfl⟩
      · exact .inl (List.mem_cons_of_mem _ h)
    | succ i =>
      simp only [List.modify_succ_cons, List.mem_cons] at h
      rcases h with rfl | h
      · exact .inl List.mem_cons_self
      · rcases ih h with h | ⟨x, hx, rfl⟩
        · exact .inl (List.mem_cons_of_mem _ h)
        · exact .inr ⟨x, List.mem_cons_of_mem _ hx, rfl⟩

theorem modify_mem {α : Type} {f : α → α} {l : List α} {i : Nat} (h : i < l.length) : f l[i] ∈ l.modify i f := by
  rw [List.mem_iff_getElem]
  exact ⟨i, by simpa using h, by simp⟩

theorem setAt_ok {α : Type} {f : α → Out α} {i : Nat} {l m : List α} (h : setAt f i l = .ok m) :
    ∃ x y, l[i]? = some x ∧ f x = .ok y ∧ m = l.set i y := by
  unfold setAt at h
  split at h
  · cases h
  · rename_i x hx
    obtain ⟨y, hy, rfl⟩ := lift_ok h
    exact ⟨x, y, hx, hy, rfl⟩

/-- A list stays valid when and only when the new object is. -/
theorem setAt_iff {α : Type} {f : α → Out α} {i : Nat} {l m : List α} {V S : α → Prop} (hl : ∀ x ∈ l, V x) (h : setAt f i l = .ok m)
    (hf : ∀ x ∈ l, ∀ y, f x = .ok y → (V y ↔ S x)) : (∀ y ∈ m, V y) ↔ ∀ x, l[i]? = some x → S x := by
  obtain ⟨x, y, hx, hy, rfl⟩ := setAt_ok h
  have hm : x ∈ l := List.mem_of_getElem? hx
  have hi : i < l.length := (List.getElem?_eq_some_iff.1 hx).1
  constructor
  · intro hv z hz
    rw [hx] at hz
    cases hz
    exact (hf x hm y hy).1 (hv y (List.mem_set hi y))
  · intro hs z hz
    rcases List.mem_or_eq_of_mem_set hz with hz | rfl
    · exact hl z hz
    · exact (hf x hm z hy).2 (hs x hx)

theorem setAt_valid {α : Type} {f : α → Out α} {i : Nat} {l m : List α} {V : α → Prop} (hl : ∀ x ∈ l, V x) (h : setAt f i l = .ok m)
    (hf : ∀ x ∈ l, ∀ y, f x = .ok y → V y) : ∀ y ∈ m, V y :=
  (setAt_iff (S := fun _ => True) hl h fun x hx y hy => ⟨fun _ => trivial, fun _ => hf x hx y hy⟩).2 fun _ _ => trivial

end Verif.Setters
