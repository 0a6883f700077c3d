import Verif.LimitSet.Lemmas
import Verif.Limits.Props

/-! **C85**: the limits an equipment carries, and what its overload checks compare. -/

namespace Verif.LimitSet

open Verif Verif.Limits

/-- The facts of a list of calls, the last one first. -/
def factsOf (w : Eqp) : List Op → List Fact → List Fact
  | [], h => h
  | o :: os, h => factsOf (step w o).2 os (fact o (step w o).1 :: h)

def runOps (w : Eqp) : List Op → Eqp
  | [] => w
  | o :: os => runOps (step w o).2 os

def Defined (w : Eqp) : List Op → Bool
  | [] => true
  | o :: os => decide ((step w o).1 ≠ .ub) && Defined (step w o).2 os

theorem reach_ops {n : Nat} : ∀ (os : List Op) {h w}, Reach n h w → Defined w os = true → Reach n (factsOf w os h) (runOps w os)
  | [], _, _, hr, _ => hr
  | o :: os, h, w, hr, hd => by
    simp only [Defined, Bool.and_eq_true, decide_eq_true_eq] at hd
    exact reach_ops os (.step o hr hd.1) hd.2

/-- Limits that are used in the examples. -/
def exTL (d : Nat) (v : Rat) : TL := ⟨s!"t{d}", .fin v, d, false⟩

/-- Two kinds on side 0, one on side 1; the current limits of side 0 are given twice and changed, those of side 1 removed. -/
def exOps : List Op :=
  [.add 0 .current (.fin 100) [exTL 60 120], .add 0 .active (.fin 50) [], .add 1 .current (.fin 90) [], .add 0 .current (.fin 110) [exTL 60 150],
   .setPermanent 3 (.fin 115), .remove 2, .add 1 .apparent (.fin 0) [], .setPermanent 1 (.fin 0)]

theorem exReach : Reach 2 (factsOf (fresh 2) exOps []) (runOps (fresh 2) exOps) := reach_ops exOps .init (by decide +kernel)

theorem typed_eq {n : Nat} {h : List Fact} {w : Eqp} (hi : Inv n h w) {side : Nat} (hs : side < n) (k : Kind) :
    typed w side k = .ok ((latest side k h).map fun p => ⟨p.1, k, p.2⟩) := by
  have hl : side < w.sides.length := by rw [hi.len]; exact hs
  have ht := hi.tie side k
  have hg : w.sides[side]? = some w.sides[side] := List.getElem?_eq_getElem hl
  simp only [at', hg, Option.bind_some] at ht
  simp only [typed, hg, Holder.getAs, ← ht]
  cases hf : Holder.find k w.sides[side] with
  | none => rfl
  | some o =>
    have hc := (hi.cls (i := side) (k := k) (o := o) (by simp only [at', hg, Option.bind_some, hf])).1
    simp only [hc, if_true, Option.map_some]
    cases o; simp only at hc; subst hc; rfl

/-- **C85**: after any calls, the limits of a kind found on a side are those of the last accepted addition of that kind on that side, with the
    permanent limit last given to them, and none if they were removed; never an error about their class. -/
theorem found {n : Nat} {h : List Fact} {w : Eqp} (hr : Reach n h w) {side : Nat} (hs : side < n) (k : Kind) :
    typed w side k = .ok ((latest side k h).map fun p => ⟨p.1, k, p.2⟩) := typed_eq (reach_inv hr) hs k

example : typed (runOps (fresh 2) exOps) 0 .current = .ok (some ⟨3, .current, ⟨.fin 115, [exTL 60 150]⟩⟩) ∧
    typed (runOps (fresh 2) exOps) 1 .current = .ok none ∧
    latest 0 .current (factsOf (fresh 2) exOps []) = some (3, ⟨.fin 115, [exTL 60 150]⟩) := by decide +kernel

/-- **C85**: asked by kind, a branch gives the same ones, and refuses the voltage. -/
theorem by_kind {n : Nat} {h : List Fact} {w : Eqp} (hr : Reach n h w) {side : Nat} (hs : side < n) (k : Kind) :
    getLimits w k side = if k = .voltage then .thrown else .ok ((latest side k h).map fun p => ⟨p.1, k, p.2⟩) := by
  cases k <;> simp [getLimits, found hr hs]

example : getLimits (runOps (fresh 2) exOps) .active 0 = .ok (some ⟨1, .active, ⟨.fin 50, []⟩⟩) ∧
    getLimits (runOps (fresh 2) exOps) .voltage 0 = .thrown := by decide +kernel

/-- **C85**: all the limits of a side: each kind at most once, active power first, then apparent power, then current. -/
theorem listed {n : Nat} {h : List Fact} {w : Eqp} (hr : Reach n h w) {side : Nat} (hs : side < n) :
    all w side = .ok (kinds.filterMap fun k => (latest side k h).map fun p => ⟨p.1, k, p.2⟩) := by
  have hi := reach_inv hr
  have hl : side < w.sides.length := by rw [hi.len]; exact hs
  have hg : w.sides[side]? = some w.sides[side] := List.getElem?_eq_getElem hl
  have hsort := hi.sorted w.sides[side] (List.getElem_mem hl)
  simp only [all, hg]
  rw [listing hsort]
  · congr 1
    apply filterMap_congr'
    intro k _
    have h1 := typed_eq hi hs k
    simp only [typed, hg, Holder.getAs] at h1
    cases hf : Holder.find k w.sides[side] with
    | none => rw [hf] at h1; simpa using h1
    | some o =>
      rw [hf] at h1; simp only at h1
      split at h1
      · simpa using h1
      · cases h1
  · rintro ⟨k, o⟩ hp
    exact (hi.cls (i := side) (k := k) (o := o) (by simp only [at', hg, Option.bind_some]; exact (mem_iff_find hsort).mp hp)).2.1

example : all (runOps (fresh 2) exOps) 0 = .ok [⟨1, .active, ⟨.fin 50, []⟩⟩, ⟨3, .current, ⟨.fin 115, [exTL 60 150]⟩⟩] := by decide +kernel

/-- **C85**: an addition is accepted on a side there is, for a kind that has an adder, unless the permanent limit is zero or less or two temporary
    limits have the same name. -/
theorem add_accepted_iff {n : Nat} {h : List Fact} {w : Eqp} (hr : Reach n h w) (side : Nat) (k : Kind) (p : Dbl) (ts : TLs) :
    (∃ m, (step w (.add side k p ts)).1 = .ok (some m)) ↔
      side < n ∧ k ≠ .voltage ∧ Dbl.le p 0 = false ∧ ts.Pairwise (fun t u => t.name ≠ u.name) := by
  have hl := (reach_inv hr).len
  have hacc := Limits.add_accepts_iff p ts
  simp only [step, add]
  rcases Nat.lt_or_ge side w.sides.length with h1 | h1
  · rw [List.getElem?_eq_getElem h1]
    by_cases hk : k = .voltage
    · simp [hk]
    · rw [hl] at h1
      simp only [hk, if_false, h1, ne_eq, not_false_eq_true, true_and]
      cases ha : Limits.add p ts with
      | ok l => rw [ha] at hacc; simpa using hacc
      | thrown => rw [ha] at hacc; simpa using hacc
      | ub => rw [ha] at hacc; simpa using hacc
  · rw [List.getElem?_eq_none h1]
    rw [hl] at h1
    simp only [reduceCtorEq, exists_false, false_iff]
    omega

example : (step (runOps (fresh 2) exOps) (.add 1 .apparent (.fin 7) [exTL 1 9, exTL 2 8])).1 = .ok (some 4) := by decide +kernel

/-- **C85**: adding is always defined. -/
theorem add_defined (w : Eqp) (side : Nat) (k : Kind) (p : Dbl) (ts : TLs) : (step w (.add side k p ts)).1 ≠ .ub := by
  simp only [step, add, Limits.add]
  cases w.sides[side]? with
  | none => simp
  | some hd =>
    by_cases hk : k = .voltage
    · simp [hk]
    · cases Dbl.le p 0 <;> cases namesOk [] ts <;> simp [hk]

/-- **C85**: the object that is added has never been seen before. -/
theorem add_new {n : Nat} {h : List Fact} {w : Eqp} (hr : Reach n h w) {side : Nat} {k : Kind} {p : Dbl} {ts : TLs} {m : Nat}
    (ha : (step w (.add side k p ts)).1 = .ok (some m)) : ∀ i l ll, Fact.added i l m ll ∉ h := by
  intro i l ll hm
  have h1 := (reach_inv hr).old i l m ll hm
  simp only [step, add] at ha
  cases hs : w.sides[side]? with
  | none => rw [hs] at ha; simp at ha
  | some hd =>
    rw [hs] at ha
    by_cases hk : k = .voltage
    · simp [hk] at ha
    · simp only [hk, if_false] at ha
      cases hl : Limits.add p ts with
      | ok l' => rw [hl] at ha; simp at ha; omega
      | thrown => rw [hl] at ha; simp at ha
      | ub => rw [hl] at ha; simp at ha

theorem alive_iff {n : Nat} {h : List Fact} {w : Eqp} (hi : Inv n h w) (m : Nat) : Alive h m ↔ ∃ q, place w m = some q := by
  constructor
  · rintro ⟨side, k, ll, e⟩
    rw [← hi.tie] at e
    cases ha : at' w side k with
    | none => rw [ha] at e; cases e
    | some o =>
      rw [ha] at e
      simp only [Option.map_some, Option.some.injEq, Prod.mk.injEq] at e
      cases hp : place w m with
      | some q => exact ⟨q, rfl⟩
      | none => exact absurd e.1 (place_none hi hp ha)
  · rintro ⟨⟨j, k, o⟩, hp⟩
    obtain ⟨h1, h2⟩ := place_some hi hp
    exact ⟨j, k, o.ll, by rw [← hi.tie, h1, ← h2]; rfl⟩

/-- **C85**: removing limits is undefined exactly when the object is no longer there, and accepted otherwise. -/
theorem remove_outcome {n : Nat} {h : List Fact} {w : Eqp} (hr : Reach n h w) (m : Nat) :
    (Alive h m → (step w (.remove m)).1 = .ok none) ∧ (¬ Alive h m → (step w (.remove m)).1 = .ub) := by
  rw [alive_iff (reach_inv hr)]
  simp only [step, remove]
  cases hp : place w m with
  | none => simp
  | some q => simp

/-- **C85**: changing the permanent limit is undefined exactly when the object is no longer there; otherwise it is refused exactly when zero or
    less. -/
theorem set_outcome {n : Nat} {h : List Fact} {w : Eqp} (hr : Reach n h w) (m : Nat) (x : Dbl) :
    (Alive h m → (step w (.setPermanent m x)).1 = if Dbl.le x 0 then .thrown else .ok none) ∧
      (¬ Alive h m → (step w (.setPermanent m x)).1 = .ub) := by
  rw [alive_iff (reach_inv hr)]
  simp only [step, setPermanent]
  cases hp : place w m with
  | none => simp
  | some q => cases hx : Dbl.le x 0 <;> simp [Limits.setPermanentLimit, hx]

example : Alive (factsOf (fresh 2) exOps []) 3 := ⟨0, .current, ⟨.fin 115, [exTL 60 150]⟩, by decide +kernel⟩

/-- **C85**: giving limits of a kind again ends the life of those that were there: whoever still holds them holds nothing. -/
theorem replaced_gone {n : Nat} {h : List Fact} {w : Eqp} (hr : Reach n h w) {side : Nat} {k : Kind} {m : Nat} {ll : LL}
    (hm : latest side k h = some (m, ll)) {p : Dbl} {ts : TLs} {m' : Nat} (ha : (step w (.add side k p ts)).1 = .ok (some m')) :
    ¬ Alive (fact (.add side k p ts) (step w (.add side k p ts)).1 :: h) m ∧
      (step (step w (.add side k p ts)).2 (.remove m)).1 = .ub := by
  have hi := reach_inv hr
  have hu : (step w (.add side k p ts)).1 ≠ .ub := by rw [ha]; simp
  have hr' := Reach.step (.add side k p ts) hr hu
  have hn : ¬ Alive (fact (.add side k p ts) (step w (.add side k p ts)).1 :: h) m := by
    rintro ⟨i, l, ll', e⟩
    rw [ha] at e
    simp only [fact, latest] at e
    have hd := step_does hi (.add side k p ts) hu
    rw [ha] at hd
    simp only [fact] at hd
    have at0 : ∃ o, at' w side k = some o ∧ o.id = m := by
      rw [← hi.tie] at hm
      cases ho : at' w side k with
      | none => rw [ho] at hm; cases hm
      | some o => rw [ho] at hm; simp at hm; exact ⟨o, rfl, hm.1⟩
    obtain ⟨o, ho, hid⟩ := at0
    have hlt := (hi.cls ho).2.2
    split at e
    · simp only [Option.some.injEq, Prod.mk.injEq] at e
      generalize hw : (step w (.add side k p ts)).2 = w' at hd
      cases hd
      omega
    · rename_i h1
      rw [← hi.tie] at e
      cases hx : at' w i l with
      | none => rw [hx] at e; cases e
      | some o' =>
        rw [hx] at e; simp only [Option.map_some, Option.some.injEq, Prod.mk.injEq] at e
        exact h1 (hi.uniq ho hx (hid.trans e.1.symm))
  exact ⟨hn, (remove_outcome hr' m).2 hn⟩

example : (step (runOps (fresh 2) (exOps.take 4)) (.remove 0)).1 = .ub := by decide +kernel

/-- **C85**: what a permanent check compares: the limits of that kind on that side with the active power (signed), the apparent power or the
    current measured there. -/
theorem permanent_iff {n : Nat} {h : List Fact} {w : Eqp} (hr : Reach n h w) {side : Nat} (hs : side < n) (sqrt : Dbl → Dbl) (m : Meas) (r : Dbl)
    (k : Kind) (hk : k ≠ .voltage) :
    ∃ b, checkPermanent sqrt w side m r k = .ok b ∧
      (b = true ↔ Reached (latest side k h) r (if k = .active then m.p else flow sqrt m k)) := by
  refine ⟨Limits.checkPermanentLimit ((latest side k h).map (·.2)) r (if k = .active then m.p else flow sqrt m k), ?_, ?_⟩
  · cases k <;> simp [checkPermanent, valueForLimit, by_kind hr hs, flow, Option.map_map, Function.comp_def] at hk ⊢
  · unfold Reached Limits.checkPermanentLimit
    cases latest side k h with
    | none => simp
    | some q => obtain ⟨i, ll⟩ := q; simp [and_assoc]

/-- **C85**: what a temporary check compares. -/
theorem temporary_eq {n : Nat} {h : List Fact} {w : Eqp} (hr : Reach n h w) {side : Nat} (hs : side < n) (sqrt : Dbl → Dbl) (m : Meas) (r : Dbl)
    (k : Kind) (hk : k ≠ .voltage) :
    checkTemporary sqrt w side m r k =
      .ok (Limits.checkTemporaryLimits ((latest side k h).map (·.2)) r (if k = .active then m.p else flow sqrt m k)) := by
  cases k <;> simp [checkTemporary, valueForLimit, by_kind hr hs, flow, Option.map_map, Function.comp_def] at hk ⊢

/-- **C85**: both checks refuse the voltage. -/
theorem voltage_refused (sqrt : Dbl → Dbl) (w : Eqp) (side : Nat) (m : Meas) (r : Dbl) :
    checkPermanent sqrt w side m r .voltage = .thrown ∧ checkTemporary sqrt w side m r .voltage = .thrown := ⟨rfl, rfl⟩

theorem size_of_nonneg {p : Dbl} (hp : Dbl.lt p 0 = false) : size p = p := by
  cases p with
  | nan => rfl
  | negInf => cases hp
  | posInf => rfl
  | fin q =>
    have : ¬ q < 0 := by
      change decide (q < 0) = false at hp
      simpa using hp
    simp only [size, this, if_false]

/-- **C85**: a permanent limit is declared reached exactly when the size of the flow reaches it, for the apparent power, for the current, and for an
    active power that is not negative.  Missing: a negative active power (`active_negative`). -/
theorem permanent_partial {n : Nat} {h : List Fact} {w : Eqp} (hr : Reach n h w) {side : Nat} (hs : side < n) (sqrt : Dbl → Dbl) (m : Meas) (r : Dbl)
    (k : Kind) (hk : k ≠ .voltage) (hp : k = .active → Dbl.lt m.p 0 = false) :
    ∃ b, checkPermanent sqrt w side m r k = .ok b ∧ (b = true ↔ Reached (latest side k h) r (flow sqrt m k)) := by
  obtain ⟨b, h1, h2⟩ := permanent_iff hr hs sqrt m r k hk
  refine ⟨b, h1, h2.trans ?_⟩
  by_cases hka : k = .active
  · subst hka; simp only [if_true, flow, size_of_nonneg (hp rfl)]
  · simp only [hka, if_false]

/-- A branch with an active power limit of 50 on each side. -/
def exAct : List Op := [.add 0 .active (.fin 50) [exTL 60 80], .add 1 .active (.fin 50) [exTL 60 80]]

/-- **C85** fails for a negative active power: 70 going through a branch whose active power is limited to 50 on both sides is found on the side it
    enters by and not on the side it leaves by. -/
theorem active_negative : ∃ (h : List Fact) (w : Eqp) (m1 m2 : Meas), Reach 2 h w ∧ m1.p = .fin 70 ∧ m2.p = .fin (-70) ∧
    Reached (latest 1 .active h) 1 (flow (fun x => x) m2 .active) ∧ checkPermanent (fun x => x) w 0 m1 1 .active = .ok true ∧
    checkPermanent (fun x => x) w 1 m2 1 .active = .ok false ∧ checkTemporary (fun x => x) w 0 m1 1 .active = .ok (some ⟨exTL 60 80, "", .fin 50⟩) ∧
    checkTemporary (fun x => x) w 1 m2 1 .active = .ok none :=
  ⟨factsOf (fresh 2) exAct [], runOps (fresh 2) exAct, ⟨.fin 70, .fin 0, .fin 1⟩, ⟨.fin (-70), .fin 0, .fin 1⟩,
    reach_ops exAct .init (by decide +kernel), rfl, rfl, ⟨1, ⟨.fin 50, [exTL 60 80]⟩, by decide +kernel⟩, by decide +kernel, by decide +kernel,
    by decide +kernel, by decide +kernel⟩

/-- **C85**: a branch is overloaded exactly when, on one of its sides, the permanent current limit in force is reached. -/
theorem overloaded_iff {h : List Fact} {w : Eqp} (hr : Reach 2 h w) (sqrt : Dbl → Dbl) (m1 m2 : Meas) (r : Dbl) :
    ∃ b, overloaded sqrt w m1 m2 r = .ok b ∧
      (b = true ↔ Reached (latest 0 .current h) r m1.i ∨ Reached (latest 1 .current h) r m2.i) := by
  obtain ⟨b1, e1, h1⟩ := permanent_iff hr (side := 0) (by decide) sqrt m1 r .current (by decide)
  obtain ⟨b2, e2, h2⟩ := permanent_iff hr (side := 1) (by decide) sqrt m2 r .current (by decide)
  simp only [flow, reduceCtorEq, if_false] at h1 h2
  simp only [overloaded, e1]
  cases b1 with
  | true => exact ⟨true, rfl, by simp [← h1]⟩
  | false => exact ⟨b2, e2, by rw [← h1, ← h2]; simp⟩

/-- **C85**: the overload duration of a branch is that of C39 for the current limits in force on its sides. -/
theorem duration_eq {h : List Fact} {w : Eqp} (hr : Reach 2 h w) (sqrt : Dbl → Dbl) (m1 m2 : Meas) :
    overloadDuration sqrt w m1 m2 = .ok (Limits.getOverloadDuration ⟨(latest 0 .current h).map (·.2), m1.i⟩ ⟨(latest 1 .current h).map (·.2), m2.i⟩) := by
  have e1 := temporary_eq hr (side := 0) (by decide) sqrt m1 1 .current (by decide)
  have e2 := temporary_eq hr (side := 1) (by decide) sqrt m2 1 .current (by decide)
  simp only [flow, reduceCtorEq, if_false] at e1 e2
  simp only [overloadDuration, e1, e2, Limits.getOverloadDuration]
  cases Limits.checkTemporaryLimits (Option.map (·.2) (latest 0 .current h)) 1 m1.i <;>
    cases Limits.checkTemporaryLimits (Option.map (·.2) (latest 1 .current h)) 1 m2.i <;> rfl

example : overloaded (fun x => x) (runOps (fresh 2) exOps) ⟨.fin 1, .fin 1, .fin 116⟩ ⟨.fin 1, .fin 1, .fin 500⟩ 1 = .ok true ∧
    overloaded (fun x => x) (runOps (fresh 2) exOps) ⟨.fin 1, .fin 1, .fin 114⟩ ⟨.fin 1, .fin 1, .fin 500⟩ 1 = .ok false ∧
    overloadDuration (fun x => x) (runOps (fresh 2) exOps) ⟨.fin 1, .fin 1, .fin 116⟩ ⟨.fin 1, .fin 1, .fin 500⟩ = .ok 60 := by decide +kernel

/-- **C85**: the constructor of a leg of a three windings transformer reads its number before giving it a value. -/
theorem leg_constructor_undefined : construct [] legInits = .ub := by decide

/-- That of a branch does not. -/
theorem branch_constructor_defined : construct [] branchInits = .ok () := by decide

end Verif.LimitSet
