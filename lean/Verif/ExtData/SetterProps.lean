import Verif.ExtData.Spec

/-! Property C78: the setters of the extensions that hold values. -/

namespace Verif.ExtData

open Verif Verif.XmlNet

/-! ### Lemmas -/

theorem not_lt_zero {d : Dbl} : (d.isNan = false ∧ d.lt 0 = false) ↔ Dbl.le 0 d = true := by
  show (d.isNan = false ∧ d.lt (.fin 0) = false) ↔ Dbl.le (.fin 0) d = true
  cases d <;> simp [Dbl.isNan, Dbl.lt, Dbl.le]
  grind

theorem not_one_lt {d : Dbl} (h : d.isNan = false) : Dbl.lt 1 d = false ↔ Dbl.le d 1 = true := by
  show Dbl.lt (.fin 1) d = false ↔ Dbl.le d (.fin 1) = true
  cases d <;> simp_all [Dbl.isNan, Dbl.lt, Dbl.le]
  grind

theorem isNan_iff {d : Dbl} : d.isNan = false ↔ d ≠ .nan := by cases d <;> simp [Dbl.isNan]

theorem checkSet_eq (d : Dbl) : checkSet d = if d ≠ .nan then .ok d else .thrown := by
  cases d <;> simp [checkSet, Dbl.isNan]

theorem checkOPR_eq (d : Dbl) : checkOPR d = if d = .nan ∨ Dbl.le 0 d = true then .ok d else .thrown := by
  by_cases hn : d = .nan
  · subst hn; rfl
  · have h1 := isNan_iff.2 hn
    have := @not_lt_zero d
    unfold checkOPR
    cases h' : d.lt 0 <;> simp_all

theorem checkClock_eq (c : Nat) : checkClock c = if c < 12 then .ok c else .thrown := by
  unfold checkClock
  by_cases h : c < 12
  · rw [if_neg (by omega), if_pos h]
  · rw [if_pos (by omega), if_neg h]

theorem checkSlope_eq (d : Dbl) : checkSlope d = if Dbl.le 0 d = true then .ok d else .thrown := by
  have := @not_lt_zero d
  unfold checkSlope
  cases h : d.isNan <;> cases h' : d.lt 0 <;> simp_all

theorem checkDivider_eq (d : Dbl) : checkDivider d = if Dbl.le 0 d = true ∧ Dbl.le d 1 = true then .ok d else .thrown := by
  have h1 := @not_lt_zero d
  have h2 := @not_one_lt d
  unfold checkDivider
  cases h : d.isNan <;> cases h' : d.lt 0 <;> cases h'' : Dbl.lt 1 d <;> simp_all

theorem checkNotEmpty_eq (s : String) : checkNotEmpty s = if s ≠ "" then .ok s else .thrown := by
  unfold checkNotEmpty
  by_cases h : s = "" <;> simp [h]

theorem writeAt_ok {α : Type} {l : List α} {i : Nat} (h : i < l.length) (f : α → Out α) : writeAt l i f = (f l[i]).map fun b => l.set i b := by
  unfold writeAt
  rw [List.getElem?_eq_getElem h]

theorem get_set {α β : Type} (l : List α) (i j : Nat) (a : α) (h : i < l.length) (f : α → β) : (l.set i a)[j]?.map f = if j = i then some (f a) else l[j]?.map f := by
  rw [List.getElem?_set]
  by_cases e : i = j
  · subst e; simp [h]
  · rw [if_neg e, if_neg (fun h => e h.symm)]

theorem position_get_set (p : Position) (f : Feeder) (s s' : Slot) : (p.set f s).get s' = if s' = s then some f else p.get s' := by
  cases s <;> cases s' <;> simp [Position.get, Position.set]

theorem onFeeder_ok {p : Position} {s : Slot} {x : Feeder} (h : p.get s = some x) (f : Feeder → Feeder) : onFeeder p s f = .ok (.position (p.set (f x) s)) := by
  simp only [onFeeder, h]

/-! ### The setters -/

/-- A call on an extension writes what it is asked to write, in the working variant, and nothing else (`Feeder::setName` checks nothing). -/
theorem setter_writes {E : Env} {x : Data} {op : Op} {k : Key} (hk : op.key = some k) (hs : k ∈ settable x.name) (hb : x.InBounds E)
    (hf : (∀ s, k ≠ .feederName s) → ∀ v, op.val = some v → Fit E x.name k v) (hp : x.name = .position → (x.get E.index k).isSome) :
    ∃ y, x.put E op = some (.ok y) ∧ y.name = x.name ∧ y.size = x.size ∧
      ∀ i k', y.get i k' = if k' = k ∧ (perVariant x.name = true → i = E.index) then op.val else x.get i k' := by
  cases op <;> simp only [Op.key, Option.some.injEq, reduceCtorEq] at hk <;> subst hk <;> cases x <;>
    simp [Data.name, settable] at hs
  all_goals simp only [Data.name, Op.val, Option.some.injEq, forall_eq', Fit, ne_eq, reduceCtorEq, not_false_eq_true, forall_const] at hf
  all_goals simp only [Data.put, checkSet_eq, checkOPR_eq, checkClock_eq, checkSlope_eq, checkDivider_eq, checkNotEmpty_eq]
  all_goals try
    first
    | rw [if_pos hf]
    | skip
    exact ⟨_, rfl, rfl, rfl, fun i k' => by cases k' <;> simp [Data.get, perVariant, Data.name, Op.val]⟩
  case feederName.position s n p =>
    have hp := hp rfl
    simp only [Data.get] at hp
    cases hx : p.get s with
    | none => rw [hx] at hp; simp at hp
    | some x =>
      rw [onFeeder_ok hx]
      refine ⟨_, rfl, rfl, rfl, fun i k' => ?_⟩
      cases k' <;> simp [Data.get, perVariant, Data.name, Op.val, position_get_set]
      all_goals split <;> simp_all
  case feederOrder.position s n p =>
    have hp := hp rfl
    simp only [Data.get] at hp
    cases hx : p.get s with
    | none => rw [hx] at hp; simp at hp
    | some x =>
      rw [onFeeder_ok hx]
      refine ⟨_, rfl, rfl, rfl, fun i k' => ?_⟩
      cases k' <;> simp [Data.get, perVariant, Data.name, Op.val, position_get_set]
      all_goals split <;> simp_all
  case feederDirection.position s n p =>
    have hp := hp rfl
    simp only [Data.get] at hp
    cases hx : p.get s with
    | none => rw [hx] at hp; simp at hp
    | some x =>
      rw [onFeeder_ok hx]
      refine ⟨_, rfl, rfl, rfl, fun i k' => ?_⟩
      cases k' <;> simp [Data.get, perVariant, Data.name, Op.val, position_get_set]
      all_goals split <;> simp_all
  case terminal.slack t ts =>
    have hb : E.index < ts.length := hb _ rfl
    cases t with
    | none =>
      rw [setTerminal, writeAt_ok hb]
      refine ⟨_, rfl, rfl, by simp [Data.size], fun i k' => ?_⟩
      cases k' <;> simp [Data.get, perVariant, Data.name, Op.val, List.getElem?_set]
      split
      · rename_i h; subst h; simp
      · rename_i h; rw [if_neg (fun e => h e.symm)]
    | some r =>
      have hf := hf (.r r) rfl
      rw [setTerminal, if_neg (fun h => h hf), writeAt_ok hb]
      refine ⟨_, rfl, rfl, by simp [Data.size], fun i k' => ?_⟩
      cases k' <;> simp [Data.get, perVariant, Data.name, Op.val, List.getElem?_set]
      split
      · rename_i h; subst h; simp
      · rename_i h; rw [if_neg (fun e => h e.symm)]
  all_goals
    rename_i d v
    have hb : E.index < v.length := hb _ rfl
    rw [writeAt_ok hb, if_pos hf]
    refine ⟨_, rfl, rfl, by simp [Data.size], fun i k' => ?_⟩
    cases k' <;> simp only [Data.get, perVariant, Data.name, Op.val, get_set _ _ _ _ hb, reduceCtorEq, false_and, true_and, if_false, forall_const]
    all_goals
      split
      · rename_i h; subst h; simp [List.getElem?_eq_getElem hb]
      · rfl

/-- A call with a value that the extension may not hold is refused, except that `Feeder::setName` checks nothing. -/
theorem setter_refuses_partial {E : Env} {x : Data} {op : Op} {k : Key} {v : Val} (hk : op.key = some k) (hs : k ∈ settable x.name) (hb : x.InBounds E)
    (hv : op.val = some v) (hf : ¬ Fit E x.name k v) (hn : ∀ s, k ≠ .feederName s) : x.put E op = some .thrown := by
  cases op <;> simp only [Op.key, Option.some.injEq, reduceCtorEq] at hk <;> subst hk <;> cases x <;>
    simp [Data.name, settable] at hs
  all_goals simp only [Op.val, Option.some.injEq] at hv
  all_goals try subst hv
  all_goals simp only [Data.name, Fit, not_true_eq_false] at hf
  all_goals simp only [Data.put, checkSet_eq, checkOPR_eq, checkClock_eq, checkSlope_eq, checkDivider_eq, checkNotEmpty_eq]
  case feederName.position s _ _ => exact absurd rfl (hn s)
  case terminal.slack t ts =>
    cases t with
    | none => simp at hv
    | some r =>
      simp only [Option.map_some, Option.some.injEq] at hv
      subst hv
      rw [setTerminal, if_pos hf]
      rfl
  case fixedP.detail d v => rw [writeAt_ok (hb _ rfl), if_neg hf]; rfl
  case fixedQ.detail d v => rw [writeAt_ok (hb _ rfl), if_neg hf]; rfl
  case varP.detail d v => rw [writeAt_ok (hb _ rfl), if_neg hf]; rfl
  case varQ.detail d v => rw [writeAt_ok (hb _ rfl), if_neg hf]; rfl
  all_goals rw [if_neg hf]; rfl

/-- A feeder that is not there cannot be changed. -/
theorem setter_without_feeder {E : Env} {x : Data} {op : Op} {k : Key} (hk : op.key = some k) (hs : k ∈ settable x.name) (hx : x.name = .position)
    (hp : x.get E.index k = none) : x.put E op = some .thrown := by
  cases x <;> simp [Data.name] at hx
  rename_i p
  cases op <;> simp only [Op.key, Option.some.injEq, reduceCtorEq] at hk <;> subst hk <;> simp [Data.name, settable] at hs
  all_goals
    simp only [Data.get, Option.map_eq_none_iff] at hp
    simp only [Data.put, onFeeder, hp]

/-- The calls that exist. -/
theorem setter_exists_iff {E : Env} {x : Data} {op : Op} : x.put E op ≠ none ↔ ∃ k, op.key = some k ∧ k ∈ settable x.name := by
  cases x <;> cases op <;> simp [Data.put, Op.key, Data.name, settable]
  all_goals rename_i s _; cases s <;> simp

end Verif.ExtData
