import Verif.ExtData.AdderProps

/-! Property C78: the extensions that hold values are only on the objects that they are made for, and hold only what was given and what is allowed. -/

namespace Verif.ExtData

open Verif Verif.XmlNet

/-! ### What an adder holds -/

theorem new_name (n : Name) : (Draft.new n).name = n := by cases n <;> rfl

theorem new_get (n : Name) (k : Key) : (Draft.new n).get k = default n k := by
  cases n <;> cases k <;> simp [Draft.new, Draft.get, default]
  all_goals rename_i s; cases s <;> rfl

theorem lastWrite_append (k : Key) : ∀ (a b : List (Key × Val)) (d : Option Val), lastWrite k d (a ++ b) = lastWrite k (lastWrite k d a) b := by
  intro a b
  induction a with
  | nil => intro d; rfl
  | cons w a ih =>
    intro d
    simp only [List.cons_append, lastWrite]
    split
    · exact ih _
    · exact ih _

theorem give_writes {d : Draft} {op : Op} (h : op.Gives d.name) : (d.step op).name = d.name ∧ ∀ k, (d.step op).get k = lastWrite k (d.get k) op.writes := by
  rcases h with ⟨k, v, hk, hv, hg⟩ | ⟨hn, s, f, rfl⟩
  · cases op <;> simp only [Op.key, Option.some.injEq, reduceCtorEq] at hk <;> subst hk <;> cases d <;> simp [Draft.name, givable, settable] at hg
    case terminal.slack t _ =>
      cases t with
      | none => simp [Op.val] at hv
      | some r => exact ⟨rfl, fun k => by cases k <;> simp [Draft.step, Draft.give, Draft.get, Op.writes, Op.key, Op.val, lastWrite]⟩
    all_goals exact ⟨rfl, fun k => by cases k <;> simp [Draft.step, Draft.give, Draft.get, Op.writes, Op.key, Op.val, lastWrite]⟩
  · cases d <;> simp [Draft.name] at hn
    rename_i p
    obtain ⟨n, o, dir⟩ := f
    simp only [Draft.step, Draft.give, FeederDraft.make]
    by_cases hn : n = ""
    · subst hn
      simp only [if_true, Out.map]
      refine ⟨trivial, fun k => ?_⟩
      cases o <;> cases dir <;> simp [Op.writes, lastWrite]
      all_goals simp [Op.key, lastWrite]
    · cases o with
      | none => simp [hn, Out.map, Draft.name, Op.writes, lastWrite]
      | some o =>
        cases dir with
        | none => simp [hn, Out.map, Draft.name, Op.writes, lastWrite]
        | some dir =>
          simp only [hn, if_false, Out.map]
          refine ⟨rfl, fun k => ?_⟩
          simp only [Op.writes, ne_eq, hn, not_false_eq_true, if_true]
          cases k <;> simp [lastWrite, Draft.get, position_get_set]
          all_goals rename_i s'; by_cases e : s' = s <;> simp [e, Ne.symm]
          all_goals rw [if_neg (fun h => e h.symm)]

theorem run_writes : ∀ (ops : List Op) {d : Draft}, (∀ op ∈ ops, op.Gives d.name) → (d.run ops).name = d.name ∧
    ∀ k, (d.run ops).get k = lastWrite k (d.get k) (ops.flatMap Op.writes) := by
  intro ops
  induction ops with
  | nil => intro d _; exact ⟨rfl, fun k => rfl⟩
  | cons op ops ih =>
    intro d h
    obtain ⟨h1, h2⟩ := give_writes (h op List.mem_cons_self)
    obtain ⟨h3, h4⟩ := ih (d := d.step op) (fun o ho => h1 ▸ h o (List.mem_cons_of_mem _ ho))
    refine ⟨h3.trans h1, fun k => ?_⟩
    rw [Draft.run, h4, List.flatMap_cons, lastWrite_append, h2]

/-- **C78.**  An adder holds the last value given to it, or the default value. -/
theorem adder_holds_given {n : Name} {ops : List Op} (h : ∀ op ∈ ops, op.Gives n) (k : Key) : ((Draft.new n).run ops).get k = given n ops k := by
  rw [(run_writes ops (by rw [new_name]; exact h)).2, new_get]
  rfl

/-! ### What `add` makes -/

theorem require_ok {b : Bool} {u : Unit} : require b = .ok u ↔ b = true := by cases b <;> simp [require]

theorem need_ok {α : Type} {o : Option α} {a : α} : need o = .ok a ↔ o = some a := by cases o <;> simp [need]

theorem checkSet_ok {d y : Dbl} : checkSet d = .ok y ↔ d ≠ .nan ∧ y = d := by
  rw [checkSet_eq]; by_cases h : d = .nan <;> simp [h, eq_comm]

theorem checkOPR_ok {d y : Dbl} : checkOPR d = .ok y ↔ (d = .nan ∨ Dbl.le 0 d = true) ∧ y = d := by
  rw [checkOPR_eq]
  by_cases h : d = .nan ∨ Dbl.le 0 d = true
  · rw [if_pos h]; exact ⟨fun e => ⟨h, (Out.ok.inj e).symm⟩, fun e => by rw [e.2]⟩
  · rw [if_neg h]; exact ⟨nofun, fun e => absurd e.1 h⟩

theorem checkClock_ok {c y : Nat} : checkClock c = .ok y ↔ c < 12 ∧ y = c := by
  rw [checkClock_eq]; by_cases h : c < 12 <;> simp [h, eq_comm]

theorem checkSlope_ok {d y : Dbl} : checkSlope d = .ok y ↔ Dbl.le 0 d = true ∧ y = d := by
  rw [checkSlope_eq]; by_cases h : Dbl.le 0 d = true
  · rw [if_pos h]; simp [h, eq_comm]
  · rw [if_neg h]; simp [h]

theorem checkDivider_ok {d y : Dbl} : checkDivider d = .ok y ↔ (Dbl.le 0 d = true ∧ Dbl.le d 1 = true) ∧ y = d := by
  rw [checkDivider_eq]; by_cases h : Dbl.le 0 d = true ∧ Dbl.le d 1 = true
  · rw [if_pos h]; simp [h, eq_comm]
  · rw [if_neg h]; simp [h]

theorem checkNotEmpty_ok {d y : String} : checkNotEmpty d = .ok y ↔ d ≠ "" ∧ y = d := by
  rw [checkNotEmpty_eq]; by_cases h : d = "" <;> simp [h, eq_comm]

theorem checkPosition_ok {p : Position} {u : Unit} : checkPosition p = .ok u ↔ (p.feeder.isSome, p.feeder1.isSome, p.feeder2.isSome, p.feeder3.isSome) ∈ shapes := by
  obtain ⟨a, b, c, d⟩ := p
  cases a <;> cases b <;> cases c <;> cases d <;> simp [checkPosition, shapes]

theorem isA_holders : ∀ c ∈ concrete, ((isA c .battery || isA c .generator) = decide (c ∈ holders .activePower)) ∧
    (isA c .generator = decide (c ∈ holders .reactive)) ∧
    (isA c .hvdcLine = decide (c ∈ holders .angleDroop)) ∧
    (isA c .hvdcLine = decide (c ∈ holders .range)) ∧
    (isA c .twoWindings = decide (c ∈ holders .clock2)) ∧
    (isA c .threeWindings = decide (c ∈ holders .clock3)) ∧
    (isA c .svc = decide (c ∈ holders .slope)) ∧
    (isA c .generator = decide (c ∈ holders .remote)) ∧
    (isA c .connectable = decide (c ∈ holders .status)) ∧
    (isA c .busbarSection = decide (c ∈ holders .busbar)) ∧
    (isA c .connectable = decide (c ∈ holders .position)) ∧
    (isA c .substation = decide (c ∈ holders .area)) ∧
    (isA c .line = decide (c ∈ holders .merged)) ∧
    (isA c .danglingLine = decide (c ∈ holders .xnode)) ∧
    (isA c .load = decide (c ∈ holders .detail)) ∧
    (isA c .voltageLevel = decide (c ∈ holders .slack)) := by
  decide

theorem assert_eq {c : Cls} (hc : c ∈ concrete) (x : Data) : x.assertExtendable c = decide (c ∈ holders x.name) := by
  obtain ⟨h0, h1, h2, h3, h4, h5, h6, h7, h8, h9, h10, h11, h12, h13, h14, h15⟩ := isA_holders c hc
  cases x <;> simp only [Data.assertExtendable, Data.name]
  · exact h0
  · exact h1
  · exact h2
  · exact h3
  · exact h4
  · exact h5
  · exact h6
  · exact h7
  · exact h8
  · exact h9
  · exact h10
  · exact h11
  · exact h12
  · exact h13
  · exact h14
  · exact h15

/-- The name of a feeder that is given to an adder is not empty. -/
def Draft.Named (d : Draft) : Prop := ∀ s v, d.get (.feederName s) = some (.s v) → v ≠ ""

/-- What each constructor checks. -/
def Draft.Ok (E : Env) : Draft → Prop
  | .activePower _ _ => True
  | .reactive q => q ≠ .nan
  | .angleDroop p d _ => p ≠ .nan ∧ d ≠ .nan
  | .range a b => (a = .nan ∨ Dbl.le 0 a = true) ∧ (b = .nan ∨ Dbl.le 0 b = true)
  | .clock2 c => ∃ n, c = some n ∧ n < 12
  | .clock3 c d => ∃ n m, c = some n ∧ d = some m ∧ n < 12 ∧ m < 12
  | .slope s => Dbl.le 0 s = true
  | .remote _ t _ => t.isSome
  | .status s => s.isSome
  | .busbar b s => b.isSome ∧ s.isSome
  | .position p => (p.feeder.isSome, p.feeder1.isSome, p.feeder2.isSome, p.feeder3.isSome) ∈ shapes
  | .area c => c.isSome
  | .merged x => (Dbl.le 0 x.rdp = true ∧ Dbl.le x.rdp 1 = true) ∧ (Dbl.le 0 x.xdp = true ∧ Dbl.le x.xdp 1 = true) ∧ x.p1 ≠ .nan ∧ x.q1 ≠ .nan ∧ x.p2 ≠ .nan ∧
      x.q2 ≠ .nan ∧ x.code ≠ ""
  | .xnode c => c ≠ ""
  | .detail v => v.fixedP ≠ .nan ∧ v.fixedQ ≠ .nan ∧ v.varP ≠ .nan ∧ v.varQ ≠ .nan
  | .slack t => ∃ r, t = some r ∧ E.levelOf r = E.id

/-- The extension with the values of the adder. -/
def Draft.made (E : Env) : Draft → Option Data
  | .activePower p d => some (.activePower p d)
  | .reactive q => some (.reactive q)
  | .angleDroop p d e => some (.angleDroop p d e)
  | .range a b => some (.range a b)
  | .clock2 c => c.map .clock2
  | .clock3 c d => c.bind fun c => d.map fun d => .clock3 c d
  | .slope s => some (.slope s)
  | .remote q t e => t.map fun t => .remote q t e
  | .status s => s.map .status
  | .busbar b s => b.bind fun b => s.map fun s => .busbar b s
  | .position p => some (.position p)
  | .area c => c.map .area
  | .merged x => some (.merged x)
  | .xnode c => some (.xnode c)
  | .detail v => some (.detail (List.replicate E.size v))
  | .slack t => t.map fun t => .slack ((List.replicate E.size none).set E.index (some t))

theorem makeMerged_ok {x y : Merged} : makeMerged x = .ok y ↔ ((Dbl.le 0 x.rdp = true ∧ Dbl.le x.rdp 1 = true) ∧ (Dbl.le 0 x.xdp = true ∧ Dbl.le x.xdp 1 = true) ∧
    x.p1 ≠ .nan ∧ x.q1 ≠ .nan ∧ x.p2 ≠ .nan ∧ x.q2 ≠ .nan ∧ x.code ≠ "") ∧ y = x := by
  simp only [makeMerged, bind, Out.bind_eq_ok, checkDivider_ok, checkSet_ok, checkNotEmpty_ok, Out.ok.injEq]
  constructor
  · rintro ⟨_, ⟨h1, rfl⟩, _, ⟨h2, rfl⟩, _, ⟨h3, rfl⟩, _, ⟨h4, rfl⟩, _, ⟨h5, rfl⟩, _, ⟨h6, rfl⟩, _, ⟨h7, rfl⟩, rfl⟩
    exact ⟨⟨h1, h2, h3, h4, h5, h6, h7⟩, rfl⟩
  · rintro ⟨⟨h1, h2, h3, h4, h5, h6, h7⟩, rfl⟩
    exact ⟨_, ⟨h1, rfl⟩, _, ⟨h2, rfl⟩, _, ⟨h3, rfl⟩, _, ⟨h4, rfl⟩, _, ⟨h5, rfl⟩, _, ⟨h6, rfl⟩, _, ⟨h7, rfl⟩, rfl⟩

theorem makePowers_ok {x y : Powers} : makePowers x = .ok y ↔ (x.fixedP ≠ .nan ∧ x.fixedQ ≠ .nan ∧ x.varP ≠ .nan ∧ x.varQ ≠ .nan) ∧ y = x := by
  simp only [makePowers, bind, Out.bind_eq_ok, checkSet_ok, Out.ok.injEq]
  constructor
  · rintro ⟨_, ⟨h1, rfl⟩, _, ⟨h2, rfl⟩, _, ⟨h3, rfl⟩, _, ⟨h4, rfl⟩, rfl⟩
    exact ⟨⟨h1, h2, h3, h4⟩, rfl⟩
  · rintro ⟨⟨h1, h2, h3, h4⟩, rfl⟩
    exact ⟨_, ⟨h1, rfl⟩, _, ⟨h2, rfl⟩, _, ⟨h3, rfl⟩, _, ⟨h4, rfl⟩, rfl⟩

set_option linter.unusedSimpArgs false in
theorem create_iff {E : Env} {d : Draft} {x : Data} (hc : E.cls ∈ concrete) (hi : E.index < E.size) :
    d.create E = .ok x ↔ E.cls ∈ holders d.name ∧ d.Ok E ∧ d.made E = some x := by
  have ha := fun x => assert_eq hc x
  cases d with
  | activePower p d =>
    have ha := ha (.activePower p d)
    simp only [Data.assertExtendable, Data.name] at ha
    simp only [Draft.create, bind, Out.bind_eq_ok, require_ok, need_ok, checkSet_ok, checkOPR_ok, checkClock_ok, checkSlope_ok, checkNotEmpty_ok,
      checkPosition_ok, makeMerged_ok, makePowers_ok, Out.ok.injEq, ha, decide_eq_true_eq, Draft.name, Draft.Ok, Draft.made]
    grind
  | reactive q =>
    have ha := ha (.reactive q)
    simp only [Data.assertExtendable, Data.name] at ha
    simp only [Draft.create, bind, Out.bind_eq_ok, require_ok, need_ok, checkSet_ok, checkOPR_ok, checkClock_ok, checkSlope_ok, checkNotEmpty_ok,
      checkPosition_ok, makeMerged_ok, makePowers_ok, Out.ok.injEq, ha, decide_eq_true_eq, Draft.name, Draft.Ok, Draft.made]
    grind
  | angleDroop p d e =>
    have ha := ha (.angleDroop p d e)
    simp only [Data.assertExtendable, Data.name] at ha
    simp only [Draft.create, bind, Out.bind_eq_ok, require_ok, need_ok, checkSet_ok, checkOPR_ok, checkClock_ok, checkSlope_ok, checkNotEmpty_ok,
      checkPosition_ok, makeMerged_ok, makePowers_ok, Out.ok.injEq, ha, decide_eq_true_eq, Draft.name, Draft.Ok, Draft.made]
    grind
  | range a b =>
    have ha := ha (.range a b)
    simp only [Data.assertExtendable, Data.name] at ha
    simp only [Draft.create, bind, Out.bind_eq_ok, require_ok, need_ok, checkSet_ok, checkOPR_ok, checkClock_ok, checkSlope_ok, checkNotEmpty_ok,
      checkPosition_ok, makeMerged_ok, makePowers_ok, Out.ok.injEq, ha, decide_eq_true_eq, Draft.name, Draft.Ok, Draft.made]
    grind
  | clock2 c =>
    have ha := ha (.clock2 0)
    simp only [Data.assertExtendable, Data.name] at ha
    simp only [Draft.create, bind, Out.bind_eq_ok, require_ok, need_ok, checkSet_ok, checkOPR_ok, checkClock_ok, checkSlope_ok, checkNotEmpty_ok,
      checkPosition_ok, makeMerged_ok, makePowers_ok, Out.ok.injEq, ha, decide_eq_true_eq, Draft.name, Draft.Ok, Draft.made]
    grind
  | clock3 c d =>
    have ha := ha (.clock3 0 0)
    simp only [Data.assertExtendable, Data.name] at ha
    simp only [Draft.create, bind, Out.bind_eq_ok, require_ok, need_ok, checkSet_ok, checkOPR_ok, checkClock_ok, checkSlope_ok, checkNotEmpty_ok,
      checkPosition_ok, makeMerged_ok, makePowers_ok, Out.ok.injEq, ha, decide_eq_true_eq, Draft.name, Draft.Ok, Draft.made]
    grind
  | slope s =>
    have ha := ha (.slope s)
    simp only [Data.assertExtendable, Data.name] at ha
    simp only [Draft.create, bind, Out.bind_eq_ok, require_ok, need_ok, checkSet_ok, checkOPR_ok, checkClock_ok, checkSlope_ok, checkNotEmpty_ok,
      checkPosition_ok, makeMerged_ok, makePowers_ok, Out.ok.injEq, ha, decide_eq_true_eq, Draft.name, Draft.Ok, Draft.made]
    grind
  | remote q t e =>
    have ha := ha (.remote q ⟨"", ""⟩ e)
    simp only [Data.assertExtendable, Data.name] at ha
    simp only [Draft.create, bind, Out.bind_eq_ok, require_ok, need_ok, checkSet_ok, checkOPR_ok, checkClock_ok, checkSlope_ok, checkNotEmpty_ok,
      checkPosition_ok, makeMerged_ok, makePowers_ok, Out.ok.injEq, ha, decide_eq_true_eq, Draft.name, Draft.Ok, Draft.made]
    cases t <;> grind
  | status s =>
    have ha := ha (.status ⟨0, by decide⟩)
    simp only [Data.assertExtendable, Data.name] at ha
    simp only [Draft.create, bind, Out.bind_eq_ok, require_ok, need_ok, checkSet_ok, checkOPR_ok, checkClock_ok, checkSlope_ok, checkNotEmpty_ok,
      checkPosition_ok, makeMerged_ok, makePowers_ok, Out.ok.injEq, ha, decide_eq_true_eq, Draft.name, Draft.Ok, Draft.made]
    cases s <;> grind
  | busbar b s =>
    have ha := ha (.busbar 0 0)
    simp only [Data.assertExtendable, Data.name] at ha
    simp only [Draft.create, bind, Out.bind_eq_ok, require_ok, need_ok, checkSet_ok, checkOPR_ok, checkClock_ok, checkSlope_ok, checkNotEmpty_ok,
      checkPosition_ok, makeMerged_ok, makePowers_ok, Out.ok.injEq, ha, decide_eq_true_eq, Draft.name, Draft.Ok, Draft.made]
    cases b <;> cases s <;> grind
  | position p =>
    have ha := ha (.position p)
    simp only [Data.assertExtendable, Data.name] at ha
    simp only [Draft.create, bind, Out.bind_eq_ok, require_ok, need_ok, checkSet_ok, checkOPR_ok, checkClock_ok, checkSlope_ok, checkNotEmpty_ok,
      checkPosition_ok, makeMerged_ok, makePowers_ok, Out.ok.injEq, ha, decide_eq_true_eq, Draft.name, Draft.Ok, Draft.made]
    grind
  | area c =>
    have ha := ha (.area ⟨0, by decide⟩)
    simp only [Data.assertExtendable, Data.name] at ha
    simp only [Draft.create, bind, Out.bind_eq_ok, require_ok, need_ok, checkSet_ok, checkOPR_ok, checkClock_ok, checkSlope_ok, checkNotEmpty_ok,
      checkPosition_ok, makeMerged_ok, makePowers_ok, Out.ok.injEq, ha, decide_eq_true_eq, Draft.name, Draft.Ok, Draft.made]
    cases c <;> grind
  | merged x =>
    have ha := ha (.merged x)
    simp only [Data.assertExtendable, Data.name] at ha
    simp only [Draft.create, bind, Out.bind_eq_ok, require_ok, need_ok, checkSet_ok, checkOPR_ok, checkClock_ok, checkSlope_ok, checkNotEmpty_ok,
      checkPosition_ok, makeMerged_ok, makePowers_ok, Out.ok.injEq, ha, decide_eq_true_eq, Draft.name, Draft.Ok, Draft.made]
    grind
  | xnode c =>
    have ha := ha (.xnode c)
    simp only [Data.assertExtendable, Data.name] at ha
    simp only [Draft.create, bind, Out.bind_eq_ok, require_ok, need_ok, checkSet_ok, checkOPR_ok, checkClock_ok, checkSlope_ok, checkNotEmpty_ok,
      checkPosition_ok, makeMerged_ok, makePowers_ok, Out.ok.injEq, ha, decide_eq_true_eq, Draft.name, Draft.Ok, Draft.made]
    grind
  | detail v =>
    have ha := ha (.detail [v])
    simp only [Data.assertExtendable, Data.name] at ha
    simp only [Draft.create, bind, Out.bind_eq_ok, require_ok, need_ok, checkSet_ok, checkOPR_ok, checkClock_ok, checkSlope_ok, checkNotEmpty_ok,
      checkPosition_ok, makeMerged_ok, makePowers_ok, Out.ok.injEq, ha, decide_eq_true_eq, Draft.name, Draft.Ok, Draft.made]
    grind
  | slack t =>
    have ha := ha (.slack [])
    simp only [Data.assertExtendable, Data.name] at ha
    simp only [Draft.create, bind, Out.bind_eq_ok, require_ok, need_ok, checkSet_ok, checkOPR_ok, checkClock_ok, checkSlope_ok, checkNotEmpty_ok,
      checkPosition_ok, makeMerged_ok, makePowers_ok, Out.ok.injEq, ha, decide_eq_true_eq, Draft.name, Draft.Ok, Draft.made]
    cases t with
    | none => simp
    | some r =>
      have hset : E.levelOf r = E.id → setTerminal E (some r) (List.replicate E.size none) = .ok ((List.replicate E.size none).set E.index (some r)) := by
        intro h
        rw [setTerminal, if_neg (fun hn => hn h), writeAt_ok (by simpa using hi)]
        rfl
      simp only [Option.some.injEq, Option.map_some, beq_iff_eq]
      constructor
      · rintro ⟨_, rfl, _, h1, _, h2, ts, h3, rfl⟩
        rw [hset h2] at h3
        exact ⟨of_decide_eq_true h1, ⟨_, rfl, h2⟩, by rw [Out.ok.inj h3]⟩
      · rintro ⟨h1, ⟨_, rfl, h2⟩, rfl⟩
        exact ⟨_, rfl, (), decide_eq_true h1, (), h2, _, hset h2, rfl⟩

theorem add_iff {E : Env} {d : Draft} {x : Data} (hc : E.cls ∈ concrete) (hi : E.index < E.size) :
    d.add E = .ok x ↔ E.cls ∈ holders d.name ∧ d.Ok E ∧ d.made E = some x := by
  have hname : ∀ {x}, d.made E = some x → x.name = d.name := by
    intro x h
    cases d <;> simp only [Draft.made, Option.some.injEq, Option.map_eq_some_iff, Option.bind_eq_some_iff] at h
    all_goals first
      | (subst h; rfl)
      | (obtain ⟨_, -, rfl⟩ := h; rfl)
      | (obtain ⟨_, -, _, -, rfl⟩ := h; rfl)
  simp only [Draft.add, bind, Out.bind_eq_ok, require_ok, Out.ok.injEq, create_iff hc hi, assert_eq hc, decide_eq_true_eq]
  constructor
  · rintro ⟨y, h, _, -, rfl⟩; exact h
  · intro h; exact ⟨x, h, (), by rw [hname h.2.2]; exact h.1, rfl⟩

theorem ok_iff {E : Env} {d : Draft} (hn : d.Named) : d.Ok E ↔ (∀ k ∈ required d.name, (d.get k).isSome) ∧ (∀ k v, d.get k = some v → Fit E d.name k v) ∧
    (d.name = .position → shapeOf d.get ∈ shapes) := by
  cases d with
  | activePower p d => exact ⟨fun _ => ⟨by simp [required, Draft.name], fun k v e => by cases k <;> simp [Draft.get] at e <;> try (subst e; simp [Fit, Draft.name]), by simp [Draft.name]⟩, fun _ => trivial⟩
  | reactive q =>
    constructor
    · intro h
      obtain h0 := h
      exact ⟨by simp [required, Draft.name], fun k v e => by cases k <;> simp [Draft.get] at e <;> try (subst e; first | exact h0 | trivial), by simp [Draft.name]⟩
    · rintro ⟨-, h, -⟩
      exact h .qPercent _ rfl
  | angleDroop p d e =>
    constructor
    · intro h
      obtain ⟨h0, h1⟩ := h
      exact ⟨by simp [required, Draft.name], fun k v e => by cases k <;> simp [Draft.get] at e <;> try (subst e; first | exact h0 | exact h1 | trivial), by simp [Draft.name]⟩
    · rintro ⟨-, h, -⟩
      exact ⟨h .p0 _ rfl, h .droop _ rfl⟩
  | range a b =>
    constructor
    · intro h
      obtain ⟨h0, h1⟩ := h
      exact ⟨by simp [required, Draft.name], fun k v e => by cases k <;> simp [Draft.get] at e <;> try (subst e; first | exact h0 | exact h1 | trivial), by simp [Draft.name]⟩
    · rintro ⟨-, h, -⟩
      exact ⟨h .range12 _ rfl, h .range21 _ rfl⟩
  | slope s =>
    constructor
    · intro h
      obtain h0 := h
      exact ⟨by simp [required, Draft.name], fun k v e => by cases k <;> simp [Draft.get] at e <;> try (subst e; first | exact h0 | trivial), by simp [Draft.name]⟩
    · rintro ⟨-, h, -⟩
      exact h .slope _ rfl
  | merged x =>
    constructor
    · intro h
      obtain ⟨h0, h1, h2, h3, h4, h5, h6⟩ := h
      exact ⟨by simp [required, Draft.name], fun k v e => by cases k <;> simp [Draft.get] at e <;> try (subst e; first | exact h0 | exact h1 | exact h2 | exact h3 | exact h4 | exact h5 | exact h6 | trivial), by simp [Draft.name]⟩
    · rintro ⟨-, h, -⟩
      exact ⟨h .rdp _ rfl, h .xdp _ rfl, h .xnodeP1 _ rfl, h .xnodeQ1 _ rfl, h .xnodeP2 _ rfl, h .xnodeQ2 _ rfl, h .xnodeCode _ rfl⟩
  | xnode c =>
    constructor
    · intro h
      obtain h0 := h
      exact ⟨by simp [required, Draft.name], fun k v e => by cases k <;> simp [Draft.get] at e <;> try (subst e; first | exact h0 | trivial), by simp [Draft.name]⟩
    · rintro ⟨-, h, -⟩
      exact h .xnodeCode _ rfl
  | detail v =>
    constructor
    · intro h
      obtain ⟨h0, h1, h2, h3⟩ := h
      exact ⟨by simp [required, Draft.name], fun k v e => by cases k <;> simp [Draft.get] at e <;> try (subst e; first | exact h0 | exact h1 | exact h2 | exact h3 | trivial), by simp [Draft.name]⟩
    · rintro ⟨-, h, -⟩
      exact ⟨h .fixedP _ rfl, h .fixedQ _ rfl, h .varP _ rfl, h .varQ _ rfl⟩
  | clock2 c =>
    cases c with
    | none => simp [Draft.Ok, required, Draft.name, Draft.get]
    | some c =>
      constructor
      · rintro ⟨n, e, h⟩
        cases e
        exact ⟨by simp [required, Draft.name, Draft.get], fun k v e => by cases k <;> simp [Draft.get] at e <;> try (subst e; first | exact h | trivial), by simp [Draft.name]⟩
      · rintro ⟨-, h, -⟩
        exact ⟨c, rfl, h .clock _ rfl⟩
  | clock3 c d =>
    cases c with
    | none => simp [Draft.Ok, required, Draft.name, Draft.get]
    | some c =>
      cases d with
      | none => simp [Draft.Ok, required, Draft.name, Draft.get]
      | some d =>
        constructor
        · rintro ⟨n, m, e, e', h, h'⟩
          cases e
          cases e'
          exact ⟨by simp [required, Draft.name, Draft.get], fun k v e => by cases k <;> simp [Draft.get] at e <;> try (subst e; first | exact h | exact h'), by simp [Draft.name]⟩
        · rintro ⟨-, h, -⟩
          exact ⟨c, d, rfl, rfl, h .clockLeg2 _ rfl, h .clockLeg3 _ rfl⟩
  | remote q t e =>
    cases t with
    | none => simp [Draft.Ok, required, Draft.name, Draft.get]
    | some t => exact ⟨fun _ => ⟨by simp [required, Draft.name, Draft.get], fun k v e => by cases k <;> simp [Draft.get] at e <;> try (subst e; trivial), by simp [Draft.name]⟩, fun _ => rfl⟩
  | status t =>
    cases t with
    | none => simp [Draft.Ok, required, Draft.name, Draft.get]
    | some t => exact ⟨fun _ => ⟨by simp [required, Draft.name, Draft.get], fun k v e => by cases k <;> simp [Draft.get] at e <;> try (subst e; trivial), by simp [Draft.name]⟩, fun _ => rfl⟩
  | area t =>
    cases t with
    | none => simp [Draft.Ok, required, Draft.name, Draft.get]
    | some t => exact ⟨fun _ => ⟨by simp [required, Draft.name, Draft.get], fun k v e => by cases k <;> simp [Draft.get] at e <;> try (subst e; trivial), by simp [Draft.name]⟩, fun _ => rfl⟩
  | busbar t u =>
    cases t with
    | none => simp [Draft.Ok, required, Draft.name, Draft.get]
    | some t =>
      cases u with
      | none => simp [Draft.Ok, required, Draft.name, Draft.get]
      | some u => exact ⟨fun _ => ⟨by simp [required, Draft.name, Draft.get], fun k v e => by cases k <;> simp [Draft.get] at e <;> try (subst e; trivial), by simp [Draft.name]⟩, fun _ => ⟨rfl, rfl⟩⟩
  | position p =>
    have hs : shapeOf (Draft.position p).get = (p.feeder.isSome, p.feeder1.isSome, p.feeder2.isSome, p.feeder3.isSome) := by
      simp [shapeOf, Draft.get, Position.get]
    constructor
    · intro h
      refine ⟨by simp [required, Draft.name], fun k v e => ?_, fun _ => by rw [hs]; exact h⟩
      cases k <;> simp [Draft.get] at e
      case feederName s =>
        obtain ⟨f, hf, rfl⟩ := e
        exact hn s f.name (by simp [Draft.get, hf])
      all_goals
        obtain ⟨f, hf, rfl⟩ := e
        trivial
    · rintro ⟨-, -, h⟩
      have h := h rfl
      rw [hs] at h
      exact h
  | slack t =>
    cases t with
    | none => simp [Draft.Ok, required, Draft.name, Draft.get]
    | some t =>
      constructor
      · rintro ⟨n, e, h⟩
        cases e
        exact ⟨by simp [required, Draft.name, Draft.get], fun k v e => by cases k <;> simp [Draft.get] at e <;> try (subst e; exact h), by simp [Draft.name]⟩
      · rintro ⟨-, h, -⟩
        exact ⟨t, rfl, h .terminal _ rfl⟩

/-- The values of the extension are those of the adder: in every variant for `LoadDetail`, in the working variant only for `SlackTerminal`. -/
theorem made_get {E : Env} {d : Draft} {x : Data} (hi : E.index < E.size) (h : d.made E = some x) : x.name = d.name ∧ (∀ s, x.size = some s → s = E.size) ∧
    ∀ i k, x.get i k = if d.name = .detail ∧ E.size ≤ i ∨ d.name = .slack ∧ i ≠ E.index then none else d.get k := by
  cases d <;> simp only [Draft.made, Option.some.injEq, Option.map_eq_some_iff, Option.bind_eq_some_iff] at h
  case position p =>
    subst h
    refine ⟨rfl, nofun, fun i k => ?_⟩
    cases k <;> simp [Data.get, Draft.get, Draft.name]
  case detail v =>
    subst h
    refine ⟨rfl, by simp [Data.size], fun i k => ?_⟩
    by_cases hs : E.size ≤ i
    · have : (List.replicate E.size v)[i]? = none := by simp [hs]
      cases k <;> simp [Data.get, Draft.name, this, hs]
    · have : (List.replicate E.size v)[i]? = some v := by rw [List.getElem?_replicate, if_pos (by omega)]
      cases k <;> simp [Data.get, Draft.name, Draft.get, this, hs]
  case slack t =>
    obtain ⟨r, rfl, rfl⟩ := h
    refine ⟨rfl, by simp [Data.size], fun i k => ?_⟩
    by_cases hs : i = E.index
    · subst hs
      have : ((List.replicate E.size none).set E.index (some r))[E.index]? = some (some r) := by simp [hi]
      cases k <;> simp [Data.get, Draft.name, Draft.get, this]
    · have : (((List.replicate E.size none).set E.index (some r))[i]?).join = none := by
        rw [List.getElem?_set_ne (fun e => hs e.symm)]
        by_cases hs : i < E.size <;> simp [hs]
      cases k <;> simp [Data.get, Draft.name, this, hs]
  all_goals first
    | (subst h; exact ⟨rfl, nofun, fun i k => by cases k <;> simp [Data.get, Draft.get, Draft.name]⟩)
    | (obtain ⟨_, rfl, rfl⟩ := h; exact ⟨rfl, nofun, fun i k => by cases k <;> simp [Data.get, Draft.get, Draft.name]⟩)
    | (obtain ⟨_, rfl, _, rfl, rfl⟩ := h; exact ⟨rfl, nofun, fun i k => by cases k <;> simp [Data.get, Draft.get, Draft.name]⟩)

theorem made_some {E : Env} {d : Draft} (h : d.Ok E) : ∃ x, d.made E = some x := by
  cases d <;> simp only [Draft.Ok, Option.isSome_iff_exists] at h
  case clock2 c => obtain ⟨n, rfl, -⟩ := h; exact ⟨_, rfl⟩
  case clock3 c d => obtain ⟨n, m, rfl, rfl, -⟩ := h; exact ⟨_, rfl⟩
  case busbar b s => obtain ⟨⟨_, rfl⟩, _, rfl⟩ := h; exact ⟨_, rfl⟩
  case slack t => obtain ⟨r, rfl, -⟩ := h; exact ⟨_, rfl⟩
  case remote => obtain ⟨r, rfl⟩ := h; exact ⟨_, rfl⟩
  case status => obtain ⟨r, rfl⟩ := h; exact ⟨_, rfl⟩
  case area => obtain ⟨r, rfl⟩ := h; exact ⟨_, rfl⟩
  all_goals exact ⟨_, rfl⟩

theorem lastWrite_mem {k : Key} {v : Val} : ∀ {ws : List (Key × Val)} {d : Option Val}, lastWrite k d ws = some v → d = some v ∨ (k, v) ∈ ws := by
  intro ws
  induction ws with
  | nil => intro d h; exact .inl h
  | cons w ws ih =>
    intro d h
    simp only [lastWrite] at h
    split at h
    · rename_i e
      rcases ih h with h' | h'
      · right; rw [← e, ← Option.some.inj h']; exact List.mem_cons_self
      · exact .inr (List.mem_cons_of_mem _ h')
    · rcases ih h with h' | h'
      · exact .inl h'
      · exact .inr (List.mem_cons_of_mem _ h')

theorem given_named {n : Name} {ops : List Op} (h : ∀ op ∈ ops, op.Gives n) : ((Draft.new n).run ops).Named := by
  intro s v hv
  rw [adder_holds_given h] at hv
  rcases lastWrite_mem hv with hd | hm
  · cases n <;> simp [default] at hd
  · obtain ⟨op, ho, hw⟩ := List.mem_flatMap.1 hm
    rcases h op ho with ⟨k, v', hk, hv', hg⟩ | ⟨-, s', f, rfl⟩
    · exfalso
      have hfn : ∀ s, Key.feederName s ∉ givable n := by intro s; cases n <;> simp [givable, settable]
      cases op <;> simp [Op.key, Op.writes, Op.val] at hk hw
      case terminal t => cases t <;> simp at hw
      all_goals
        subst hk
        exact hfn _ hg
    · obtain ⟨m, o, d⟩ := f
      cases o with
      | none => simp [Op.writes] at hw
      | some o =>
        cases d with
        | none => simp [Op.writes] at hw
        | some d =>
          simp only [Op.writes] at hw
          split at hw
          · rename_i hne
            simp at hw
            rw [hw.2]
            exact hne
          · simp at hw

/-- **C78.**  An extension is added exactly when the object is one that can have it, every value without default was given, every value is one that it may hold,
and, for a position, the feeders go together. -/
theorem extension_added_iff {n : Name} {E : Env} {ops : List Op} (hops : ∀ op ∈ ops, op.Gives n) (hc : E.cls ∈ concrete) (hi : E.index < E.size) :
    (∃ x, ((Draft.new n).run ops).add E = .ok x) ↔ E.cls ∈ holders n ∧ (∀ k ∈ required n, (given n ops k).isSome) ∧
      (∀ k v, given n ops k = some v → Fit E n k v) ∧ (n = .position → shapeOf (given n ops) ∈ shapes) := by
  have hname : ((Draft.new n).run ops).name = n := (run_writes ops (by rw [new_name]; exact hops)).1.trans (new_name n)
  have hget : ((Draft.new n).run ops).get = given n ops := funext (adder_holds_given hops)
  rw [show (∃ x, ((Draft.new n).run ops).add E = .ok x) ↔ E.cls ∈ holders n ∧ ((Draft.new n).run ops).Ok E from ?_, ok_iff (given_named hops), hname, hget]
  constructor
  · rintro ⟨x, hx⟩
    have := (add_iff hc hi).1 hx
    rw [hname] at this
    exact ⟨this.1, this.2.1⟩
  · rintro ⟨h1, h2⟩
    obtain ⟨x, hx⟩ := made_some h2
    exact ⟨x, (add_iff hc hi).2 ⟨by rw [hname]; exact h1, h2, hx⟩⟩

/-- **C78.**  The extension that is added holds what was given: in every variant for the detail of a load, in the working variant only for a slack terminal. -/
theorem extension_added_values {n : Name} {E : Env} {ops : List Op} {x : Data} (hops : ∀ op ∈ ops, op.Gives n) (hc : E.cls ∈ concrete) (hi : E.index < E.size)
    (h : ((Draft.new n).run ops).add E = .ok x) : x.name = n ∧ (∀ s, x.size = some s → s = E.size) ∧
      ∀ i k, x.get i k = if n = .detail ∧ E.size ≤ i ∨ n = .slack ∧ i ≠ E.index then none else given n ops k := by
  have hname : ((Draft.new n).run ops).name = n := (run_writes ops (by rw [new_name]; exact hops)).1.trans (new_name n)
  obtain ⟨h1, h2, h3⟩ := made_get hi ((add_iff hc hi).1 h).2.2
  rw [hname] at h1 h3
  exact ⟨h1, h2, fun i k => by rw [h3, adder_holds_given hops]⟩

/-- **C78.**  From the adder on, and whatever the calls made afterwards, nothing is undefined and the values are those that the extension may hold; but a feeder
can be given an empty name. -/
theorem extension_values_partial {n : Name} {E : Env} {ops ops' : List Op} {x : Data} (hops : ∀ op ∈ ops, op.Gives n) (hc : E.cls ∈ concrete) (hi : E.index < E.size)
    (h : ((Draft.new n).run ops).add E = .ok x) (hn : ∀ s, .feederName s "" ∉ ops') : ∃ y, x.run E ops' = .ok y ∧ y.name = n ∧ y.Sound E := by
  obtain ⟨h1, h2, h3⟩ := extension_added_values hops hc hi h
  obtain ⟨-, -, hf, hs⟩ := (extension_added_iff hops hc hi).1 ⟨x, h⟩
  have hb : x.InBounds E := fun s e => by rw [h2 s e]; exact hi
  obtain ⟨y, hy, hyn, -⟩ := calls_defined ops' hb
  refine ⟨y, hy, hyn.trans h1, extension_values_kept_partial ops' ⟨?_, ?_⟩ hb hn hy⟩
  · intro i k v hv
    rw [h3] at hv
    rw [h1]
    split at hv
    · cases hv
    · exact hf k v hv
  · intro hp
    have hp : n = .position := h1 ▸ hp
    have : x.get E.index = given n ops := by
      funext k
      rw [h3, if_neg]
      rw [hp]
      simp
    rw [this]
    exact hs hp

/-- An addition is never undefined. -/
theorem add_defined {E : Env} {d : Draft} (hi : E.index < E.size) : d.add E ≠ .ub := by
  have hreq : ∀ b, require b ≠ .ub := by intro b; cases b <;> simp [require]
  have hset : ∀ d, checkSet d ≠ .ub := by intro d; rw [checkSet_eq]; split <;> simp
  have hopr : ∀ d, checkOPR d ≠ .ub := by intro d; rw [checkOPR_eq]; split <;> simp
  have hclk : ∀ d, checkClock d ≠ .ub := by intro d; rw [checkClock_eq]; split <;> simp
  have hslo : ∀ d, checkSlope d ≠ .ub := by intro d; rw [checkSlope_eq]; split <;> simp
  have hdiv : ∀ d, checkDivider d ≠ .ub := by intro d; rw [checkDivider_eq]; split <;> simp
  have hnot : ∀ d, checkNotEmpty d ≠ .ub := by intro d; rw [checkNotEmpty_eq]; split <;> simp
  have hned : ∀ {α : Type} (o : Option α), need o ≠ .ub := by intro α o; cases o <;> simp [need]
  have hbind : ∀ {α β : Type} {a : Out α} {f : α → Out β}, a ≠ .ub → (∀ x, f x ≠ .ub) → a.bind f ≠ .ub := by
    intro α β a f h1 h2
    cases a with
    | ok x => exact h2 x
    | thrown => simp [Out.bind]
    | ub => exact absurd rfl h1
  have hpos : ∀ p, checkPosition p ≠ .ub := by
    rintro ⟨a, b, c, d⟩
    cases a <;> cases b <;> cases c <;> cases d <;> simp [checkPosition]
  have hok : ∀ {α : Type} (a : α), Out.ok a ≠ .ub := by intro α a; simp
  have hter : ∀ t, setTerminal E (some t) (List.replicate E.size none) ≠ .ub := by
    intro t
    rw [setTerminal]
    split
    · simp
    · rw [writeAt_ok (by simpa using hi)]; simp [Out.map]
  refine hbind ?_ (fun x => hbind (hreq _) fun _ => hok _)
  cases d <;> simp only [Draft.create, makeMerged, makePowers, bind]
  all_goals repeat' first
    | exact hreq _ | exact hset _ | exact hopr _ | exact hclk _ | exact hslo _ | exact hdiv _ | exact hnot _ | exact hned _ | exact hpos _ | exact hok _
    | exact hter _ | refine hbind ?_ fun _ => ?_

/-! ### Examples -/

/-- A network with two variants, in the second one; the equipment `VG` is in the voltage level `V`, the others in `W`. -/
def exEnv (c : Cls) (id : String) : Env := ⟨c, id, 2, 1, fun r => if r.id = "VG" then "V" else "W"⟩

/-- The values given to a `MergedXnodeAdder`; the first divider position is given twice. -/
def exMerged : List Op := [.rdp (.fin 2), .rdp 0, .xdp 1, .xnodeP1 (.fin (-3)), .xnodeQ1 0, .xnodeP2 .posInf, .xnodeQ2 0, .xnodeCode "X"]

/-- The feeders of a branch. -/
def exFeeders : List Op := [.feeder .two ⟨"b", some 4, some ⟨1, by decide⟩⟩, .feeder .one ⟨"", some 2, some ⟨0, by decide⟩⟩, .feeder .one ⟨"a", some 3, some ⟨0, by decide⟩⟩]

example : (∀ op ∈ exMerged, op.Gives .merged) ∧ Cls.tieLine ∈ concrete ∧ (exEnv .tieLine "L").index < (exEnv .tieLine "L").size := by
  refine ⟨?_, by decide, by decide⟩
  intro op h
  simp only [exMerged, List.mem_cons, List.not_mem_nil, or_false] at h
  rcases h with rfl | rfl | rfl | rfl | rfl | rfl | rfl | rfl <;> exact .inl ⟨_, _, rfl, rfl, by decide⟩

example : ((Draft.new .merged).run exMerged).add (exEnv .tieLine "L") = .ok (.merged ⟨0, 1, .fin (-3), 0, .posInf, 0, "", "", "X"⟩) := by decide

example : ((Draft.new .merged).run exMerged).add (exEnv .twoWindings "L") = .thrown := by decide

example : (∀ op ∈ exFeeders, op.Gives .position) ∧ ((Draft.new .position).run exFeeders).add (exEnv .line "L") =
    .ok (.position ⟨none, some ⟨"a", 3, ⟨0, by decide⟩⟩, some ⟨"b", 4, ⟨1, by decide⟩⟩, none⟩) := by
  refine ⟨?_, by decide⟩
  intro op h
  simp only [exFeeders, List.mem_cons, List.not_mem_nil, or_false] at h
  rcases h with rfl | rfl | rfl <;> exact .inr ⟨rfl, _, _, rfl⟩

example : ((Draft.new .slack).run [.terminal (some ⟨"VG", ""⟩)]).add (exEnv .voltageLevel "V") = .ok (.slack [none, some ⟨"VG", ""⟩]) := by decide

example : ((Draft.new .slack).run [.terminal (some ⟨"WG", ""⟩)]).add (exEnv .voltageLevel "V") = .thrown := by decide

/-- A value is refused, the next one is accepted in the working variant. -/
example : (Data.detail [⟨1, 2, 3, 4⟩, ⟨1, 2, 3, 4⟩]).run (exEnv .load "L") [.fixedP .nan, .varQ 7] = .ok (.detail [⟨1, 2, 3, 4⟩, ⟨1, 2, 3, 7⟩]) := by decide

end Verif.ExtData
