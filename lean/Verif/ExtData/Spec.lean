import Verif.ExtData.Model

/-! What is expected of the extensions that hold values: on which objects they are, which values they hold, which values must be given, what each call writes. -/

namespace Verif.ExtData

open Verif Verif.XmlNet

/-- The classes of which there are objects. -/
def concrete : List Cls :=
  [.network, .substation, .voltageLevel, .bus, .switch, .busbarSection, .load, .generator, .battery, .shunt, .svc, .danglingLine, .vsc, .lcc, .line, .tieLine,
    .twoWindings, .threeWindings, .hvdcLine]

/-- What has terminals. -/
def equipments : List Cls :=
  [.busbarSection, .load, .generator, .battery, .shunt, .svc, .danglingLine, .vsc, .lcc, .line, .tieLine, .twoWindings, .threeWindings]

/-- The objects that can have the extension. -/
def holders : Name → List Cls
  | .activePower => [.battery, .generator]
  | .reactive => [.generator]
  | .angleDroop => [.hvdcLine]
  | .range => [.hvdcLine]
  | .clock2 => [.twoWindings]
  | .clock3 => [.threeWindings]
  | .slope => [.svc]
  | .remote => [.generator]
  | .status => equipments
  | .busbar => [.busbarSection]
  | .position => equipments
  | .area => [.substation]
  | .merged => [.line, .tieLine]
  | .xnode => [.danglingLine]
  | .detail => [.load]
  | .slack => [.voltageLevel]

/-- The values that an extension may hold: a percentage, a power or a droop is a number; a range is unknown or not negative; a clock is an hour; a slope is not
negative; a divider position is between 0 and 1; a code and the name of a feeder are not empty; the slack terminal is in the voltage level. -/
def Fit (E : Env) : Name → Key → Val → Prop
  | .reactive, .qPercent, .d x => x ≠ .nan
  | .angleDroop, .p0, .d x => x ≠ .nan
  | .angleDroop, .droop, .d x => x ≠ .nan
  | .range, .range12, .d x => x = .nan ∨ Dbl.le 0 x = true
  | .range, .range21, .d x => x = .nan ∨ Dbl.le 0 x = true
  | .clock2, .clock, .n c => c < 12
  | .clock3, .clockLeg2, .n c => c < 12
  | .clock3, .clockLeg3, .n c => c < 12
  | .slope, .slope, .d x => Dbl.le 0 x = true
  | .position, .feederName _, .s x => x ≠ ""
  | .merged, .rdp, .d x => Dbl.le 0 x = true ∧ Dbl.le x 1 = true
  | .merged, .xdp, .d x => Dbl.le 0 x = true ∧ Dbl.le x 1 = true
  | .merged, .xnodeP1, .d x => x ≠ .nan
  | .merged, .xnodeQ1, .d x => x ≠ .nan
  | .merged, .xnodeP2, .d x => x ≠ .nan
  | .merged, .xnodeQ2, .d x => x ≠ .nan
  | .merged, .xnodeCode, .s x => x ≠ ""
  | .xnode, .xnodeCode, .s x => x ≠ ""
  | .detail, .fixedP, .d x => x ≠ .nan
  | .detail, .fixedQ, .d x => x ≠ .nan
  | .detail, .varP, .d x => x ≠ .nan
  | .detail, .varQ, .d x => x ≠ .nan
  | .slack, .terminal, .r t => E.levelOf t = E.id
  | _, _, _ => True

/-- The values that have no default. -/
def required : Name → List Key
  | .clock2 => [.clock]
  | .clock3 => [.clockLeg2, .clockLeg3]
  | .remote => [.regulating]
  | .status => [.status]
  | .busbar => [.busbarIndex, .sectionIndex]
  | .area => [.code]
  | .slack => [.terminal]
  | _ => []

/-- Which of the feeders `feeder`, `feeder1`, `feeder2`, `feeder3` a position may have. -/
def shapes : List (Bool × Bool × Bool × Bool) :=
  [(true, false, false, false), (false, true, false, false), (false, true, true, false), (false, true, true, true)]

/-- The feeders that there are, among the values `g`. -/
def shapeOf (g : Key → Option Val) : Bool × Bool × Bool × Bool :=
  ((g (.feederName .only)).isSome, (g (.feederName .one)).isSome, (g (.feederName .two)).isSome, (g (.feederName .three)).isSome)

/-- The values that can be changed once the extension is made. -/
def settable : Name → List Key
  | .activePower => [.participate, .droop]
  | .reactive => [.qPercent]
  | .angleDroop => [.p0, .droop, .enabled]
  | .range => [.range12, .range21]
  | .clock2 => [.clock]
  | .clock3 => [.clockLeg2, .clockLeg3]
  | .slope => [.slope]
  | .remote => []
  | .status => [.status]
  | .busbar => [.busbarIndex, .sectionIndex]
  | .position => [.feederName .only, .feederName .one, .feederName .two, .feederName .three, .feederOrder .only, .feederOrder .one, .feederOrder .two,
      .feederOrder .three, .feederDirection .only, .feederDirection .one, .feederDirection .two, .feederDirection .three]
  | .area => [.code]
  | .merged => [.rdp, .xdp, .xnodeP1, .xnodeQ1, .xnodeP2, .xnodeQ2, .line1Name, .line2Name, .xnodeCode]
  | .xnode => [.xnodeCode]
  | .detail => [.fixedP, .fixedQ, .varP, .varQ]
  | .slack => [.terminal]

/-- The values that can be given one by one to the adder. -/
def givable : Name → List Key
  | .remote => [.targetQ, .regulating, .enabled]
  | .position => []
  | n => settable n

/-- The extension has a value for each variant. -/
def perVariant : Name → Bool
  | .detail => true
  | .slack => true
  | _ => false

/-- What a call is about. -/
def Op.key : Op → Option Key
  | .participate _ => some .participate
  | .droop _ => some .droop
  | .qPercent _ => some .qPercent
  | .p0 _ => some .p0
  | .enabled _ => some .enabled
  | .range12 _ => some .range12
  | .range21 _ => some .range21
  | .clock _ => some .clock
  | .clockLeg2 _ => some .clockLeg2
  | .clockLeg3 _ => some .clockLeg3
  | .slope _ => some .slope
  | .targetQ _ => some .targetQ
  | .regulating _ => some .regulating
  | .status _ => some .status
  | .busbarIndex _ => some .busbarIndex
  | .sectionIndex _ => some .sectionIndex
  | .feeder _ _ => none
  | .feederName s _ => some (.feederName s)
  | .feederOrder s _ => some (.feederOrder s)
  | .feederDirection s _ => some (.feederDirection s)
  | .code _ => some .code
  | .rdp _ => some .rdp
  | .xdp _ => some .xdp
  | .xnodeP1 _ => some .xnodeP1
  | .xnodeQ1 _ => some .xnodeQ1
  | .xnodeP2 _ => some .xnodeP2
  | .xnodeQ2 _ => some .xnodeQ2
  | .line1Name _ => some .line1Name
  | .line2Name _ => some .line2Name
  | .xnodeCode _ => some .xnodeCode
  | .fixedP _ => some .fixedP
  | .fixedQ _ => some .fixedQ
  | .varP _ => some .varP
  | .varQ _ => some .varQ
  | .terminal _ => some .terminal

/-- The value of a call. -/
def Op.val : Op → Option Val
  | .participate b => some (.b b)
  | .droop d => some (.d d)
  | .qPercent d => some (.d d)
  | .p0 d => some (.d d)
  | .enabled b => some (.b b)
  | .range12 d => some (.d d)
  | .range21 d => some (.d d)
  | .clock c => some (.n c)
  | .clockLeg2 c => some (.n c)
  | .clockLeg3 c => some (.n c)
  | .slope d => some (.d d)
  | .targetQ d => some (.d d)
  | .regulating t => some (.r t)
  | .status s => some (.status s)
  | .busbarIndex n => some (.n n)
  | .sectionIndex n => some (.n n)
  | .feeder _ _ => none
  | .feederName _ n => some (.s n)
  | .feederOrder _ n => some (.n n)
  | .feederDirection _ d => some (.direction d)
  | .code c => some (.code c)
  | .rdp d => some (.d d)
  | .xdp d => some (.d d)
  | .xnodeP1 d => some (.d d)
  | .xnodeQ1 d => some (.d d)
  | .xnodeP2 d => some (.d d)
  | .xnodeQ2 d => some (.d d)
  | .line1Name s => some (.s s)
  | .line2Name s => some (.s s)
  | .xnodeCode s => some (.s s)
  | .fixedP d => some (.d d)
  | .fixedQ d => some (.d d)
  | .varP d => some (.d d)
  | .varQ d => some (.d d)
  | .terminal t => t.map .r

/-- The call exists on the adder: a value, a terminal that is there, or `newFeeder().with...().add()`. -/
def Op.Gives (n : Name) (op : Op) : Prop :=
  (∃ k v, op.key = some k ∧ op.val = some v ∧ k ∈ givable n) ∨ n = .position ∧ ∃ s f, op = .feeder s f

/-- What a call on the adder writes; a feeder that is not complete is refused. -/
def Op.writes : Op → List (Key × Val)
  | .feeder s ⟨n, some o, some d⟩ => if n ≠ "" then [(.feederName s, .s n), (.feederOrder s, .n o), (.feederDirection s, .direction d)] else []
  | .feeder _ _ => []
  | op => match op.key, op.val with
    | some k, some v => [(k, v)]
    | _, _ => []

/-- The last value written for `k`, or else `dflt`. -/
def lastWrite (k : Key) (dflt : Option Val) : List (Key × Val) → Option Val
  | [] => dflt
  | (k', v) :: ws => if k' = k then lastWrite k (some v) ws else lastWrite k dflt ws

/-- The default values. -/
def default : Name → Key → Option Val
  | .activePower, .participate => some (.b false)
  | .activePower, .droop => some (.d 0)
  | .reactive, .qPercent => some (.d .nan)
  | .angleDroop, .p0 => some (.d .nan)
  | .angleDroop, .droop => some (.d .nan)
  | .angleDroop, .enabled => some (.b false)
  | .range, .range12 => some (.d 0)
  | .range, .range21 => some (.d 0)
  | .slope, .slope => some (.d 0)
  | .remote, .targetQ => some (.d 0)
  | .remote, .enabled => some (.b false)
  | .merged, .rdp => some (.d .nan)
  | .merged, .xdp => some (.d .nan)
  | .merged, .xnodeP1 => some (.d .nan)
  | .merged, .xnodeQ1 => some (.d .nan)
  | .merged, .xnodeP2 => some (.d .nan)
  | .merged, .xnodeQ2 => some (.d .nan)
  | .merged, .line1Name => some (.s "")
  | .merged, .line2Name => some (.s "")
  | .merged, .xnodeCode => some (.s "")
  | .xnode, .xnodeCode => some (.s "")
  | .detail, .fixedP => some (.d 0)
  | .detail, .fixedQ => some (.d 0)
  | .detail, .varP => some (.d 0)
  | .detail, .varQ => some (.d 0)
  | _, _ => none

/-- What the calls `ops` on a new adder of the extension `n` have given. -/
def given (n : Name) (ops : List Op) (k : Key) : Option Val := lastWrite k (default n k) (ops.flatMap Op.writes)

/-- The number of values of an extension that has one for each variant. -/
def Data.size : Data → Option Nat
  | .detail v => some v.length
  | .slack ts => some ts.length
  | _ => none

/-- There is a value for the working variant. -/
def Data.InBounds (E : Env) (x : Data) : Prop := ∀ s, x.size = some s → E.index < s

/-- The values are those that the extension may hold, in every variant. -/
def Data.Sound (E : Env) (x : Data) : Prop :=
  (∀ i k v, x.get i k = some v → Fit E x.name k v) ∧ (x.name = .position → shapeOf (x.get E.index) ∈ shapes)

end Verif.ExtData
