import Verif.Setters.Model
import Verif.XmlNet.NetValid

/-!
What the calls may do, said without them: the specification of C94.  What an equipment may contain is that of C69 and C71 (`LoadValid`, ..., `NetValid`); here are the
calls that may break it, all the others being safe, and the range of the positions of a tap changer.
-/

namespace Verif.Setters

open Verif Verif.Xml Verif.XmlNet

/-- The position is one of those of the steps, the last one being counted without overflow. -/
def Inside (low tap : Int) (n : Nat) : Prop := -2 ^ 63 ≤ low ∧ low ≤ tap ∧ tap ≤ low + n - 1

/-- An energy source is not checked. -/
def GenOp.Safe : GenOp → Prop
  | .setEnergySource k => k < Enums.energySource.enumerators.length
  | _ => True

/-- The values of a step are not checked, and the load tap changing capabilities are those of before. -/
def RtcOp.Safe (t : Rtc) : RtcOp → Prop
  | .setLoadTapChangingCapabilities b => t.on = true → b = true → Dbl.lt 0 t.targetV = true
  | .setStep _ _ d => IsSet d
  | _ => True

/-- The values of a step are not checked, nor is the regulation when it is enabled. -/
def PtcOp.Safe (t : Ptc) : PtcOp → Prop
  | .setRegulating b => b = true → t.reg ≠ none ∧ IsSet t.value ∧ t.mode ≠ 2
  | .setStep _ _ d => IsSet d
  | .setAlpha _ d => IsSet d
  | _ => True

/-- Two tap changers of a transformer do not regulate together; `others` are the flags of the other windings. -/
def TapsOp.Safe (others : List Bool) (r : Option Rtc) (p : Option Ptc) : TapsOp → Prop
  | .rtc o => (∀ t, r = some t → o.Safe t) ∧ (o = .setRegulating true → true ∉ others ∧ ∀ u, p = some u → u.on = false)
  | .ptc o => (∀ t, p = some t → o.Safe t) ∧ (o = .setRegulating true → true ∉ others ∧ ∀ u, r = some u → u.on = false)
  | _ => True

def Tw2Op.Safe (x : Tw2) : Tw2Op → Prop
  | .taps o => o.Safe [] x.rtc x.ptc
  | _ => True

def LegOp.Safe (others : List Bool) (x : Leg) : LegOp → Prop
  | .taps o => o.Safe others x.sub.rtc x.sub.ptc
  | _ => True

/-- The regulation flags of a leg. -/
def legFlags (x : Leg) : List Bool := flags x.sub.rtc x.sub.ptc

def Tw3Op.Safe (x : Tw3) : Tw3Op → Prop
  | .ident _ => True
  | .leg1 o => o.Safe (legFlags x.leg2 ++ legFlags x.leg3) x.leg1
  | .leg2 o => o.Safe (legFlags x.leg1 ++ legFlags x.leg3) x.leg2
  | .leg3 o => o.Safe (legFlags x.leg1 ++ legFlags x.leg2) x.leg3

def VLOp.Safe : VLOp → Prop
  | .gen _ o => o.Safe
  | _ => True

/-- A country is not checked. -/
def SubOp.Safe (x : Substation) : SubOp → Prop
  | .setCountry c => ∀ k, c = some k → k < Enums.country.enumerators.length
  | .vl _ o => o.Safe
  | .tw2 i o => ∀ t, x.tw2s[i]? = some t → o.Safe t
  | .tw3 i o => ∀ t, x.tw3s[i]? = some t → o.Safe t
  | _ => True

/-- A fictitious network is not written as such. -/
def NetOp.Safe {T : Type} (x : Net T) : NetOp T → Prop
  | .ident (.setFictitious b) => b = false
  | .sub i o => ∀ s, x.subs[i]? = some s → o.Safe s
  | _ => True

/-- Every call of a history that is accepted is safe. -/
def SafeHistory {T : Type} (x : Net T) : List (NetOp T) → Prop
  | [] => True
  | o :: os => (∀ y, o.set x = .ok y → o.Safe x ∧ SafeHistory y os) ∧ (o.set x = .thrown → SafeHistory x os)

/-- The networks met along a history, one for each call that is not undefined. -/
def met {T : Type} (x : Net T) : List (NetOp T) → List (Net T)
  | [] => []
  | o :: os => match o.set x with
    | .ok y => y :: met y os
    | .thrown => x :: met x os
    | .ub => []

/-! ### Calls that are safe in every state -/

def RtcOp.Plain : RtcOp → Prop
  | .setRegulating b => b = false
  | .setLoadTapChangingCapabilities b => b = false
  | .setStep _ _ d => IsSet d
  | _ => True

def PtcOp.Plain : PtcOp → Prop
  | .setRegulating b => b = false
  | .setStep _ _ d => IsSet d
  | .setAlpha _ d => IsSet d
  | _ => True

def TapsOp.Plain : TapsOp → Prop
  | .rtc o => o.Plain
  | .ptc o => o.Plain
  | _ => True

def LegOp.Plain : LegOp → Prop
  | .taps o => o.Plain
  | _ => True

def SubOp.Plain : SubOp → Prop
  | .setCountry c => ∀ k, c = some k → k < Enums.country.enumerators.length
  | .vl _ o => o.Safe
  | .tw2 _ (.taps o) => o.Plain
  | .tw3 _ (.leg1 o) => o.Plain
  | .tw3 _ (.leg2 o) => o.Plain
  | .tw3 _ (.leg3 o) => o.Plain
  | _ => True

/-- Every call of a network, but for a network made fictitious, an enumerator out of its enumeration, a step value that is not set, and a regulation or load tap changing
capabilities that are switched on. -/
def NetOp.Plain {T : Type} : NetOp T → Prop
  | .ident (.setFictitious b) => b = false
  | .sub _ o => o.Plain
  | _ => True

/-! ### Positions -/

def RtcInside (t : Rtc) : Prop := Inside t.low t.tap t.steps.length

def PtcInside (t : Ptc) : Prop := Inside t.low t.tap t.steps.length

/-- The positions of the tap changers of a winding. -/
def WindingInside (r : Option Rtc) (p : Option Ptc) : Prop := (∀ t, r = some t → RtcInside t) ∧ ∀ t, p = some t → PtcInside t

def Tw2Inside (x : Tw2) : Prop := WindingInside x.rtc x.ptc

def LegInside (x : Leg) : Prop := WindingInside x.sub.rtc x.sub.ptc

def Tw3Inside (x : Tw3) : Prop := LegInside x.leg1 ∧ LegInside x.leg2 ∧ LegInside x.leg3

def SubInside (x : Substation) : Prop := (∀ t ∈ x.tw2s, Tw2Inside t) ∧ ∀ t ∈ x.tw3s, Tw3Inside t

def NetInside {T : Type} (x : Net T) : Prop := ∀ s ∈ x.subs, SubInside s

end Verif.Setters
