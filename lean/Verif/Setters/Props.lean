import Verif.Setters.NetProps
import Verif.XmlNet.NetProps

/-!
C94: histories, what is undefined, and what the unsafe calls break.
-/

namespace Verif.Setters

open Verif Verif.Xml Verif.XmlNet

variable {T : Type}

/-- The networks met along a history are all valid when and only when its calls are safe. -/
theorem histories_stay_valid_iff : ∀ (os : List (NetOp T)) {x : Net T}, NetValid x → NetInside x → ((∀ y ∈ met x os, NetValid y) ↔ SafeHistory x os) := by
  intro os
  induction os with
  | nil => intro x _ _; simp [met, SafeHistory]
  | cons o os ih =>
    intro x hx hi
    simp only [SafeHistory]
    cases ho : o.set x with
    | ok z =>
      have hm : met x (o :: os) = z :: met z os := by simp only [met, ho]
      have hiff := network_stays_valid_iff hx hi ho
      have hz := network_stays_inside hi ho
      rw [hm]
      constructor
      · intro h
        have h1 := h z List.mem_cons_self
        refine ⟨fun y hy => ?_, nofun⟩
        cases hy
        exact ⟨hiff.1 h1, (ih h1 hz).1 fun w hw => h w (List.mem_cons_of_mem _ hw)⟩
      · rintro ⟨h, _⟩ y hy
        obtain ⟨h1, h2⟩ := h z rfl
        have h3 := hiff.2 h1
        rcases List.mem_cons.1 hy with rfl | hy
        · exact h3
        · exact (ih h3 hz).2 h2 y hy
    | thrown =>
      have hm : met x (o :: os) = x :: met x os := by simp only [met, ho]
      rw [hm]
      constructor
      · intro h
        exact ⟨nofun, fun _ => (ih hx hi).1 fun w hw => h w (List.mem_cons_of_mem _ hw)⟩
      · rintro ⟨_, h⟩ y hy
        rcases List.mem_cons.1 hy with rfl | hy
        · exact hx
        · exact (ih hx hi).2 (h rfl) y hy
    | ub =>
      have hm : met x (o :: os) = [] := by simp only [met, ho]
      rw [hm]
      exact ⟨fun _ => ⟨nofun, nofun⟩, fun _ y hy => absurd hy List.not_mem_nil⟩

theorem plain_taps {o : TapsOp} (h : o.Plain) (l : List Bool) (r : Option Rtc) (p : Option Ptc) : o.Safe l r p := by
  cases o with
  | rtc o =>
    refine ⟨fun t _ => ?_, ?_⟩
    · cases o with
      | setLoadTapChangingCapabilities b => intro _ hb; exact nomatch hb.symm.trans h
      | setStep p f d => exact h
      | _ => trivial
    · rintro rfl; cases h
  | ptc o =>
    refine ⟨fun t _ => ?_, ?_⟩
    · cases o with
      | setRegulating b => intro hb; exact nomatch hb.symm.trans h
      | setStep p f d => exact h
      | setAlpha p d => exact h
      | _ => trivial
    · rintro rfl; cases h
  | _ => trivial

theorem plain_leg {o : LegOp} (h : o.Plain) (l : List Bool) (x : Leg) : o.Safe l x := by
  cases o with
  | taps o => exact plain_taps h _ _ _
  | _ => trivial

theorem plain_sub {o : SubOp} (h : o.Plain) (x : Substation) : o.Safe x := by
  cases o with
  | setCountry c => exact h
  | vl i o => exact h
  | tw2 i o =>
    intro t _
    cases o with
    | taps o => exact plain_taps h _ _ _
    | _ => trivial
  | tw3 i o =>
    intro t _
    cases o with
    | ident o => trivial
    | leg1 o => exact plain_leg h _ _
    | leg2 o => exact plain_leg h _ _
    | leg3 o => exact plain_leg h _ _
  | _ => trivial

theorem plain_safe {o : NetOp T} (h : o.Plain) (x : Net T) : o.Safe x := by
  cases o with
  | ident o =>
    cases o with
    | setFictitious b => exact h
    | _ => trivial
  | sub i o => intro s _; exact plain_sub h s
  | _ => trivial

theorem plain_history : ∀ (os : List (NetOp T)) (x : Net T), (∀ o ∈ os, o.Plain) → SafeHistory x os := by
  intro os
  induction os with
  | nil => intro x _; trivial
  | cons o os ih =>
    intro x h
    exact ⟨fun y _ => ⟨plain_safe (h o List.mem_cons_self) x, ih y fun p hp => h p (List.mem_cons_of_mem _ hp)⟩, fun _ => ih x fun p hp => h p (List.mem_cons_of_mem _ hp)⟩

/-- After any history of plain calls, whatever they are given and whether they throw or not, the network is valid. -/
theorem plain_histories_stay_valid {os : List (NetOp T)} (ho : ∀ o ∈ os, o.Plain) {x y : Net T} (hx : NetValid x) (hi : NetInside x) (h : run x os = .ok y) : NetValid y :=
  histories_stay_valid_partial os hx hi (plain_history os x ho) h

/-! ### What is undefined -/

theorem lift_ub {α β : Type} {x : Out α} {f : α → β} : x.map f = .ub ↔ x = .ub := by cases x <;> simp [Out.map]

theorem grd_ub {α : Type} {bad : Bool} {y : α} : grd bad y ≠ .ub := by cases bad <;> simp [grd]

theorem shift_ub {tap low old : Int} : shift tap low old = .ub ↔ ¬ ((-2 ^ 63 ≤ tap + low ∧ tap + low < 2 ^ 63) ∧ -2 ^ 63 ≤ tap + low - old ∧ tap + low - old < 2 ^ 63) := by
  unfold shift isLong
  split
  · rename_i h
    simp only [Bool.and_eq_true, decide_eq_true_eq] at h
    exact ⟨nofun, fun h1 => absurd h h1⟩
  · rename_i h
    simp only [Bool.and_eq_true, decide_eq_true_eq] at h
    simp only [true_iff]
    exact h

/-- A call of a ratio tap changer is undefined when and only when it moves the lowest position so far that a sum of positions is not a `long`. -/
theorem ratio_undefined_iff {o : RtcOp} {t : Rtc} : o.set t = .ub ↔
    ∃ l, o = .setLowTapPosition l ∧ ¬ ((-2 ^ 63 ≤ t.tap + l.1 ∧ t.tap + l.1 < 2 ^ 63) ∧ -2 ^ 63 ≤ t.tap + l.1 - t.low ∧ t.tap + l.1 - t.low < 2 ^ 63) := by
  cases o with
  | setLowTapPosition l =>
    simp only [RtcOp.set, lift_ub, shift_ub]
    exact ⟨fun h => ⟨l, rfl, h⟩, fun ⟨k, hk, h⟩ => by cases hk; exact h⟩
  | _ =>
    refine ⟨fun h => absurd h (by simp only [RtcOp.set]; exact grd_ub), ?_⟩
    rintro ⟨_, hk, _⟩
    cases hk

theorem phase_undefined_iff {o : PtcOp} {t : Ptc} : o.set t = .ub ↔
    ∃ l, o = .setLowTapPosition l ∧ ¬ ((-2 ^ 63 ≤ t.tap + l.1 ∧ t.tap + l.1 < 2 ^ 63) ∧ -2 ^ 63 ≤ t.tap + l.1 - t.low ∧ t.tap + l.1 - t.low < 2 ^ 63) := by
  cases o with
  | setLowTapPosition l =>
    simp only [PtcOp.set, lift_ub, shift_ub]
    exact ⟨fun h => ⟨l, rfl, h⟩, fun ⟨k, hk, h⟩ => by cases hk; exact h⟩
  | _ =>
    refine ⟨fun h => absurd h (by simp only [PtcOp.set]; exact grd_ub), ?_⟩
    rintro ⟨_, hk, _⟩
    cases hk

/-! ### What the unsafe calls break -/

/-- **Violation** After a call that is not safe, accepted on a valid network, no document at all is read as the network: what is exported is either refused or read as another one. -/
theorem unsafe_call_unreadable {o : NetOp T} {x y : Net T} (hx : NetValid x) (hi : NetInside x) (h : o.set x = .ok y) (hu : ¬ o.Safe x) {K : XCodec} (hK : K.Doubles) (A : Anon) (D : Dates T)
    (toks : List Tok) : readNet K A D toks ≠ .ok y :=
  fun hr => hu ((network_stays_valid_iff hx hi h).1 (read_network_valid hK hr).1)

/-- The same of one transformer. -/
theorem unsafe_transformer_unreadable {o : Tw2Op} {x y : Tw2} (hx : Tw2Valid x) (hi : Tw2Inside x) (h : o.set x = .ok y) (hu : ¬ o.Safe x) (K : XCodec) (A : Anon) (toks r : List Tok) :
    readTw2 K A toks ≠ .ok (y, r) :=
  fun hr => hu ((tw2_stays_valid_iff hx hi h).1 (readTw2_valid hr))

/-- **Violation** (`TapChangerStep.hxx` l. 52-79) A step accepts a value that is not a number, whatever the tap changer. -/
theorem step_unset_accepted {t : Rtc} (ht : RtcValid t) (hi : RtcInside t) (p : Long) (f : Field) (hp : badTap t.low p.1 t.steps.length = false) :
    ∃ u, (RtcOp.setStep p f .nan).set t = .ok u ∧ ¬ RtcValid u := by
  refine ⟨_, (show _ = Out.ok _ by simp only [RtcOp.set, grd, hp]; rfl), ?_⟩
  intro hv
  have := (ratio_stays_valid_iff (o := .setStep p f .nan) ht hi (by simp only [RtcOp.set, grd, hp]; rfl)).1 hv
  cases this

/-- **Violation** (`RatioTapChanger.cpp` l. 58-62) The capabilities are switched on after a check of those of before: a tap changer that regulates without a target voltage. -/
theorem capabilities_unchecked {t : Rtc} (ht : RtcValid t) (hi : RtcInside t) (hon : t.on = true) (hl : t.ltc = false) (hv : Dbl.lt 0 t.targetV = false) :
    ∃ u, (RtcOp.setLoadTapChangingCapabilities true).set t = .ok u ∧ ¬ RtcValid u := by
  have hr : t.reg.isNone = false := by
    cases h : t.reg with
    | none => exact absurd h (ht.regulating hon).1
    | some r => rfl
  have hs : (RtcOp.setLoadTapChangingCapabilities true).set t = .ok { t with ltc := true } := by simp [RtcOp.set, grd, badRatio, hl, hr]
  refine ⟨_, hs, fun h => ?_⟩
  have := (ratio_stays_valid_iff ht hi hs).1 h hon rfl
  rw [hv] at this
  cases this

/-- **Violation** (`TapChanger.hxx` l. 176-181) A phase tap changer is made to regulate while its mode is a fixed tap. -/
theorem fixed_tap_made_regulating {t : Ptc} (ht : PtcValid t) (hi : PtcInside t) (hm : t.mode = 2) (hd : IsSet t.deadband) :
    ∃ u, (PtcOp.setRegulating true).set t = .ok u ∧ ¬ PtcValid u := by
  have hs : (PtcOp.setRegulating true).set t = .ok { t with on := true } := by simp [PtcOp.set, grd, badDeadband, hd, ht.taps.deadband]
  exact ⟨_, hs, fun h => ((phase_stays_valid_iff ht hi hs).1 h rfl).2.2 hm⟩

/-- **Violation** (`TapChanger.hxx` l. 176-181) The two tap changers of a transformer are made to regulate, one after the other. -/
theorem two_made_regulating {x : Tw2} (hx : Tw2Valid x) (hi : Tw2Inside x) {r : Rtc} {p : Ptc} (hr : x.rtc = some r) (hp : x.ptc = some p) (hon : r.on = true) (hd : IsSet p.deadband) :
    ∃ y, (Tw2Op.taps (.ptc (.setRegulating true))).set x = .ok y ∧ ¬ Tw2Valid y := by
  have hs : (Tw2Op.taps (.ptc (.setRegulating true))).set x = .ok { x with ptc := some { p with on := true } } := by
    simp [Tw2Op.set, TapsOp.set, hp, PtcOp.set, grd, badDeadband, hd, (hx.ptc p hp).taps.deadband, Out.map]
  refine ⟨_, hs, fun h => ?_⟩
  have := (((tw2_stays_valid_iff hx hi hs).1 h).2 rfl).2 r hr
  rw [hon] at this
  cases this

/-- **Violation** (`Generator.cpp` l. 134-137) Any value is an energy source. -/
theorem energy_source_unchecked {x : Gen} (k : Nat) (hk : Enums.energySource.enumerators.length ≤ k) : ∃ y, (GenOp.setEnergySource k).set x = .ok y ∧ ¬ GenValid y :=
  ⟨_, rfl, fun h => absurd h.source (Nat.not_lt.2 hk)⟩

/-- **Violation** (`Substation.cpp` l. 164-167) Any value is a country. -/
theorem country_unchecked {x : Substation} (k : Nat) (hk : Enums.country.enumerators.length ≤ k) : ∃ y, (SubOp.setCountry (some k)).set x = .ok y ∧ ¬ SubstationValid y :=
  ⟨_, rfl, fun h => absurd (h.country k rfl) (Nat.not_lt.2 hk)⟩

/-! ### Examples -/

theorem valid_of_read {α : Type} {P : α → Prop} {n : String} {w : Out (List Cmd)} {read : List Tok → Out (α × List Tok)} {a : α} (h : ElemRT n w read a)
    (hv : ∀ {toks rest : List Tok} {x : α}, read toks = .ok (x, rest) → P x) : P a := by
  obtain ⟨_, _, _, hr⟩ := h
  obtain ⟨ts, _, _, h1⟩ := hr false
  exact hv (h1 [])

theorem someTw2_valid : Tw2Valid someTw2 := valid_of_read someTw2_read readTw2_valid
theorem someTw3_valid : Tw3Valid someTw3 := valid_of_read someTw3_read readTw3_valid
theorem someGen_valid : GenValid someGen := valid_of_read someGen_read readGen_valid

theorem someRtc_inside : RtcInside someRtc := by unfold RtcInside Inside; decide

theorem somePtc_inside : PtcInside somePtc := by unfold PtcInside Inside; decide

/-- A fixed tap with a deadband. -/
def fixedPtc : Ptc := { somePtc with mode := 2, deadband := 1 }

theorem fixedPtc_valid : PtcValid fixedPtc :=
  { someTw2_valid.ptc _ rfl with mode := (by decide), taps := { (someTw2_valid.ptc _ rfl).taps with deadband := (by decide), regulating := (by intro h; cases h) }, regulating := (by intro h; cases h) }

/-- A transformer whose tap changers are one regulating, the other not. -/
def aTw2 : Tw2 := { someTw2 with ptc := some fixedPtc }

theorem aTw2_valid : Tw2Valid aTw2 :=
  { someTw2_valid with ptc := (by rintro p ⟨⟩; exact fixedPtc_valid) }

theorem aTw2_inside : Tw2Inside aTw2 := ⟨by rintro t ⟨⟩; exact someRtc_inside, by rintro t ⟨⟩; exact somePtc_inside⟩

theorem someTw3_inside : Tw3Inside someTw3 :=
  ⟨⟨by rintro t ⟨⟩; exact someRtc_inside, (by intro t ht; cases ht)⟩, ⟨(by intro t ht; cases ht), (by intro t ht; cases ht)⟩, ⟨(by intro t ht; cases ht), by rintro t ⟨⟩; exact somePtc_inside⟩⟩

/-- A substation with a voltage level, a generator, and transformers with two and three windings. -/
def aSubstation : Substation :=
  ⟨⟨⟨"S", "", false⟩, [], []⟩, some 3, "", ["a", "b"], [⟨⟨⟨"VL", "", false⟩, [], []⟩, 225, .nan, 250, .node [⟨⟨⟨"BBS", "", false⟩, [], []⟩, 0⟩] [] [] [], ⟨[someGen], [], [], [], [], [], [], []⟩⟩], [aTw2], [someTw3]⟩

def aNet : Net String := ⟨⟨⟨"N", "N", false⟩, [], []⟩, "test", 15, "2026-11-17", [aSubstation], [], []⟩

theorem plain_valid {n : Head} : IdentValid ⟨n, [], []⟩ := ⟨by simp, by simp, by simp, by simp [AMap.NodupKeys]⟩

theorem aSubstation_valid : SubstationValid aSubstation where
  ident := plain_valid
  country := by intro c hc; cases hc; decide +kernel
  tags := by decide
  vls := by
    intro v hv
    simp only [aSubstation, List.mem_cons, List.not_mem_nil, or_false] at hv
    subst hv
    refine ⟨plain_valid, (by decide), (by intro h; cases h), (by intro; decide), (by intro h; cases h), ⟨?_, by simp⟩, ⟨?_, by simp, by simp, by simp, by simp, by simp, by simp, by simp⟩⟩
    · intro x hx
      simp only [List.mem_cons, List.not_mem_nil, or_false] at hx
      subst hx
      exact plain_valid
    · intro x hx
      simp only [List.mem_cons, List.not_mem_nil, or_false] at hx
      subst hx
      exact someGen_valid
  tw2s := by
    intro t ht
    simp only [aSubstation, List.mem_cons, List.not_mem_nil, or_false] at ht
    subst ht
    exact aTw2_valid
  tw3s := by
    intro t ht
    simp only [aSubstation, List.mem_cons, List.not_mem_nil, or_false] at ht
    subst ht
    exact someTw3_valid

theorem aNet_valid : NetValid aNet where
  ident := plain_valid
  id := by decide
  name := rfl
  real := rfl
  format := by decide
  forecast := by decide
  subs := by
    intro s hs
    simp only [aNet, List.mem_cons, List.not_mem_nil, or_false] at hs
    subst hs
    exact aSubstation_valid
  lines := by simp [aNet]
  hvdcs := by simp [aNet]

theorem aNet_inside : NetInside aNet := by
  intro s hs
  simp only [aNet, List.mem_cons, List.not_mem_nil, or_false] at hs
  subst hs
  refine ⟨fun t ht => ?_, fun t ht => ?_⟩
  · simp only [aSubstation, List.mem_cons, List.not_mem_nil, or_false] at ht
    subst ht
    exact aTw2_inside
  · simp only [aSubstation, List.mem_cons, List.not_mem_nil, or_false] at ht
    subst ht
    exact someTw3_inside

/-- A history: a tap, a refused tap, limits of power crossed in the wrong order, then in the right one, a lowest position that moves, a curve of another shape. -/
def someHistory : List (NetOp String) :=
  [.sub 0 (.tw2 0 (.taps (.rtc (.setTapPosition ⟨-1, by decide⟩)))), .sub 0 (.tw2 0 (.taps (.rtc (.setTapPosition ⟨5, by decide⟩)))),
    .sub 0 (.vl 0 (.gen 0 (.setMinP 20))), .sub 0 (.vl 0 (.gen 0 (.setMaxP 30))), .sub 0 (.vl 0 (.gen 0 (.setMinP 20))),
    .sub 0 (.tw3 0 (.leg3 (.taps (.ptc (.setLowTapPosition ⟨7, by decide⟩))))), .setForecastDistance (-1), .sub 0 (.setCountry none)]

theorem someHistory_plain : ∀ o ∈ someHistory, o.Plain := by
  intro o ho
  simp only [someHistory, List.mem_cons, List.not_mem_nil, or_false] at ho
  rcases ho with rfl | rfl | rfl | rfl | rfl | rfl | rfl | rfl <;> simp [NetOp.Plain, SubOp.Plain, VLOp.Safe, GenOp.Safe, TapsOp.Plain, RtcOp.Plain, LegOp.Plain, PtcOp.Plain]

example : ∃ y, run aNet someHistory = .ok y ∧ NetValid y ∧ y.subs.map (fun s => (s.tw2s.map fun t => t.rtc.map Rtc.tap, s.tw3s.map fun t => t.leg3.sub.ptc.map Ptc.tap, s.vls.map fun v => v.equip.gens.map Gen.minP))
    = [([some (-1)], [some 7], [[20]])] := by
  refine ⟨_, rfl, ?_, rfl⟩
  exact plain_histories_stay_valid someHistory_plain aNet_valid aNet_inside rfl

/-- The calls that are not safe, on networks that are valid. -/
example : ∃ y, (NetOp.sub 0 (.tw2 0 (.taps (.ptc (.setRegulating true)))) : NetOp String).set aNet = .ok y ∧ ¬ NetValid y := by
  refine ⟨_, rfl, fun h => ?_⟩
  have := (network_stays_valid_iff (o := .sub 0 (.tw2 0 (.taps (.ptc (.setRegulating true))))) aNet_valid aNet_inside rfl).1 h aSubstation rfl aTw2 rfl
  have := (this.2 rfl).2 someRtc rfl
  cases this

example : ∃ u, (RtcOp.setStep ⟨0, by decide⟩ .rho .nan).set someRtc = .ok u ∧ ¬ RtcValid u :=
  step_unset_accepted (someTw2_valid.rtc _ rfl) someRtc_inside _ _ (by decide)

example : ∃ y, (Tw2Op.taps (.ptc (.setRegulating true))).set aTw2 = .ok y ∧ ¬ Tw2Valid y :=
  two_made_regulating aTw2_valid aTw2_inside rfl rfl rfl (by decide)

example : ∃ u, (PtcOp.setRegulating true).set fixedPtc = .ok u ∧ ¬ PtcValid u := fixed_tap_made_regulating fixedPtc_valid somePtc_inside rfl (by decide)

/-- Regulating without the capabilities and without a target voltage. -/
def idleRtc : Rtc := { someRtc with ltc := false, targetV := .nan }

theorem idleRtc_valid : RtcValid idleRtc :=
  { someTw2_valid.rtc _ rfl with regulating := fun _ => ⟨nofun, nofun⟩ }

example : ∃ u, (RtcOp.setLoadTapChangingCapabilities true).set idleRtc = .ok u ∧ ¬ RtcValid u := capabilities_unchecked idleRtc_valid someRtc_inside rfl rfl rfl

/-! Calls that are accepted, on equipments that are valid. -/

example : ∃ y, (LoadOp.setP0 3).set someLoad = .ok y ∧ LoadValid y := ⟨_, rfl, load_stays_valid (o := .setP0 3) (valid_of_read someLoad_read readLoad_valid) rfl⟩
example : ∃ y, (GenOp.setMinP 2).set someGen = .ok y ∧ GenValid y := ⟨_, rfl, (generator_stays_valid_iff (o := .setMinP 2) someGen_valid rfl).2 trivial⟩
example : ∃ y, (BatOp.setQ0 3).set someBat = .ok y ∧ BatValid y := ⟨_, rfl, battery_stays_valid (o := .setQ0 3) (valid_of_read someBat_read readBat_valid) rfl⟩
example : ∃ y, (LccOp.setLossFactor 100).set someLcc = .ok y ∧ LccValid y := ⟨_, rfl, lcc_stays_valid (o := .setLossFactor 100) (valid_of_read someLcc_read readLcc_valid) rfl⟩
example : ∃ y, (VscOp.setLossFactor 0).set someVsc = .ok y ∧ VscValid y := ⟨_, rfl, vsc_stays_valid (o := .setLossFactor 0) (valid_of_read someVsc_read readVsc_valid) rfl⟩
example : ∃ y, (SvcOp.setRegulationMode 2).set someSvc = .ok y ∧ SvcValid y := ⟨_, rfl, svc_stays_valid (o := .setRegulationMode 2) (valid_of_read someSvc_read readSvc_valid) rfl⟩
example : ∃ y, (ShOp.setSectionCount 0).set someSh = .ok y ∧ ShValid y := ⟨_, rfl, shunt_stays_valid (o := .setSectionCount 0) (valid_of_read someSh_read readSh_valid) rfl⟩
example : ∃ y, (LineOp.z (.setB2 3)).set someLine = .ok y ∧ LineValid y := ⟨_, rfl, line_stays_valid (o := .z (.setB2 3)) (valid_of_read someLine_read readLine_valid) rfl⟩
example : ∃ y, (TieOp.half .two (.z (.setX 3))).set someTie = .ok y ∧ TieValid y := ⟨_, rfl, tie_stays_valid (o := .half .two (.z (.setX 3))) (valid_of_read someTie_read readTie_valid) rfl⟩
example : ∃ y, (HvdcOp.setConvertersMode 1).set someHvdc = .ok y ∧ HvdcValid y := ⟨_, rfl, hvdc_stays_valid (o := .setConvertersMode 1) (valid_of_read someHvdc_read readHvdc_valid) rfl⟩
example : ∃ y, (Tw3Op.leg3 (.taps .removePtc)).set someTw3 = .ok y ∧ Tw3Valid y := ⟨_, rfl, (tw3_stays_valid_iff (o := .leg3 (.taps .removePtc)) someTw3_valid someTw3_inside rfl).2 trivial⟩
/-- A second tap changer that regulates is refused when it is made. -/
example : (Tw3Op.leg3 (.taps (.newRtc ⟨0, by decide⟩ { someRtc with tap := 0 } true))).set someTw3 = .thrown := by decide

/-- The lowest position moved by the largest `long` from a position that is not zero. -/
example : (RtcOp.setLowTapPosition ⟨2 ^ 63 - 1, by decide⟩).set { someRtc with tap := 1, low := 0 } = .ub := by decide

end Verif.Setters
