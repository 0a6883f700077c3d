import Verif.Setters.InjectionsProps
import Verif.Setters.TapsProps
import Verif.XmlNet.NetImportProps

/-!
C94 for a whole network: what a call accepts leaves the network valid when and only when the call is safe, and so does a history.
-/

namespace Verif.Setters

open Verif Verif.Xml Verif.XmlNet

theorem bus_stays_valid {o : BusOp} {x y : Bus} (hx : BusValid x) (h : o.set x = .ok y) : BusValid y := by
  cases o with
  | ident o => obtain ⟨a, h1, rfl⟩ := lift_ok h; exact { hx with ident := ident_valid hx.ident h1 }
  | setV d =>
    obtain ⟨h1, rfl⟩ := grd_ok.1 h
    refine { hx with v := ?_ }
    intro hs
    have hs : IsSet d := hs
    simp only [hs, Bool.not_false, Bool.true_and] at h1
    exact Dbl.le_of_not_lt hs rfl h1
  | setAngle d => simp only [BusOp.set, Out.ok.injEq] at h; subst h; exact { hx with }

theorem switch_stays_valid {o : SwOp} {x y : NSw} (hx : NSwValid x) (h : o.setN x = .ok y) : NSwValid y := by
  cases o with
  | ident o => obtain ⟨a, h1, rfl⟩ := lift_ok h; exact { hx with ident := ident_valid hx.ident h1 }
  | setOpen b => simp only [SwOp.setN, Out.ok.injEq] at h; subst h; exact { hx with }
  | setRetained b => simp only [SwOp.setN, Out.ok.injEq] at h; subst h; exact { hx with }

theorem breaker_stays_valid {o : SwOp} {x y : BSw} (hx : BSwValid x) (h : o.setB x = .ok y) : BSwValid y := by
  cases o with
  | ident o => obtain ⟨a, h1, rfl⟩ := lift_ok h; exact { hx with ident := ident_valid hx.ident h1 }
  | setOpen b => simp only [SwOp.setB, Out.ok.injEq] at h; subst h; exact { hx with }
  | setRetained b => cases h

theorem topo_stays_valid {x y : Topo} (hx : TopoValid x) :
    (∀ {i o}, topoBbs i o x = .ok y → TopoValid y) ∧ (∀ {i o}, topoBus i o x = .ok y → TopoValid y) ∧ (∀ {i o}, topoSw i o x = .ok y → TopoValid y) := by
  cases x with
  | node bbs sws conns calcs =>
    refine ⟨fun {i o} h => ?_, fun {i o} h => ?_, fun {i o} h => ?_⟩
    · obtain ⟨l, h1, rfl⟩ := lift_ok h
      refine ⟨setAt_valid (V := fun b : Bbs => IdentValid b.ident) hx.1 h1 fun b hb c hc => ?_, hx.2⟩
      obtain ⟨a, h2, rfl⟩ := lift_ok hc
      exact ident_valid (hx.1 b hb) h2
    · cases h
    · obtain ⟨l, h1, rfl⟩ := lift_ok h
      exact ⟨hx.1, setAt_valid hx.2 h1 fun b hb c hc => switch_stays_valid (hx.2 b hb) hc⟩
  | bus buses sws =>
    refine ⟨fun {i o} h => ?_, fun {i o} h => ?_, fun {i o} h => ?_⟩
    · cases h
    · obtain ⟨l, h1, rfl⟩ := lift_ok h
      exact ⟨setAt_valid hx.1 h1 fun b hb c hc => bus_stays_valid (hx.1 b hb) hc, hx.2⟩
    · obtain ⟨l, h1, rfl⟩ := lift_ok h
      exact ⟨hx.1, setAt_valid hx.2 h1 fun b hb c hc => breaker_stays_valid (hx.2 b hb) hc⟩

theorem voltages_valid {low high : Dbl} (h : badVoltages low high = false) :
    (IsSet low → Dbl.le 0 low = true) ∧ (IsSet high → Dbl.le 0 high = true) ∧ (IsSet low → IsSet high → Dbl.le low high = true) := by
  simp only [badVoltages, Bool.or_eq_false_iff] at h
  exact ⟨fun hl => Dbl.le_of_not_lt hl rfl h.1.1, fun hh => Dbl.le_of_not_lt hh rfl h.1.2, fun hl hh => Dbl.le_of_not_lt hh hl h.2⟩

/-- A voltage level stays valid when and only when the call is safe: whatever the call, but for an energy source that is not one. -/
theorem voltage_level_stays_valid_iff {o : VLOp} {x y : VL} (hx : VLValid x) (h : o.set x = .ok y) : VLValid y ↔ o.Safe := by
  have he := hx.equip
  cases o with
  | ident o => obtain ⟨a, h1, rfl⟩ := lift_ok h; exact ⟨fun _ => trivial, fun _ => { hx with ident := ident_valid hx.ident h1 }⟩
  | setHighVoltageLimit d =>
    obtain ⟨h1, rfl⟩ := grd_ok.1 h
    have := voltages_valid h1
    exact ⟨fun _ => trivial, fun _ => { hx with low := this.1, high := this.2.1, range := this.2.2 }⟩
  | setLowVoltageLimit d =>
    obtain ⟨h1, rfl⟩ := grd_ok.1 h
    have := voltages_valid h1
    exact ⟨fun _ => trivial, fun _ => { hx with low := this.1, high := this.2.1, range := this.2.2 }⟩
  | setNominalV d => obtain ⟨h1, rfl⟩ := grd_ok.1 h; exact ⟨fun _ => trivial, fun _ => { hx with nominal := nominal_valid h1 }⟩
  | bbs i o => obtain ⟨a, h1, rfl⟩ := lift_ok h; exact ⟨fun _ => trivial, fun _ => { hx with topo := (topo_stays_valid hx.topo).1 h1 }⟩
  | bus i o => obtain ⟨a, h1, rfl⟩ := lift_ok h; exact ⟨fun _ => trivial, fun _ => { hx with topo := (topo_stays_valid hx.topo).2.1 h1 }⟩
  | sw i o => obtain ⟨a, h1, rfl⟩ := lift_ok h; exact ⟨fun _ => trivial, fun _ => { hx with topo := (topo_stays_valid hx.topo).2.2 h1 }⟩
  | gen i o =>
    obtain ⟨a, h1, rfl⟩ := lift_ok h
    have hiff := setAt_iff (V := GenValid) (S := fun _ => o.Safe) he.gens h1 fun b hb c hc => generator_stays_valid_iff (he.gens b hb) hc
    obtain ⟨b, c, hb, _, _⟩ := setAt_ok h1
    exact ⟨fun hy => hiff.1 hy.equip.gens b hb, fun hs => { hx with equip := { he with gens := hiff.2 fun _ _ => hs } }⟩
  | bat i o =>
    obtain ⟨a, h1, rfl⟩ := lift_ok h
    exact ⟨fun _ => trivial, fun _ => { hx with equip := { he with bats := setAt_valid he.bats h1 fun b hb c hc => battery_stays_valid (he.bats b hb) hc } }⟩
  | load i o =>
    obtain ⟨a, h1, rfl⟩ := lift_ok h
    exact ⟨fun _ => trivial, fun _ => { hx with equip := { he with loads := setAt_valid he.loads h1 fun b hb c hc => load_stays_valid (he.loads b hb) hc } }⟩
  | sh i o =>
    obtain ⟨a, h1, rfl⟩ := lift_ok h
    exact ⟨fun _ => trivial, fun _ => { hx with equip := { he with shs := setAt_valid he.shs h1 fun b hb c hc => shunt_stays_valid (he.shs b hb) hc } }⟩
  | dl i o =>
    obtain ⟨a, h1, rfl⟩ := lift_ok h
    exact ⟨fun _ => trivial, fun _ => { hx with equip := { he with dls := setAt_valid he.dls h1 fun b hb c hc => dangling_stays_valid (he.dls b hb) hc } }⟩
  | svc i o =>
    obtain ⟨a, h1, rfl⟩ := lift_ok h
    exact ⟨fun _ => trivial, fun _ => { hx with equip := { he with svcs := setAt_valid he.svcs h1 fun b hb c hc => svc_stays_valid (he.svcs b hb) hc } }⟩
  | vsc i o =>
    obtain ⟨a, h1, rfl⟩ := lift_ok h
    exact ⟨fun _ => trivial, fun _ => { hx with equip := { he with vscs := setAt_valid he.vscs h1 fun b hb c hc => vsc_stays_valid (he.vscs b hb) hc } }⟩
  | lcc i o =>
    obtain ⟨a, h1, rfl⟩ := lift_ok h
    exact ⟨fun _ => trivial, fun _ => { hx with equip := { he with lccs := setAt_valid he.lccs h1 fun b hb c hc => lcc_stays_valid (he.lccs b hb) hc } }⟩

theorem substation_stays_inside {o : SubOp} {x y : Substation} (hx : SubInside x) (h : o.set x = .ok y) : SubInside y := by
  cases o with
  | ident o => obtain ⟨a, h1, rfl⟩ := lift_ok h; exact hx
  | addGeographicalTag t => simp only [SubOp.set, Out.ok.injEq] at h; subst h; exact hx
  | setCountry c => simp only [SubOp.set, Out.ok.injEq] at h; subst h; exact hx
  | setTso t => simp only [SubOp.set, Out.ok.injEq] at h; subst h; exact hx
  | vl i o => obtain ⟨a, h1, rfl⟩ := lift_ok h; exact hx
  | tw2 i o => obtain ⟨a, h1, rfl⟩ := lift_ok h; exact ⟨setAt_valid hx.1 h1 fun b hb c hc => tw2_stays_inside (hx.1 b hb) hc, hx.2⟩
  | tw3 i o => obtain ⟨a, h1, rfl⟩ := lift_ok h; exact ⟨hx.1, setAt_valid hx.2 h1 fun b hb c hc => tw3_stays_inside (hx.2 b hb) hc⟩

/-- A substation stays valid when and only when the call is safe. -/
theorem substation_stays_valid_iff {o : SubOp} {x y : Substation} (hx : SubstationValid x) (hi : SubInside x) (h : o.set x = .ok y) : SubstationValid y ↔ o.Safe x := by
  cases o with
  | ident o => obtain ⟨a, h1, rfl⟩ := lift_ok h; exact ⟨fun _ => trivial, fun _ => { hx with ident := ident_valid hx.ident h1 }⟩
  | addGeographicalTag t =>
    simp only [SubOp.set, Out.ok.injEq] at h
    subst h
    exact ⟨fun _ => trivial, fun _ => { hx with tags := insertTag_increasing t hx.tags }⟩
  | setCountry c =>
    simp only [SubOp.set, Out.ok.injEq] at h
    subst h
    exact ⟨fun hy => hy.country, fun hs => { hx with country := hs }⟩
  | setTso t => simp only [SubOp.set, Out.ok.injEq] at h; subst h; exact ⟨fun _ => trivial, fun _ => { hx with }⟩
  | vl i o =>
    obtain ⟨a, h1, rfl⟩ := lift_ok h
    have hiff := setAt_iff (V := VLValid) (S := fun _ => o.Safe) hx.vls h1 fun b hb c hc => voltage_level_stays_valid_iff (hx.vls b hb) hc
    obtain ⟨b, c, hb, _, _⟩ := setAt_ok h1
    exact ⟨fun hy => hiff.1 hy.vls b hb, fun hs => { hx with vls := hiff.2 fun _ _ => hs }⟩
  | tw2 i o =>
    obtain ⟨a, h1, rfl⟩ := lift_ok h
    have hiff := setAt_iff (V := Tw2Valid) (S := fun b => o.Safe b) hx.tw2s h1 fun b hb c hc => tw2_stays_valid_iff (hx.tw2s b hb) (hi.1 b hb) hc
    exact ⟨fun hy => hiff.1 hy.tw2s, fun hs => { hx with tw2s := hiff.2 hs }⟩
  | tw3 i o =>
    obtain ⟨a, h1, rfl⟩ := lift_ok h
    have hiff := setAt_iff (V := Tw3Valid) (S := fun b => o.Safe b) hx.tw3s h1 fun b hb c hc => tw3_stays_valid_iff (hx.tw3s b hb) (hi.2 b hb) hc
    exact ⟨fun hy => hiff.1 hy.tw3s, fun hs => { hx with tw3s := hiff.2 hs }⟩

theorem any_line_stays_valid {o : AnyLineOp} {x y : AnyLine} (hx : AnyLineValid x) (h : o.set x = .ok y) : AnyLineValid y := by
  cases o with
  | line o =>
    cases x with
    | line x => obtain ⟨a, h1, rfl⟩ := lift_ok h; exact line_stays_valid hx h1
    | tie x => cases h
  | tie o =>
    cases x with
    | line x => cases h
    | tie x => obtain ⟨a, h1, rfl⟩ := lift_ok h; exact tie_stays_valid hx h1

variable {T : Type}

/-- The positions of the tap changers stay inside, whatever the call. -/
theorem network_stays_inside {o : NetOp T} {x y : Net T} (hx : NetInside x) (h : o.set x = .ok y) : NetInside y := by
  cases o with
  | ident o => obtain ⟨a, h1, rfl⟩ := lift_ok h; exact hx
  | setCaseDate d => simp only [NetOp.set, Out.ok.injEq] at h; subst h; exact hx
  | setForecastDistance i => obtain ⟨_, rfl⟩ := grd_ok.1 h; exact hx
  | sub i o => obtain ⟨a, h1, rfl⟩ := lift_ok h; exact setAt_valid hx h1 fun b hb c hc => substation_stays_inside (hx b hb) hc
  | line i o => obtain ⟨a, h1, rfl⟩ := lift_ok h; exact hx
  | hvdc i o => obtain ⟨a, h1, rfl⟩ := lift_ok h; exact hx

/-- A network stays valid when and only when the call is safe. -/
theorem network_stays_valid_iff {o : NetOp T} {x y : Net T} (hx : NetValid x) (hi : NetInside x) (h : o.set x = .ok y) : NetValid y ↔ o.Safe x := by
  cases o with
  | ident o =>
    obtain ⟨a, h1, rfl⟩ := lift_ok h
    have hh := ident_head h1
    have hv := ident_valid hx.ident h1
    have hid : a.head.id ≠ "" := by rw [hh.1]; exact hx.id
    have hname : a.head.name = a.head.id := by rw [hh.1, hh.2]; exact hx.name
    cases o with
    | setFictitious b =>
      simp only [IdentOp.set, Out.ok.injEq] at h1
      subst h1
      exact ⟨fun hy => hy.real, fun hs => { hx with ident := hv, id := hid, name := hname, real := hs }⟩
    | addAlias others n t e =>
      have hr := ident_fictitious h1 nofun
      exact ⟨fun _ => trivial, fun _ => { hx with ident := hv, id := hid, name := hname, real := hr.trans hx.real }⟩
    | removeAlias n =>
      have hr := ident_fictitious h1 nofun
      exact ⟨fun _ => trivial, fun _ => { hx with ident := hv, id := hid, name := hname, real := hr.trans hx.real }⟩
    | setProperty k v =>
      have hr := ident_fictitious h1 nofun
      exact ⟨fun _ => trivial, fun _ => { hx with ident := hv, id := hid, name := hname, real := hr.trans hx.real }⟩
  | setCaseDate d => simp only [NetOp.set, Out.ok.injEq] at h; subst h; exact ⟨fun _ => trivial, fun _ => { hx with }⟩
  | setForecastDistance i =>
    obtain ⟨h1, rfl⟩ := grd_ok.1 h
    exact ⟨fun _ => trivial, fun _ => { hx with forecast := Int.not_lt.1 (of_decide_eq_false h1) }⟩
  | sub i o =>
    obtain ⟨a, h1, rfl⟩ := lift_ok h
    have hiff := setAt_iff (V := SubstationValid) (S := fun b => o.Safe b) hx.subs h1 fun b hb c hc => substation_stays_valid_iff (hx.subs b hb) (hi b hb) hc
    exact ⟨fun hy => hiff.1 hy.subs, fun hs => { hx with subs := hiff.2 hs }⟩
  | line i o =>
    obtain ⟨a, h1, rfl⟩ := lift_ok h
    exact ⟨fun _ => trivial, fun _ => { hx with lines := setAt_valid hx.lines h1 fun b hb c hc => any_line_stays_valid (hx.lines b hb) hc }⟩
  | hvdc i o =>
    obtain ⟨a, h1, rfl⟩ := lift_ok h
    exact ⟨fun _ => trivial, fun _ => { hx with hvdcs := setAt_valid hx.hvdcs h1 fun b hb c hc => hvdc_stays_valid (hx.hvdcs b hb) hc }⟩

/-- After any history of calls, safe or not, the position of every tap changer is one of its steps. -/
theorem positions_stay_inside : ∀ (os : List (NetOp T)) {x y : Net T}, NetInside x → run x os = .ok y → NetInside y := by
  intro os
  induction os with
  | nil => intro x y hx h; simp only [run, Out.ok.injEq] at h; exact h ▸ hx
  | cons o os ih =>
    intro x y hx h
    simp only [run] at h
    split at h
    · rename_i z hz
      exact ih (network_stays_inside hx hz) h
    · exact ih hx h
    · cases h

/-- After any history of safe calls the network is valid. -/
theorem histories_stay_valid_partial : ∀ (os : List (NetOp T)) {x y : Net T}, NetValid x → NetInside x → SafeHistory x os → run x os = .ok y → NetValid y := by
  intro os
  induction os with
  | nil => intro x y hx _ _ h; simp only [run, Out.ok.injEq] at h; exact h ▸ hx
  | cons o os ih =>
    intro x y hx hi hs h
    simp only [run] at h
    split at h
    · rename_i z hz
      have := hs.1 z hz
      exact ih ((network_stays_valid_iff hx hi hz).2 this.1) (network_stays_inside hi hz) this.2 h
    · rename_i hz
      exact ih hx hi (hs.2 hz) h
    · cases h

end Verif.Setters
