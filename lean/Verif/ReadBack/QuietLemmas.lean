import Verif.ReadBack.QuietSpec
import Verif.Setters.Lemmas
import Verif.XmlNet.AcceptProps

/-!
What the quiet calls leave of the objects of a network: helper lemmas of C95.
-/

namespace Verif.ReadBack

open Verif Verif.Xml Verif.XmlNet Verif.Setters

/-! ### What going together depends on -/

def barePlace : Adders.Place → Adders.Place
  | .node n => .node n
  | .bus b _ => .bus b true

def bareIdent (x : Ident) : Ident := ⟨{ x.head with fictitious := false }, x.aliases, []⟩

def bareEnd (e : End) : End := { e with place := barePlace e.place }

def bare (x : Item) : Item := ⟨bareIdent x.ident, x.obj, x.needs, x.ends.map bareEnd, x.stations⟩

theorem bare_names (x : Item) : (bare x).names = x.names := rfl

theorem bare_id (x : Item) : (bare x).id = x.id := rfl

theorem exists_bare {l : List Item} {P : Item → Prop} : (∃ y ∈ l.map bare, P y) ↔ ∃ x ∈ l, P (bare x) :=
  ⟨fun ⟨_, hy, h⟩ => by obtain ⟨x, hx, rfl⟩ := List.mem_map.1 hy; exact ⟨x, hx, h⟩, fun ⟨x, hx, h⟩ => ⟨bare x, List.mem_map_of_mem hx, h⟩⟩

theorem suits_bare {l : List Item} {v : Item} {node : Bool} {p : Adders.Place} : Suits (l.map bare) (bare v) node (barePlace p) ↔ Suits l v node p := by
  cases p with
  | node n => rfl
  | bus b c => simp only [Suits, barePlace, exists_bare]; exact Iff.rfl

theorem endValid_bare {l : List Item} {e : End} : EndValid (l.map bare) (bareEnd e) ↔ EndValid l e := by
  simp only [EndValid, exists_bare]
  refine and_congr Iff.rfl (exists_congr fun v => and_congr Iff.rfl (and_congr Iff.rfl (exists_congr fun sub => exists_congr fun node => and_congr Iff.rfl (and_congr suits_bare Iff.rfl))))

theorem stationNamed_bare {l : List Item} {n : String} : StationNamed (l.map bare) n ↔ StationNamed l n := by
  simp only [StationNamed, exists_bare]
  exact Iff.rfl

theorem refNamed_bare {l : List Item} {r : Ref} : RefNamed (l.map bare) r ↔ RefNamed l r := by
  simp only [RefNamed, exists_bare]
  exact Iff.rfl

theorem barePlace_node {p : Adders.Place} {n : Nat} : barePlace p = .node n ↔ p = .node n := by
  cases p <;> simp [barePlace]

theorem consistent_bare {l : List Item} : Consistent (l.map bare) ↔ Consistent l := by
  have hn : (l.map bare).flatMap Item.names = l.flatMap Item.names := by rw [List.flatMap_map]; rfl
  have he : (l.map bare).flatMap Item.ends = (l.flatMap Item.ends).map bareEnd := by rw [List.flatMap_map, List.map_flatMap]; rfl
  constructor
  · rintro ⟨h1, h2, h3, h4, h5, h6⟩
    refine ⟨hn ▸ h1, fun x hx => h2 (bare x) (List.mem_map_of_mem hx), fun x hx n hm => ?_, fun x hx e hm => endValid_bare.1 (h4 _ (List.mem_map_of_mem hx) _ (List.mem_map_of_mem hm)), ?_,
      fun x hx s hs => ?_⟩
    · obtain ⟨b, hb, h⟩ := h3 _ (List.mem_map_of_mem hx) n hm
      obtain ⟨c, hc, rfl⟩ := List.mem_map.1 hb
      exact ⟨c, hc, h⟩
    · rw [he, List.pairwise_map] at h5
      refine h5.imp fun {e f} h v hv h1 h2 n h3 h4 => ?_
      exact h _ (List.mem_map_of_mem hv) h1 h2 n (barePlace_node.2 h3) (barePlace_node.2 h4)
    · exact ⟨stationNamed_bare.1 (h6 _ (List.mem_map_of_mem hx) s hs).1, stationNamed_bare.1 (h6 _ (List.mem_map_of_mem hx) s hs).2⟩
  · rintro ⟨h1, h2, h3, h4, h5, h6⟩
    refine ⟨hn ▸ h1, fun x hx => ?_, fun x hx n hm => ?_, fun x hx e hm => ?_, ?_, fun x hx s hs => ?_⟩
    · obtain ⟨y, hy, rfl⟩ := List.mem_map.1 hx
      exact h2 y hy
    · obtain ⟨y, hy, rfl⟩ := List.mem_map.1 hx
      obtain ⟨b, hb, h⟩ := h3 y hy n hm
      exact ⟨bare b, List.mem_map_of_mem hb, h⟩
    · obtain ⟨y, hy, rfl⟩ := List.mem_map.1 hx
      obtain ⟨f, hf, rfl⟩ := List.mem_map.1 hm
      exact endValid_bare.2 (h4 y hy f hf)
    · rw [he, List.pairwise_map]
      refine h5.imp fun {e f} h v hv h1 h2 n h3 h4 => ?_
      obtain ⟨w, hw, rfl⟩ := List.mem_map.1 hv
      exact h w hw h1 h2 n (barePlace_node.1 h3) (barePlace_node.1 h4)
    · obtain ⟨y, hy, rfl⟩ := List.mem_map.1 hx
      exact ⟨stationNamed_bare.2 (h6 y hy s hs).1, stationNamed_bare.2 (h6 y hy s hs).2⟩

/-! ### Calls -/

theorem ident_quiet {o : IdentOp} {x y : Ident} (ho : o.Quiet) (h : o.set x = .ok y) : bareIdent y = bareIdent x := by
  cases o with
  | setFictitious b => simp only [IdentOp.set, Out.ok.injEq] at h; subst h; rfl
  | setProperty k v => simp only [IdentOp.set, Out.ok.injEq] at h; subst h; rfl
  | addAlias => cases ho
  | removeAlias => cases ho

theorem ident_quiet_id {o : IdentOp} {x y : Ident} (h : o.set x = .ok y) : y.head.id = x.head.id := (ident_head h).1

theorem term_quiet {o : TermOp} {t u : Term} (ho : o.Quiet) (h : o.set t = .ok u) : barePlace u.place = barePlace t.place := by
  obtain ⟨pl, p, q⟩ := t
  cases o <;> cases pl <;> simp only [TermOp.set, Out.ok.injEq, grd_ok] at h
  all_goals first
    | (subst h; rfl)
    | cases ho
    | cases h

theorem shTerm_quiet {o : TermOp} {t u : Term} (ho : o.Quiet) (h : shTermSet o t = .ok u) : barePlace u.place = barePlace t.place := by
  unfold shTermSet at h
  split at h
  · obtain ⟨_, rfl⟩ := grd_ok.1 h; rfl
  · exact term_quiet ho h

theorem side_quiet {o : TermOp} {s u : Side} (ho : o.Quiet) (h : sideSet o s = .ok u) : u.vl = s.vl ∧ barePlace u.term.place = barePlace s.term.place := by
  obtain ⟨t, h1, rfl⟩ := lift_ok h
  exact ⟨rfl, term_quiet ho h1⟩

/-- What quiet calls on an injection leave. -/
def Same (i : Ident) (t : Term) (j : Ident) (u : Term) : Prop := bareIdent j = bareIdent i ∧ barePlace u.place = barePlace t.place

theorem load_quiet {o : LoadOp} {x y : Load} (ho : o.Quiet) (h : o.set x = .ok y) : Same x.ident x.term y.ident y.term := by
  cases o with
  | ident o => obtain ⟨i, hi, rfl⟩ := lift_ok h; exact ⟨ident_quiet ho hi, rfl⟩
  | term o => obtain ⟨t, ht, rfl⟩ := lift_ok h; exact ⟨rfl, term_quiet ho ht⟩
  | _ => obtain ⟨_, rfl⟩ := grd_ok.1 h; exact ⟨rfl, rfl⟩

theorem bat_quiet {o : BatOp} {x y : Bat} (ho : o.Quiet) (h : o.set x = .ok y) : Same x.ident x.term y.ident y.term := by
  cases o with
  | ident o => obtain ⟨i, hi, rfl⟩ := lift_ok h; exact ⟨ident_quiet ho hi, rfl⟩
  | term o => obtain ⟨t, ht, rfl⟩ := lift_ok h; exact ⟨rfl, term_quiet ho ht⟩
  | limits o => obtain ⟨t, ht, rfl⟩ := lift_ok h; exact ⟨rfl, rfl⟩
  | _ => obtain ⟨_, rfl⟩ := grd_ok.1 h; exact ⟨rfl, rfl⟩

theorem lcc_quiet {o : LccOp} {x y : Lcc} (ho : o.Quiet) (h : o.set x = .ok y) : Same x.ident x.term y.ident y.term := by
  cases o with
  | ident o => obtain ⟨i, hi, rfl⟩ := lift_ok h; exact ⟨ident_quiet ho hi, rfl⟩
  | term o => obtain ⟨t, ht, rfl⟩ := lift_ok h; exact ⟨rfl, term_quiet ho ht⟩
  | _ => obtain ⟨_, rfl⟩ := grd_ok.1 h; exact ⟨rfl, rfl⟩

theorem vsc_quiet {o : VscOp} {x y : Vsc} (ho : o.Quiet) (h : o.set x = .ok y) : Same x.ident x.term y.ident y.term := by
  cases o with
  | ident o => obtain ⟨i, hi, rfl⟩ := lift_ok h; exact ⟨ident_quiet ho hi, rfl⟩
  | term o => obtain ⟨t, ht, rfl⟩ := lift_ok h; exact ⟨rfl, term_quiet ho ht⟩
  | limits o => obtain ⟨t, ht, rfl⟩ := lift_ok h; exact ⟨rfl, rfl⟩
  | _ => obtain ⟨_, rfl⟩ := grd_ok.1 h; exact ⟨rfl, rfl⟩

/-- The references after a call are among those of before or of the call. -/
def Grown (N : Ref → Prop) (l m : List Ref) : Prop := ∀ r ∈ m, r ∈ l ∨ N r

theorem grown_refl {N : Ref → Prop} (l : List Ref) : Grown N l l := fun _ h => .inl h

theorem grown_refers {N : Ref → Prop} {l : List Ref} {o : Option Ref} (h : Refers N o) : Grown N l o.toList := fun r hr => .inr (h r (by simpa using hr))

theorem grown_append {N : Ref → Prop} {a b c d : List Ref} (h : Grown N a b) (h' : Grown N c d) : Grown N (a ++ c) (b ++ d) := by
  intro r hr
  rcases List.mem_append.1 hr with hr | hr
  · exact (h r hr).imp (List.mem_append_left _) id
  · exact (h' r hr).imp (List.mem_append_right _) id

theorem gen_quiet {N : Ref → Prop} {o : GenOp} {x y : Gen} (ho : o.Quiet N) (h : o.set x = .ok y) :
    Same x.ident x.term y.ident y.term ∧ Grown N x.reg.toList y.reg.toList := by
  cases o with
  | ident o => obtain ⟨i, hi, rfl⟩ := lift_ok h; exact ⟨⟨ident_quiet ho hi, rfl⟩, grown_refl _⟩
  | term o => obtain ⟨t, ht, rfl⟩ := lift_ok h; exact ⟨⟨rfl, term_quiet ho ht⟩, grown_refl _⟩
  | limits o => obtain ⟨t, ht, rfl⟩ := lift_ok h; exact ⟨⟨rfl, rfl⟩, grown_refl _⟩
  | setRegulatingTerminal r s => obtain rfl := setReg_ok h; exact ⟨⟨rfl, rfl⟩, grown_refers ho⟩
  | setEnergySource k => simp only [GenOp.set, Out.ok.injEq] at h; subst h; exact ⟨⟨rfl, rfl⟩, grown_refl _⟩
  | _ => obtain ⟨_, rfl⟩ := grd_ok.1 h; exact ⟨⟨rfl, rfl⟩, grown_refl _⟩

theorem svc_quiet {N : Ref → Prop} {o : SvcOp} {x y : Svc} (ho : o.Quiet N) (h : o.set x = .ok y) :
    Same x.ident x.term y.ident y.term ∧ Grown N x.reg.toList y.reg.toList := by
  cases o with
  | ident o => obtain ⟨i, hi, rfl⟩ := lift_ok h; exact ⟨⟨ident_quiet ho hi, rfl⟩, grown_refl _⟩
  | term o => obtain ⟨t, ht, rfl⟩ := lift_ok h; exact ⟨⟨rfl, term_quiet ho ht⟩, grown_refl _⟩
  | setRegulatingTerminal r s => obtain rfl := setReg_ok h; exact ⟨⟨rfl, rfl⟩, grown_refers ho⟩
  | _ => obtain ⟨_, rfl⟩ := grd_ok.1 h; exact ⟨⟨rfl, rfl⟩, grown_refl _⟩

theorem sh_quiet {N : Ref → Prop} {o : ShOp} {x y : Sh} (ho : o.Quiet N) (h : o.set x = .ok y) :
    Same x.ident x.term y.ident y.term ∧ Grown N x.reg.toList y.reg.toList := by
  obtain ⟨ident, model, per, term, reg⟩ := x
  cases o with
  | ident o => obtain ⟨i, hi, rfl⟩ := lift_ok h; exact ⟨⟨ident_quiet ho hi, rfl⟩, grown_refl _⟩
  | term o => obtain ⟨t, ht, rfl⟩ := lift_ok h; exact ⟨⟨rfl, shTerm_quiet ho ht⟩, grown_refl _⟩
  | setRegulatingTerminal r s => obtain rfl := setReg_ok h; exact ⟨⟨rfl, rfl⟩, grown_refers ho⟩
  | setSectionCount _ | setTargetDeadband _ | setTargetV _ | setVoltageRegulatorOn _ => obtain ⟨_, rfl⟩ := grd_ok.1 h; exact ⟨⟨rfl, rfl⟩, grown_refl _⟩
  | setGPerSection d =>
    cases model with
    | linear b g m => simp only [ShOp.set, Out.ok.injEq] at h; subst h; exact ⟨⟨rfl, rfl⟩, grown_refl _⟩
    | nonLinear ss => cases h
  | _ =>
    cases model with
    | linear b g m => first | cases h | (obtain ⟨_, rfl⟩ := grd_ok.1 h; exact ⟨⟨rfl, rfl⟩, grown_refl _⟩)
    | nonLinear ss => first | cases h | (obtain ⟨_, rfl⟩ := grd_ok.1 h; exact ⟨⟨rfl, rfl⟩, grown_refl _⟩)

theorem dl_quiet {o : DlOp} {x y : Dl} (ho : o.Quiet) (h : o.set x = .ok y) : Same x.ident x.term y.ident y.term := by
  cases o with
  | ident o => obtain ⟨i, hi, rfl⟩ := lift_ok h; exact ⟨ident_quiet ho hi, rfl⟩
  | term o => obtain ⟨t, ht, rfl⟩ := lift_ok h; exact ⟨rfl, term_quiet ho ht⟩
  | lims o => obtain ⟨t, ht, rfl⟩ := lift_ok h; exact ⟨rfl, rfl⟩
  | gen o =>
    simp only [DlOp.set] at h
    split at h
    · cases h
    · obtain ⟨t, ht, rfl⟩ := lift_ok h; exact ⟨rfl, rfl⟩
  | _ => obtain ⟨_, rfl⟩ := grd_ok.1 h; exact ⟨rfl, rfl⟩

/-- What quiet calls on a branch leave. -/
def Sides (i : Ident) (l : List Side) (j : Ident) (m : List Side) : Prop :=
  bareIdent j = bareIdent i ∧ m.map (fun s => (s.vl, barePlace s.term.place)) = l.map fun s => (s.vl, barePlace s.term.place)

theorem line_quiet {o : LineOp} {x y : Line} (ho : o.Quiet) (h : o.set x = .ok y) : Sides x.ident [x.side1, x.side2] y.ident [y.side1, y.side2] := by
  cases o with
  | ident o => obtain ⟨i, hi, rfl⟩ := lift_ok h; exact ⟨ident_quiet ho hi, rfl⟩
  | term b o =>
    cases b with
    | one => obtain ⟨s, hs, rfl⟩ := lift_ok h; obtain ⟨a, b⟩ := side_quiet ho hs; exact ⟨rfl, by simp [a, b]⟩
    | two => obtain ⟨s, hs, rfl⟩ := lift_ok h; obtain ⟨a, b⟩ := side_quiet ho hs; exact ⟨rfl, by simp [a, b]⟩
  | lims b o => obtain ⟨t, ht, rfl⟩ := lift_ok h; exact ⟨rfl, rfl⟩
  | z o => obtain ⟨t, ht, rfl⟩ := lift_ok h; exact ⟨rfl, rfl⟩

theorem tie_quiet {o : TieOp} {x y : TieLine} (ho : o.Quiet) (h : o.set x = .ok y) : Sides x.ident [x.side1, x.side2] y.ident [y.side1, y.side2] := by
  cases o with
  | ident o => obtain ⟨i, hi, rfl⟩ := lift_ok h; exact ⟨ident_quiet ho hi, rfl⟩
  | term b o =>
    cases b with
    | one => obtain ⟨s, hs, rfl⟩ := lift_ok h; obtain ⟨a, b⟩ := side_quiet ho hs; exact ⟨rfl, by simp [a, b]⟩
    | two => obtain ⟨s, hs, rfl⟩ := lift_ok h; obtain ⟨a, b⟩ := side_quiet ho hs; exact ⟨rfl, by simp [a, b]⟩
  | lims b o => obtain ⟨t, ht, rfl⟩ := lift_ok h; exact ⟨rfl, rfl⟩
  | z o => cases h
  | half b o => cases b <;> (obtain ⟨t, ht, rfl⟩ := lift_ok h; exact ⟨rfl, rfl⟩)

theorem hvdc_quiet {o : HvdcOp} {x y : HvdcLine} (ho : o.Quiet) (h : o.set x = .ok y) : bare (hvdcItem y) = bare (hvdcItem x) := by
  cases o with
  | ident o => obtain ⟨i, hi, rfl⟩ := lift_ok h; simp [bare, hvdcItem, ident_quiet ho hi]
  | _ => obtain ⟨_, rfl⟩ := grd_ok.1 h; rfl

theorem rtc_quiet {N : Ref → Prop} {o : RtcOp} {x y : Rtc} (ho : (TapsOp.rtc o).Quiet N) (h : o.set x = .ok y) : Grown N x.reg.toList y.reg.toList := by
  cases o with
  | setRegulationTerminal r s => obtain ⟨_, rfl⟩ := grd_ok.1 h; exact grown_refers ho
  | setLowTapPosition l => obtain ⟨t, ht, rfl⟩ := lift_ok h; exact grown_refl _
  | _ => obtain ⟨_, rfl⟩ := grd_ok.1 h; exact grown_refl _

theorem ptc_quiet {N : Ref → Prop} {o : PtcOp} {x y : Ptc} (ho : (TapsOp.ptc o).Quiet N) (h : o.set x = .ok y) : Grown N x.reg.toList y.reg.toList := by
  cases o with
  | setRegulationTerminal r s => obtain ⟨_, rfl⟩ := grd_ok.1 h; exact grown_refers ho
  | setLowTapPosition l => obtain ⟨t, ht, rfl⟩ := lift_ok h; exact grown_refl _
  | _ => obtain ⟨_, rfl⟩ := grd_ok.1 h; exact grown_refl _

theorem grown_nil {N : Ref → Prop} (l : List Ref) : Grown N l [] := fun _ h => by cases h

theorem taps_quiet {N : Ref → Prop} {n : Nat} {o : TapsOp} {s u : Option Rtc × Option Ptc} (ho : o.Quiet N) (h : o.set n s = .ok u) :
    Grown N (rtcRefs s.1 ++ ptcRefs s.2) (rtcRefs u.1 ++ ptcRefs u.2) := by
  obtain ⟨r, p⟩ := s
  cases o with
  | rtc o =>
    cases r with
    | none => cases h
    | some t => obtain ⟨t', ht, rfl⟩ := lift_ok h; exact grown_append (rtc_quiet ho ht) (grown_refl _)
  | ptc o =>
    cases p with
    | none => cases h
    | some t => obtain ⟨t', ht, rfl⟩ := lift_ok h; exact grown_append (grown_refl _) (ptc_quiet ho ht)
  | newRtc l t q =>
    obtain ⟨v, hv, h⟩ := Out.bind_eq_ok.1 h
    obtain ⟨_, rfl⟩ := grd_ok.1 h
    obtain ⟨_, rfl⟩ := grd_ok.1 hv
    exact grown_append (grown_refers (o := t.reg) ho) (grown_refl _)
  | newPtc l t q =>
    obtain ⟨v, hv, h⟩ := Out.bind_eq_ok.1 h
    obtain ⟨_, rfl⟩ := grd_ok.1 h
    obtain ⟨_, rfl⟩ := grd_ok.1 hv
    exact grown_append (grown_refl _) (grown_refers (o := t.reg) ho)
  | removeRtc => simp only [TapsOp.set, Out.ok.injEq] at h; subst h; exact grown_append (grown_nil _) (grown_refl _)
  | removePtc => simp only [TapsOp.set, Out.ok.injEq] at h; subst h; exact grown_append (grown_refl _) (grown_nil _)

theorem tw2_quiet {N : Ref → Prop} {o : Tw2Op} {x y : Tw2} (ho : o.Quiet N) (h : o.set x = .ok y) :
    Sides x.ident [x.side1, x.side2] y.ident [y.side1, y.side2] ∧ Grown N (rtcRefs x.rtc ++ ptcRefs x.ptc) (rtcRefs y.rtc ++ ptcRefs y.ptc) := by
  cases o with
  | ident o => obtain ⟨i, hi, rfl⟩ := lift_ok h; exact ⟨⟨ident_quiet ho hi, rfl⟩, grown_refl _⟩
  | term b o =>
    cases b with
    | one => obtain ⟨s, hs, rfl⟩ := lift_ok h; obtain ⟨a, b⟩ := side_quiet ho hs; exact ⟨⟨rfl, by simp [a, b]⟩, grown_refl _⟩
    | two => obtain ⟨s, hs, rfl⟩ := lift_ok h; obtain ⟨a, b⟩ := side_quiet ho hs; exact ⟨⟨rfl, by simp [a, b]⟩, grown_refl _⟩
  | lims b o => obtain ⟨t, ht, rfl⟩ := lift_ok h; exact ⟨⟨rfl, rfl⟩, grown_refl _⟩
  | taps o => obtain ⟨t, ht, rfl⟩ := lift_ok h; exact ⟨⟨rfl, rfl⟩, taps_quiet ho ht⟩
  | _ => obtain ⟨_, rfl⟩ := grd_ok.1 h; exact ⟨⟨rfl, rfl⟩, grown_refl _⟩

theorem leg_quiet {N : Ref → Prop} {n : Nat} {o : LegOp} {x y : Leg} (ho : o.Quiet N) (h : o.set n x = .ok y) :
    (y.side.vl = x.side.vl ∧ barePlace y.side.term.place = barePlace x.side.term.place) ∧ Grown N (legRefs x) (legRefs y) := by
  cases o with
  | term o => obtain ⟨s, hs, rfl⟩ := lift_ok h; exact ⟨side_quiet ho hs, grown_refl _⟩
  | lims o => obtain ⟨t, ht, rfl⟩ := lift_ok h; exact ⟨⟨rfl, rfl⟩, grown_refl _⟩
  | taps o => obtain ⟨t, ht, rfl⟩ := lift_ok h; exact ⟨⟨rfl, rfl⟩, taps_quiet ho ht⟩
  | _ => obtain ⟨_, rfl⟩ := grd_ok.1 h; exact ⟨⟨rfl, rfl⟩, grown_refl _⟩

theorem tw3_quiet {N : Ref → Prop} {o : Tw3Op} {x y : Tw3} (ho : o.Quiet N) (h : o.set x = .ok y) :
    Sides x.ident [x.leg1.side, x.leg2.side, x.leg3.side] y.ident [y.leg1.side, y.leg2.side, y.leg3.side] ∧
      Grown N (legRefs x.leg1 ++ legRefs x.leg2 ++ legRefs x.leg3) (legRefs y.leg1 ++ legRefs y.leg2 ++ legRefs y.leg3) := by
  cases o with
  | ident o => obtain ⟨i, hi, rfl⟩ := lift_ok h; exact ⟨⟨ident_quiet ho hi, rfl⟩, grown_refl _⟩
  | leg1 o => obtain ⟨l, hl, rfl⟩ := lift_ok h; obtain ⟨⟨a, b⟩, g⟩ := leg_quiet ho hl; exact ⟨⟨rfl, by simp [a, b]⟩, grown_append (grown_append g (grown_refl _)) (grown_refl _)⟩
  | leg2 o => obtain ⟨l, hl, rfl⟩ := lift_ok h; obtain ⟨⟨a, b⟩, g⟩ := leg_quiet ho hl; exact ⟨⟨rfl, by simp [a, b]⟩, grown_append (grown_append (grown_refl _) g) (grown_refl _)⟩
  | leg3 o => obtain ⟨l, hl, rfl⟩ := lift_ok h; obtain ⟨⟨a, b⟩, g⟩ := leg_quiet ho hl; exact ⟨⟨rfl, by simp [a, b]⟩, grown_append (grown_refl _) g⟩

/-! ### Lists -/

theorem set_map_same {α β : Type} {f : α → Out α} {i : Nat} {l m : List α} (h : setAt f i l = .ok m) {g : α → β} (hg : ∀ x y, f x = .ok y → g y = g x) : m.map g = l.map g := by
  obtain ⟨x, y, hx, hy, rfl⟩ := setAt_ok h
  rw [List.map_set, hg x y hy]
  refine List.ext_getElem? fun j => ?_
  by_cases hj : i = j
  · subst hj
    rw [List.getElem?_set_self (by simpa using (List.getElem?_eq_some_iff.1 hx).1), List.getElem?_map, hx]; rfl
  · rw [List.getElem?_set_ne hj]

theorem set_flatMap_same {α β : Type} {f : α → Out α} {i : Nat} {l m : List α} (h : setAt f i l = .ok m) {g : α → List β} (hg : ∀ x y, f x = .ok y → g y = g x) :
    m.flatMap g = l.flatMap g := by
  rw [List.flatMap_def, List.flatMap_def, set_map_same h hg]

theorem set_grown {α : Type} {N : Ref → Prop} {f : α → Out α} {i : Nat} {l m : List α} (h : setAt f i l = .ok m) {g : α → List Ref} (hg : ∀ x y, f x = .ok y → Grown N (g x) (g y)) :
    Grown N (l.flatMap g) (m.flatMap g) := by
  obtain ⟨x, y, hx, hy, rfl⟩ := setAt_ok h
  intro r hr0
  obtain ⟨z, hz, hr⟩ := List.mem_flatMap.1 hr0
  rcases List.mem_or_eq_of_mem_set hz with hz | rfl
  · exact .inl (List.mem_flatMap.2 ⟨z, hz, hr⟩)
  · exact (hg x _ hy r hr).imp (fun h => List.mem_flatMap.2 ⟨x, List.mem_of_getElem? hx, h⟩) id

/-! ### The objects -/

theorem bare_injection {vl : String} {i j : Ident} {o : XmlNet.Obj} {t u : Term} (h : Same i t j u) : bare (injection vl j o u.place) = bare (injection vl i o t.place) := by
  obtain ⟨h1, h2⟩ := h
  simp [bare, injection, bareEnd, h1, h2]

theorem bare_branch {only : Option String} {i j : Ident} {l m : List Side} (h : Sides i l j m) : bare (branch only j m) = bare (branch only i l) := by
  obtain ⟨h1, h2⟩ := h
  have hl : m.length = l.length := by simpa using congrArg List.length h2
  have he : ∀ l : List Side, (l.map fun s => (⟨s.vl, s.term.place, true, only⟩ : End)).map bareEnd =
      (l.map fun s => (s.vl, barePlace s.term.place)).map fun p => ⟨p.1, p.2, true, only⟩ := by intro l; simp [bareEnd]
  simp only [bare, branch, h1, hl, he, h2]

theorem map_bare {α : Type} {l m : List α} {g : α → Item} (h : m.map (fun x => bare (g x)) = l.map fun x => bare (g x)) : (m.map g).map bare = (l.map g).map bare := by
  rw [List.map_map, List.map_map]; exact h

end Verif.ReadBack
