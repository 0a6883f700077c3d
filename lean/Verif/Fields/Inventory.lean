import Verif.Fields.Net

/-! The inventory of the values is complete (C93). -/

set_option linter.unusedSimpArgs false

namespace Verif.Fields

open Verif
open Verif.Variants (Arr)

theorem map_some_inj {α : Type} {inj : α → Val} (hi : ∀ a b, inj a = inj b → a = b) {l l' : List α}
    (h : l.map (fun v => some (inj v)) = l'.map (fun v => some (inj v))) : l = l' :=
  (List.map_inj_right fun a b e => hi a b (Option.some.inj e)).mp h

theorem col_inj {α : Type} {inj : α → Val} (hi : ∀ a b, inj a = inj b → a = b) {l l' : List α}
    (h : col inj l = col inj l') : l = l' := map_some_inj hi (Arr.mk.inj h).2

theorem clearing_inj {α : Type} {inj : α → Val} {d : Val} (hi : ∀ a b, inj a = inj b → a = b) {l l' : List α}
    (h : clearing inj d l = clearing inj d l') : l = l' := map_some_inj hi (Arr.mk.inj h).2

theorem slacks_inj {l l' : List (Option Nat)} (h : slacks l = slacks l') : l = l' :=
  map_some_inj (inj := Val.ref) (fun _ _ => Val.ref.inj) (Arr.mk.inj h).2

theorem num_inj {l l' : List Dbl} (h : col .num l = col .num l') : l = l' := col_inj (fun _ _ => Val.num.inj) h
theorem flag_inj {l l' : List Bool} (h : col .flag l = col .flag l') : l = l' := col_inj (fun _ _ => Val.flag.inj) h
theorem count_inj {l l' : List Nat} (h : col .count l = col .count l') : l = l' := col_inj (fun _ _ => Val.count.inj) h
theorem pos_inj {l l' : List Int} (h : col .pos l = col .pos l') : l = l' := col_inj (fun _ _ => Val.pos.inj) h
theorem comp_inj {l l' : List (Option Nat)} (h : col .comp l = col .comp l') : l = l' :=
  col_inj (fun _ _ => Val.comp.inj) h
theorem text_inj {d : Val} {l l' : List String} (h : clearing .text d l = clearing .text d l') : l = l' :=
  clearing_inj (fun _ _ => Val.text.inj) h
theorem refs_inj {d : Val} {l l' : List (List Nat)} (h : clearing .refs d l = clearing .refs d l') : l = l' :=
  clearing_inj (fun _ _ => Val.refs.inj) h

/-- What is asked of a class: without values two objects are the same, they have as many values, and with the same
    values they are the same. -/
structure Complete {α : Type} (bare : α → α) (cols : α → List (Arr Val)) : Prop where
  len : ∀ x y, bare x = bare y → (cols x).length = (cols y).length
  eq : ∀ x y, bare x = bare y → cols x = cols y → x = y

theorem Complete.list {α : Type} {bare : α → α} {cols : α → List (Arr Val)} (h : Complete bare cols) :
    Complete (List.map bare) (List.flatMap cols) := by
  constructor
  · intro x
    induction x with
    | nil =>
      intro y e
      cases y with
      | nil => rfl
      | cons b r => cases e
    | cons a r ih =>
      intro y e
      cases y with
      | nil => cases e
      | cons b r' =>
        have e := List.cons.inj e
        simp only [List.flatMap_cons, List.length_append, h.len _ _ e.1, ih _ e.2]
  · intro x
    induction x with
    | nil =>
      intro y e _
      cases y with
      | nil => rfl
      | cons b r => cases e
    | cons a r ih =>
      intro y e hc
      cases y with
      | nil => cases e
      | cons b r' =>
        have e := List.cons.inj e
        simp only [List.flatMap_cons] at hc
        have := List.append_inj hc (h.len _ _ e.1)
        rw [h.eq _ _ e.1 this.1, ih _ e.2 this.2]

theorem Complete.opt {α : Type} {bare : α → α} {cols : α → List (Arr Val)} (h : Complete bare cols) :
    Complete (Option.map bare) (fun o : Option α => o.toList.flatMap cols) := by
  constructor
  · intro x y e
    cases x <;> cases y
    · rfl
    · cases e
    · cases e
    · have := h.len _ _ (Option.some.inj e); simpa using this
  · intro x y e hc
    cases x <;> cases y
    · rfl
    · cases e
    · cases e
    · simp only [Option.toList_some, List.flatMap_cons, List.flatMap_nil, List.append_nil] at hc
      rw [h.eq _ _ (Option.some.inj e) hc]

theorem LoadDetail.complete : Complete LoadDetail.bare LoadDetail.cols := by
  constructor
  · intro x y e
    rfl
  · intro x y e hc
    unfold LoadDetail.cols at hc
    have c_fixedP := List.cons.inj (hc)
    have e_fixedP := num_inj c_fixedP.1
    have c_fixedQ := List.cons.inj (c_fixedP.2)
    have e_fixedQ := num_inj c_fixedQ.1
    have c_variableP := List.cons.inj (c_fixedQ.2)
    have e_variableP := num_inj c_variableP.1
    have c_variableQ := List.cons.inj (c_variableP.2)
    have e_variableQ := num_inj c_variableQ.1
    cases x; cases y
    simp only [] at e_fixedP e_fixedQ e_variableP e_variableQ
    subst e_fixedP e_fixedQ e_variableP e_variableQ
    rfl

theorem Slack.complete : Complete Slack.bare Slack.cols := by
  refine ⟨fun _ _ _ => rfl, fun x y _ hc => ?_⟩
  have := slacks_inj (List.cons.inj hc).1
  cases x; cases y; cases this; rfl

theorem Ext.complete : Complete Ext.bare Ext.cols := by
  constructor
  · intro x y e
    cases x with
    | loadDetail x =>
      cases y with
      | loadDetail y =>
        exact LoadDetail.complete.len x y (Ext.loadDetail.inj e)
      | _ => cases e
    | slack x =>
      cases y with
      | slack y =>
        exact Slack.complete.len x y (Ext.slack.inj e)
      | _ => cases e
    | other =>
      cases y with
      | other => rfl
      | _ => cases e
  · intro x y e hc
    cases x with
    | loadDetail x =>
      cases y with
      | loadDetail y =>
        exact congrArg Ext.loadDetail (LoadDetail.complete.eq x y (Ext.loadDetail.inj e) hc)
      | _ => cases e
    | slack x =>
      cases y with
      | slack y =>
        exact congrArg Ext.slack (Slack.complete.eq x y (Ext.slack.inj e) hc)
      | _ => cases e
    | other =>
      cases y with
      | other => rfl
      | _ => cases e

theorem Terminal.complete : Complete Terminal.bare Terminal.cols := by
  constructor
  · intro x y e
    rfl
  · intro x y e hc
    unfold Terminal.cols at hc
    have c_p := List.cons.inj (hc)
    have e_p := num_inj c_p.1
    have c_q := List.cons.inj (c_p.2)
    have e_q := num_inj c_q.1
    cases x; cases y
    simp only [] at e_p e_q
    subst e_p e_q
    rfl

theorem NodeTerminal.complete : Complete NodeTerminal.bare NodeTerminal.cols := by
  constructor
  · intro x y e
    have h_base := Terminal.complete.len x.base y.base (NodeTerminal.mk.inj e).1
    simp only [NodeTerminal.cols, List.length_append, List.length_cons, List.length_nil] at *
    omega
  · intro x y e hc
    have l_base := Terminal.complete.len x.base y.base (NodeTerminal.mk.inj e).1
    unfold NodeTerminal.cols at hc
    have s0 := List.append_inj' hc rfl
    have e_base := Terminal.complete.eq x.base y.base (NodeTerminal.mk.inj e).1 (s0.1)
    have c_v := List.cons.inj (s0.2)
    have e_v := num_inj c_v.1
    have c_connectedComponent := List.cons.inj (c_v.2)
    have e_connectedComponent := comp_inj c_connectedComponent.1
    have c_synchronousComponent := List.cons.inj (c_connectedComponent.2)
    have e_synchronousComponent := comp_inj c_synchronousComponent.1
    have c_angle := List.cons.inj (c_synchronousComponent.2)
    have e_angle := num_inj c_angle.1
    cases x; cases y
    simp only [] at e_base e_v e_connectedComponent e_synchronousComponent e_angle
    subst e_base e_v e_connectedComponent e_synchronousComponent e_angle
    rfl

theorem BusTerminal.complete : Complete BusTerminal.bare BusTerminal.cols := by
  constructor
  · intro x y e
    have h_base := Terminal.complete.len x.base y.base (BusTerminal.mk.inj e).1
    simp only [BusTerminal.cols, List.length_append, List.length_cons, List.length_nil] at *
    omega
  · intro x y e hc
    have l_base := Terminal.complete.len x.base y.base (BusTerminal.mk.inj e).1
    unfold BusTerminal.cols at hc
    have s0 := List.append_inj' hc rfl
    have e_base := Terminal.complete.eq x.base y.base (BusTerminal.mk.inj e).1 (s0.1)
    have c_connected := List.cons.inj (s0.2)
    have e_connected := flag_inj c_connected.1
    have c_busId := List.cons.inj (c_connected.2)
    have e_busId := text_inj c_busId.1
    cases x; cases y
    simp only [] at e_base e_connected e_busId
    subst e_base e_connected e_busId
    rfl

theorem Term.complete : Complete Term.bare Term.cols := by
  constructor
  · intro x y e
    cases x with
    | node x =>
      cases y with
      | node y =>
        exact NodeTerminal.complete.len x y (Term.node.inj e)
      | _ => cases e
    | bus x =>
      cases y with
      | bus y =>
        exact BusTerminal.complete.len x y (Term.bus.inj e)
      | _ => cases e
  · intro x y e hc
    cases x with
    | node x =>
      cases y with
      | node y =>
        exact congrArg Term.node (NodeTerminal.complete.eq x y (Term.node.inj e) hc)
      | _ => cases e
    | bus x =>
      cases y with
      | bus y =>
        exact congrArg Term.bus (BusTerminal.complete.eq x y (Term.bus.inj e) hc)
      | _ => cases e

theorem Ident.complete : Complete Ident.bare Ident.cols := by
  constructor
  · intro x y e
    have h_exts := Ext.complete.list.len x.exts y.exts (Ident.mk.inj e)
    exact h_exts
  · intro x y e hc
    have l_exts := Ext.complete.list.len x.exts y.exts (Ident.mk.inj e)
    unfold Ident.cols at hc
    have e_exts := Ext.complete.list.eq x.exts y.exts (Ident.mk.inj e) (hc)
    cases x; cases y
    simp only [] at e_exts
    subst e_exts
    rfl

theorem Conn.complete : Complete Conn.bare Conn.cols := by
  constructor
  · intro x y e
    have h_ident := Ident.complete.len x.ident y.ident (Conn.mk.inj e).1
    have h_terms := Term.complete.list.len x.terms y.terms (Conn.mk.inj e).2
    simp only [Conn.cols, List.length_append, List.length_cons, List.length_nil] at *
    omega
  · intro x y e hc
    have l_ident := Ident.complete.len x.ident y.ident (Conn.mk.inj e).1
    have l_terms := Term.complete.list.len x.terms y.terms (Conn.mk.inj e).2
    unfold Conn.cols at hc
    have s0 := List.append_inj' hc l_terms
    have e_ident := Ident.complete.eq x.ident y.ident (Conn.mk.inj e).1 (s0.1)
    have e_terms := Term.complete.list.eq x.terms y.terms (Conn.mk.inj e).2 (s0.2)
    cases x; cases y
    simp only [] at e_ident e_terms
    subst e_ident e_terms
    rfl

theorem Load.complete : Complete Load.bare Load.cols := by
  constructor
  · intro x y e
    have h_conn := Conn.complete.len x.conn y.conn (Load.mk.inj e).1
    simp only [Load.cols, List.length_append, List.length_cons, List.length_nil] at *
    omega
  · intro x y e hc
    have l_conn := Conn.complete.len x.conn y.conn (Load.mk.inj e).1
    unfold Load.cols at hc
    have s0 := List.append_inj' hc rfl
    have e_conn := Conn.complete.eq x.conn y.conn (Load.mk.inj e).1 (s0.1)
    have c_p0 := List.cons.inj (s0.2)
    have e_p0 := num_inj c_p0.1
    have c_q0 := List.cons.inj (c_p0.2)
    have e_q0 := num_inj c_q0.1
    cases x; cases y
    simp only [] at e_conn e_p0 e_q0
    subst e_conn e_p0 e_q0
    rfl

theorem Battery.complete : Complete Battery.bare Battery.cols := by
  constructor
  · intro x y e
    have h_conn := Conn.complete.len x.conn y.conn (Battery.mk.inj e).1
    simp only [Battery.cols, List.length_append, List.length_cons, List.length_nil] at *
    omega
  · intro x y e hc
    have l_conn := Conn.complete.len x.conn y.conn (Battery.mk.inj e).1
    unfold Battery.cols at hc
    have s0 := List.append_inj' hc rfl
    have e_conn := Conn.complete.eq x.conn y.conn (Battery.mk.inj e).1 (s0.1)
    have c_p0 := List.cons.inj (s0.2)
    have e_p0 := num_inj c_p0.1
    have c_q0 := List.cons.inj (c_p0.2)
    have e_q0 := num_inj c_q0.1
    cases x; cases y
    simp only [] at e_conn e_p0 e_q0
    subst e_conn e_p0 e_q0
    rfl

theorem Generator.complete : Complete Generator.bare Generator.cols := by
  constructor
  · intro x y e
    have h_conn := Conn.complete.len x.conn y.conn (Generator.mk.inj e).1
    simp only [Generator.cols, List.length_append, List.length_cons, List.length_nil] at *
    omega
  · intro x y e hc
    have l_conn := Conn.complete.len x.conn y.conn (Generator.mk.inj e).1
    unfold Generator.cols at hc
    have s0 := List.append_inj' hc rfl
    have e_conn := Conn.complete.eq x.conn y.conn (Generator.mk.inj e).1 (s0.1)
    have c_regulatorOn := List.cons.inj (s0.2)
    have e_regulatorOn := flag_inj c_regulatorOn.1
    have c_targetP := List.cons.inj (c_regulatorOn.2)
    have e_targetP := num_inj c_targetP.1
    have c_targetQ := List.cons.inj (c_targetP.2)
    have e_targetQ := num_inj c_targetQ.1
    have c_targetV := List.cons.inj (c_targetQ.2)
    have e_targetV := num_inj c_targetV.1
    cases x; cases y
    simp only [] at e_conn e_regulatorOn e_targetP e_targetQ e_targetV
    subst e_conn e_regulatorOn e_targetP e_targetQ e_targetV
    rfl

theorem Shunt.complete : Complete Shunt.bare Shunt.cols := by
  constructor
  · intro x y e
    have h_conn := Conn.complete.len x.conn y.conn (Shunt.mk.inj e).1
    simp only [Shunt.cols, List.length_append, List.length_cons, List.length_nil] at *
    omega
  · intro x y e hc
    have l_conn := Conn.complete.len x.conn y.conn (Shunt.mk.inj e).1
    unfold Shunt.cols at hc
    have s0 := List.append_inj' hc rfl
    have e_conn := Conn.complete.eq x.conn y.conn (Shunt.mk.inj e).1 (s0.1)
    have c_sectionCount := List.cons.inj (s0.2)
    have e_sectionCount := count_inj c_sectionCount.1
    have c_regulatorOn := List.cons.inj (c_sectionCount.2)
    have e_regulatorOn := flag_inj c_regulatorOn.1
    have c_targetV := List.cons.inj (c_regulatorOn.2)
    have e_targetV := num_inj c_targetV.1
    have c_targetDeadband := List.cons.inj (c_targetV.2)
    have e_targetDeadband := num_inj c_targetDeadband.1
    cases x; cases y
    simp only [] at e_conn e_sectionCount e_regulatorOn e_targetV e_targetDeadband
    subst e_conn e_sectionCount e_regulatorOn e_targetV e_targetDeadband
    rfl

theorem Svc.complete : Complete Svc.bare Svc.cols := by
  constructor
  · intro x y e
    have h_conn := Conn.complete.len x.conn y.conn (Svc.mk.inj e).1
    simp only [Svc.cols, List.length_append, List.length_cons, List.length_nil] at *
    omega
  · intro x y e hc
    have l_conn := Conn.complete.len x.conn y.conn (Svc.mk.inj e).1
    unfold Svc.cols at hc
    have s0 := List.append_inj' hc rfl
    have e_conn := Conn.complete.eq x.conn y.conn (Svc.mk.inj e).1 (s0.1)
    have c_targetV := List.cons.inj (s0.2)
    have e_targetV := num_inj c_targetV.1
    have c_targetQ := List.cons.inj (c_targetV.2)
    have e_targetQ := num_inj c_targetQ.1
    have c_mode := List.cons.inj (c_targetQ.2)
    have e_mode := count_inj c_mode.1
    cases x; cases y
    simp only [] at e_conn e_targetV e_targetQ e_mode
    subst e_conn e_targetV e_targetQ e_mode
    rfl

theorem Vsc.complete : Complete Vsc.bare Vsc.cols := by
  constructor
  · intro x y e
    have h_conn := Conn.complete.len x.conn y.conn (Vsc.mk.inj e).1
    simp only [Vsc.cols, List.length_append, List.length_cons, List.length_nil] at *
    omega
  · intro x y e hc
    have l_conn := Conn.complete.len x.conn y.conn (Vsc.mk.inj e).1
    unfold Vsc.cols at hc
    have s0 := List.append_inj' hc rfl
    have e_conn := Conn.complete.eq x.conn y.conn (Vsc.mk.inj e).1 (s0.1)
    have c_regulatorOn := List.cons.inj (s0.2)
    have e_regulatorOn := flag_inj c_regulatorOn.1
    have c_targetQ := List.cons.inj (c_regulatorOn.2)
    have e_targetQ := num_inj c_targetQ.1
    have c_targetV := List.cons.inj (c_targetQ.2)
    have e_targetV := num_inj c_targetV.1
    cases x; cases y
    simp only [] at e_conn e_regulatorOn e_targetQ e_targetV
    subst e_conn e_regulatorOn e_targetQ e_targetV
    rfl

theorem Generation.complete : Complete Generation.bare Generation.cols := by
  constructor
  · intro x y e
    rfl
  · intro x y e hc
    unfold Generation.cols at hc
    have c_targetP := List.cons.inj (hc)
    have e_targetP := num_inj c_targetP.1
    have c_targetQ := List.cons.inj (c_targetP.2)
    have e_targetQ := num_inj c_targetQ.1
    have c_regulationOn := List.cons.inj (c_targetQ.2)
    have e_regulationOn := flag_inj c_regulationOn.1
    have c_targetV := List.cons.inj (c_regulationOn.2)
    have e_targetV := num_inj c_targetV.1
    cases x; cases y
    simp only [] at e_targetP e_targetQ e_regulationOn e_targetV
    subst e_targetP e_targetQ e_regulationOn e_targetV
    rfl

theorem DanglingLine.complete : Complete DanglingLine.bare DanglingLine.cols := by
  constructor
  · intro x y e
    have h_conn := Conn.complete.len x.conn y.conn (DanglingLine.mk.inj e).1
    have h_generation := Generation.complete.opt.len x.generation y.generation (DanglingLine.mk.inj e).2.2.2
    simp only [DanglingLine.cols, List.length_append, List.length_cons, List.length_nil] at *
    omega
  · intro x y e hc
    have l_conn := Conn.complete.len x.conn y.conn (DanglingLine.mk.inj e).1
    have l_generation := Generation.complete.opt.len x.generation y.generation (DanglingLine.mk.inj e).2.2.2
    unfold DanglingLine.cols at hc
    have s0 := List.append_inj' hc l_generation
    have s1 := List.append_inj' s0.1 rfl
    have e_conn := Conn.complete.eq x.conn y.conn (DanglingLine.mk.inj e).1 (s1.1)
    have c_p0 := List.cons.inj (s1.2)
    have e_p0 := num_inj c_p0.1
    have c_q0 := List.cons.inj (c_p0.2)
    have e_q0 := num_inj c_q0.1
    have e_generation := Generation.complete.opt.eq x.generation y.generation (DanglingLine.mk.inj e).2.2.2 (s0.2)
    cases x; cases y
    simp only [] at e_conn e_p0 e_q0 e_generation
    subst e_conn e_p0 e_q0 e_generation
    rfl

theorem TapChanger.complete : Complete TapChanger.bare TapChanger.cols := by
  constructor
  · intro x y e
    rfl
  · intro x y e hc
    unfold TapChanger.cols at hc
    have c_position := List.cons.inj (hc)
    have e_position := pos_inj c_position.1
    have c_regulating := List.cons.inj (c_position.2)
    have e_regulating := flag_inj c_regulating.1
    have c_targetDeadband := List.cons.inj (c_regulating.2)
    have e_targetDeadband := num_inj c_targetDeadband.1
    cases x; cases y
    simp only [] at e_position e_regulating e_targetDeadband
    subst e_position e_regulating e_targetDeadband
    rfl

theorem RatioTapChanger.complete : Complete RatioTapChanger.bare RatioTapChanger.cols := by
  constructor
  · intro x y e
    have h_base := TapChanger.complete.len x.base y.base (RatioTapChanger.mk.inj e).1
    simp only [RatioTapChanger.cols, List.length_append, List.length_cons, List.length_nil] at *
    omega
  · intro x y e hc
    have l_base := TapChanger.complete.len x.base y.base (RatioTapChanger.mk.inj e).1
    unfold RatioTapChanger.cols at hc
    have s0 := List.append_inj' hc rfl
    have e_base := TapChanger.complete.eq x.base y.base (RatioTapChanger.mk.inj e).1 (s0.1)
    have c_targetV := List.cons.inj (s0.2)
    have e_targetV := num_inj c_targetV.1
    cases x; cases y
    simp only [] at e_base e_targetV
    subst e_base e_targetV
    rfl

theorem PhaseTapChanger.complete : Complete PhaseTapChanger.bare PhaseTapChanger.cols := by
  constructor
  · intro x y e
    have h_base := TapChanger.complete.len x.base y.base (PhaseTapChanger.mk.inj e).1
    simp only [PhaseTapChanger.cols, List.length_append, List.length_cons, List.length_nil] at *
    omega
  · intro x y e hc
    have l_base := TapChanger.complete.len x.base y.base (PhaseTapChanger.mk.inj e).1
    unfold PhaseTapChanger.cols at hc
    have s0 := List.append_inj' hc rfl
    have e_base := TapChanger.complete.eq x.base y.base (PhaseTapChanger.mk.inj e).1 (s0.1)
    have c_regulationValue := List.cons.inj (s0.2)
    have e_regulationValue := num_inj c_regulationValue.1
    cases x; cases y
    simp only [] at e_base e_regulationValue
    subst e_base e_regulationValue
    rfl

theorem TwoWindings.complete : Complete TwoWindings.bare TwoWindings.cols := by
  constructor
  · intro x y e
    have h_conn := Conn.complete.len x.conn y.conn (TwoWindings.mk.inj e).1
    have h_ratio := RatioTapChanger.complete.opt.len x.ratio y.ratio (TwoWindings.mk.inj e).2.1
    have h_phase := PhaseTapChanger.complete.opt.len x.phase y.phase (TwoWindings.mk.inj e).2.2
    simp only [TwoWindings.cols, List.length_append, List.length_cons, List.length_nil] at *
    omega
  · intro x y e hc
    have l_conn := Conn.complete.len x.conn y.conn (TwoWindings.mk.inj e).1
    have l_ratio := RatioTapChanger.complete.opt.len x.ratio y.ratio (TwoWindings.mk.inj e).2.1
    have l_phase := PhaseTapChanger.complete.opt.len x.phase y.phase (TwoWindings.mk.inj e).2.2
    unfold TwoWindings.cols at hc
    have s0 := List.append_inj' hc l_phase
    have s1 := List.append_inj' s0.1 l_ratio
    have e_conn := Conn.complete.eq x.conn y.conn (TwoWindings.mk.inj e).1 (s1.1)
    have e_ratio := RatioTapChanger.complete.opt.eq x.ratio y.ratio (TwoWindings.mk.inj e).2.1 (s1.2)
    have e_phase := PhaseTapChanger.complete.opt.eq x.phase y.phase (TwoWindings.mk.inj e).2.2 (s0.2)
    cases x; cases y
    simp only [] at e_conn e_ratio e_phase
    subst e_conn e_ratio e_phase
    rfl

theorem Leg.complete : Complete Leg.bare Leg.cols := by
  constructor
  · intro x y e
    have h_ratio := RatioTapChanger.complete.opt.len x.ratio y.ratio (Leg.mk.inj e).1
    have h_phase := PhaseTapChanger.complete.opt.len x.phase y.phase (Leg.mk.inj e).2
    simp only [Leg.cols, List.length_append, List.length_cons, List.length_nil] at *
    omega
  · intro x y e hc
    have l_ratio := RatioTapChanger.complete.opt.len x.ratio y.ratio (Leg.mk.inj e).1
    have l_phase := PhaseTapChanger.complete.opt.len x.phase y.phase (Leg.mk.inj e).2
    unfold Leg.cols at hc
    have s0 := List.append_inj' hc l_phase
    have e_ratio := RatioTapChanger.complete.opt.eq x.ratio y.ratio (Leg.mk.inj e).1 (s0.1)
    have e_phase := PhaseTapChanger.complete.opt.eq x.phase y.phase (Leg.mk.inj e).2 (s0.2)
    cases x; cases y
    simp only [] at e_ratio e_phase
    subst e_ratio e_phase
    rfl

theorem ThreeWindings.complete : Complete ThreeWindings.bare ThreeWindings.cols := by
  constructor
  · intro x y e
    have h_conn := Conn.complete.len x.conn y.conn (ThreeWindings.mk.inj e).1
    have h_legs := Leg.complete.list.len x.legs y.legs (ThreeWindings.mk.inj e).2
    simp only [ThreeWindings.cols, List.length_append, List.length_cons, List.length_nil] at *
    omega
  · intro x y e hc
    have l_conn := Conn.complete.len x.conn y.conn (ThreeWindings.mk.inj e).1
    have l_legs := Leg.complete.list.len x.legs y.legs (ThreeWindings.mk.inj e).2
    unfold ThreeWindings.cols at hc
    have s0 := List.append_inj' hc l_legs
    have e_conn := Conn.complete.eq x.conn y.conn (ThreeWindings.mk.inj e).1 (s0.1)
    have e_legs := Leg.complete.list.eq x.legs y.legs (ThreeWindings.mk.inj e).2 (s0.2)
    cases x; cases y
    simp only [] at e_conn e_legs
    subst e_conn e_legs
    rfl

theorem HvdcLine.complete : Complete HvdcLine.bare HvdcLine.cols := by
  constructor
  · intro x y e
    have h_ident := Ident.complete.len x.ident y.ident (HvdcLine.mk.inj e).1
    simp only [HvdcLine.cols, List.length_append, List.length_cons, List.length_nil] at *
    omega
  · intro x y e hc
    have l_ident := Ident.complete.len x.ident y.ident (HvdcLine.mk.inj e).1
    unfold HvdcLine.cols at hc
    have s0 := List.append_inj' hc rfl
    have e_ident := Ident.complete.eq x.ident y.ident (HvdcLine.mk.inj e).1 (s0.1)
    have c_convertersMode := List.cons.inj (s0.2)
    have e_convertersMode := count_inj c_convertersMode.1
    have c_targetP := List.cons.inj (c_convertersMode.2)
    have e_targetP := num_inj c_targetP.1
    cases x; cases y
    simp only [] at e_ident e_convertersMode e_targetP
    subst e_ident e_convertersMode e_targetP
    rfl

theorem Switch.complete : Complete Switch.bare Switch.cols := by
  constructor
  · intro x y e
    have h_ident := Ident.complete.len x.ident y.ident (Switch.mk.inj e).1
    simp only [Switch.cols, List.length_append, List.length_cons, List.length_nil] at *
    omega
  · intro x y e hc
    have l_ident := Ident.complete.len x.ident y.ident (Switch.mk.inj e).1
    unfold Switch.cols at hc
    have s0 := List.append_inj' hc rfl
    have e_ident := Ident.complete.eq x.ident y.ident (Switch.mk.inj e).1 (s0.1)
    have c_isOpen := List.cons.inj (s0.2)
    have e_isOpen := flag_inj c_isOpen.1
    have c_retained := List.cons.inj (c_isOpen.2)
    have e_retained := flag_inj c_retained.1
    cases x; cases y
    simp only [] at e_ident e_isOpen e_retained
    subst e_ident e_isOpen e_retained
    rfl

theorem ConfiguredBus.complete : Complete ConfiguredBus.bare ConfiguredBus.cols := by
  constructor
  · intro x y e
    have h_ident := Ident.complete.len x.ident y.ident (ConfiguredBus.mk.inj e).1
    simp only [ConfiguredBus.cols, List.length_append, List.length_cons, List.length_nil] at *
    omega
  · intro x y e hc
    have l_ident := Ident.complete.len x.ident y.ident (ConfiguredBus.mk.inj e).1
    unfold ConfiguredBus.cols at hc
    have s0 := List.append_inj' hc rfl
    have e_ident := Ident.complete.eq x.ident y.ident (ConfiguredBus.mk.inj e).1 (s0.1)
    have c_terminals := List.cons.inj (s0.2)
    have e_terminals := refs_inj c_terminals.1
    have c_v := List.cons.inj (c_terminals.2)
    have e_v := num_inj c_v.1
    have c_angle := List.cons.inj (c_v.2)
    have e_angle := num_inj c_angle.1
    have c_connectedComponent := List.cons.inj (c_angle.2)
    have e_connectedComponent := comp_inj c_connectedComponent.1
    have c_synchronousComponent := List.cons.inj (c_connectedComponent.2)
    have e_synchronousComponent := comp_inj c_synchronousComponent.1
    cases x; cases y
    simp only [] at e_ident e_terminals e_v e_angle e_connectedComponent e_synchronousComponent
    subst e_ident e_terminals e_v e_angle e_connectedComponent e_synchronousComponent
    rfl

theorem Obj.ext_of {o o' : Obj} (hb : o.bare = o'.bare) (hc : o.cols = o'.cols) (hk : o.caches = o'.caches) : o = o' := by
  cases o with
  | connectable x =>
    cases o' with
    | connectable y =>
      exact congrArg Obj.connectable (Conn.complete.eq x y (Obj.connectable.inj hb) hc)
    | _ => cases hb
  | load x =>
    cases o' with
    | load y =>
      exact congrArg Obj.load (Load.complete.eq x y (Obj.load.inj hb) hc)
    | _ => cases hb
  | battery x =>
    cases o' with
    | battery y =>
      exact congrArg Obj.battery (Battery.complete.eq x y (Obj.battery.inj hb) hc)
    | _ => cases hb
  | generator x =>
    cases o' with
    | generator y =>
      exact congrArg Obj.generator (Generator.complete.eq x y (Obj.generator.inj hb) hc)
    | _ => cases hb
  | shunt x =>
    cases o' with
    | shunt y =>
      exact congrArg Obj.shunt (Shunt.complete.eq x y (Obj.shunt.inj hb) hc)
    | _ => cases hb
  | svc x =>
    cases o' with
    | svc y =>
      exact congrArg Obj.svc (Svc.complete.eq x y (Obj.svc.inj hb) hc)
    | _ => cases hb
  | vsc x =>
    cases o' with
    | vsc y =>
      exact congrArg Obj.vsc (Vsc.complete.eq x y (Obj.vsc.inj hb) hc)
    | _ => cases hb
  | danglingLine x =>
    cases o' with
    | danglingLine y =>
      exact congrArg Obj.danglingLine (DanglingLine.complete.eq x y (Obj.danglingLine.inj hb) hc)
    | _ => cases hb
  | twoWindings x =>
    cases o' with
    | twoWindings y =>
      exact congrArg Obj.twoWindings (TwoWindings.complete.eq x y (Obj.twoWindings.inj hb) hc)
    | _ => cases hb
  | threeWindings x =>
    cases o' with
    | threeWindings y =>
      exact congrArg Obj.threeWindings (ThreeWindings.complete.eq x y (Obj.threeWindings.inj hb) hc)
    | _ => cases hb
  | hvdcLine x =>
    cases o' with
    | hvdcLine y =>
      exact congrArg Obj.hvdcLine (HvdcLine.complete.eq x y (Obj.hvdcLine.inj hb) hc)
    | _ => cases hb
  | switch x =>
    cases o' with
    | switch y =>
      exact congrArg Obj.switch (Switch.complete.eq x y (Obj.switch.inj hb) hc)
    | _ => cases hb
  | bus x =>
    cases o' with
    | bus y =>
      exact congrArg Obj.bus (ConfiguredBus.complete.eq x y (Obj.bus.inj hb) hc)
    | _ => cases hb
  | cached x =>
    cases o' with
    | cached y =>
      have e := Obj.cached.inj hb
      have e1 := (List.cons.inj hk).1
      have l : x.ident.cols = y.ident.cols := (List.append_inj' hc rfl).1
      have e2 := Ident.complete.eq _ _ (Cached.mk.inj e).1 l
      cases x; cases y
      simp only [] at e1 e2
      subst e1 e2
      rfl
    | _ => cases hb
  | substation x =>
    cases o' with
    | substation y =>
      exact congrArg Obj.substation (Ident.complete.eq x y (Obj.substation.inj hb) hc)
    | _ => cases hb

end Verif.Fields
