import Verif.XmlOld.RestProps
import Verif.XmlOld.BranchesProps

/-!
C88: voltage levels and substations, written in any version of IIDM-XML with any behaviour on what the version does not have.
-/

namespace Verif.XmlOld

open Verif Verif.Xml Verif.XmlNet

/-! ### Lists of elements -/

theorem flatMap_none {α β : Type} (xs : List α) : (xs.flatMap fun _ => ([] : List β)) = [] := by induction xs <;> simp_all

theorem list_old {σ α β : Type} {n : String} {b : Behaviour} {w : α → Piece Cmd} {read : List Tok → Out (β × List Tok)} (B : List Cmd → σ → σ → Prop) (nil : ∀ s, B [] s s)
    (append : ∀ {cs ds s s' s''}, B cs s s' → B ds s' s'' → B (cs ++ ds) s s'') (get : σ → List β) (put : σ → List β → σ)
    (item : ∀ {as body a}, RoundTrip (elemCmds n as body) read a → ∀ s, B (elemCmds n as body) s (put s (get s ++ [a])))
    (gp : ∀ s l, get (put s l) = l) (pp : ∀ s l m, put (put s l) m = put s m) (pg : ∀ s, put s (get s) = s) (kept : α → β) (lost : α → List String) :
    ∀ (xs : List α) (s : σ), (∀ x ∈ xs, Kept b n (w x) read (kept x) (lost x)) → ∃ doc, Reports b (writeAll w xs) doc (xs.flatMap lost) ∧ B doc s (put s (get s ++ xs.map kept)) := by
  intro xs
  induction xs with
  | nil => intro s _; exact ⟨[], Reports.plain _ _, by simpa [pg] using nil s⟩
  | cons x xs ih =>
    intro s h
    obtain ⟨as, body, h1, h2⟩ := h x List.mem_cons_self
    obtain ⟨doc, h3, h4⟩ := ih (put s (get s ++ [kept x])) fun y hy => h y (List.mem_cons_of_mem _ hy)
    refine ⟨_, h1.andThen h3, ?_⟩
    have := append (item h2 s) h4
    rwa [gp, pp, List.append_assoc] at this

theorem push_old {σ α β : Type} {A : Anon} {v : Ver} {h : Handler σ} {root n : String} {b : Behaviour} {w : α → Piece Cmd} {read : List Tok → Out (β × List Tok)} (get : σ → List β)
    (put : σ → List β → σ) (hh : h n = some (pushCb read fun s x => put s (get s ++ [x]))) (gp : ∀ s l, get (put s l) = l) (pp : ∀ s l m, put (put s l) m = put s m) (pg : ∀ s, put s (get s) = s)
    (kept : α → β) (lost : α → List String) (xs : List α) (s : σ) (hx : ∀ x ∈ xs, Kept b n (w x) read (kept x) (lost x)) :
    ∃ doc, Reports b (writeAll w xs) doc (xs.flatMap lost) ∧ Body A v h root doc s (put s (get s ++ xs.map kept)) :=
  list_old (Body A v h root) (body_nil _ _ _ _) (fun h1 h2 => h1.append h2) get put
    (fun hrt s => body_item hrt hh fun toks r hr => by simp only [pushCb, hr, Out.monad_bind_ok]) gp pp pg kept lost xs s hx

theorem ppush_old {σ α β : Type} {h : Handler σ} {root n : String} {b : Behaviour} {w : α → Piece Cmd} {read : List Tok → Out (β × List Tok)} (get : σ → List β) (put : σ → List β → σ)
    (hh : h n = some (pushCb read fun s x => put s (get s ++ [x]))) (gp : ∀ s l, get (put s l) = l) (pp : ∀ s l m, put (put s l) m = put s m) (pg : ∀ s, put s (get s) = s)
    (kept : α → β) (lost : α → List String) (xs : List α) (s : σ) (hx : ∀ x ∈ xs, Kept b n (w x) read (kept x) (lost x)) :
    ∃ doc, Reports b (writeAll w xs) doc (xs.flatMap lost) ∧ PBody h root doc s (put s (get s ++ xs.map kept)) :=
  list_old (PBody h root) (pbody_nil _ _) (fun h1 h2 => h1.append h2) get put
    (fun hrt s => pbody_item hrt hh fun toks r hr => by simp only [pushCb, hr, Out.monad_bind_ok]) gp pp pg kept lost xs s hx

theorem quiet_kept {α : Type} {b : Behaviour} {n : String} {w : Out (List Cmd)} {read : List Tok → Out (α × List Tok)} {a : α} (h : ElemRT n w read a) : Kept b n (quiet w) read a [] := by
  obtain ⟨as, body, h1, h2⟩ := h
  exact ⟨as, body, by rw [h1]; exact Reports.plain _ _, h2⟩

theorem reports_map {δ ε : Type} {b : Behaviour} {x : Piece δ} {d : List δ} {l : List String} (f : List δ → List ε) (h : Reports b x d l) :
    Reports b (x.map fun w => (⟨f w.doc, w.log⟩ : Written (List ε))) (f d) l :=
  ⟨fun hl => by rw [h.1 hl]; rfl, fun hl hb => by rw [h.2 hl hb]; rfl⟩

theorem reports_wrap {n : String} {b : Behaviour} {as : Piece (String × String)} {sub : Piece Cmd} {d : List (String × String)} {e : List Cmd} {l : List String} (h1 : Reports b as d [])
    (h2 : Reports b sub e l) : Reports b (as.bind fun a => sub.map fun x => (⟨elemCmds n a.doc x.doc, x.log ++ a.log⟩ : Written (List Cmd))) (elemCmds n d e) l := by
  rw [h1.1 (.inl rfl), Out.bind_ok]
  have := reports_map (elemCmds n d) h2
  simpa using this

/-! ### Voltage levels -/

/-- What is read of the two topologies. -/
def topoSub (busbar : Bbs → Dbl × Dbl) (v : Ver) (e : Equip) : Topo → VlSub
  | .node bbs sws conns calcs => ⟨bbs.map fun b => (keptBbs v b, keptVoltage v (busbar b)), sws.map (keptNSw v), conns, keptCalcs v calcs, [], [], e⟩
  | .bus buses sws => ⟨[], [], [], [], buses.map (keptBus v), sws.map (keptBSw v), e⟩

/-- The voltages and angles of the busbar sections can be read back. -/
def BusbarsOk (K : XCodec) (busbar : Bbs → Dbl × Dbl) : Topo → Prop
  | .node bbs _ _ _ => ∀ b ∈ bbs, K.Keeps (busbar b).1 ∧ K.Keeps (busbar b).2
  | .bus _ _ => True

theorem keptIdent_noAliases (v : Ver) {x : Ident} (h : x.aliases = []) : (keptIdent v x).aliases = [] := by
  cases v <;> simp [keptIdent, h]

theorem calcs_old {K : XCodec} {A : Anon} {c : Ctx} {calcs : List Calc} (h : ∀ x ∈ calcs, K.Keeps x.v ∧ K.Keeps x.angle) (s : VlSub) (hs : s.calcs = []) :
    ∃ doc, Reports c.behaviour (runFromMinimumVersion .v11 c.version (fun w => .ok w >+> writeAll (fun y => quiet (writeCalc K y)) calcs) start) doc [] ∧
      PBody (nodeTopoSub K A c.version) "nodeBreakerTopology" doc s { s with calcs := keptCalcs c.version calcs } := by
  unfold runFromMinimumVersion
  cases hv : c.version.ge .v11 with
  | false =>
    have hk : keptCalcs c.version calcs = [] := by cases hc : c.version <;> first | rfl | (rw [hc] at hv; exact absurd hv (by decide))
    have he : { s with calcs := keptCalcs c.version calcs } = s := by rw [hk, ← hs]
    rw [he]
    exact ⟨[], ⟨fun _ => rfl, fun h => absurd rfl h⟩, pbody_nil _ _ _⟩
  | true =>
    have hk : keptCalcs c.version calcs = calcs := by cases hc : c.version <;> first | rfl | (rw [hc] at hv; exact absurd hv (by decide))
    obtain ⟨doc, h1, h2⟩ := list_old (σ := VlSub) (n := "bus") (b := c.behaviour) (w := fun y => quiet (writeCalc K y)) (PBody (nodeTopoSub K A c.version) "nodeBreakerTopology") (pbody_nil _ _)
      (fun h1 h2 => h1.append h2) VlSub.calcs (fun s l => { s with calcs := l })
      (fun hrt s => pbody_item hrt (cb := onlySince .v11 c.version (pushCb (readCalc K) fun s b => { s with calcs := s.calcs ++ [b] })) rfl fun toks r hr => by
        rw [onlySince_ok hv]; simp only [pushCb, hr, Out.monad_bind_ok])
      (fun _ _ => rfl) (fun _ _ _ => rfl) (fun _ => rfl) id (fun _ => []) calcs s fun x hx => quiet_kept (calc_ert (h x hx).1 (h x hx).2)
    refine ⟨[] ++ doc, ?_, ?_⟩
    · have := (Reports.plain c.behaviour []).andThen h1
      rw [flatMap_none] at this
      exact this
    · rw [hs] at h2
      simpa [hk] using h2

theorem topo_old {K : XCodec} (hK : K.Integers) {A : Anon} {E : Env} (c : Ctx) {x : VL} (h : TopoOk K A x.topo) (hb : BusbarsOk K E.busbar x.topo) :
    ∃ doc, Reports c.behaviour (writeTopo K A E c x) doc [] ∧ Body A c.version (vlSub K A c.version) "voltageLevel" doc noVlSub (topoSub E.busbar c.version noEquip x.topo) := by
  unfold writeTopo
  cases ht : x.topo with
  | node bbs sws conns calcs =>
    rw [ht] at h hb
    obtain ⟨h1, h2, h3, h4⟩ := h
    obtain ⟨c1, w1, b1⟩ := ppush_old (h := nodeTopoSub K A c.version) (root := "nodeBreakerTopology") (b := c.behaviour) (w := fun b => writeBbs K A c b (E.busbar b)) VlSub.bbs (fun s l => { s with bbs := l }) rfl
      (fun _ _ => rfl) (fun _ _ _ => rfl) (fun _ => rfl) (fun b => (keptBbs c.version b, keptVoltage c.version (E.busbar b))) (fun _ => []) bbs noVlSub
      fun b hx => busbar_section_kept hK c (h1 b hx) (hb b hx).1 (hb b hx).2
    obtain ⟨c2, w2, b2⟩ := ppush_old (h := nodeTopoSub K A c.version) (root := "nodeBreakerTopology") (b := c.behaviour) (w := writeNSw K A c) VlSub.nsws (fun s l => { s with nsws := l }) rfl
      (fun _ _ => rfl) (fun _ _ _ => rfl) (fun _ => rfl) (keptNSw c.version) (fun _ => []) sws ⟨bbs.map fun b => (keptBbs c.version b, keptVoltage c.version (E.busbar b)), [], [], [], [], [], noEquip⟩
      fun x hx => node_switch_kept hK c (h2 x hx)
    obtain ⟨c3, w3, b3⟩ := ppush_old (h := nodeTopoSub K A c.version) (root := "nodeBreakerTopology") (b := c.behaviour) (w := fun y => quiet (writeConn K y)) VlSub.conns (fun s l => { s with conns := l }) rfl
      (fun _ _ => rfl) (fun _ _ _ => rfl) (fun _ => rfl) id (fun _ => []) conns
      ⟨bbs.map fun b => (keptBbs c.version b, keptVoltage c.version (E.busbar b)), sws.map (keptNSw c.version), [], [], [], [], noEquip⟩ fun x hx => quiet_kept (conn_ert hK (h3 x hx))
    obtain ⟨c4, w4, b4⟩ := calcs_old (K := K) (A := A) (c := c) h4
      ⟨bbs.map fun b => (keptBbs c.version b, keptVoltage c.version (E.busbar b)), sws.map (keptNSw c.version), conns, [], [], [], noEquip⟩ rfl
    refine ⟨_, reports_wrap (reports_until c.behaviour .v11 c.version (attrN K.toCodec "nodeCount" (E.nodeCount x)))
      ((w1.andThen (w2.andThen (w3.andThen w4))).cast rfl (by simp only [flatMap_none]; rfl)), ?_⟩
    refine body_item (read := readPlain "nodeBreakerTopology" (fun _ => .ok ()) (nodeTopoSub K A c.version) noVlSub fun _ s => .ok s) (a := topoSub E.busbar c.version noEquip (.node bbs sws conns calcs)) ?_ rfl
      fun toks r hr => hr
    simp only [List.map_id_fun, id_eq] at b3
    exact readPlain_rt (fun _ _ => rfl) (b1.append (b2.append (b3.append b4))) rfl
  | bus buses sws =>
    rw [ht] at h
    obtain ⟨h1, h2⟩ := h
    obtain ⟨c1, w1, b1⟩ := ppush_old (h := busTopoSub K A c.version) (root := "busBreakerTopology") (b := c.behaviour) (w := writeBus K A c) VlSub.buses (fun s l => { s with buses := l }) rfl (fun _ _ => rfl)
      (fun _ _ _ => rfl) (fun _ => rfl) (keptBus c.version) (fun _ => []) buses noVlSub fun x hx => bus_kept c (h1 x hx).1 (keptIdent_noAliases _ (h1 x hx).2.1) (h1 x hx).2.2
    obtain ⟨c2, w2, b2⟩ := ppush_old (h := busTopoSub K A c.version) (root := "busBreakerTopology") (b := c.behaviour) (w := writeBSwIn A c (sws.map fun y => y.ident.head.id)) VlSub.bsws
      (fun s l => { s with bsws := l }) rfl (fun _ _ => rfl) (fun _ _ _ => rfl) (fun _ => rfl) (keptBSw c.version) (fun _ => []) sws ⟨[], [], [], [], buses.map (keptBus c.version), [], noEquip⟩ fun x hx => by
        have := bus_switch_kept c (h2 x hx).1
        have hc : writeBSwIn A c (sws.map fun y => y.ident.head.id) x = writeBSw A c x := by
          have hm : (sws.map fun y => y.ident.head.id).contains (A.anon x.ident.head.id) = true := by
            rw [List.contains_iff_mem]; exact (h2 x hx).2
          simp only [writeBSwIn, hm, Bool.not_true, check_false, Out.bind_ok]
        rwa [hc]
    refine ⟨_, reports_map (elemCmds "busBreakerTopology" []) ((w1.andThen w2).cast rfl (by simp only [flatMap_none]; rfl)), ?_⟩
    refine body_item (read := readPlain "busBreakerTopology" (fun _ => .ok ()) (busTopoSub K A c.version) noVlSub fun _ s => .ok s) (a := topoSub E.busbar c.version noEquip (.bus buses sws)) ?_ rfl fun toks r hr => hr
    exact readPlain_rt (fun _ _ => rfl) (b1.append b2) rfl

/-- What a version needs of the equipment of a voltage level, besides what always holds. -/
structure EquipReady (K : XCodec) (sub : Dbl → Dbl → Dbl) (v : Ver) (e : Equip) : Prop where
  zero : K.Exact 0
  dls : ∀ x ∈ e.dls, LoadOk K sub x
  svcs : ∀ x ∈ e.svcs, v ≠ .v10 ∨ x.reg = none

theorem equip_old {K : XCodec} (hK : K.Integers) {A : Anon} {E : Env} (c : Ctx) {e : Equip} (h : EquipOk K A e) (hr : EquipReady K E.sub c.version e) (t : Topo) :
    ∃ doc, Reports c.behaviour (writeEquip K A E c e) doc (lostEquip c.version e) ∧
      Body A c.version (vlSub K A c.version) "voltageLevel" doc (topoSub E.busbar c.version noEquip t) (topoSub E.busbar c.version (keptEquip E.sub c.version e) t) := by
  obtain ⟨gens, bats, loads, shs, dls, svcs, vscs, lccs⟩ := e
  have go : ∀ (t : VlSub), t.equip = noEquip → ∃ doc, Reports c.behaviour (writeEquip K A E c ⟨gens, bats, loads, shs, dls, svcs, vscs, lccs⟩) doc
      (lostEquip c.version ⟨gens, bats, loads, shs, dls, svcs, vscs, lccs⟩) ∧ Body A c.version (vlSub K A c.version) "voltageLevel" doc t
        { t with equip := keptEquip E.sub c.version ⟨gens, bats, loads, shs, dls, svcs, vscs, lccs⟩ } := by
    rintro ⟨tb, tn, tc, ta, tu, ts, te⟩ rfl
    obtain ⟨c1, w1, b1⟩ := push_old (A := A) (v := c.version) (h := vlSub K A c.version) (root := "voltageLevel") (b := c.behaviour) (w := writeGen K A c) (fun s => s.equip.gens)
      (fun s l => { s with equip := { s.equip with gens := l } }) rfl (fun _ _ => rfl) (fun _ _ _ => rfl) (fun _ => rfl) (keptGen c.version) (fun _ => []) gens ⟨tb, tn, tc, ta, tu, ts, noEquip⟩
      fun x hx => generator_kept hK c (h.gens x hx)
    obtain ⟨c2, w2, b2⟩ := push_old (A := A) (v := c.version) (h := vlSub K A c.version) (root := "voltageLevel") (b := c.behaviour) (w := writeBat K A c) (fun s => s.equip.bats)
      (fun s l => { s with equip := { s.equip with bats := l } }) rfl (fun _ _ => rfl) (fun _ _ _ => rfl) (fun _ => rfl) (keptBat c.version) (fun _ => []) bats
      ⟨tb, tn, tc, ta, tu, ts, ⟨gens.map (keptGen c.version), [], [], [], [], [], [], []⟩⟩ fun x hx => battery_kept hK c (h.bats x hx)
    obtain ⟨c3, w3, b3⟩ := push_old (A := A) (v := c.version) (h := vlSub K A c.version) (root := "voltageLevel") (b := c.behaviour) (w := writeLoad K A c) (fun s => s.equip.loads)
      (fun s l => { s with equip := { s.equip with loads := l } }) rfl (fun _ _ => rfl) (fun _ _ _ => rfl) (fun _ => rfl) (keptLoad c.version) (fun _ => []) loads
      ⟨tb, tn, tc, ta, tu, ts, ⟨gens.map (keptGen c.version), bats.map (keptBat c.version), [], [], [], [], [], []⟩⟩ fun x hx => load_kept hK c (h.loads x hx)
    obtain ⟨c4, w4, b4⟩ := push_old (A := A) (v := c.version) (h := vlSub K A c.version) (root := "voltageLevel") (b := c.behaviour) (w := writeSh K A c) (fun s => s.equip.shs)
      (fun s l => { s with equip := { s.equip with shs := l } }) rfl (fun _ _ => rfl) (fun _ _ _ => rfl) (fun _ => rfl) (keptSh c.version) (lostSh c.version) shs
      ⟨tb, tn, tc, ta, tu, ts, ⟨gens.map (keptGen c.version), bats.map (keptBat c.version), loads.map (keptLoad c.version), [], [], [], [], []⟩⟩ fun x hx => shunt_kept hK c (h.shs x hx) hr.zero
    obtain ⟨c5, w5, b5⟩ := push_old (A := A) (v := c.version) (h := vlSub K A c.version) (root := "voltageLevel") (b := c.behaviour) (w := writeDl K A E.sub c) (fun s => s.equip.dls)
      (fun s l => { s with equip := { s.equip with dls := l } }) rfl (fun _ _ => rfl) (fun _ _ _ => rfl) (fun _ => rfl) (keptDl E.sub c.version) (lostDl c.version) dls
      ⟨tb, tn, tc, ta, tu, ts, ⟨gens.map (keptGen c.version), bats.map (keptBat c.version), loads.map (keptLoad c.version), shs.map (keptSh c.version), [], [], [], []⟩⟩
      fun x hx => dangling_line_kept hK E.sub c (h.dls x hx) (hr.dls x hx)
    obtain ⟨c6, w6, b6⟩ := push_old (A := A) (v := c.version) (h := vlSub K A c.version) (root := "voltageLevel") (b := c.behaviour) (w := writeSvc K A c) (fun s => s.equip.svcs)
      (fun s l => { s with equip := { s.equip with svcs := l } }) rfl (fun _ _ => rfl) (fun _ _ _ => rfl) (fun _ => rfl) (keptSvc c.version) (lostSvc c.version) svcs
      ⟨tb, tn, tc, ta, tu, ts, ⟨gens.map (keptGen c.version), bats.map (keptBat c.version), loads.map (keptLoad c.version), shs.map (keptSh c.version), dls.map (keptDl E.sub c.version), [], [], []⟩⟩
      fun x hx => svc_kept hK c (h.svcs x hx) (hr.svcs x hx)
    obtain ⟨c7, w7, b7⟩ := push_old (A := A) (v := c.version) (h := vlSub K A c.version) (root := "voltageLevel") (b := c.behaviour) (w := writeVsc K A c) (fun s => s.equip.vscs)
      (fun s l => { s with equip := { s.equip with vscs := l } }) rfl (fun _ _ => rfl) (fun _ _ _ => rfl) (fun _ => rfl) (keptVsc c.version) (fun _ => []) vscs
      ⟨tb, tn, tc, ta, tu, ts, ⟨gens.map (keptGen c.version), bats.map (keptBat c.version), loads.map (keptLoad c.version), shs.map (keptSh c.version), dls.map (keptDl E.sub c.version),
        svcs.map (keptSvc c.version), [], []⟩⟩ fun x hx => vsc_kept hK c (h.vscs x hx)
    obtain ⟨c8, w8, b8⟩ := push_old (A := A) (v := c.version) (h := vlSub K A c.version) (root := "voltageLevel") (b := c.behaviour) (w := writeLcc K A c) (fun s => s.equip.lccs)
      (fun s l => { s with equip := { s.equip with lccs := l } }) rfl (fun _ _ => rfl) (fun _ _ _ => rfl) (fun _ => rfl) (keptLcc c.version) (fun _ => []) lccs
      ⟨tb, tn, tc, ta, tu, ts, ⟨gens.map (keptGen c.version), bats.map (keptBat c.version), loads.map (keptLoad c.version), shs.map (keptSh c.version), dls.map (keptDl E.sub c.version),
        svcs.map (keptSvc c.version), vscs.map (keptVsc c.version), []⟩⟩ fun x hx => lcc_kept hK c (h.lccs x hx)
    refine ⟨_, (w1.andThen (w2.andThen (w3.andThen (w4.andThen (w5.andThen (w6.andThen (w7.andThen w8))))))).cast rfl (by simp only [flatMap_none, List.nil_append, List.append_nil]; rfl), ?_⟩
    exact b1.append (b2.append (b3.append (b4.append (b5.append (b6.append (b7.append b8))))))
  cases t <;> exact go _ rfl

/-- What a version needs of a voltage level, besides what always holds. -/
structure VLReady (K : XCodec) (E : Env) (v : Ver) (x : VL) : Prop where
  busbars : BusbarsOk K E.busbar x.topo
  equip : EquipReady K E.sub v x.equip

theorem keptIdent_id (v : Ver) (x : Ident) : (keptIdent v x).head.id = x.head.id := by cases v <;> rfl

theorem volts_kept (busbar : Bbs → Dbl × Dbl) (v : Ver) (e : Equip) (t : Topo) : voltsOf (topoSub busbar v e t).bbs = keptVolts busbar v t := by
  cases t with
  | bus buses sws => cases v <;> rfl
  | node bbs sws conns calcs =>
    simp only [topoSub, voltsOf]
    induction bbs with
    | nil => cases v <;> rfl
    | cons b bs ih => cases v <;> simp_all [keptVolts, keptVoltage, keptBbs, keptIdent]

theorem voltage_level_kept {K : XCodec} (hK : K.Integers) {A : Anon} {E : Env} (c : Ctx) {x : VL} (h : VLOk K A x) (hr : VLReady K E c.version x) :
    Kept c.behaviour "voltageLevel" (writeVL K A E c x) (readVL K A c.version) (keptVL E.sub c.version x, keptVolts E.busbar c.version x.topo) (lostEquip c.version x.equip) := by
  have hkind : x.topo.kind < Enums.topologyKind.names.length := by
    cases x.topo
    · exact (by decide : 0 < Enums.topologyKind.names.length)
    · exact (by decide : 1 < Enums.topologyKind.names.length)
  obtain ⟨k, hk1, hk2⟩ := Enums.value_round_trip (names := Enums.topologyKind.names) (by decide) hkind
  obtain ⟨ct, wt, bt⟩ := topo_old hK (E := E) c h.topo hr.busbars
  obtain ⟨ce, we, be⟩ := equip_old hK (E := E) c h.equip hr.equip x.topo
  refine ⟨_, _, by unfold writeVL; rw [hk1, Out.bind_ok]; exact reports_elem (l := []) (Reports.plain _ _) (wt.andThen we), ?_⟩
  have hn : x.nominalV.isNan = false := (Dbl.not_nan_of_lt h.nominalV.1).2
  refine readElem_rt (a := (x.nominalV, x.low, x.high, x.topo.kind)) (s1 := topoSub E.busbar c.version (keptEquip E.sub c.version x.equip) x.topo) h.ident ⟨by lk vlAttrs, by lk vlAttrs⟩ (by decide) rfl rfl
    (fun e tl => ?_) (bt.append be) ?_
  · unfold readVLRoot
    rw [getD_at (d := x.nominalV) (by lk vlAttrs) hn h.nominalV.2, optDOr_attr (d := x.low) (by lk vlAttrs) h.low.2, optDOr_attr (d := x.high) (by lk vlAttrs) h.high.2,
      getS_attr (v := k) (by lk vlAttrs)]
    simp only [Out.monad_bind_ok, hk2, checkNominal_ok h.nominalV.1, checkLimits, voltage_not_negative h.low.1, voltage_not_negative h.high.1, h.range, check_false]
  · unfold buildVL
    rw [volts_kept]
    obtain ⟨i, nv, lo, hi, topo, eq⟩ := x
    cases topo with
    | node bbs sws conns calcs =>
      have : (bbs.map fun b => (keptBbs c.version b, keptVoltage c.version (E.busbar b))).map Prod.fst = bbs.map (keptBbs c.version) := by simp
      simp only [topoSub, this]
      rfl
    | bus buses sws => rfl

/-- **C88** A voltage level is read back as it was written, less what its version does not have.  Partial: what `busbar_section_old`, `svc_old_partial`,
`dangling_line_old_partial`, `shunt_old_partial` and `bus_old_partial` leave out. -/
theorem voltage_level_old_partial {K : XCodec} (hK : K.Integers) {A : Anon} {E : Env} (c : Ctx) {x : VL} (h : VLOk K A x) (hr : VLReady K E c.version x) :
    ∃ doc, Reports c.behaviour (writeVL K A E c x) doc (lostEquip c.version x.equip) ∧
      RoundTrip doc (readVL K A c.version) (keptVL E.sub c.version x, keptVolts E.busbar c.version x.topo) := (voltage_level_kept hK c h hr).doc

/-- A network whose busbar sections are at 224 kV. -/
def someEnv : Env := ⟨Dbl.sub, fun _ => (224, .nan), fun _ => 8, fun _ => ⟨1, 2, 3, 4⟩⟩

theorem someVL_ready {v : Ver} (hv : v ≠ .v10) : VLReady toyX someEnv v someVL := ⟨fun _ _ => ⟨toyX_keeps _, toyX_keeps _⟩, ⟨toy_exact _, no_one, only_ok (.inl hv)⟩⟩

theorem someVL2_ready (v : Ver) : VLReady toyX someEnv v someVL2 := ⟨trivial, ⟨toy_exact _, only_ok someDl_load, no_one⟩⟩

/-- In version 1.0, a node/breaker voltage level with a section of busbar, its voltage, and a fictitious switch. -/
example : ∃ doc, Reports .throwException (writeVL toyX .none someEnv ⟨.v10, .throwException⟩ { someVL with equip := noEquip }) doc [] ∧
    RoundTrip doc (readVL toyX .none .v10) (⟨⟨⟨"VL", "", false⟩, [], []⟩, 225, .nan, 250, .node [⟨⟨⟨"BBS", "section 1", false⟩, [], []⟩, 7⟩] [{ someNSw with ident := ⟨⟨"S", "", true⟩, [], [("k", "v")]⟩ }] [(1, 2), (1, 2)] [], noEquip⟩,
      [("BBS", 224, .nan)]) :=
  voltage_level_old_partial toyX_integers (E := someEnv) ⟨.v10, .throwException⟩ (x := { someVL with equip := noEquip })
    ⟨plain_ident, ⟨by decide, toyX_keeps _⟩, ⟨.inl rfl, toyX_keeps _⟩, ⟨.inr (by decide), toyX_keeps _⟩, by decide, someTopo_ok, ⟨no_one, no_one, no_one, no_one, no_one, no_one, no_one, no_one⟩⟩
    ⟨fun _ _ => ⟨toyX_keeps _, toyX_keeps _⟩, ⟨toy_exact _, no_one, no_one⟩⟩

/-! ### Substations -/

/-- What a version needs of a substation, besides what always holds. -/
structure SubReady (K : XCodec) (E : Env) (v : Ver) (x : Substation) : Prop where
  vls : ∀ y ∈ x.vls, VLReady K E v y
  tw3s : ∀ y ∈ x.tw3s, v ≠ .v10 ∨ (y.leg1.sub.rtc = none ∧ y.leg1.sub.ptc = none ∧ y.leg2.sub.ptc = none ∧ y.leg3.sub.ptc = none)

theorem substation_root {A : Anon} {v : Ver} {x : Substation} {K : XCodec} (h : SubstationOk K A x) {ca : List (String × String)} (hca : ∀ k, k ≠ "country" → lookup k ca = none)
    (hc3 : (x.country = none ∧ lookup "country" ca = none) ∨ ∃ i k, x.country = some i ∧ lookup "country" ca = some k ∧ k ≠ "" ∧ Enums.fromString Enums.country.names k = .ok i)
    (e : Bool) (tl : List Tok) : readSubstationRoot A (.start "substation" (headAttrs A v x.ident.head ++ substationAttrs A ca x) e :: tl) = .ok (x.country, x.tso, x.tags) := by
  have l1 : lookup "country" (headAttrs A v x.ident.head ++ substationAttrs A ca x) = lookup "country" ca := by
    simp [substationAttrs, lookup_append, lookup_ite, lookup_cons, lookup_nil, lookup_headAttrs]
  have l2 : lookup "tso" (headAttrs A v x.ident.head ++ substationAttrs A ca x) = if x.tso ≠ "" then some (A.anon x.tso) else none := by
    simp [substationAttrs, lookup_append, lookup_ite, lookup_cons, lookup_nil, lookup_headAttrs, hca]
  have l3 : lookup "geographicalTags" (headAttrs A v x.ident.head ++ substationAttrs A ca x) = if x.tags ≠ [] then some (String.ofList (joinComma (x.tags.map A.anon))) else none := by
    simp [substationAttrs, lookup_append, lookup_ite, lookup_cons, lookup_nil, lookup_headAttrs, hca]
  have r1 : readCountry (.start "substation" (headAttrs A v x.ident.head ++ substationAttrs A ca x) e :: tl) = .ok x.country := by
    rcases hc3 with ⟨e1, e2⟩ | ⟨i, k, e1, e2, e3, e4⟩
    · simp [readCountry, optSOr, rawAttr, l1, e2, e1]
    · simp [readCountry, optSOr, rawAttr, l1, e2, e1, e3, e4, Out.map]
  have r2 : readTso A (.start "substation" (headAttrs A v x.ident.head ++ substationAttrs A ca x) e :: tl) = .ok x.tso := by
    by_cases ht : x.tso = ""
    · simp [readTso, optSOr, rawAttr, l2, ht]
    · have h1 : A.dean (A.anon x.tso) = .ok x.tso := h.tso.1
      simp [readTso, optSOr, rawAttr, l2, ht, h.tso.2 ht, h1]
  have r3 : readGeoTags A (.start "substation" (headAttrs A v x.ident.head ++ substationAttrs A ca x) e :: tl) = .ok x.tags := by
    by_cases ht : x.tags = []
    · simp [readGeoTags, optSOr, rawAttr, l3, ht]
    · have hne : x.tags.map A.anon ≠ [] := by simpa using ht
      have h0 : String.ofList (joinComma (x.tags.map A.anon)) ≠ "" := by
        intro e0
        have e1 : joinComma (x.tags.map A.anon) = [] := by
          have := congrArg String.toList e0
          simpa using this
        rcases joinComma_nil _ e1 with e2 | e2
        · exact hne e2
        · exact h.tags.notEmpty e2
      have h1 : splitComma (String.ofList (joinComma (x.tags.map A.anon))) = x.tags.map A.anon := split_join _ hne fun y hy => by
        obtain ⟨t, ht, rfl⟩ := List.mem_map.1 hy
        exact h.tags.commas t ht
      have h2 := readTags_back (A := A) x.tags [] h.tags.inverts (by simpa using h.tags.increasing)
      simp only [readGeoTags, optSOr, rawAttr, l3, if_pos ht, Out.bind_ok, Out.monad_bind_ok, if_neg h0, h1, h2, List.nil_append]
  unfold readSubstationRoot
  simp only [r1, r2, r3, Out.monad_bind_ok]

theorem substation_kept {K : XCodec} (hK : K.Integers) {A : Anon} {E : Env} (c : Ctx) {x : Substation} (h : SubstationOk K A x) (hr : SubReady K E c.version x) :
    Kept c.behaviour "substation" (writeSubstation K A E c x) (readSubstation K A c.version)
      (keptSubstation E.sub c.version x, x.vls.flatMap fun y => keptVolts E.busbar c.version y.topo) (lostSubstation c.version x) := by
  obtain ⟨ca, hc1, hca, hc3⟩ := country_text h.country
  obtain ⟨c1, w1, b1⟩ := push_old (A := A) (v := c.version) (h := substationSub K A c.version) (root := "substation") (b := c.behaviour) (w := writeVL K A E c) SubstationSub.vls (fun s l => { s with vls := l }) rfl
    (fun _ _ => rfl) (fun _ _ _ => rfl) (fun _ => rfl) (fun y => (keptVL E.sub c.version y, keptVolts E.busbar c.version y.topo)) (fun y => lostEquip c.version y.equip) x.vls ⟨[], [], []⟩
    fun v hv => voltage_level_kept hK c (h.vls v hv) (hr.vls v hv)
  obtain ⟨c2, w2, b2⟩ := push_old (A := A) (v := c.version) (h := substationSub K A c.version) (root := "substation") (b := c.behaviour) (w := writeTw2 K A c) SubstationSub.tw2s (fun s l => { s with tw2s := l }) rfl
    (fun _ _ => rfl) (fun _ _ _ => rfl) (fun _ => rfl) (keptTw2 c.version) (fun y => lostBranch c.version y.lims) x.tw2s
    ⟨x.vls.map fun y => (keptVL E.sub c.version y, keptVolts E.busbar c.version y.topo), [], []⟩ fun v hv => two_windings_transformer_kept hK c (h.tw2s v hv)
  obtain ⟨c3, w3, b3⟩ := push_old (A := A) (v := c.version) (h := substationSub K A c.version) (root := "substation") (b := c.behaviour) (w := writeTw3 K A c) SubstationSub.tw3s (fun s l => { s with tw3s := l }) rfl
    (fun _ _ => rfl) (fun _ _ _ => rfl) (fun _ => rfl) (keptTw3 c.version) (lostTw3 c.version) x.tw3s
    ⟨x.vls.map fun y => (keptVL E.sub c.version y, keptVolts E.busbar c.version y.topo), x.tw2s.map (keptTw2 c.version), []⟩
    fun v hv => three_windings_transformer_kept hK c (h.tw3s v hv) (hr.tw3s v hv)
  refine ⟨_, _, by unfold writeSubstation; rw [hc1, Out.bind_ok]; exact reports_elem (l := []) (Reports.plain _ _) (w1.andThen (w2.andThen w3)), ?_⟩
  refine readElem_rt (a := (x.country, x.tso, x.tags)) h.ident
    ⟨by simp [substationAttrs, lookup_append, hca, lookup_ite, lookup_cons, lookup_nil], by simp [substationAttrs, lookup_append, hca, lookup_ite, lookup_cons, lookup_nil]⟩
    (by decide) rfl rfl (fun e tl => substation_root h hca hc3 e tl) (b1.append (b2.append b3)) ?_
  simp only [List.nil_append, List.map_map, List.flatMap_map]
  rfl

/-- **C88** A substation is read back as it was written, less what its version does not have.  Partial: in version 1.0 a three windings transformer has no other tap
changer than those for the ratio of its second and third leg (`tw3_old_refused`), and see `voltage_level_old_partial`. -/
theorem substation_old_partial {K : XCodec} (hK : K.Integers) {A : Anon} {E : Env} (c : Ctx) {x : Substation} (h : SubstationOk K A x) (hr : SubReady K E c.version x) :
    ∃ doc, Reports c.behaviour (writeSubstation K A E c x) doc (lostSubstation c.version x) ∧
      RoundTrip doc (readSubstation K A c.version) (keptSubstation E.sub c.version x, x.vls.flatMap fun y => keptVolts E.busbar c.version y.topo) := (substation_kept hK c h hr).doc

theorem someSubstation_ready {v : Ver} (hv : v ≠ .v10) : SubReady toyX someEnv v someSubstation := by
  refine ⟨?_, fun _ _ => .inl hv⟩
  intro y hy
  simp only [someSubstation, List.mem_cons, List.not_mem_nil, or_false] at hy
  rcases hy with rfl | rfl
  · exact someVL_ready hv
  · exact someVL2_ready v

example : ∃ doc, Reports .logError (writeSubstation toyX .none someEnv ⟨.v11, .logError⟩ someSubstation) doc (lostSubstation .v11 someSubstation) ∧
    RoundTrip doc (readSubstation toyX .none .v11) (keptSubstation Dbl.sub .v11 someSubstation, []) :=
  substation_old_partial toyX_integers (E := someEnv) ⟨.v11, .logError⟩ someSubstation_ok (someSubstation_ready (by decide))

end Verif.XmlOld
