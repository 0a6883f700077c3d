import Verif.XmlOld.LevelsProps
import Verif.XmlNet.NetProps

/-!
C88: networks, written in any version of IIDM-XML with any behaviour on what the version does not have, and read back.
-/

namespace Verif.XmlOld

open Verif Verif.Xml Verif.XmlNet

/-- What a version needs of a network, besides what always holds. -/
structure NetReady {T : Type} (K : XCodec) (E : Env) (v : Ver) (x : Net T) : Prop where
  subs : ∀ s ∈ x.subs, SubReady K E v s
  ties : ∀ t, AnyLine.tie t ∈ x.lines → XnodeOk K (E.flow t)

/-- What is read of a line. -/
def lineSub (flow : TieLine → Xnode) (v : Ver) : AnyLine → AnyLine × Option Xnode
  | .line x => (.line (keptLine v x), none)
  | .tie x => (.tie (keptTie v x), keptXnode v (flow x))

theorem lines_old {K : XCodec} (hK : K.Integers) {A : Anon} {E : Env} (c : Ctx) : ∀ (ls : List AnyLine) (s : NetSub), (∀ l ∈ ls, AnyLineOk K A l) → (∀ t, AnyLine.tie t ∈ ls → XnodeOk K (E.flow t)) →
    ∃ doc, Reports c.behaviour (writeAll (writeAnyLine K A E c) ls) doc (ls.flatMap (lostAnyLine c.version)) ∧
      Body A c.version (netSub K A c.version) "network" doc s { s with lines := s.lines ++ ls.map (lineSub E.flow c.version) } := by
  intro ls
  induction ls with
  | nil => intro s _ _; exact ⟨[], Reports.plain _ _, by simpa using body_nil A c.version (netSub K A c.version) "network" s⟩
  | cons l ls ih =>
    intro s h ht
    have h1 : ∃ d, Reports c.behaviour (writeAnyLine K A E c l) d (lostAnyLine c.version l) ∧
        Body A c.version (netSub K A c.version) "network" d s { s with lines := s.lines ++ [lineSub E.flow c.version l] } := by
      cases l with
      | line x =>
        obtain ⟨as, body, w, r⟩ := line_kept hK c (y := x) (h _ List.mem_cons_self)
        exact ⟨_, w, body_item r (cb := pushCb (readLine K A c.version) fun s x => { s with lines := s.lines ++ [(.line x, none)] }) rfl
          fun toks r hr => by simp only [pushCb, hr, Out.monad_bind_ok]; rfl⟩
      | tie x =>
        obtain ⟨as, body, w, r⟩ := tie_line_kept hK c (y := x) (h _ List.mem_cons_self) (ht _ List.mem_cons_self)
        exact ⟨_, w, body_item r (cb := pushCb (readTie K A c.version) fun s x => { s with lines := s.lines ++ [(.tie x.1, x.2)] }) rfl
          fun toks r hr => by simp only [pushCb, hr, Out.monad_bind_ok]; rfl⟩
    obtain ⟨d, h1, h2⟩ := h1
    obtain ⟨doc, h3, h4⟩ := ih { s with lines := s.lines ++ [lineSub E.flow c.version l] } (fun m hm => h m (List.mem_cons_of_mem _ hm)) (fun m hm => ht m (List.mem_cons_of_mem _ hm))
    refine ⟨d ++ doc, h1.andThen h3, ?_⟩
    have := h2.append h4
    simpa using this

/-- All that is in a network. -/
theorem net_body {T : Type} {K : XCodec} (hK : K.Integers) {A : Anon} {D : Dates T} {E : Env} (c : Ctx) {x : Net T} (h : NetOk K A D x) (hr : NetReady K E c.version x) :
    ∃ doc, Reports c.behaviour (writeAll (writeSubstation K A E c) x.subs >+> writeAll (writeAnyLine K A E c) x.lines >+> writeAll (writeHvdc K A c) x.hvdcs) doc (lostNet c.version x) ∧
      Body A c.version (netSub K A c.version) "network" doc ⟨[], [], []⟩
        ⟨x.subs.map fun s => (keptSubstation E.sub c.version s, s.vls.flatMap fun y => keptVolts E.busbar c.version y.topo), x.lines.map (lineSub E.flow c.version), x.hvdcs.map (keptHvdc c.version)⟩ := by
  obtain ⟨c1, w1, b1⟩ := push_old (A := A) (v := c.version) (h := netSub K A c.version) (root := "network") (b := c.behaviour) (w := writeSubstation K A E c) NetSub.subs (fun s l => { s with subs := l }) rfl
    (fun _ _ => rfl) (fun _ _ _ => rfl) (fun _ => rfl) (fun s => (keptSubstation E.sub c.version s, s.vls.flatMap fun y => keptVolts E.busbar c.version y.topo)) (lostSubstation c.version) x.subs
    ⟨[], [], []⟩ fun s hs => substation_kept hK c (h.subs s hs) (hr.subs s hs)
  obtain ⟨c2, w2, b2⟩ := lines_old hK (A := A) (E := E) c x.lines
    ⟨x.subs.map fun s => (keptSubstation E.sub c.version s, s.vls.flatMap fun y => keptVolts E.busbar c.version y.topo), [], []⟩ h.lines hr.ties
  obtain ⟨c3, w3, b3⟩ := push_old (A := A) (v := c.version) (h := netSub K A c.version) (root := "network") (b := c.behaviour) (w := writeHvdc K A c) NetSub.hvdcs (fun s l => { s with hvdcs := l }) rfl
    (fun _ _ => rfl) (fun _ _ _ => rfl) (fun _ => rfl) (keptHvdc c.version) (fun _ => []) x.hvdcs
    ⟨x.subs.map fun s => (keptSubstation E.sub c.version s, s.vls.flatMap fun y => keptVolts E.busbar c.version y.topo), x.lines.map (lineSub E.flow c.version), []⟩
    fun l hl => hvdc_line_kept c (h.hvdcs l hl)
  exact ⟨_, (w1.andThen (w2.andThen w3)).cast rfl (by simp only [flatMap_none, List.append_nil]; rfl), b1.append (b2.append b3)⟩

theorem flows_kept (flow : TieLine → Xnode) (v : Ver) (ls : List AnyLine) : flowsOf (ls.map (lineSub flow v)) = ls.flatMap (keptFlow flow v) := by
  induction ls with
  | nil => rfl
  | cons l ls ih =>
    rw [List.map_cons, List.flatMap_cons, ← ih]
    cases l with
    | line x => rfl
    | tie x => cases v <;> rfl

theorem lines_kept (flow : TieLine → Xnode) (v : Ver) (ls : List AnyLine) : (ls.map (lineSub flow v)).map Prod.fst = ls.map (keptAnyLine v) := by
  rw [List.map_map]
  exact List.map_congr_left fun l _ => by cases l <;> rfl

theorem keptAliases_ok (v : Ver) (x : Ident) (P : String → Prop) (h : ∀ a ∈ x.aliases, P a.1) (hn : (x.aliases.map Prod.fst).Nodup) (ht : x.aliases.Pairwise fun a b => a.2 ≠ "" → a.2 ≠ b.2) :
    (∀ a ∈ (keptIdent v x).aliases, P a.1) ∧ ((keptIdent v x).aliases.map Prod.fst).Nodup ∧ (keptIdent v x).aliases.Pairwise fun a b => a.2 ≠ "" → a.2 ≠ b.2 := by
  cases v with
  | v10 => simp [keptIdent]
  | v11 => simp [keptIdent]
  | v12 => simp [keptIdent]
  | v13 =>
    refine ⟨?_, ?_, ?_⟩
    · intro a ha
      simp only [keptIdent, List.mem_map] at ha
      obtain ⟨b, hb, rfl⟩ := ha
      exact h b hb
    · have : (x.aliases.map fun a => (a.1, "")).map Prod.fst = x.aliases.map Prod.fst := by simp
      simp only [keptIdent]
      rw [this]
      exact hn
    · simp only [keptIdent]
      rw [List.pairwise_map]
      exact List.pairwise_of_forall (by simp)
  | v14 => exact ⟨h, hn, ht⟩
  | v15 => exact ⟨h, hn, ht⟩

/-- Aliases are written in every version, and reported before version 1.3. -/
theorem reports_netAliases (A : Anon) (c : Ctx) (x : Ident) :
    Reports c.behaviour (writeNetAliases A c x) (aliasesElems A c.version x.aliases) (if c.version.ge .v13 = false ∧ x.aliases ≠ [] then ["alias"] else []) := by
  unfold writeNetAliases assertMinimumVersionIfNotDefault assertMinimumVersion start
  rw [lt_ge]
  cases hv : c.version.ge .v13 with
  | true => exact ⟨fun _ => by cases x.aliases.isEmpty <;> simp [Out.map], fun h => absurd rfl h⟩
  | false =>
    cases ha : x.aliases with
    | nil => exact ⟨fun _ => by simp [Out.map], fun h => absurd (by simp) h⟩
    | cons a as =>
      refine ⟨fun h => ?_, fun _ hb => ?_⟩
      · have hb : c.behaviour = .logError := by simpa using h
        simp [hb, createExceptionOrLogError, Out.map]
      · cases hb' : c.behaviour <;> simp_all [createExceptionOrLogError, Out.map]

/-- The root element, once what is in it is read. -/
theorem net_root {T : Type} {K : XCodec} (hK : K.Integers) {A : Anon} {D : Dates T} {x : Net T} (h : NetOk K A D x) (v : Ver) (i : Bool) (bt : List Tok) :
    readNet K A D v (coreToks i "network" (netAttrs K D x) bt) =
      (readUntilEnd (elemCb A v (netSub K A v)) "network" (⟨⟨x.ident.head.id, x.ident.head.id, false⟩, [], []⟩, ⟨[], [], []⟩) (coreToks i "network" (netAttrs K D x) bt)).bind fun r =>
        .ok ⟨⟨r.1.1, x.sourceFormat, x.forecast, x.date, r.1.2.subs.map Prod.fst, r.1.2.lines.map Prod.fst, r.1.2.hvdcs⟩, r.1.2.subs.flatMap Prod.snd, flowsOf r.1.2.lines⟩ := by
  obtain ⟨e, tl, hc⟩ := core_start i "network" (netAttrs K D x) bt
  rw [hc]
  have l1 := getS_attr (k := "id") (v := x.ident.head.id) (n := "network") (e := e) (rest := tl) (as := netAttrs K D x) (by simp [netAttrs, lookup])
  have l2 := getS_attr (k := "sourceFormat") (v := x.sourceFormat) (n := "network") (e := e) (rest := tl) (as := netAttrs K D x) (by simp [netAttrs, attrI, lookup])
  have l3 := getS_attr (k := "caseDate") (v := D.print x.date) (n := "network") (e := e) (rest := tl) (as := netAttrs K D x) (by simp [netAttrs, lookup])
  have l4 : optInt K "forecastDistance" (.start "network" (netAttrs K D x) e :: tl) = .ok (some x.forecast) := by
    have := hK.int x.forecast (by have := h.forecast; omega) h.forecast.2
    simp [optInt, rawAttr, netAttrs, attrI, lookup, this, Out.map]
  have l5 : D.parse (D.print x.date) = .ok x.date := h.date
  have l6 : decide (x.forecast < 0) = false := by have := h.forecast; simp; omega
  unfold readNet
  simp only [l1, l2, l3, l4, l5, Out.monad_bind_ok, Option.getD_some, beq_eq_false_iff_ne.2 h.id, beq_eq_false_iff_ne.2 h.format, l6, Bool.or_false, check_false]
  rfl

/-- **C88** A network written in any version is read back, in every layout, as it was, less what the version does not have; with `logError` the losses are logged in
the order of the document, with the other behaviours the network is written if and only if nothing is lost.  Partial: before version 1.3 the network has no alias
(`network_aliases_refused`); and see `substation_old_partial`. -/
theorem network_old_partial {T : Type} {K : XCodec} (hK : K.Integers) {A : Anon} {D : Dates T} {E : Env} (c : Ctx) {x : Net T} (h : NetOk K A D x) (hr : NetReady K E c.version x)
    (ha : c.version.ge .v13 = true ∨ x.ident.aliases = []) :
    ∃ doc, Reports c.behaviour (writeNet K A D E c x) doc (lostNet c.version x) ∧
      ∀ i, ∃ toks, document i doc = .ok toks ∧ readNet K A D c.version toks = .ok (keptAll E c.version x) := by
  obtain ⟨cb, wb, bb⟩ := net_body hK (E := E) c h hr
  have hrep : Reports c.behaviour (writeNetAliases A c x.ident) (aliasesElems A c.version x.ident.aliases) [] := by
    have := reports_netAliases A c x.ident
    rwa [if_neg (by rintro ⟨h1, h2⟩; rcases ha with ha | ha; · rw [ha] at h1; cases h1
                    · exact h2 ha)] at this
  refine ⟨_, reports_map (elemCmds "network" (netAttrs K D x)) ((hrep.andThen ((Reports.plain c.behaviour (propsCmds x.ident.props)).andThen wb)).cast rfl (by simp)), fun i => ?_⟩
  have hal : aliasesElems A c.version x.ident.aliases = XmlNet.aliasesElems A (keptIdent c.version x.ident).aliases := by
    rcases ha with ha | ha
    · exact aliasesElems_kept ha x.ident.aliases x.ident.head x.ident.props
    · rw [keptIdent_noAliases _ ha, ha]; rfl
  obtain ⟨k1, k2, k3⟩ := keptAliases_ok c.version x.ident (fun a => AliasOk A a ∧ a ≠ x.ident.head.id) h.aliases h.nodup h.types
  have h1 : ∃ bt, Emits i (aliasesElems A c.version x.ident.aliases) bt ∧
      Reads (elemCb A c.version (netSub K A c.version)) "network" (⟨⟨x.ident.head.id, x.ident.head.id, false⟩, [], []⟩, ⟨[], [], []⟩) bt
        (⟨⟨x.ident.head.id, x.ident.head.id, false⟩, (keptIdent c.version x.ident).aliases, []⟩, ⟨[], [], []⟩) ∧ (bt = [] → (keptIdent c.version x.ident).aliases = []) := by
    cases hv : c.version.ge .v13 with
    | false =>
      rw [keptIdent_aliases hv]
      rcases ha with ha | ha
      · rw [hv] at ha; cases ha
      · rw [ha]
        exact ⟨[], emits_nil i, reads_nil _ _ _, fun _ => rfl⟩
    | true =>
      obtain ⟨bt, e1, e2, e3⟩ := aliases_body (A := A) hv (h := netSub K A c.version) (root := "network") (by decide) rfl ⟨[], [], []⟩ i (keptIdent c.version x.ident).aliases
        ⟨⟨x.ident.head.id, x.ident.head.id, false⟩, [], []⟩ (fun a ha h14 => keptIdent_types h14 x.ident a ha) k1 (by simpa using k2) (by simpa using k3)
      exact ⟨bt, by rw [hal]; exact e1, by simpa using e2, e3⟩
  obtain ⟨bt, e1, e2, e3⟩ := h1
  obtain ⟨bu, f1, f2, f3⟩ := props_body (A := A) (v := c.version) (h := netSub K A c.version) "network" rfl ⟨[], [], []⟩ i x.ident.props
    ⟨⟨x.ident.head.id, x.ident.head.id, false⟩, (keptIdent c.version x.ident).aliases, []⟩ (by simpa using h.props)
  obtain ⟨bv, g1, g2, g3⟩ := bb i
  refine ⟨_, document_root "network" _ (e1.append (f1.append g1)), ?_⟩
  have hru := readUntilEnd_core (as := netAttrs K D x) i (e2.append (f2.append (g2 _))) (by
    intro hnil
    obtain ⟨n1, n23⟩ := List.append_eq_nil_iff.1 hnil
    obtain ⟨n2, n3⟩ := List.append_eq_nil_iff.1 n23
    rw [e3 n1, f3 n2, g3 n3]; rfl) []
  rw [List.append_nil] at hru
  rw [net_root hK h c.version i, hru, Out.bind_ok]
  have hv1 : ∀ l : List Substation, ((l.map fun s => (keptSubstation E.sub c.version s, s.vls.flatMap fun y => keptVolts E.busbar c.version y.topo)).map Prod.fst) = l.map (keptSubstation E.sub c.version) := by
    intro l; simp
  have hv2 : ∀ l : List Substation, ((l.map fun s => (keptSubstation E.sub c.version s, s.vls.flatMap fun y => keptVolts E.busbar c.version y.topo)).flatMap Prod.snd) =
      l.flatMap fun s => s.vls.flatMap fun y => keptVolts E.busbar c.version y.topo := by
    intro l; simp [List.flatMap_map]
  simp only [hv1, hv2, flows_kept, lines_kept, keptAll, keptNet, keptIdent_props, List.nil_append, h.name]

theorem someNet_ready {v : Ver} (hv : v ≠ .v10) : NetReady toyX someEnv v someNet := by
  refine ⟨?_, fun _ _ => ⟨toyX_keeps _, toyX_keeps _, toyX_keeps _, toyX_keeps _⟩⟩
  intro s hs
  simp only [someNet, List.mem_cons, List.not_mem_nil, or_false] at hs
  rcases hs with rfl | rfl
  · exact someSubstation_ready hv
  · exact ⟨no_one, no_one⟩

/-- A network with one element of each class, in version 1.3. -/
example : ∃ doc, Reports .logError (writeNet toyX .none textDates someEnv ⟨.v13, .logError⟩ someNet) doc (lostNet .v13 someNet) ∧
    ∀ i, ∃ toks, document i doc = .ok toks ∧ readNet toyX .none textDates .v13 toks = .ok (keptAll someEnv .v13 someNet) :=
  network_old_partial toyX_integers (E := someEnv) ⟨.v13, .logError⟩ someNet_ok (someNet_ready (by decide)) (.inl rfl)

/-- An empty network in version 1.0. -/
example : ∃ doc, Reports .throwException (writeNet toyX .none textDates someEnv ⟨.v10, .throwException⟩ ⟨⟨⟨"N", "N", true⟩, [], []⟩, "test", 0, "2026-11-17", [], [], []⟩) doc [] ∧
    ∀ i, ∃ toks, document i doc = .ok toks ∧
      readNet toyX .none textDates .v10 toks = .ok ⟨⟨⟨⟨"N", "N", false⟩, [], []⟩, "test", 0, "2026-11-17", [], [], []⟩, [], []⟩ :=
  network_old_partial toyX_integers (E := someEnv) ⟨.v10, .throwException⟩ (x := ⟨⟨⟨"N", "N", true⟩, [], []⟩, "test", 0, "2026-11-17", [], [], []⟩)
    ⟨rfl, by decide, by decide, no_one, by decide, by simp, by simp [AMap.NodupKeys], by decide, rfl, no_one, no_one, no_one⟩ ⟨no_one, fun _ ht => absurd ht List.not_mem_nil⟩ (.inr rfl)

/-- **C88** Whatever the behaviour, a network that was written can be read, and everything that it lost was logged; unless errors are logged, it lost nothing. -/
theorem written_network_read_partial {T : Type} {K : XCodec} (hK : K.Integers) {A : Anon} {D : Dates T} {E : Env} {c : Ctx} {x : Net T} (h : NetOk K A D x) (hr : NetReady K E c.version x)
    (ha : c.version.ge .v13 = true ∨ x.ident.aliases = []) {w : Written (List Cmd)} (hw : writeNet K A D E c x = .ok w) :
    (∀ i, ∃ toks, document i w.doc = .ok toks ∧ readNet K A D c.version toks = .ok (keptAll E c.version x)) ∧ w.log = (lostNet c.version x).reverse ∧
      (c.behaviour = .logError ∨ lostNet c.version x = []) := by
  obtain ⟨doc, ⟨r1, r2⟩, hd⟩ := network_old_partial hK (E := E) c h hr ha
  have hb : lostNet c.version x = [] ∨ c.behaviour = .logError := by
    by_cases hl : lostNet c.version x = []
    · exact .inl hl
    · refine .inr (Classical.byContradiction fun hb => ?_)
      rw [r2 hl hb] at hw
      cases hw
  have := r1 hb
  rw [hw] at this
  simp only [Out.ok.injEq] at this
  subst this
  exact ⟨hd, rfl, hb.symm⟩

theorem map_same {α : Type} {f : α → α} (h : ∀ x, f x = x) (l : List α) : l.map f = l := by
  induction l with
  | nil => rfl
  | cons x l ih => rw [List.map_cons, h, ih]

theorem flatMap_empty {α β : Type} {f : α → List β} (h : ∀ x, f x = []) (l : List α) : l.flatMap f = [] := by
  induction l with
  | nil => rfl
  | cons x l ih => rw [List.flatMap_cons, h, ih]; rfl

theorem equip_15 (sub : Dbl → Dbl → Dbl) (e : Equip) : keptEquip sub .v15 e = e ∧ lostEquip .v15 e = [] := by
  obtain ⟨_, h2, h3, _⟩ := version_15_whole
  refine ⟨?_, ?_⟩
  · unfold keptEquip
    rw [map_same (f := keptGen .v15) fun _ => rfl, map_same (f := keptBat .v15) fun _ => rfl, map_same (f := keptLoad .v15) fun _ => rfl, map_same (f := keptSh .v15) fun _ => rfl,
      map_same (h3 sub · |>.1), map_same (h2 · |>.1), map_same (f := keptVsc .v15) fun _ => rfl, map_same (f := keptLcc .v15) fun _ => rfl]
  · unfold lostEquip
    rw [flatMap_empty (f := lostSh .v15) fun _ => rfl, flatMap_empty (h3 sub · |>.2), flatMap_empty (h2 · |>.2)]
    rfl

theorem vl_15 (sub : Dbl → Dbl → Dbl) (x : VL) : keptVL sub .v15 x = x := by
  have ht : keptTopo .v15 x.topo = x.topo := by
    cases x.topo with
    | node bbs sws conns calcs => simp only [keptTopo, keptCalcs, map_same (f := keptBbs .v15) fun _ => rfl, map_same (f := keptNSw .v15) fun _ => rfl]
    | bus buses sws => simp only [keptTopo, map_same (f := keptBus .v15) fun _ => rfl, map_same (f := keptBSw .v15) fun _ => rfl]
  simp only [keptVL, ht, (equip_15 sub x.equip).1]
  rfl

theorem substation_15 (sub : Dbl → Dbl → Dbl) (x : Substation) : keptSubstation sub .v15 x = x ∧ lostSubstation .v15 x = [] := by
  obtain ⟨_, _, _, h4, _, h6, h7⟩ := version_15_whole
  refine ⟨?_, ?_⟩
  · simp only [keptSubstation, map_same (vl_15 sub), map_same h6, map_same (h7 · |>.1)]
    rfl
  · unfold lostSubstation
    rw [flatMap_empty (f := fun y : VL => lostEquip .v15 y.equip) fun y => (equip_15 sub y.equip).2, flatMap_empty (f := fun y : Tw2 => lostBranch .v15 y.lims) fun _ => rfl, flatMap_empty (h7 · |>.2)]
    rfl

/-- **C88** In version 1.5, nothing is lost but the flag of the network. -/
theorem version_15_network {T : Type} (E : Env) (x : Net T) :
    keptAll E .v15 x = ⟨{ x with ident := { x.ident with head := { x.ident.head with fictitious := false } } }, [], []⟩ ∧ lostNet .v15 x = [] := by
  refine ⟨?_, ?_⟩
  · have h1 : (x.subs.flatMap fun s => s.vls.flatMap fun y => keptVolts E.busbar .v15 y.topo) = [] := flatMap_empty (fun s => flatMap_empty (fun y => by cases y.topo <;> rfl) _) _
    have h2 : x.lines.flatMap (keptFlow E.flow .v15) = [] := flatMap_empty (fun l => by cases l <;> rfl) _
    have h3 : x.lines.map (keptAnyLine .v15) = x.lines := map_same (fun l => by cases l <;> rfl) _
    simp only [keptAll, keptNet, h1, h2, h3, map_same (substation_15 E.sub · |>.1), map_same (f := keptHvdc .v15) fun _ => rfl]
    rfl
  · unfold lostNet
    rw [flatMap_empty (substation_15 E.sub · |>.2), flatMap_empty fun l => by cases l <;> rfl]
    rfl

/-! ### Aliases of a network -/

theorem emits_aliases (A : Anon) (v : Ver) (i : Bool) : ∀ as : List (String × String), ∃ bt, Emits i (aliasesElems A v as) bt
  | [] => ⟨[], emits_nil i⟩
  | _ :: as => by
    obtain ⟨bt, h⟩ := emits_aliases A v i as
    exact ⟨_, (emits_text i "alias" _ _).append h⟩

/-- **C88, violation** (`NetworkXml.cpp` l. 313, 250) The aliases of a network are written in every version, though the reader refuses them before version 1.3: what is
logged as lost is in the document, and the document cannot be read. -/
theorem network_aliases_refused {T : Type} {K : XCodec} (hK : K.Integers) {A : Anon} {D : Dates T} {E : Env} (c : Ctx) {x : Net T} (h : NetOk K A D x) (hr : NetReady K E c.version x)
    (hv : c.version.ge .v13 = false) (ha : x.ident.aliases ≠ []) :
    ∃ doc, Reports c.behaviour (writeNet K A D E c x) doc ("alias" :: lostNet c.version x) ∧ ∀ i, ∃ toks, document i doc = .ok toks ∧ readNet K A D c.version toks = .thrown := by
  obtain ⟨cb, wb, bb⟩ := net_body hK (E := E) c h hr
  have hrep := reports_netAliases A c x.ident
  rw [if_pos ⟨hv, ha⟩] at hrep
  refine ⟨_, reports_map (elemCmds "network" (netAttrs K D x)) ((hrep.andThen ((Reports.plain c.behaviour (propsCmds x.ident.props)).andThen wb)).cast rfl (by simp)), fun i => ?_⟩
  obtain ⟨bu, f1, _⟩ := props_body (A := A) (v := c.version) (h := netSub K A c.version) "network" rfl ⟨[], [], []⟩ i x.ident.props ⟨⟨"", "", false⟩, [], []⟩ (by simpa using h.props)
  obtain ⟨bv, g1, _⟩ := bb i
  obtain ⟨a, as, hal⟩ := List.exists_cons_of_ne_nil ha
  obtain ⟨bt, e1⟩ := emits_aliases A c.version i as
  have e2 : ∃ t txt, Emits i (aliasesElems A c.version x.ident.aliases) ((sp i ++ textCore "alias" t txt) ++ bt) := by
    rw [hal]
    exact ⟨_, _, (emits_text i "alias" _ _).append e1⟩
  obtain ⟨t, txt, e2⟩ := e2
  refine ⟨_, document_root "network" _ (e2.append (f1.append g1)), ?_⟩
  rw [net_root hK h c.version i]
  have hcb : ∀ (s : Ident × NetSub) (b : List (String × String)) (e : Bool) (tl : List Tok), elemCb A c.version (netSub K A c.version) s (.start "alias" b e :: tl) = .thrown := by
    intro s b e tl
    simp only [elemCb, localName, Out.monad_bind_ok, netSub, identCb, readAssertMinimumVersion, lt_ge, hv]
    rfl
  have hl : ∀ (s : Ident × NetSub) (bs : List Tok),
      readUntilEnd (elemCb A c.version (netSub K A c.version)) "network" s (coreToks i "network" (netAttrs K D x) ((sp i ++ textCore "alias" t txt ++ bt) ++ bs)) = .thrown := by
    intro s bs
    unfold coreToks textCore
    rw [if_neg (by simp)]
    cases i <;> simp [readUntilEnd, sp, loop, hcb]
  rw [hl]
  rfl

/-- Version 1.2, with an alias. -/
example : NetOk toyX .none textDates someNet ∧ NetReady toyX someEnv .v12 someNet ∧ Ver.ge .v12 .v13 = false ∧ someNet.ident.aliases ≠ [] :=
  ⟨someNet_ok, someNet_ready (by decide), by decide, by decide⟩

end Verif.XmlOld
