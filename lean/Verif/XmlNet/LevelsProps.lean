import Verif.XmlNet.LevelLemmas

/-!
C70: voltage levels and substations, with all that they contain, are read back as they were written; the voltages of calculated buses are restored.
What is not read back: buses with aliases or properties, the switches of an anonymized bus/breaker voltage level, tags with commas.
-/

namespace Verif.XmlNet

open Verif Verif.Xml

/-! ### Configured buses -/

/-- `checkVoltage`, `ValidationUtils.cpp` l. 400-405. -/
def VoltageOk (v : Dbl) : Prop := v.isNan = true ∨ Dbl.le 0 v = true

theorem checkVoltage_ok {v : Dbl} (h : VoltageOk v) : checkVoltage v = .ok () := by
  unfold checkVoltage
  rcases h with h | h
  · simp [h, check]
  · simp [not_lt_of_le' h, check]

/-- What holds of every configured bus, with names and values that can be read back. -/
structure BusOk (K : XCodec) (A : Anon) (b : Bus) : Prop where
  head : HeadOk A b.ident.head
  v : VoltageOk b.v ∧ K.Keeps b.v
  angle : K.Keeps b.angle

theorem readBusRoot_at {K : XCodec} {A : Anon} {b : Bus} (h : BusOk K A b) (n : String) (e : Bool) (tl : List Tok) :
    readBusRoot K (.start n (headAttrs A .v15 b.ident.head ++ busAttrs K b) e :: tl) = .ok (b.v, b.angle) := by
  unfold readBusRoot
  rw [optDOr_attr (d := b.v) (by lk busAttrs) h.v.2, optDOr_attr (d := b.angle) (by lk busAttrs) h.angle]
  simp only [Out.monad_bind_ok, checkVoltage_ok h.v.1]

/-- **C70** A configured bus without aliases nor properties is read back as it was written.  Missing: the others, see `decorated_bus_unreadable`. -/
theorem bus_round_trip_partial {K : XCodec} {A : Anon} {b : Bus} (h : BusOk K A b) (ha : b.ident.aliases = []) (hp : b.ident.props = []) :
    ElemRT "bus" (writeBus K A b) (readBus K A) b := by
  refine ⟨_, _, rfl, ?_⟩
  obtain ⟨⟨hd, al, pr⟩, v, an⟩ := b
  simp only at ha hp
  subst ha hp
  apply roundTrip_intro
  intro i
  refine ⟨[], emits_nil i, fun rest => ?_⟩
  show readBus K A (.start "bus" (headAttrs A .v15 hd ++ busAttrs K ⟨⟨hd, [], []⟩, v, an⟩) true :: rest) = .ok (_, .start "bus" _ true :: rest)
  have h1 := readHead_elem (n := "bus") (e := true) (rest := rest) h.head (as := busAttrs K ⟨⟨hd, [], []⟩, v, an⟩) ⟨by lk busAttrs, by lk busAttrs⟩
  have h2 := readBusRoot_at h "bus" true rest
  simp only at h1 h2
  unfold readBus readElem
  simp only [h1, h2, Out.monad_bind_ok, readUntilEnd]

def someBus : Bus := ⟨⟨⟨"B", "bus 1", false⟩, [], []⟩, 225, .fin (-1)⟩

theorem someBus_ok : BusOk toyX Anon.none someBus := ⟨none_head _, ⟨.inr (by decide), toyX_keeps _⟩, toyX_keeps _⟩

theorem someBus_read : ElemRT "bus" (writeBus toyX Anon.none someBus) (readBus toyX Anon.none) someBus := bus_round_trip_partial someBus_ok rfl rfl

/-- What remains to be read of an element that is not empty, once it has been written. -/
theorem elem_last {i : Bool} {n : String} {as : List (String × String)} {cs : List Cmd} {bt : List Tok} (hb : Emits i cs bt) (hne : bt ≠ []) :
    ∃ bt', ∀ w : W, w.stack ≠ [] → wrun i w (elemCmds n as cs) = .ok ⟨w.closed ++ (sp i ++ (.start n as false :: (bt' ++ [.stop n]))), w.stack, none⟩ := by
  have h := hb.elem n as
  refine ⟨bt ++ sp i, fun w hw => ?_⟩
  rw [h.1 w hw, W.after, if_neg (by simp [elemToks, core_ne_nil])]
  simp [elemToks, coreToks, hne]

/-- The nodes of aliases and properties, when there are some. -/
theorem decorations {A : Anon} {x : Ident} (h : x.aliases ≠ [] ∨ x.props ≠ []) (i : Bool) : ∃ bt, Emits i (identCmds A x) bt ∧ bt ≠ [] := by
  have e1 : ∀ as : List (String × String), ∃ bt, Emits i (aliasesElems A as) bt ∧ (as ≠ [] → bt ≠ []) := by
    intro as
    induction as with
    | nil => exact ⟨[], emits_nil i, fun h => absurd rfl h⟩
    | cons a as ih =>
      obtain ⟨bt, h1, _⟩ := ih
      exact ⟨_, (emits_text i "alias" _ _).append h1, fun _ => by simp [textCore]⟩
  have e2 : ∀ ps : PropMap.Props, ∃ bt, Emits i (propsCmds ps) bt ∧ (ps ≠ [] → bt ≠ []) := by
    intro ps
    induction ps with
    | nil => exact ⟨[], emits_nil i, fun h => absurd rfl h⟩
    | cons a as ih =>
      obtain ⟨bt, h1, _⟩ := ih
      exact ⟨_, ((emits_nil i).elem _ _).append h1, fun _ => by simp [elemToks, core_ne_nil]⟩
  obtain ⟨bt, h1, h2⟩ := e1 x.aliases
  obtain ⟨bu, h3, h4⟩ := e2 x.props
  refine ⟨bt ++ bu, h1.append h3, fun hn => ?_⟩
  obtain ⟨n1, n2⟩ := List.append_eq_nil_iff.1 hn
  rcases h with h | h
  · exact h2 h n1
  · exact h4 h n2

/-- **C70, violation** (`BusXml.cpp` l. 41) A configured bus with an alias or a property cannot be read: the reader does not stop at the end of the bus, but
looks for the end of a substation. -/
theorem decorated_bus_unreadable (K : XCodec) (A : Anon) (b : Bus) (h : b.ident.aliases ≠ [] ∨ b.ident.props ≠ []) (x : Bus) :
    ¬ ElemRT "bus" (writeBus K A b) (readBus K A) x := by
  rintro ⟨as, body, hw, hrt⟩
  simp only [writeBus, Out.ok.injEq] at hw
  rw [← hw] at hrt
  obtain ⟨bt, h1, h2⟩ := decorations (A := A) h false
  obtain ⟨bt', h3⟩ := elem_last (n := "bus") (as := headAttrs A .v15 b.ident.head ++ busAttrs K b) (h1.append (emits_nil false)) (by simpa using h2)
  obtain ⟨ts, _, h4, h5⟩ := hrt false
  have e1 := h3 ⟨[], ["x"], none⟩ (by simp)
  have e2 := h4 ⟨[], ["x"], none⟩ (by simp)
  unfold writeElem at e2
  rw [e1] at e2
  simp only [Out.ok.injEq, W.mk.injEq, List.append_cancel_left_eq, and_true] at e2
  subst e2
  have h6 := h5 []
  have hl : last1 (.start "bus" (headAttrs A .v15 b.ident.head ++ busAttrs K b) false :: (bt' ++ [.stop "bus"])) = [.stop "bus"] := by
    rw [← List.cons_append]; exact last1_snoc _ _
  rw [hl] at h6
  unfold readBus readElem at h6
  obtain ⟨_, _, h7⟩ := Out.bind_eq_ok.1 h6
  obtain ⟨_, _, h8⟩ := Out.bind_eq_ok.1 h7
  obtain ⟨r, h9, h10⟩ := Out.bind_eq_ok.1 h8
  simp only [readUntilEnd, List.cons_append] at h9
  obtain ⟨t, ht⟩ := loop_stops _ _ _ r.1 r.2 h9
  obtain ⟨_, _, h11⟩ := Out.bind_eq_ok.1 h10
  simp only [Out.ok.injEq, Prod.mk.injEq] at h11
  have := h11.2
  rw [ht] at this
  simp at this

example : ¬ ElemRT "bus" (writeBus toyX Anon.none ⟨⟨⟨"B", "", false⟩, [], [("k", "v")]⟩, .nan, .nan⟩) (readBus toyX Anon.none) ⟨⟨⟨"B", "", false⟩, [], [("k", "v")]⟩, .nan, .nan⟩ :=
  decorated_bus_unreadable _ _ _ (.inr (by simp)) _

/-! ### Switches and internal connections -/

structure NSwOk (A : Anon) (x : NSw) : Prop where
  ident : IdentOk A x.ident
  kind : x.kind < Enums.switchKind.names.length
  node1 : x.node1 < 2 ^ 64
  node2 : x.node2 < 2 ^ 64

/-- **C70** A switch of a node/breaker voltage level is read back as it was written. -/
theorem node_switch_element_round_trip {K : XCodec} (hK : K.Integers) {A : Anon} {x : NSw} (h : NSwOk A x) : ElemRT "switch" (writeNSw K A x) (readNSw K A) x := by
  obtain ⟨k, hk1, hk2⟩ := Enums.value_round_trip (names := Enums.switchKind.names) (by decide) h.kind
  have hw : writeNSw K A x = .ok (writeElem A "switch" x.ident (nswAttrs K k x) []) := by
    simp only [writeNSw, hk1, Out.monad_bind_ok]
  rw [hw]
  refine readElem_ert (a := (x.opened, x.kind, x.retained, x.node1, x.node2)) h.ident ⟨by simp [nswAttrs, swAttrs, lookup_append, lookup_cons, lookup_attrB, lookup_attrN],
    by simp [nswAttrs, swAttrs, lookup_append, lookup_cons, lookup_attrB, lookup_attrN]⟩ (by decide) rfl rfl (fun e tl => ?_) (body_nil _ _ _ _) rfl
  unfold readNSwRoot
  rw [getB_attr (b := x.opened) (by simp [nswAttrs, swAttrs, lookup_append, lookup_cons, lookup_attrB, lookup_attrN, lookup_headAttrs]),
    getS_attr (v := k) (by simp [nswAttrs, swAttrs, lookup_append, lookup_cons, lookup_attrB, lookup_attrN, lookup_headAttrs]),
    getB_attr (b := x.retained) (by simp [nswAttrs, swAttrs, lookup_append, lookup_cons, lookup_attrB, lookup_attrN, lookup_headAttrs]),
    getN_attr hK.naturals (d := x.node1) (by simp [nswAttrs, swAttrs, lookup_append, lookup_cons, lookup_attrB, lookup_attrN, lookup_headAttrs]) h.node1,
    getN_attr hK.naturals (d := x.node2) (by simp [nswAttrs, swAttrs, lookup_append, lookup_cons, lookup_attrB, lookup_attrN, lookup_headAttrs]) h.node2]
  simp only [Out.monad_bind_ok, hk2]

def someNSw : NSw := ⟨⟨⟨"S", "", true⟩, [("alias", "t")], [("k", "v")]⟩, 1, false, true, 0, 7⟩

theorem someNSw_ok : NSwOk Anon.none someNSw :=
  ⟨⟨none_head _, (by intro a ha; simp only [someNSw, List.mem_cons, List.not_mem_nil, or_false] at ha; subst ha; exact ⟨⟨rfl, by decide⟩, by decide⟩), by decide, by decide, by unfold AMap.NodupKeys; decide⟩, by decide, by decide, by decide⟩

theorem someNSw_read : ElemRT "switch" (writeNSw toyX Anon.none someNSw) (readNSw toyX Anon.none) someNSw := node_switch_element_round_trip toyX_integers someNSw_ok

structure BSwOk (A : Anon) (x : BSw) : Prop where
  ident : IdentOk A x.ident
  bus1 : x.bus1 ≠ "" ∧ A.Inverts x.bus1
  bus2 : x.bus2 ≠ "" ∧ A.Inverts x.bus2

/-- **C70** A switch of a bus/breaker voltage level is read back as it was written. -/
theorem bus_switch_element_round_trip {A : Anon} {x : BSw} (h : BSwOk A x) : ElemRT "switch" (writeBSw A x) (readBSw A) x := by
  obtain ⟨k, hk1, hk2⟩ := Enums.value_round_trip (names := Enums.switchKind.names) (v := 0) (by decide) (by decide)
  have hw : writeBSw A x = .ok (writeElem A "switch" x.ident (bswAttrs A k x) []) := by
    simp only [writeBSw, hk1, Out.monad_bind_ok]
  rw [hw]
  refine readElem_ert (a := (x.opened, x.bus1, x.bus2)) h.ident ⟨by simp [bswAttrs, swAttrs, lookup_append, lookup_cons, lookup_nil, lookup_attrB],
    by simp [bswAttrs, swAttrs, lookup_append, lookup_cons, lookup_nil, lookup_attrB]⟩ (by decide) rfl rfl (fun e tl => ?_) (body_nil _ _ _ _) rfl
  have h1 : A.dean (A.anon x.bus1) = .ok x.bus1 := h.bus1.2
  have h2 : A.dean (A.anon x.bus2) = .ok x.bus2 := h.bus2.2
  unfold readBSwRoot
  rw [getB_attr (b := x.opened) (by simp [bswAttrs, swAttrs, lookup_append, lookup_cons, lookup_attrB, lookup_headAttrs]),
    getS_attr (v := A.anon x.bus1) (by simp [bswAttrs, swAttrs, lookup_append, lookup_cons, lookup_attrB, lookup_headAttrs]),
    getS_attr (v := A.anon x.bus2) (by simp [bswAttrs, swAttrs, lookup_append, lookup_cons, lookup_attrB, lookup_headAttrs])]
  simp only [Out.monad_bind_ok, h1, h2, beq_eq_false_iff_ne.2 h.bus1.1, beq_eq_false_iff_ne.2 h.bus2.1, check_false]

def someBSw : BSw := ⟨⟨⟨"S", "coupler", false⟩, [], []⟩, true, "B", "B2"⟩

theorem someBSw_ok : BSwOk Anon.none someBSw := ⟨plain_ident, ⟨by decide, rfl⟩, ⟨by decide, rfl⟩⟩

theorem someBSw_read : ElemRT "switch" (writeBSw Anon.none someBSw) (readBSw Anon.none) someBSw := bus_switch_element_round_trip someBSw_ok

theorem conn_ert {K : XCodec} (hK : K.Integers) {x : Nat × Nat} (hx : x.1 < 2 ^ 64 ∧ x.2 < 2 ^ 64) : ElemRT "internalConnection" (writeConn K x) (readConn K) x := by
  refine ⟨_, _, rfl, ?_⟩
  exact attrs_rt (rd := readConnection K.toCodec) fun e tl => by
    unfold readConnection
    rw [getN_attr hK.naturals (d := x.1) (by simp [lookup_append, lookup_attrN]) hx.1, Out.bind_ok,
      getN_attr hK.naturals (d := x.2) (by simp [lookup_append, lookup_attrN]) hx.2, Out.bind_ok]

theorem calc_ert {K : XCodec} {c : Calc} (hv : K.Keeps c.v) (ha : K.Keeps c.angle) : ElemRT "bus" (writeCalc K c) (readCalc K) c := by
  refine ⟨_, _, rfl, ?_⟩
  apply roundTrip_intro
  intro i
  refine ⟨[], emits_nil i, fun rest => ?_⟩
  show readCalc K (Tok.start "bus" (calcAttrs K c) true :: rest) = .ok (c, Tok.start "bus" (calcAttrs K c) true :: rest)
  unfold readCalc
  rw [optDOr_attr (d := c.v) (by simp [calcAttrs, lookup_append, lookup_cons, lookup_nil, lookup_attrD]) hv, optDOr_attr (d := c.angle) (by simp [calcAttrs, lookup_append, lookup_cons, lookup_nil, lookup_attrD]) ha,
    getS_attr (v := c.nodes) (by simp [calcAttrs, lookup_append, lookup_cons, lookup_attrD])]
  rfl

/-! ### Voltages of the calculated buses -/

/-- The buses of the bus view and their nodes, as `Networks::getNodesByBus` finds them: `busAt` is the bus of the terminal at a node, if any. -/
structure ViewOk (K : XCodec) (busAt : Nat → Option String) (bs : List ViewBus) : Prop where
  /-- Identifiers are distinct. -/
  ids : (bs.map ViewBus.id).Nodup
  /-- Each node has its terminal on the bus, or has no terminal with a bus. -/
  nodes : ∀ b ∈ bs, ∀ n ∈ b.nodes, busAt n = some b.id ∨ busAt n = none
  /-- A bus has a terminal. -/
  some : ∀ b ∈ bs, ∃ n ∈ b.nodes, busAt n = some b.id
  node : ∀ b ∈ bs, ∀ n ∈ b.nodes, n < 2 ^ 64 ∧ NoComma (K.showN n)
  volt : ∀ b ∈ bs, VoltageOk b.v

theorem setAt_first {K : XCodec} (hK : K.Integers) {busAt : Nat → Option String} {b : String} {v an : Dbl} (hv : VoltageOk v) : ∀ (ns : List Nat) (s : Volts),
    (∀ n ∈ ns, n < 2 ^ 64) → (∀ n ∈ ns, busAt n = some b ∨ busAt n = none) → (∃ n ∈ ns, busAt n = some b) →
    setAt K busAt v an (ns.map K.showN) s = .ok fun b' => if b' = b then (v, an) else s b' := by
  intro ns
  induction ns with
  | nil => rintro s _ _ ⟨n, hn, _⟩; cases hn
  | cons n ns ih =>
    intro s h1 h2 h3
    have hn := hK.naturals n (h1 n List.mem_cons_self)
    rcases h2 n List.mem_cons_self with hb | hb
    · simp only [List.map_cons, setAt, hn, Out.monad_bind_ok, hb, checkVoltage_ok hv]
    · simp only [List.map_cons, setAt, hn, Out.monad_bind_ok, hb]
      refine ih s (fun m hm => h1 m (List.mem_cons_of_mem _ hm)) (fun m hm => h2 m (List.mem_cons_of_mem _ hm)) ?_
      obtain ⟨m, hm, hmb⟩ := h3
      rcases List.mem_cons.1 hm with rfl | hm
      · rw [hb] at hmb; cases hmb
      · exact ⟨m, hm, hmb⟩

/-- **C70** The voltages and angles of the buses of the bus view of a node/breaker voltage level survive: what is written of them, once read and the end tasks
run on a network that has none, gives every bus its voltage and its angle, and nothing to any other. -/
theorem calculated_voltages_restored {K : XCodec} (hK : K.Integers) {busAt : Nat → Option String} : ∀ {bs : List ViewBus}, ViewOk K busAt bs → ∀ s : Volts,
    ∃ s', calcTasks K busAt (calcOf K bs) s = .ok s' ∧ (∀ b ∈ bs, s b.id = (.nan, .nan) → s' b.id = (b.v, b.angle)) ∧ ∀ i, i ∉ bs.map ViewBus.id → s' i = s i := by
  intro bs
  induction bs with
  | nil => intro _ s; exact ⟨s, rfl, by simp, fun _ _ => rfl⟩
  | cons b bs ih =>
    intro h s
    have hn := List.nodup_cons.1 h.ids
    have htl : ViewOk K busAt bs := ⟨hn.2, fun c hc => h.nodes c (List.mem_cons_of_mem _ hc), fun c hc => h.some c (List.mem_cons_of_mem _ hc),
      fun c hc => h.node c (List.mem_cons_of_mem _ hc), fun c hc => h.volt c (List.mem_cons_of_mem _ hc)⟩
    by_cases hb : (!b.v.isNan || !b.angle.isNan) = true
    · have hne : b.nodes.map K.showN ≠ [] := by
        obtain ⟨n, hn, _⟩ := h.some b List.mem_cons_self
        intro e
        rw [List.map_eq_nil_iff] at e
        rw [e] at hn
        cases hn
      have hnc : ∀ x ∈ b.nodes.map K.showN, NoComma x := by
        intro x hx
        obtain ⟨n, hn, rfl⟩ := List.mem_map.1 hx
        exact (h.node b List.mem_cons_self n hn).2
      have h1 := setAt_first hK (h.volt b List.mem_cons_self) (an := b.angle) b.nodes s (fun n hn => (h.node b List.mem_cons_self n hn).1) (h.nodes b List.mem_cons_self) (h.some b List.mem_cons_self)
      obtain ⟨s', h2, h3, h4⟩ := ih htl (fun b' => if b' = b.id then (b.v, b.angle) else s b')
      refine ⟨s', ?_, ?_, ?_⟩
      · unfold calcOf
        rw [List.filter_cons_of_pos (p := fun b : ViewBus => !b.v.isNan || !b.angle.isNan) hb, List.map_cons]
        simp only [calcTasks, calcTask]
        rw [split_join _ hne hnc, h1, Out.monad_bind_ok]
        exact h2
      · intro c hc hs
        rcases List.mem_cons.1 hc with rfl | hc
        · rw [h4 _ hn.1]; simp
        · refine h3 c hc ?_
          have : c.id ≠ b.id := fun e => hn.1 (e ▸ List.mem_map_of_mem hc)
          simp only [if_neg this, hs]
      · intro i hi
        rw [List.map_cons, List.mem_cons, not_or] at hi
        rw [h4 i hi.2, if_neg hi.1]
    · have hb' : b.v.isNan = true ∧ b.angle.isNan = true := by
        cases h1 : b.v.isNan <;> cases h2 : b.angle.isNan <;> simp_all
      obtain ⟨s', h2, h3, h4⟩ := ih htl s
      refine ⟨s', ?_, ?_, ?_⟩
      · unfold calcOf
        rw [List.filter_cons_of_neg (p := fun b : ViewBus => !b.v.isNan || !b.angle.isNan) hb]
        exact h2
      · intro c hc hs
        rcases List.mem_cons.1 hc with rfl | hc
        · rw [h4 _ hn.1, hs]
          have e1 : c.v = .nan := by cases hv : c.v <;> simp_all [Dbl.isNan]
          have e2 : c.angle = .nan := by cases hv : c.angle <;> simp_all [Dbl.isNan]
          rw [e1, e2]
        · exact h3 c hc hs
      · intro i hi
        rw [List.map_cons, List.mem_cons, not_or] at hi
        exact h4 i hi.2

def someView : List ViewBus := [⟨"VL_0", 225, .nan, [0, 3]⟩, ⟨"VL_1", .nan, .nan, [1]⟩, ⟨"VL_2", .nan, .fin (-2), [2, 4]⟩]

/-- Nodes 0 and 4 have no terminal. -/
def someBusAt (n : Nat) : Option String := if n = 3 then some "VL_0" else if n = 1 then some "VL_1" else if n = 2 then some "VL_2" else none

theorem toyX_noComma (n : Nat) : NoComma (toyX.showN n) := by
  unfold NoComma toyX toy marks
  simp

example : ViewOk toyX someBusAt someView where
  ids := by decide
  nodes := by decide
  some := by decide
  node := fun b hb n hn => ⟨by revert hn; revert n; revert hb; revert b; decide, toyX_noComma n⟩
  volt := by
    intro b hb
    simp only [someView, List.mem_cons, List.not_mem_nil, or_false] at hb
    rcases hb with rfl | rfl | rfl
    · exact .inr (by decide)
    · exact .inl rfl
    · exact .inl rfl

/-! ### Voltage levels -/

/-- The switches of a bus/breaker voltage level keep their identifiers: there is no anonymization, see `anonymized_switch_unwritable`. -/
def TopoOk (K : XCodec) (A : Anon) : Topo → Prop
  | .node bbs sws conns calcs => (∀ x ∈ bbs, BbsOk A x) ∧ (∀ x ∈ sws, NSwOk A x) ∧ (∀ x ∈ conns, x.1 < 2 ^ 64 ∧ x.2 < 2 ^ 64) ∧ (∀ c ∈ calcs, K.Keeps c.v ∧ K.Keeps c.angle)
  | .bus buses sws => (∀ b ∈ buses, BusOk K A b ∧ b.ident.aliases = [] ∧ b.ident.props = []) ∧
      (∀ x ∈ sws, BSwOk A x ∧ A.anon x.ident.head.id ∈ sws.map fun y => y.ident.head.id)

structure EquipOk (K : XCodec) (A : Anon) (e : Equip) : Prop where
  gens : ∀ x ∈ e.gens, GenOk K A x
  bats : ∀ x ∈ e.bats, BatOk K A x
  loads : ∀ x ∈ e.loads, LoadOk K A x
  shs : ∀ x ∈ e.shs, ShOk K A x
  dls : ∀ x ∈ e.dls, DlOk K A x
  svcs : ∀ x ∈ e.svcs, SvcOk K A x
  vscs : ∀ x ∈ e.vscs, VscOk K A x
  lccs : ∀ x ∈ e.lccs, LccOk K A x

/-- What holds of every voltage level (`VoltageLevelAdder.cpp` l. 27-28). -/
structure VLOk (K : XCodec) (A : Anon) (x : VL) : Prop where
  ident : IdentOk A x.ident
  nominalV : Dbl.lt 0 x.nominalV = true ∧ K.Keeps x.nominalV
  low : VoltageOk x.low ∧ K.Keeps x.low
  high : VoltageOk x.high ∧ K.Keeps x.high
  range : Dbl.lt x.high x.low = false
  topo : TopoOk K A x.topo
  equip : EquipOk K A x.equip

theorem voltage_not_negative {v : Dbl} (h : VoltageOk v) : Dbl.lt v 0 = false := by
  rcases h with h | h
  · cases v <;> simp_all [Dbl.isNan, Dbl.lt]
  · exact not_lt_of_le' h

/-- The two topologies as they are kept. -/
def Topo.sub (e : Equip) : Topo → VlSub
  | .node bbs sws conns calcs => ⟨bbs, sws, conns, calcs, [], [], e⟩
  | .bus buses sws => ⟨[], [], [], [], buses, sws, e⟩

theorem topo_body {K : XCodec} (hK : K.Integers) {A : Anon} {t : Topo} (h : TopoOk K A t) :
    ∃ cs, writeTopo K A t = .ok cs ∧ Body A (vlSub K A) "voltageLevel" cs noVlSub (t.sub noEquip) := by
  cases t with
  | node bbs sws conns calcs =>
    obtain ⟨h1, h2, h3, h4⟩ := h
    obtain ⟨c1, w1, b1⟩ := ppush_list (h := nodeTopoSub K A) (root := "nodeBreakerTopology") (w := writeBbs K A) VlSub.bbs (fun s l => { s with bbs := l }) rfl (fun _ _ => rfl) (fun _ _ _ => rfl) (fun _ => rfl)
      bbs noVlSub fun x hx => busbar_section_round_trip hK (h1 x hx)
    obtain ⟨c2, w2, b2⟩ := ppush_list (h := nodeTopoSub K A) (root := "nodeBreakerTopology") (w := writeNSw K A) VlSub.nsws (fun s l => { s with nsws := l }) rfl (fun _ _ => rfl) (fun _ _ _ => rfl) (fun _ => rfl)
      sws ⟨bbs, [], [], [], [], [], noEquip⟩ fun x hx => node_switch_element_round_trip hK (h2 x hx)
    obtain ⟨c3, w3, b3⟩ := ppush_list (h := nodeTopoSub K A) (root := "nodeBreakerTopology") (w := writeConn K) VlSub.conns (fun s l => { s with conns := l }) rfl (fun _ _ => rfl) (fun _ _ _ => rfl) (fun _ => rfl)
      conns ⟨bbs, sws, [], [], [], [], noEquip⟩ fun x hx => conn_ert hK (h3 x hx)
    obtain ⟨c4, w4, b4⟩ := ppush_list (h := nodeTopoSub K A) (root := "nodeBreakerTopology") (w := writeCalc K) VlSub.calcs (fun s l => { s with calcs := l }) rfl (fun _ _ => rfl) (fun _ _ _ => rfl) (fun _ => rfl)
      calcs ⟨bbs, sws, conns, [], [], [], noEquip⟩ fun x hx => calc_ert (h4 x hx).1 (h4 x hx).2
    refine ⟨elemCmds "nodeBreakerTopology" [] (c1 ++ (c2 ++ (c3 ++ c4))), by simp only [writeTopo, w1, w2, w3, w4, Out.monad_bind_ok], ?_⟩
    refine body_item (read := readPlain "nodeBreakerTopology" (fun _ => .ok ()) (nodeTopoSub K A) noVlSub fun _ s => .ok s) (a := ⟨bbs, sws, conns, calcs, [], [], noEquip⟩) ?_ rfl fun toks r hr => hr
    exact readPlain_rt (fun _ _ => rfl) (b1.append (b2.append (b3.append b4))) rfl
  | bus buses sws =>
    obtain ⟨h1, h2⟩ := h
    obtain ⟨c1, w1, b1⟩ := ppush_list (h := busTopoSub K A) (root := "busBreakerTopology") (w := writeBus K A) VlSub.buses (fun s l => { s with buses := l }) rfl (fun _ _ => rfl) (fun _ _ _ => rfl) (fun _ => rfl)
      buses noVlSub fun x hx => bus_round_trip_partial (h1 x hx).1 (h1 x hx).2.1 (h1 x hx).2.2
    obtain ⟨c2, w2, b2⟩ := ppush_list (h := busTopoSub K A) (root := "busBreakerTopology") (w := writeBSwIn A (sws.map fun y => y.ident.head.id)) VlSub.bsws (fun s l => { s with bsws := l }) rfl (fun _ _ => rfl)
      (fun _ _ _ => rfl) (fun _ => rfl) sws ⟨[], [], [], [], buses, [], noEquip⟩ fun x hx => by
        have := bus_switch_element_round_trip (h2 x hx).1
        have hc : writeBSwIn A (sws.map fun y => y.ident.head.id) x = writeBSw A x := by
          have hm : (sws.map fun y => y.ident.head.id).contains (A.anon x.ident.head.id) = true := by
            rw [List.contains_iff_mem]; exact (h2 x hx).2
          simp only [writeBSwIn, hm, Bool.not_true, check_false, Out.monad_bind_ok]
        rwa [hc]
    refine ⟨elemCmds "busBreakerTopology" [] (c1 ++ c2), by simp only [writeTopo, w1, w2, Out.monad_bind_ok], ?_⟩
    refine body_item (read := readPlain "busBreakerTopology" (fun _ => .ok ()) (busTopoSub K A) noVlSub fun _ s => .ok s) (a := ⟨[], [], [], [], buses, sws, noEquip⟩) ?_ rfl fun toks r hr => hr
    exact readPlain_rt (fun _ _ => rfl) (b1.append b2) rfl

theorem equip_body {K : XCodec} (hK : K.Integers) {A : Anon} {e : Equip} (h : EquipOk K A e) (t : Topo) :
    ∃ cs, writeEquip K A e = .ok cs ∧ Body A (vlSub K A) "voltageLevel" cs (t.sub noEquip) (t.sub e) := by
  obtain ⟨gens, bats, loads, shs, dls, svcs, vscs, lccs⟩ := e
  obtain ⟨c1, w1, b1⟩ := push_list (A := A) (h := vlSub K A) (root := "voltageLevel") (w := writeGen K A) (fun s => s.equip.gens) (fun s l => { s with equip := { s.equip with gens := l } }) rfl (fun _ _ => rfl)
    (fun _ _ _ => rfl) (fun _ => rfl) gens (t.sub noEquip) fun x hx => generator_round_trip hK (h.gens x hx)
  obtain ⟨c2, w2, b2⟩ := push_list (A := A) (h := vlSub K A) (root := "voltageLevel") (w := writeBat K A) (fun s => s.equip.bats) (fun s l => { s with equip := { s.equip with bats := l } }) rfl (fun _ _ => rfl)
    (fun _ _ _ => rfl) (fun _ => rfl) bats (t.sub ⟨gens, [], [], [], [], [], [], []⟩) fun x hx => battery_round_trip hK (h.bats x hx)
  obtain ⟨c3, w3, b3⟩ := push_list (A := A) (h := vlSub K A) (root := "voltageLevel") (w := writeLoad K A) (fun s => s.equip.loads) (fun s l => { s with equip := { s.equip with loads := l } }) rfl (fun _ _ => rfl)
    (fun _ _ _ => rfl) (fun _ => rfl) loads (t.sub ⟨gens, bats, [], [], [], [], [], []⟩) fun x hx => load_round_trip hK (h.loads x hx)
  obtain ⟨c4, w4, b4⟩ := push_list (A := A) (h := vlSub K A) (root := "voltageLevel") (w := writeSh K A) (fun s => s.equip.shs) (fun s l => { s with equip := { s.equip with shs := l } }) rfl (fun _ _ => rfl)
    (fun _ _ _ => rfl) (fun _ => rfl) shs (t.sub ⟨gens, bats, loads, [], [], [], [], []⟩) fun x hx => shunt_element_round_trip hK (h.shs x hx)
  obtain ⟨c5, w5, b5⟩ := push_list (A := A) (h := vlSub K A) (root := "voltageLevel") (w := writeDl K A) (fun s => s.equip.dls) (fun s l => { s with equip := { s.equip with dls := l } }) rfl (fun _ _ => rfl)
    (fun _ _ _ => rfl) (fun _ => rfl) dls (t.sub ⟨gens, bats, loads, shs, [], [], [], []⟩) fun x hx => dangling_line_round_trip hK (h.dls x hx)
  obtain ⟨c6, w6, b6⟩ := push_list (A := A) (h := vlSub K A) (root := "voltageLevel") (w := writeSvc K A) (fun s => s.equip.svcs) (fun s l => { s with equip := { s.equip with svcs := l } }) rfl (fun _ _ => rfl)
    (fun _ _ _ => rfl) (fun _ => rfl) svcs (t.sub ⟨gens, bats, loads, shs, dls, [], [], []⟩) fun x hx => svc_round_trip hK (h.svcs x hx)
  obtain ⟨c7, w7, b7⟩ := push_list (A := A) (h := vlSub K A) (root := "voltageLevel") (w := writeVsc K A) (fun s => s.equip.vscs) (fun s l => { s with equip := { s.equip with vscs := l } }) rfl (fun _ _ => rfl)
    (fun _ _ _ => rfl) (fun _ => rfl) vscs (t.sub ⟨gens, bats, loads, shs, dls, svcs, [], []⟩) fun x hx => vsc_round_trip hK (h.vscs x hx)
  obtain ⟨c8, w8, b8⟩ := push_list (A := A) (h := vlSub K A) (root := "voltageLevel") (w := writeLcc K A) (fun s => s.equip.lccs) (fun s l => { s with equip := { s.equip with lccs := l } }) rfl (fun _ _ => rfl)
    (fun _ _ _ => rfl) (fun _ => rfl) lccs (t.sub ⟨gens, bats, loads, shs, dls, svcs, vscs, []⟩) fun x hx => lcc_round_trip hK (h.lccs x hx)
  refine ⟨c1 ++ (c2 ++ (c3 ++ (c4 ++ (c5 ++ (c6 ++ (c7 ++ c8)))))), by simp only [writeEquip, w1, w2, w3, w4, w5, w6, w7, w8, Out.monad_bind_ok], ?_⟩
  cases t <;> exact b1.append (b2.append (b3.append (b4.append (b5.append (b6.append (b7.append b8))))))

/-- A voltage level is read back from its attributes and from any sub elements that are read as its topology and its equipment. -/
theorem vl_of_body {K : XCodec} {A : Anon} {x : VL} (h : VLOk K A x) {k : String} (hk2 : Enums.fromString Enums.topologyKind.names k = .ok x.topo.kind) {cs : List Cmd}
    (b : Body A (vlSub K A) "voltageLevel" cs noVlSub (x.topo.sub x.equip)) : ElemRT "voltageLevel" (.ok (writeElem A "voltageLevel" x.ident (vlAttrs K k x) cs)) (readVL K A) x := by
  have hn : x.nominalV.isNan = false := (Dbl.not_nan_of_lt h.nominalV.1).2
  refine readElem_ert (a := (x.nominalV, x.low, x.high, x.topo.kind)) (s1 := x.topo.sub x.equip) h.ident ⟨by lk vlAttrs, by lk vlAttrs⟩ (by decide) rfl rfl (fun e tl => ?_) b ?_
  · unfold readVLRoot
    rw [getD_at (d := x.nominalV) (by lk vlAttrs) hn h.nominalV.2, optDOr_attr (d := x.low) (by lk vlAttrs) h.low.2, optDOr_attr (d := x.high) (by lk vlAttrs) h.high.2,
      getS_attr (v := k) (by lk vlAttrs)]
    simp only [Out.monad_bind_ok, hk2, checkNominal_ok h.nominalV.1, checkLimits, voltage_not_negative h.low.1, voltage_not_negative h.high.1, h.range, check_false]
  · obtain ⟨i, nv, lo, hi, topo, eq⟩ := x
    cases topo <;> rfl

/-- **C70** A voltage level of either topology, with its buses or nodes, its switches and all its equipment, is read back as it was written. -/
theorem voltage_level_round_trip_partial {K : XCodec} (hK : K.Integers) {A : Anon} {x : VL} (h : VLOk K A x) : ElemRT "voltageLevel" (writeVL K A x) (readVL K A) x := by
  have hkind : x.topo.kind < Enums.topologyKind.names.length := by
    cases x.topo
    · exact (by decide : 0 < Enums.topologyKind.names.length)
    · exact (by decide : 1 < Enums.topologyKind.names.length)
  obtain ⟨k, hk1, hk2⟩ := Enums.value_round_trip (names := Enums.topologyKind.names) (by decide) hkind
  obtain ⟨ct, wt, bt⟩ := topo_body hK h.topo
  obtain ⟨ce, we, be⟩ := equip_body hK h.equip x.topo
  have hw : writeVL K A x = .ok (writeElem A "voltageLevel" x.ident (vlAttrs K k x) (ct ++ ce)) := by
    simp only [writeVL, hk1, wt, we, Out.monad_bind_ok]
  rw [hw]
  exact vl_of_body h hk2 (bt.append be)

def someEquip : Equip := ⟨[someGen], [], [], [], [], [someSvc], [], [someLcc]⟩

def someEquip2 : Equip := ⟨[], [someBat], [someLoad], [someSh], [someDl], [], [someVsc], []⟩

theorem only_ok {α : Type} {P : α → Prop} {a : α} (h : P a) : ∀ x ∈ [a], P x := by
  intro x hx
  rw [List.mem_singleton] at hx
  rwa [hx]

theorem no_one {α : Type} {P : α → Prop} : ∀ x ∈ ([] : List α), P x := nofun

theorem someEquip_ok : EquipOk toyX Anon.none someEquip := ⟨only_ok someGen_ok, no_one, no_one, no_one, no_one, only_ok someSvc_ok, no_one, only_ok someLcc_ok⟩

theorem someEquip2_ok : EquipOk toyX Anon.none someEquip2 := ⟨no_one, only_ok someBat_ok, only_ok someLoad_ok, only_ok someSh_ok, only_ok someDl_ok, no_one, only_ok someVsc_ok, no_one⟩

def someTopo : Topo := .node [someBbs] [someNSw] [(1, 2), (1, 2)] [⟨224, .nan, "x,xx"⟩]

def someTopo2 : Topo := .bus [someBus, ⟨⟨⟨"B2", "", true⟩, [], []⟩, .nan, .nan⟩] [someBSw]

theorem someTopo_ok : TopoOk toyX Anon.none someTopo := ⟨only_ok someBbs_ok, only_ok someNSw_ok, by decide, fun c _ => ⟨toyX_keeps _, toyX_keeps _⟩⟩

theorem someTopo2_ok : TopoOk toyX Anon.none someTopo2 := by
  refine ⟨?_, only_ok ⟨someBSw_ok, by decide⟩⟩
  intro b hb
  simp only [List.mem_cons, List.not_mem_nil, or_false] at hb
  rcases hb with rfl | rfl
  · exact ⟨someBus_ok, rfl, rfl⟩
  · exact ⟨⟨none_head _, ⟨.inl rfl, toyX_keeps _⟩, toyX_keeps _⟩, rfl, rfl⟩

/-- A node/breaker voltage level. -/
def someVL : VL := ⟨⟨⟨"VL", "", false⟩, [], []⟩, 225, .nan, 250, someTopo, someEquip⟩

/-- A bus/breaker voltage level. -/
def someVL2 : VL := ⟨⟨⟨"VL2", "", false⟩, [], []⟩, 400, 380, 420, someTopo2, someEquip2⟩

theorem someVL_ok : VLOk toyX Anon.none someVL :=
  ⟨plain_ident, ⟨by decide, toyX_keeps _⟩, ⟨.inl rfl, toyX_keeps _⟩, ⟨.inr (by decide), toyX_keeps _⟩, by decide, someTopo_ok, someEquip_ok⟩

theorem someVL2_ok : VLOk toyX Anon.none someVL2 :=
  ⟨plain_ident, ⟨by decide, toyX_keeps _⟩, ⟨.inr (by decide), toyX_keeps _⟩, ⟨.inr (by decide), toyX_keeps _⟩, by decide, someTopo2_ok, someEquip2_ok⟩

theorem someVL_read : ElemRT "voltageLevel" (writeVL toyX Anon.none someVL) (readVL toyX Anon.none) someVL := voltage_level_round_trip_partial toyX_integers someVL_ok

theorem someVL2_read : ElemRT "voltageLevel" (writeVL toyX Anon.none someVL2) (readVL toyX Anon.none) someVL2 := voltage_level_round_trip_partial toyX_integers someVL2_ok

/-- **C70, violation** (`VoltageLevelXml.cpp` l. 180-181) The buses of a switch of a bus/breaker voltage level are looked for with its anonymized identifier: as
soon as an anonymized identifier is not the identifier of a switch, the export fails. -/
theorem anonymized_switch_unwritable (K : XCodec) (A : Anon) (x : VL) (buses : List Bus) (sws : List BSw) (ht : x.topo = .bus buses sws)
    (h : ∃ s ∈ sws, A.anon s.ident.head.id ∉ sws.map fun y => y.ident.head.id) : writeVL K A x = .thrown := by
  have hb : ∀ l : List Bus, ∃ cs, writeList (writeBus K A) l = .ok cs := by
    intro l
    induction l with
    | nil => exact ⟨_, rfl⟩
    | cons b l ih => obtain ⟨cs, h⟩ := ih; exact ⟨_, by simp only [writeList, writeBus, h, Out.monad_bind_ok]; rfl⟩
  have hs : ∀ (ids : List String) (l : List BSw), (∃ s ∈ l, A.anon s.ident.head.id ∉ ids) → writeList (writeBSwIn A ids) l = .thrown := by
    intro ids l
    induction l with
    | nil => rintro ⟨s, hs, _⟩; cases hs
    | cons b l ih =>
      rintro ⟨s, hs, hn⟩
      by_cases hm : A.anon b.ident.head.id ∈ ids
      · have h1 : ∃ cs, writeBSwIn A ids b = .ok cs := by
          obtain ⟨k, hk, _⟩ := Enums.value_round_trip (names := Enums.switchKind.names) (v := 0) (by decide) (by decide)
          exact ⟨_, by simp only [writeBSwIn, List.contains_iff_mem.2 hm, Bool.not_true, check_false, Out.monad_bind_ok, writeBSw, hk]; rfl⟩
        obtain ⟨cs, h1⟩ := h1
        have h2 : ∃ s ∈ l, A.anon s.ident.head.id ∉ ids := by
          rcases List.mem_cons.1 hs with rfl | hs
          · exact absurd hm hn
          · exact ⟨s, hs, hn⟩
        simp only [writeList, h1, ih h2, Out.monad_bind_ok]
        rfl
      · have h1 : writeBSwIn A ids b = .thrown := by
          have : ids.contains (A.anon b.ident.head.id) = false := by
            cases hc : ids.contains (A.anon b.ident.head.id) with
            | false => rfl
            | true => exact absurd (List.contains_iff_mem.1 hc) hm
          simp only [writeBSwIn, this, Bool.not_false]
          rfl
        simp only [writeList, h1]
        rfl
  obtain ⟨cs, h1⟩ := hb buses
  have h2 := hs _ sws h
  obtain ⟨k, hk, _⟩ := Enums.value_round_trip (names := Enums.topologyKind.names) (v := 1) (by decide) (by decide)
  have h3 : writeTopo K A x.topo = .thrown := by
    rw [ht]
    simp only [writeTopo, h1, h2, Out.monad_bind_ok]
    rfl
  have hk' : Enums.toString Enums.topologyKind.names x.topo.kind = .ok k := by rw [ht]; exact hk
  simp only [writeVL, hk', h3, Out.monad_bind_ok]
  rfl

/-- With names `A`, `B`, …, the switch `S` is looked for as `C`. -/
example : writeVL toyX ⟨fun s => if s = "S" then "C" else s, .ok⟩ someVL2 = .thrown := anonymized_switch_unwritable _ _ _ _ _ rfl ⟨someBSw, by simp, by decide⟩

/-! ### Substations -/

/-- The tags are a set, without commas once anonymized, and not reduced to the empty one. -/
structure TagsOk (A : Anon) (tags : List String) : Prop where
  increasing : Increasing tags
  inverts : ∀ t ∈ tags, A.Inverts t
  commas : ∀ t ∈ tags, NoComma (A.anon t)
  notEmpty : tags.map A.anon ≠ [""]

structure SubstationOk (K : XCodec) (A : Anon) (x : Substation) : Prop where
  ident : IdentOk A x.ident
  country : ∀ c, x.country = some c → c < Enums.country.names.length
  tso : A.Inverts x.tso ∧ (x.tso ≠ "" → A.anon x.tso ≠ "")
  tags : TagsOk A x.tags
  vls : ∀ v ∈ x.vls, VLOk K A v
  tw2s : ∀ t ∈ x.tw2s, Tw2Ok K A t
  tw3s : ∀ t ∈ x.tw3s, Tw3Ok K A t

theorem joinComma_nil : ∀ (xs : List String), joinComma xs = [] → xs = [] ∨ xs = [""] := by
  intro xs h
  match xs with
  | [] => exact .inl rfl
  | [s] =>
    simp only [joinComma] at h
    have : s = "" := by
      rw [← String.ofList_toList (s := s), h]
    exact .inr (by rw [this])
  | s :: t :: ts => simp [joinComma] at h

theorem country_text {c : Option Nat} (h : ∀ i, c = some i → i < Enums.country.names.length) :
    ∃ as, countryAttrs c = .ok as ∧ (∀ k, k ≠ "country" → lookup k as = none) ∧
      ((c = none ∧ lookup "country" as = none) ∨ ∃ i k, c = some i ∧ lookup "country" as = some k ∧ k ≠ "" ∧ Enums.fromString Enums.country.names k = .ok i) := by
  cases c with
  | none => exact ⟨[], rfl, fun _ _ => rfl, .inl ⟨rfl, rfl⟩⟩
  | some i =>
    obtain ⟨k, hk1, hk2⟩ := Enums.value_round_trip (names := Enums.country.names) (by decide +kernel) (h i rfl)
    have hk0 : k ≠ "" := by
      rintro rfl
      rw [show Enums.fromString Enums.country.names "" = .thrown by decide +kernel] at hk2
      cases hk2
    refine ⟨[("country", k)], by simp [countryAttrs, hk1, Out.map], fun k' hk' => ?_, .inr ⟨i, k, rfl, by simp [lookup], hk0, hk2⟩⟩
    simp [lookup, Ne.symm hk']

/-- A substation is read back from its attributes and from any sub elements that are read as its voltage levels and its transformers. -/
theorem substation_of_body {K : XCodec} {A : Anon} {x : Substation} (h : SubstationOk K A x) {ca : List (String × String)} (hc2 : ∀ k, k ≠ "country" → lookup k ca = none)
    (hc3 : (x.country = none ∧ lookup "country" ca = none) ∨ ∃ i k, x.country = some i ∧ lookup "country" ca = some k ∧ k ≠ "" ∧ Enums.fromString Enums.country.names k = .ok i) {cs : List Cmd}
    (b : Body A (substationSub K A) "substation" cs ⟨[], [], []⟩ ⟨x.vls, x.tw2s, x.tw3s⟩) :
    ElemRT "substation" (.ok (writeElem A "substation" x.ident (substationAttrs A ca x) cs)) (readSubstation K A) x := by
  have hca : ∀ k, k ≠ "country" → lookup k ca = none := hc2
  refine readElem_ert (a := (x.country, x.tso, x.tags)) (s1 := ⟨x.vls, x.tw2s, x.tw3s⟩) h.ident
    ⟨by simp [substationAttrs, lookup_append, hca, lookup_ite, lookup_cons, lookup_nil], by simp [substationAttrs, lookup_append, hca, lookup_ite, lookup_cons, lookup_nil]⟩
    (by decide) rfl rfl (fun e tl => ?_) b rfl
  have l1 : lookup "country" (headAttrs A .v15 x.ident.head ++ substationAttrs A ca x) = lookup "country" ca := by
    simp [substationAttrs, lookup_append, lookup_ite, lookup_cons, lookup_nil, lookup_headAttrs]
  have l2 : lookup "tso" (headAttrs A .v15 x.ident.head ++ substationAttrs A ca x) = if x.tso ≠ "" then some (A.anon x.tso) else none := by
    simp [substationAttrs, lookup_append, lookup_ite, lookup_cons, lookup_nil, lookup_headAttrs, hca]
  have l3 : lookup "geographicalTags" (headAttrs A .v15 x.ident.head ++ substationAttrs A ca x) = if x.tags ≠ [] then some (String.ofList (joinComma (x.tags.map A.anon))) else none := by
    simp [substationAttrs, lookup_append, lookup_ite, lookup_cons, lookup_nil, lookup_headAttrs, hca]
  have r1 : readCountry (.start "substation" (headAttrs A .v15 x.ident.head ++ substationAttrs A ca x) e :: tl) = .ok x.country := by
    rcases hc3 with ⟨e1, e2⟩ | ⟨i, k, e1, e2, e3, e4⟩
    · simp [readCountry, optSOr, rawAttr, l1, e2, e1]
    · simp [readCountry, optSOr, rawAttr, l1, e2, e1, e3, e4, Out.map]
  have r2 : readTso A (.start "substation" (headAttrs A .v15 x.ident.head ++ substationAttrs A ca x) e :: tl) = .ok x.tso := by
    by_cases ht : x.tso = ""
    · simp [readTso, optSOr, rawAttr, l2, ht]
    · have h1 : A.dean (A.anon x.tso) = .ok x.tso := h.tso.1
      simp [readTso, optSOr, rawAttr, l2, ht, h.tso.2 ht, h1]
  have r3 : readGeoTags A (.start "substation" (headAttrs A .v15 x.ident.head ++ substationAttrs A ca x) e :: tl) = .ok x.tags := by
    by_cases ht : x.tags = []
    · simp [readGeoTags, optSOr, rawAttr, l3, ht]
    · have hne : x.tags.map A.anon ≠ [] := by simpa using ht
      have h0 : String.ofList (joinComma (x.tags.map A.anon)) ≠ "" := by
        intro e0
        have e1 : joinComma (x.tags.map A.anon) = [] := by
          have := congrArg String.toList e0
          simpa using this
        rcases joinComma_nil _ e1 with e2 | e2
        · exact hne e2
        · exact h.tags.notEmpty e2
      have h1 : splitComma (String.ofList (joinComma (x.tags.map A.anon))) = x.tags.map A.anon := split_join _ hne fun y hy => by
        obtain ⟨t, ht, rfl⟩ := List.mem_map.1 hy
        exact h.tags.commas t ht
      have h2 := readTags_back (A := A) x.tags [] h.tags.inverts (by simpa using h.tags.increasing)
      simp only [readGeoTags, optSOr, rawAttr, l3, if_pos ht, Out.bind_ok, Out.monad_bind_ok, if_neg h0, h1, h2, List.nil_append]
  unfold readSubstationRoot
  simp only [r1, r2, r3, Out.monad_bind_ok]

/-- **C70** A substation, with its country, its operator, its geographical tags, its voltage levels and its transformers, is read back as it was written. -/
theorem substation_round_trip_partial {K : XCodec} (hK : K.Integers) {A : Anon} {x : Substation} (h : SubstationOk K A x) :
    ElemRT "substation" (writeSubstation K A x) (readSubstation K A) x := by
  obtain ⟨ca, hc1, hc2, hc3⟩ := country_text h.country
  obtain ⟨c1, w1, b1⟩ := push_list (A := A) (h := substationSub K A) (root := "substation") (w := writeVL K A) SubstationSub.vls (fun s l => { s with vls := l }) rfl (fun _ _ => rfl) (fun _ _ _ => rfl)
    (fun _ => rfl) x.vls ⟨[], [], []⟩ fun v hv => voltage_level_round_trip_partial hK (h.vls v hv)
  obtain ⟨c2, w2, b2⟩ := push_list (A := A) (h := substationSub K A) (root := "substation") (w := writeTw2 K A) SubstationSub.tw2s (fun s l => { s with tw2s := l }) rfl (fun _ _ => rfl) (fun _ _ _ => rfl)
    (fun _ => rfl) x.tw2s ⟨x.vls, [], []⟩ fun v hv => two_windings_transformer_round_trip hK (h.tw2s v hv)
  obtain ⟨c3, w3, b3⟩ := push_list (A := A) (h := substationSub K A) (root := "substation") (w := writeTw3 K A) SubstationSub.tw3s (fun s l => { s with tw3s := l }) rfl (fun _ _ => rfl) (fun _ _ _ => rfl)
    (fun _ => rfl) x.tw3s ⟨x.vls, x.tw2s, []⟩ fun v hv => three_windings_transformer_round_trip hK (h.tw3s v hv)
  have hw : writeSubstation K A x = .ok (writeElem A "substation" x.ident (substationAttrs A ca x) (c1 ++ (c2 ++ c3))) := by
    simp only [writeSubstation, hc1, w1, w2, w3, Out.monad_bind_ok]
  rw [hw]
  simp only [List.nil_append] at b1 b2 b3
  exact substation_of_body h hc2 hc3 (b1.append (b2.append b3))

def someSubstation : Substation := ⟨⟨⟨"P", "", false⟩, [], []⟩, some 74, "RTE", ["A", "B"], [someVL, someVL2], [someTw2], [someTw3]⟩

theorem someSubstation_ok : SubstationOk toyX Anon.none someSubstation where
  ident := plain_ident
  country := by rintro c ⟨⟩; decide +kernel
  tso := ⟨rfl, by decide⟩
  tags := ⟨by simp [Increasing, someSubstation], fun _ _ => rfl, by decide, by decide⟩
  vls := by
    intro v hv
    simp only [someSubstation, List.mem_cons, List.not_mem_nil, or_false] at hv
    rcases hv with rfl | rfl
    · exact someVL_ok
    · exact someVL2_ok
  tw2s := by simpa [someSubstation] using someTw2_ok
  tw3s := by simpa [someSubstation] using someTw3_ok

theorem someSubstation_read : ElemRT "substation" (writeSubstation toyX Anon.none someSubstation) (readSubstation toyX Anon.none) someSubstation :=
  substation_round_trip_partial toyX_integers someSubstation_ok

/-- An element cannot be read back as two different ones. -/
theorem ElemRT.unique {α : Type} {n : String} {w : Out (List Cmd)} {read : List Tok → Out (α × List Tok)} {a b : α} (h1 : ElemRT n w read a) (h2 : ElemRT n w read b) : a = b := by
  obtain ⟨as, body, e1, r1⟩ := h1
  obtain ⟨as', body', e2, r2⟩ := h2
  rw [e1] at e2
  simp only [Out.ok.injEq] at e2
  rw [← e2] at r2
  obtain ⟨t1, _, p1, q1⟩ := r1 false
  obtain ⟨t2, _, p2, q2⟩ := r2 false
  have h := (p1 ⟨[], ["x"], none⟩ (by simp)).symm.trans (p2 ⟨[], ["x"], none⟩ (by simp))
  simp only [Out.ok.injEq, W.mk.injEq, List.append_cancel_left_eq, and_true] at h
  subst h
  have h := (q1 []).symm.trans (q2 [])
  simp only [Out.ok.injEq, Prod.mk.injEq] at h
  exact h.1

/-- Substations that are written in the same way cannot both be read back. -/
theorem substation_not_read {K : XCodec} (hK : K.Integers) {A : Anon} {x y : Substation} (hy : SubstationOk K A y) (hne : x ≠ y) (hw : writeSubstation K A x = writeSubstation K A y) :
    ¬ ElemRT "substation" (writeSubstation K A x) (readSubstation K A) x := by
  intro h
  rw [hw] at h
  exact hne (h.unique (substation_round_trip_partial hK hy))

/-- **C70, violation** (`SubstationXml.cpp` l. 55-61, 97) A tag with a comma is read back as several tags. -/
theorem tag_with_comma_split : ¬ ElemRT "substation" (writeSubstation toyX Anon.none { someSubstation with tags := ["A,B"] }) (readSubstation toyX Anon.none) { someSubstation with tags := ["A,B"] } :=
  substation_not_read toyX_integers (y := someSubstation) someSubstation_ok (by simp [someSubstation]) rfl

/-- **C70, violation** (l. 54-55) A substation whose only tag is the empty text is read back without tags. -/
theorem empty_tag_lost : ElemRT "substation" (writeSubstation toyX Anon.none ⟨⟨⟨"P", "", false⟩, [], []⟩, none, "", [""], [], [], []⟩) (readSubstation toyX Anon.none)
    ⟨⟨⟨"P", "", false⟩, [], []⟩, none, "", [], [], [], []⟩ := by
  refine readElem_ert (a := (none, "", [])) (s1 := ⟨[], [], []⟩) plain_ident ⟨by decide, by decide⟩ (by decide) rfl rfl (fun e tl => ?_) (body_nil _ _ _ _) rfl
  cases e <;> rfl

end Verif.XmlNet
