import Verif.XmlNet.Net
import Verif.XmlNet.LevelsProps

/-!
C71: a whole network is read back from the document written for it.
-/

namespace Verif.XmlNet

open Verif Verif.Xml

def AnyLineOk (K : XCodec) (A : Anon) : AnyLine → Prop
  | .line x => LineOk K A x
  | .tie x => TieOk K A x

/-- What holds of every network, with names and values that can be read back. -/
structure NetOk {T : Type} (K : XCodec) (A : Anon) (D : Dates T) (x : Net T) : Prop where
  /-- Network.cpp l. 73. -/
  name : x.ident.head.name = x.ident.head.id
  id : x.ident.head.id ≠ ""
  format : x.sourceFormat ≠ ""
  aliases : ∀ a ∈ x.ident.aliases, AliasOk A a.1 ∧ a.1 ≠ x.ident.head.id
  nodup : (x.ident.aliases.map Prod.fst).Nodup
  types : x.ident.aliases.Pairwise fun a b => a.2 ≠ "" → a.2 ≠ b.2
  props : AMap.NodupKeys x.ident.props
  forecast : 0 ≤ x.forecast ∧ x.forecast < 2 ^ 31
  date : D.Exact x.date
  subs : ∀ s ∈ x.subs, SubstationOk K A s
  lines : ∀ l ∈ x.lines, AnyLineOk K A l
  hvdcs : ∀ l ∈ x.hvdcs, HvdcOk K A l

/-- The nodes of the root element. -/
theorem document_root {i : Bool} {body : List Cmd} {ts : List Tok} (n : String) (as : List (String × String)) (h : Emits i body ts) :
    document i (elemCmds n as body) = .ok (coreToks i n as ts) := by
  have : wrun i ⟨[], [], none⟩ (elemCmds n as body) = .ok ⟨elemToks i n as ts, [], none⟩ := by
    show wrun i ⟨[] ++ sp i, [n], some []⟩ (attrCmds as ++ (body ++ [.stop])) = _
    rw [wrun_append, wrun_attrs, Out.bind_ok, wrun_append, h.1 _ (by simp), Out.bind_ok]
    unfold W.after
    by_cases hts : ts = []
    · subst hts
      simp [wrun, wstep, elemToks, coreToks]
    · rw [if_neg hts]
      simp only [wrun, wstep, W.closed, elemToks, coreToks, if_neg hts]
      rw [endIndent_append i _ (h.2 hts)]
      simp
  unfold document
  rw [this]
  simp [Out.map, elemToks]

theorem lines_body {K : XCodec} (hK : K.Integers) {A : Anon} : ∀ (ls : List AnyLine) (s : NetSub), (∀ l ∈ ls, AnyLineOk K A l) →
    ∃ cs, writeList (writeAnyLine K A) ls = .ok cs ∧ Body A (netSub K A) "network" cs s { s with lines := s.lines ++ ls } := by
  intro ls
  induction ls with
  | nil => intro s _; exact ⟨[], rfl, by simpa using body_nil A (netSub K A) "network" s⟩
  | cons l ls ih =>
    intro s h
    have h1 : ∃ c, writeAnyLine K A l = .ok c ∧ Body A (netSub K A) "network" c s { s with lines := s.lines ++ [l] } := by
      cases l with
      | line x =>
        exact body_elem (line_round_trip hK (h _ List.mem_cons_self)) (cb := pushCb (readLine K A) fun s x => { s with lines := s.lines ++ [.line x] }) rfl
          fun toks r hr => by simp only [pushCb, hr, Out.monad_bind_ok]
      | tie x =>
        exact body_elem (tie_line_round_trip hK (h _ List.mem_cons_self)) (cb := pushCb (readTie K A) fun s x => { s with lines := s.lines ++ [.tie x] }) rfl
          fun toks r hr => by simp only [pushCb, hr, Out.monad_bind_ok]
    obtain ⟨c, h1, h2⟩ := h1
    obtain ⟨cs, h3, h4⟩ := ih { s with lines := s.lines ++ [l] } fun m hm => h m (List.mem_cons_of_mem _ hm)
    refine ⟨c ++ cs, by simp only [writeList, h1, h3, Out.monad_bind_ok], ?_⟩
    have := h2.append h4
    simpa using this

/-- A network is read back from its attributes, its names and properties, and from any sub elements that are read as its substations and its lines. -/
theorem net_of_body {T : Type} {K : XCodec} (hK : K.Integers) {A : Anon} {D : Dates T} {x : Net T} (h : NetOk K A D x) {cs : List Cmd}
    (b : Body A (netSub K A) "network" cs ⟨[], [], []⟩ ⟨x.subs, x.lines, x.hvdcs⟩) (i : Bool) :
    ∃ toks, document i (elemCmds "network" (netAttrs K D x) (identCmds A x.ident ++ cs)) = .ok toks ∧
      readNet K A D toks = .ok { x with ident := { x.ident with head := { x.ident.head with fictitious := false } } } := by
  obtain ⟨⟨⟨id, name, fict⟩, aliases, props⟩, format, forecast, date, subs, lines, hvdcs⟩ := x
  obtain ⟨hname, hid, hformat, hal, hnd, hty, hpr, hfc, hdate, _, _, _⟩ := h
  simp only at *
  subst hname
  obtain ⟨bt, e1, e2, e3⟩ := aliases_body (A := A) (h := netSub K A) (root := "network") (by decide) rfl ⟨[], [], []⟩ i aliases ⟨⟨name, name, false⟩, [], []⟩ hal (by simpa using hnd) (by simpa using hty)
  obtain ⟨bu, f1, f2, f3⟩ := props_body (A := A) (h := netSub K A) "network" rfl ⟨[], [], []⟩ i props ⟨⟨name, name, false⟩, aliases, []⟩ (by simpa using hpr)
  obtain ⟨bv, g1, g2, g3⟩ := b i
  refine ⟨_, document_root "network" _ ((e1.append f1).append g1), ?_⟩
  have hr : Reads (elemCb A (netSub K A)) "network" (⟨⟨name, name, false⟩, [], []⟩, ⟨[], [], []⟩) (bt ++ bu ++ bv) (⟨⟨name, name, false⟩, aliases, props⟩, ⟨subs, lines, hvdcs⟩) := by
    have h1 : Reads (elemCb A (netSub K A)) "network" (⟨⟨name, name, false⟩, [], []⟩, ⟨[], [], []⟩) bt (⟨⟨name, name, false⟩, aliases, []⟩, ⟨[], [], []⟩) := by simpa using e2
    have h2 : Reads (elemCb A (netSub K A)) "network" (⟨⟨name, name, false⟩, aliases, []⟩, ⟨[], [], []⟩) bu (⟨⟨name, name, false⟩, aliases, props⟩, ⟨[], [], []⟩) := by simpa using f2
    exact (h1.append h2).append (g2 _)
  have hru := readUntilEnd_core (as := netAttrs K D ⟨⟨⟨name, name, fict⟩, aliases, props⟩, format, forecast, date, subs, lines, hvdcs⟩) i hr (by
    intro hnil
    obtain ⟨n12, n3⟩ := List.append_eq_nil_iff.1 hnil
    obtain ⟨n1, n2⟩ := List.append_eq_nil_iff.1 n12
    rw [e3 n1, f3 n2, g3 n3]) []
  rw [List.append_nil] at hru
  obtain ⟨e, tl, hc⟩ := core_start i "network" (netAttrs K D ⟨⟨⟨name, name, fict⟩, aliases, props⟩, format, forecast, date, subs, lines, hvdcs⟩) (bt ++ bu ++ bv)
  rw [hc] at hru ⊢
  have l1 := getS_attr (k := "id") (v := name) (n := "network") (e := e) (rest := tl) (as := netAttrs K D ⟨⟨⟨name, name, fict⟩, aliases, props⟩, format, forecast, date, subs, lines, hvdcs⟩) (by simp [netAttrs, lookup])
  have l2 := getS_attr (k := "sourceFormat") (v := format) (n := "network") (e := e) (rest := tl) (as := netAttrs K D ⟨⟨⟨name, name, fict⟩, aliases, props⟩, format, forecast, date, subs, lines, hvdcs⟩) (by simp [netAttrs, attrI, lookup])
  have l3 := getS_attr (k := "caseDate") (v := D.print date) (n := "network") (e := e) (rest := tl) (as := netAttrs K D ⟨⟨⟨name, name, fict⟩, aliases, props⟩, format, forecast, date, subs, lines, hvdcs⟩) (by simp [netAttrs, lookup])
  have l4 : optInt K "forecastDistance" (.start "network" (netAttrs K D ⟨⟨⟨name, name, fict⟩, aliases, props⟩, format, forecast, date, subs, lines, hvdcs⟩) e :: tl) = .ok (some forecast) := by
    have := hK.int forecast (by omega) hfc.2
    simp [optInt, rawAttr, netAttrs, attrI, lookup, this, Out.map]
  have l5 : D.parse (D.print date) = .ok date := hdate
  have l6 : decide (forecast < 0) = false := by simp; omega
  unfold readNet
  simp only [l1, l2, l3, l4, l5, hru, Out.monad_bind_ok, Option.getD_some, beq_eq_false_iff_ne.2 hid, beq_eq_false_iff_ne.2 hformat, l6, Bool.or_false, check_false]

/-- **C71** Writing a network succeeds, in every layout; the document is read back as the same network, but for its fictitious flag, which is not written.
`_partial`: see `network_fictitious_lost`, and the conditions of `voltage_level_round_trip_partial` and `substation_round_trip_partial`. -/
theorem network_round_trip_partial {T : Type} {K : XCodec} (hK : K.Integers) {A : Anon} {D : Dates T} {x : Net T} (h : NetOk K A D x) (i : Bool) :
    ∃ cs toks, writeNet K A D x = .ok cs ∧ document i cs = .ok toks ∧
      readNet K A D toks = .ok { x with ident := { x.ident with head := { x.ident.head with fictitious := false } } } := by
  obtain ⟨c1, w1, b1⟩ := push_list (A := A) (h := netSub K A) (root := "network") (w := writeSubstation K A) NetSub.subs (fun s l => { s with subs := l }) rfl (fun _ _ => rfl) (fun _ _ _ => rfl)
    (fun _ => rfl) x.subs ⟨[], [], []⟩ fun v hv => substation_round_trip_partial hK (h.subs v hv)
  obtain ⟨c2, w2, b2⟩ := lines_body hK x.lines ⟨x.subs, [], []⟩ h.lines
  obtain ⟨c3, w3, b3⟩ := push_list (A := A) (h := netSub K A) (root := "network") (w := writeHvdc K A) NetSub.hvdcs (fun s l => { s with hvdcs := l }) rfl (fun _ _ => rfl) (fun _ _ _ => rfl)
    (fun _ => rfl) x.hvdcs ⟨x.subs, x.lines, []⟩ fun v hv => hvdc_line_round_trip (h.hvdcs v hv)
  simp only [List.nil_append] at b1 b2 b3
  obtain ⟨toks, h1, h2⟩ := net_of_body hK h (b1.append (b2.append b3)) i
  exact ⟨_, toks, (by simp only [writeNet, w1, w2, w3, Out.monad_bind_ok]), h1, h2⟩

/-- Dates kept as texts. -/
def textDates : Dates String := ⟨id, .ok⟩

def someNet : Net String :=
  ⟨⟨⟨"N", "N", false⟩, [("other name", "")], [("k", "v")]⟩, "test", 15, "2026-11-17", [someSubstation, ⟨⟨⟨"P2", "", false⟩, [], []⟩, none, "", [], [], [], []⟩], [.line someLine, .tie someTie], [someHvdc]⟩

theorem someNet_ok : NetOk toyX Anon.none textDates someNet where
  name := rfl
  id := by decide
  format := by decide
  aliases := by
    intro a ha
    simp only [someNet, List.mem_cons, List.not_mem_nil, or_false] at ha
    subst ha
    exact ⟨⟨rfl, by decide⟩, by decide⟩
  nodup := by decide
  types := by simp [someNet]
  props := by simp [someNet, AMap.NodupKeys, AMap.keys]
  forecast := by decide
  date := rfl
  subs := by
    intro s hs
    simp only [someNet, List.mem_cons, List.not_mem_nil, or_false] at hs
    rcases hs with rfl | rfl
    · exact someSubstation_ok
    · exact ⟨plain_ident, nofun, ⟨rfl, by decide⟩, ⟨.nil, no_one, no_one, by decide⟩, no_one, no_one, no_one⟩
  lines := by
    intro l hl
    simp only [someNet, List.mem_cons, List.not_mem_nil, or_false] at hl
    rcases hl with rfl | rfl
    · exact someLine_ok
    · exact someTie_ok
  hvdcs := by
    intro l hl
    simp only [someNet, List.mem_cons, List.not_mem_nil, or_false] at hl
    subst hl
    exact someHvdc_ok

/-- A whole network, with one element of each class. -/
theorem someNet_read (i : Bool) : ∃ cs toks, writeNet toyX Anon.none textDates someNet = .ok cs ∧ document i cs = .ok toks ∧ readNet toyX Anon.none textDates toks = .ok someNet :=
  network_round_trip_partial toyX_integers someNet_ok i

/-- **C71** Two networks that differ by more than their fictitious flag are never written in the same way. -/
theorem documents_differ {T : Type} {K : XCodec} (hK : K.Integers) {A : Anon} {D : Dates T} {x y : Net T} (hx : NetOk K A D x) (hy : NetOk K A D y)
    (h : writeNet K A D x = writeNet K A D y) :
    { x with ident := { x.ident with head := { x.ident.head with fictitious := false } } } = { y with ident := { y.ident with head := { y.ident.head with fictitious := false } } } := by
  obtain ⟨cs, ts, h1, h2, h3⟩ := network_round_trip_partial hK hx false
  obtain ⟨cs', ts', h4, h5, h6⟩ := network_round_trip_partial hK hy false
  rw [h1, h4] at h
  simp only [Out.ok.injEq] at h
  subst h
  rw [h2] at h5
  simp only [Out.ok.injEq] at h5
  subst h5
  rw [h3] at h6
  simpa using h6

/-- **C71, violation** (`NetworkXml.cpp` l. 308-311) The fictitious flag of a network is lost: a fictitious network is read back as one that is not. -/
theorem network_fictitious_lost {T : Type} {K : XCodec} (hK : K.Integers) {A : Anon} {D : Dates T} {x : Net T} (h : NetOk K A D x) (hf : x.ident.head.fictitious = true) (i : Bool) :
    ∃ cs toks y, writeNet K A D x = .ok cs ∧ document i cs = .ok toks ∧ readNet K A D toks = .ok y ∧ y ≠ x := by
  obtain ⟨cs, ts, h1, h2, h3⟩ := network_round_trip_partial hK h i
  refine ⟨cs, ts, _, h1, h2, h3, fun e => ?_⟩
  have := congrArg (fun z : Net T => z.ident.head.fictitious) e
  simp only [hf] at this
  cases this

example : NetOk toyX Anon.none textDates { someNet with ident := { someNet.ident with head := ⟨"N", "N", true⟩ } } :=
  ⟨rfl, by decide, by decide, someNet_ok.aliases, someNet_ok.nodup, someNet_ok.types, someNet_ok.props, by decide, rfl, someNet_ok.subs, someNet_ok.lines, someNet_ok.hvdcs⟩

end Verif.XmlNet
