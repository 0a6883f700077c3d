import Verif.ExtNet.Props
import Verif.XmlNet.NetProps

/-! Property C80: a network with its extensions, read from its document. -/

namespace Verif.ExtNet

open Verif Verif.Xml Verif.XmlNet Verif.ExtXml

variable {ε X : Type}

theorem linesX_body {K : XCodec} (hK : K.Integers) {A : Anon} {Q : Providers ε X} {r : ROpts} {look : NetSub → String → Out ε} : ∀ (ls : List AnyLine) (s : NetSub × Sect X),
    (∀ l ∈ ls, AnyLineOk K A l) →
    ∃ cs, writeList (writeAnyLine K A) ls = .ok cs ∧ Body A (netSubX K A Q r look) "network" cs s ({ s.1 with lines := s.1.lines ++ ls }, s.2) := by
  intro ls
  induction ls with
  | nil => intro s _; exact ⟨[], rfl, by simpa using body_nil A (netSubX K A Q r look) "network" s⟩
  | cons l ls ih =>
    intro s h
    have h1 : ∃ c, writeAnyLine K A l = .ok c ∧ Body A (netSubX K A Q r look) "network" c s ({ s.1 with lines := s.1.lines ++ [l] }, s.2) := by
      cases l with
      | line x =>
        exact body_elem (line_round_trip hK (h _ List.mem_cons_self)) (cb := pushCb (readLine K A) fun s x => ({ s.1 with lines := s.1.lines ++ [.line x] }, s.2)) rfl
          fun toks r hr => by simp only [pushCb, hr, Out.monad_bind_ok]
      | tie x =>
        exact body_elem (tie_line_round_trip hK (h _ List.mem_cons_self)) (cb := pushCb (readTie K A) fun s x => ({ s.1 with lines := s.1.lines ++ [.tie x] }, s.2)) rfl
          fun toks r hr => by simp only [pushCb, hr, Out.monad_bind_ok]
    obtain ⟨c, h1, h2⟩ := h1
    obtain ⟨cs, h3, h4⟩ := ih ({ s.1 with lines := s.1.lines ++ [l] }, s.2) fun m hm => h m (List.mem_cons_of_mem _ hm)
    refine ⟨c ++ cs, by simp only [writeList, h1, h3, Out.monad_bind_ok], ?_⟩
    have := h2.append h4
    simpa using this

/-- The network that is read: the fictitious flag is lost (C71). -/
def Net.asRead {T : Type} (x : Net T) : Net T := { x with ident := { x.ident with head := { x.ident.head with fictitious := false } } }

/-- What is assumed of the extensions that the document carries: the identifiers can be read, the objects are found in the network that is read, and the extensions are
written (`Carries`); the result of reading each of them is `y`. -/
def CarriedOk {T : Type} (A : Anon) (nm : X → String) (P Q : Providers ε X) (o : WOpts) (r : ROpts) (look : NetSub → String → Out ε) (e : String → ε) (y : String → X → Out X) (x : Net T)
    (hs : List (Holder X)) : Prop :=
  ∀ p ∈ carried nm o hs, A.Inverts p.1 ∧ look ⟨x.subs, x.lines, x.hvdcs⟩ p.1 = .ok (e p.1) ∧ Carries nm P Q o r (e p.1) p.2 (y p.1 p.2)

theorem netX_reading {T : Type} {K : XCodec} (hK : K.Integers) {A : Anon} {D : Dates T} {x : Net T} (h : NetOk K A D x) {nm : X → String} {P Q : Providers ε X} {o : WOpts} {r : ROpts}
    {look : NetSub → String → Out ε} {e : String → ε} {y : String → X → Out X} {hs : List (Holder X)} (hc : CarriedOk A nm P Q o r look e y x hs)
    {ns : List (String × String)} (hns : namespaces nm P o hs = .ok ns) (i : Bool) :
    ∃ cs toks, writeNetX K A D nm P o x hs = .ok cs ∧ document i cs = .ok toks ∧
      readNetX K A D Q r look toks = (takePairs nm Q r y (carried nm o hs) Sect.empty).bind fun s => (checkMissing r s).bind fun _ => .ok (Net.asRead x, s) := by
  obtain ⟨c1, w1, b1⟩ := push_list (A := A) (h := netSubX K A Q r look) (root := "network") (w := writeSubstation K A) (fun s => s.1.subs) (fun s l => ({ s.1 with subs := l }, s.2)) rfl
    (fun _ _ => rfl) (fun _ _ _ => rfl) (fun _ => rfl) x.subs (⟨[], [], []⟩, Sect.empty) fun v hv => substation_round_trip_partial hK (h.subs v hv)
  obtain ⟨c2, w2, b2⟩ := linesX_body hK (Q := Q) (r := r) (look := look) x.lines (⟨x.subs, [], []⟩, Sect.empty) h.lines
  obtain ⟨c3, w3, b3⟩ := push_list (A := A) (h := netSubX K A Q r look) (root := "network") (w := writeHvdc K A) (fun s => s.1.hvdcs) (fun s l => ({ s.1 with hvdcs := l }, s.2)) rfl
    (fun _ _ => rfl) (fun _ _ _ => rfl) (fun _ => rfl) x.hvdcs (⟨x.subs, x.lines, []⟩, Sect.empty) fun v hv => hvdc_line_round_trip (h.hvdcs v hv)
  obtain ⟨c4, w4, b4⟩ := section_runs (K := K) (A := A) (nm := nm) (P := P) (Q := Q) (o := o) (r := r) (look := look) (e := e) (y := y) ⟨x.subs, x.lines, x.hvdcs⟩ hs (by
    intro g hg hne
    have hm : ∀ z ∈ g.written nm o, (g.id, z) ∈ carried nm o hs := fun z hz => by
      simp only [carried, List.mem_flatMap, List.mem_map]
      exact ⟨g, hg, z, hz, rfl⟩
    obtain ⟨z, hz⟩ := List.exists_mem_of_ne_nil _ hne
    obtain ⟨q1, q2, -⟩ := hc _ (hm z hz)
    exact ⟨q1, q2, fun z hz => (hc _ (hm z hz)).2.2⟩)
  obtain ⟨bw, j1, j2, j3⟩ := b4 i
  simp only [List.nil_append] at b1 b2 b3
  obtain ⟨⟨⟨id, name, fict⟩, aliases, props⟩, format, forecast, date, subs, lines, hvdcs⟩ := x
  obtain ⟨hname, hid, hformat, hal, hnd, hty, hpr, hfc, hdate, _, _, _⟩ := h
  simp only at *
  subst hname
  obtain ⟨bt, e1, e2, e3⟩ := aliases_body (A := A) (h := netSubX K A Q r look) (root := "network") (by decide) rfl (⟨[], [], []⟩, Sect.empty) i aliases ⟨⟨name, name, false⟩, [], []⟩ hal
    (by simpa using hnd) (by simpa using hty)
  obtain ⟨bu, f1, f2, f3⟩ := props_body (A := A) (h := netSubX K A Q r look) "network" rfl (⟨[], [], []⟩, Sect.empty) i props ⟨⟨name, name, false⟩, aliases, []⟩ (by simpa using hpr)
  obtain ⟨bv, g1, g2, g3⟩ := (b1.append (b2.append b3)) i
  have hcs : writeNetX K A D nm P o ⟨⟨⟨name, name, fict⟩, aliases, props⟩, format, forecast, date, subs, lines, hvdcs⟩ hs =
      .ok (elemCmds "network" (netAttrs K D ⟨⟨⟨name, name, fict⟩, aliases, props⟩, format, forecast, date, subs, lines, hvdcs⟩)
        (identCmds A ⟨⟨name, name, fict⟩, aliases, props⟩ ++ (c1 ++ (c2 ++ c3)) ++ c4)) := by
    simp only [writeNetX, hns, w1, w2, w3, w4, Out.monad_bind_ok, List.append_assoc]
  refine ⟨_, _, hcs, document_root "network" _ (((e1.append f1).append g1).append j1), ?_⟩
  have hr : Reads (elemCb A (netSubX K A Q r look)) "network" (⟨⟨name, name, false⟩, [], []⟩, (⟨[], [], []⟩, Sect.empty)) (bt ++ bu ++ bv)
      (⟨⟨name, name, false⟩, aliases, props⟩, (⟨subs, lines, hvdcs⟩, Sect.empty)) := by
    have h1 : Reads (elemCb A (netSubX K A Q r look)) "network" (⟨⟨name, name, false⟩, [], []⟩, (⟨[], [], []⟩, Sect.empty)) bt
        (⟨⟨name, name, false⟩, aliases, []⟩, (⟨[], [], []⟩, Sect.empty)) := by simpa using e2
    have h2 : Reads (elemCb A (netSubX K A Q r look)) "network" (⟨⟨name, name, false⟩, aliases, []⟩, (⟨[], [], []⟩, Sect.empty)) bu
        (⟨⟨name, name, false⟩, aliases, props⟩, (⟨[], [], []⟩, Sect.empty)) := by simpa using f2
    exact (h1.append h2).append (g2 _)
  have hrun := hr.runs.append (us := bw) (f := fun _ => (takeSection nm Q o r y hs Sect.empty).map fun s' => (⟨⟨name, name, false⟩, aliases, props⟩, (⟨subs, lines, hvdcs⟩, s'))) (by
    intro s' hs'
    cases hs'
    exact j3 _ _)
  rw [Out.bind_ok] at hrun
  have hru := readUntilEnd_runs (as := netAttrs K D ⟨⟨⟨name, name, fict⟩, aliases, props⟩, format, forecast, date, subs, lines, hvdcs⟩) i hrun (by
    intro hnil
    obtain ⟨n123, n4⟩ := List.append_eq_nil_iff.1 hnil
    obtain ⟨n12, n3⟩ := List.append_eq_nil_iff.1 n123
    obtain ⟨n1, n2⟩ := List.append_eq_nil_iff.1 n12
    rw [j2 n4, e3 n1, f3 n2, Out.map, ← g3 n3]) []
  rw [List.append_nil] at hru
  rw [takeSection_pairs] at hru
  obtain ⟨e, tl, hc⟩ := core_start i "network" (netAttrs K D ⟨⟨⟨name, name, fict⟩, aliases, props⟩, format, forecast, date, subs, lines, hvdcs⟩) (bt ++ bu ++ bv ++ bw)
  rw [hc] at hru ⊢
  have l1 := getS_attr (k := "id") (v := name) (n := "network") (e := e) (rest := tl) (as := netAttrs K D ⟨⟨⟨name, name, fict⟩, aliases, props⟩, format, forecast, date, subs, lines, hvdcs⟩) (by simp [netAttrs, lookup])
  have l2 := getS_attr (k := "sourceFormat") (v := format) (n := "network") (e := e) (rest := tl) (as := netAttrs K D ⟨⟨⟨name, name, fict⟩, aliases, props⟩, format, forecast, date, subs, lines, hvdcs⟩) (by simp [netAttrs, attrI, lookup])
  have l3 := getS_attr (k := "caseDate") (v := D.print date) (n := "network") (e := e) (rest := tl) (as := netAttrs K D ⟨⟨⟨name, name, fict⟩, aliases, props⟩, format, forecast, date, subs, lines, hvdcs⟩) (by simp [netAttrs, lookup])
  have l4 : optInt K "forecastDistance" (.start "network" (netAttrs K D ⟨⟨⟨name, name, fict⟩, aliases, props⟩, format, forecast, date, subs, lines, hvdcs⟩) e :: tl) = .ok (some forecast) := by
    have := hK.int forecast (by omega) hfc.2
    simp [optInt, rawAttr, netAttrs, attrI, lookup, this, Out.map]
  have l5 : D.parse (D.print date) = .ok date := hdate
  have l6 : decide (forecast < 0) = false := by simp; omega
  unfold readNetX
  simp only [l1, l2, l3, l4, l5, hru, Out.monad_bind_ok, Option.getD_some, beq_eq_false_iff_ne.2 hid, beq_eq_false_iff_ne.2 hformat, l6, Bool.or_false, check_false]
  cases takePairs nm Q r y (carried nm o hs) Sect.empty <;> rfl

/-- **C80.**  A network is written with its extensions exactly when the namespaces can be declared and every extension that the document has to carry can be written. -/
theorem netX_written_iff {T : Type} {K : XCodec} (hK : K.Integers) {A : Anon} {D : Dates T} {x : Net T} (h : NetOk K A D x) (nm : X → String) (P : Providers ε X) (o : WOpts) (hs : List (Holder X)) :
    (∃ cs, writeNetX K A D nm P o x hs = .ok cs) ↔ (∃ ns, namespaces nm P o hs = .ok ns) ∧ ∀ p ∈ carried nm o hs, Writable nm P o p.2 := by
  rw [← section_written_iff A]
  obtain ⟨cs, _, hw, -⟩ := network_round_trip_partial hK h false
  obtain ⟨c1, w1, hw⟩ := Out.bind_eq_ok.1 hw
  obtain ⟨c2, w2, hw⟩ := Out.bind_eq_ok.1 hw
  obtain ⟨c3, w3, -⟩ := Out.bind_eq_ok.1 hw
  constructor
  · rintro ⟨cs, h⟩
    obtain ⟨ns, h1, h⟩ := Out.bind_eq_ok.1 h
    obtain ⟨_, -, h⟩ := Out.bind_eq_ok.1 h
    obtain ⟨_, -, h⟩ := Out.bind_eq_ok.1 h
    obtain ⟨_, -, h⟩ := Out.bind_eq_ok.1 h
    obtain ⟨c4, h2, -⟩ := Out.bind_eq_ok.1 h
    exact ⟨⟨ns, h1⟩, c4, h2⟩
  · rintro ⟨⟨ns, h1⟩, c4, h2⟩
    exact ⟨_, by simp only [writeNetX, h1, w1, w2, w3, h2, Out.monad_bind_ok]; rfl⟩

/-- **C80.**  A network is written with the extensions that are asked for; the document is read back as the network, and the objects get the extensions that the reader
asks for and has a serializer for, in the order of the document.  The other ones are left out.
`_partial`: the document is refused instead when an extension cannot be read back (`refused_extension`) and when the option to throw is set and a serializer is missing
(`missing_serializer`). -/
theorem network_extensions_round_trip_partial {T : Type} {K : XCodec} (hK : K.Integers) {A : Anon} {D : Dates T} {x : Net T} (h : NetOk K A D x) {nm : X → String}
    {P Q : Providers ε X} {o : WOpts} {r : ROpts} {look : NetSub → String → Out ε} {e : String → ε} {y : String → X → Out X} {hs : List (Holder X)}
    (hc : CarriedOk A nm P Q o r look e y x hs) {ns : List (String × String)} (hns : namespaces nm P o hs = .ok ns) (i : Bool) {z : String → X → X}
    (hz : ∀ p ∈ carried nm o hs, Known nm Q r p.2 → y p.1 p.2 = .ok (z p.1 p.2)) (hm : r.strict = true → ∀ p ∈ carried nm o hs, ¬ Missed nm Q r p.2) :
    ∃ cs toks s, writeNetX K A D nm P o x hs = .ok cs ∧ document i cs = .ok toks ∧ readNetX K A D Q r look toks = .ok (Net.asRead x, s) ∧
      s.got = ((carried nm o hs).filter fun p => decide (Known nm Q r p.2)).map fun p => (p.1, z p.1 p.2) := by
  obtain ⟨cs, toks, h1, h2, h3⟩ := netX_reading hK h hc hns i
  obtain ⟨s, h4, h5⟩ := pairs_ok (carried nm o hs) Sect.empty hz
  refine ⟨cs, toks, s, h1, h2, ?_, by simpa [Sect.empty] using h5⟩
  rw [h3, h4, Out.bind_ok]
  have : checkMissing r s = .ok () := by
    unfold checkMissing
    cases hst : r.strict with
    | false => simp
    | true =>
      have hemp : s.missing = [] := by
        refine List.eq_nil_iff_forall_not_mem.2 fun n hn => ?_
        rcases (pairs_missing _ _ _ h4 n).1 hn with h | ⟨p, hp, hmi, -⟩
        · cases h
        · exact hm hst p hp hmi
      simp [hemp]
  rw [this, Out.bind_ok]

/-- **C80.**  One extension that is refused (asked for by the reader, which has a serializer for it) and the whole document is refused. -/
theorem refused_extension {T : Type} {K : XCodec} (hK : K.Integers) {A : Anon} {D : Dates T} {x : Net T} (h : NetOk K A D x) {nm : X → String}
    {P Q : Providers ε X} {o : WOpts} {r : ROpts} {look : NetSub → String → Out ε} {e : String → ε} {y : String → X → Out X} {hs : List (Holder X)}
    (hc : CarriedOk A nm P Q o r look e y x hs) {ns : List (String × String)} (hns : namespaces nm P o hs = .ok ns) (i : Bool)
    {p : String × X} (hp : p ∈ carried nm o hs) (hk : Known nm Q r p.2) (hy : y p.1 p.2 = .thrown) :
    ∃ cs toks, writeNetX K A D nm P o x hs = .ok cs ∧ document i cs = .ok toks ∧ readNetX K A D Q r look toks = .thrown := by
  obtain ⟨cs, toks, h1, h2, h3⟩ := netX_reading hK h hc hns i
  refine ⟨cs, toks, h1, h2, ?_⟩
  have := (pairs_defined (Q := Q) (r := r) (y := y) (carried nm o hs) Sect.empty fun q hq hkq => by
    obtain ⟨-, -, as, body, -, -, hcar⟩ := hc q hq
    obtain ⟨w, hw⟩ := Option.isSome_iff_exists.1 hkq.2
    exact (hcar hkq.1 w hw).1).2 ⟨p, hp, hk, hy⟩
  rw [h3, this]
  rfl

/-- **C80.**  With the option to throw, an extension that is asked for by a reader that has no serializer for it, and the whole document is refused. -/
theorem missing_serializer {T : Type} {K : XCodec} (hK : K.Integers) {A : Anon} {D : Dates T} {x : Net T} (h : NetOk K A D x) {nm : X → String}
    {P Q : Providers ε X} {o : WOpts} {r : ROpts} {look : NetSub → String → Out ε} {e : String → ε} {y : String → X → Out X} {hs : List (Holder X)}
    (hc : CarriedOk A nm P Q o r look e y x hs) {ns : List (String × String)} (hns : namespaces nm P o hs = .ok ns) (i : Bool)
    {p : String × X} (hp : p ∈ carried nm o hs) (hk : Missed nm Q r p.2) (hst : r.strict = true) :
    ∃ cs toks, writeNetX K A D nm P o x hs = .ok cs ∧ document i cs = .ok toks ∧ readNetX K A D Q r look toks = .thrown := by
  obtain ⟨cs, toks, h1, h2, h3⟩ := netX_reading hK h hc hns i
  refine ⟨cs, toks, h1, h2, ?_⟩
  have hub := (pairs_defined (Q := Q) (r := r) (y := y) (carried nm o hs) Sect.empty fun q hq hkq => by
    obtain ⟨-, -, as, body, -, -, hcar⟩ := hc q hq
    obtain ⟨w, hw⟩ := Option.isSome_iff_exists.1 hkq.2
    exact (hcar hkq.1 w hw).1).1
  rw [h3]
  cases ht : takePairs nm Q r y (carried nm o hs) Sect.empty with
  | ub => exact absurd ht hub
  | thrown => rfl
  | ok s =>
    have hmem := (pairs_missing _ _ _ ht (nm p.2)).2 (.inr ⟨p, hp, hk, rfl⟩)
    have : checkMissing r s = .thrown := by
      unfold checkMissing
      cases hm : s.missing with
      | nil => rw [hm] at hmem; cases hmem
      | cons a l => simp [hst]
    rw [Out.bind_ok, this]
    rfl

end Verif.ExtNet
