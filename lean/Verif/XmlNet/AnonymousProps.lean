import Verif.XmlNet.AnonymousLemmas

/-!
C73: an anonymized document says of a network what the network with the replaced names would say, and nothing more.
-/

namespace Verif.XmlNet

open Verif Verif.Xml

/-- The network without its fictitious flag, which is not written. -/
def Net.written {T : Type} (x : Net T) : Net T := { x with ident := { x.ident with head := { x.ident.head with fictitious := false } } }

/-- The identifier of the network, which is not replaced, is not the one that replaces another name. -/
def Net.Apart {T : Type} (A : Anon) (x : Net T) : Prop := ∀ y ∈ netItems x, ∀ s ∈ y.names, s ≠ x.ident.head.id → A.anon s ≠ x.ident.head.id

/-- The tags of each substation stay in the order of a `std::set`. -/
def Net.TagsInOrder {T : Type} (A : Anon) (x : Net T) : Prop := ∀ s ∈ x.subs, Increasing (s.tags.map A.anon)

/-- **C73** The anonymized document of a network is the document, not anonymized, of the network with the replaced names.
`_partial`: the conditions of `network_round_trip_partial`. -/
theorem anonymous_document_partial {T : Type} {K : XCodec} {A : Anon} {D : Dates T} {x : Net T} (h : NetOk K A D x) :
    writeNet K A D x = writeNet K .none D (x.renamed A.anon) := (net_rn h).symm

theorem written_same {T : Type} (K : XCodec) (A : Anon) (D : Dates T) (x : Net T) : writeNet K A D x.written = writeNet K A D x := rfl

theorem alias_apart {T : Type} {K : XCodec} {A : Anon} {D : Dates T} {x : Net T} (h : NetOk K A D x) (ha : x.Apart A) : ∀ a ∈ x.ident.aliases, A.anon a.1 ≠ x.ident.head.id :=
  fun a hm => ha _ List.mem_cons_self a.1 (List.mem_cons_of_mem _ (List.mem_map.2 ⟨a, hm, rfl⟩)) (h.aliases a hm).2

/-- **C73** Two networks, each with its anonymizer, have the same document if and only if they are the same once their names are replaced: an anonymized document does
not say which names were replaced, and says everything else. -/
theorem anonymous_documents_iff {T : Type} {K : XCodec} (hK : K.Integers) {A B : Anon} (hA : A.KeepsEmpty) (hB : B.KeepsEmpty) {D : Dates T} {x y : Net T} (hx : NetOk K A D x)
    (hy : NetOk K B D y) (tx : x.TagsInOrder A) (ty : y.TagsInOrder B) (ax : x.Apart A) (ay : y.Apart B) :
    writeNet K A D x = writeNet K B D y ↔ (x.renamed A.anon).written = (y.renamed B.anon).written := by
  rw [anonymous_document_partial hx, anonymous_document_partial hy]
  constructor
  · exact documents_differ hK (net_ok hA hx tx (alias_apart hx ax)) (net_ok hB hy ty (alias_apart hy ay))
  · intro h
    rw [← written_same K .none D (x.renamed A.anon), h, written_same]

/-- **C73** Read without the file of the names, an anonymized document gives the network with the replaced names.
`_partial`: the conditions of `network_round_trip_partial`; the replaced tags must be in increasing order, as in the `std::set` that they are read into. -/
theorem anonymous_read_partial {T : Type} {K : XCodec} (hK : K.Integers) {A : Anon} (hA : A.KeepsEmpty) {D : Dates T} {x : Net T} (h : NetOk K A D x) (ht : x.TagsInOrder A)
    (ha : x.Apart A) (i : Bool) :
    ∃ cs toks, writeNet K A D x = .ok cs ∧ document i cs = .ok toks ∧ readNet K A D toks = .ok x.written ∧ readNet K .none D toks = .ok (x.renamed A.anon).written := by
  obtain ⟨cs, toks, h1, h2, h3⟩ := network_round_trip_partial hK h i
  obtain ⟨cs', toks', h4, h5, h6⟩ := network_round_trip_partial hK (net_ok hA h ht (alias_apart h ha)) i
  rw [← anonymous_document_partial h, h1, Out.ok.injEq] at h4
  subst h4
  rw [h2, Out.ok.injEq] at h5
  subst h5
  exact ⟨cs, toks, h1, h2, h3, h6⟩

/-- **C73** Without the file of the names, the anonymized document of a network whose objects go together is imported.
`_partial`: the network has no HVDC line (see `anonymous_hvdc_refused`), and the conditions of `anonymous_read_partial`. -/
theorem anonymous_import_partial {T : Type} {K : XCodec} (hK : K.Integers) {A : Anon} (hA : A.KeepsEmpty) {D : Dates T} {x : Net T} (h : NetOk K A D x) (ht : x.TagsInOrder A)
    (ha : x.Apart A) (hc : Consistent (netItems x)) (hr : ∀ r, x.HasRef r → RefNamed (netItems x) r) (hh : x.hvdcs = []) (i : Bool) :
    ∃ cs toks r, writeNet K A D x = .ok cs ∧ document i cs = .ok toks ∧ importNet K .none D toks = .ok ((x.renamed A.anon).written, r) := by
  have hin : ∀ y ∈ inner x, ∀ s ∈ y.names, s ≠ x.ident.head.id := by
    intro y hy s hs e
    have hd := hc.names
    rw [netItems_eq, List.flatMap_cons] at hd
    exact (List.nodup_append.1 hd).2.2 x.ident.head.id List.mem_cons_self s (List.mem_flatMap.2 ⟨y, hy, hs⟩) e.symm
  have hcons : Consistent (netItems (x.renamed A.anon)) := by
    rw [netItems_eq, inner_rn]
    exact consistent_rn hA hc (fun a hm => (h.aliases a hm).1.1) h.inverts (fun y hy s hs => ha y (List.mem_cons_of_mem _ hy) s hs (hin y hy s hs)) (alias_apart h ha) (inner_stations hh)
  obtain ⟨cs, toks, r, h1, h2, h3⟩ := import_export_partial hK (net_ok hA h ht (alias_apart h ha)) hcons
    (fun r hr' => by obtain ⟨q, hq, rfl⟩ := hasRef_rn hr'; exact refNamed_rn (hr q hq)) i
  exact ⟨cs, toks, r, (anonymous_document_partial h).trans h1, h2, h3⟩

/-- **C73, violation** (`HvdcLineXml.cpp` l. 39-40, 63-64) Without the file of the names, an anonymized document with an HVDC line is refused: the line names its
converter stations, that have other names in the document. -/
theorem anonymous_hvdc_refused {T : Type} {K : XCodec} (hK : K.Integers) {A : Anon} (hA : A.KeepsEmpty) {D : Dates T} {x : Net T} (h : NetOk K A D x) (ht : x.TagsInOrder A)
    (ha : x.Apart A) {l : HvdcLine} (hl : l ∈ x.hvdcs) (hs : ∀ y ∈ netItems (x.renamed A.anon), l.station1 ∉ y.names) (i : Bool) :
    ∃ cs toks, writeNet K A D x = .ok cs ∧ document i cs = .ok toks ∧ importNet K .none D toks = .thrown := by
  obtain ⟨cs, toks, h1, h2, _, h3⟩ := anonymous_read_partial hK hA h ht ha i
  refine ⟨cs, toks, h1, h2, ?_⟩
  have hno : ¬ ∃ r, accept (x.renamed A.anon).written = .ok r := by
    rintro ⟨⟨st, ts⟩, hr⟩
    obtain ⟨_, _, hh, _⟩ := accept_result hr
    obtain ⟨t, _, ht⟩ := hh.left (l.renamed A.anon) (List.mem_map.2 ⟨l, hl, rfl⟩)
    obtain ⟨_, ⟨y, hy, _, _, hn⟩, _⟩ := ht
    rcases List.mem_cons.1 hy with hy | hy
    · subst hy
      exact hs (plain (x.renamed A.anon).ident .other) List.mem_cons_self hn
    · exact hs y (List.mem_cons_of_mem _ hy) hn
  unfold importNet
  rw [h3, Out.monad_bind_ok]
  cases hr : accept (x.renamed A.anon).written with
  | ok r => exact absurd ⟨r, hr⟩ hno
  | ub => exact absurd hr (accept_defined _)
  | thrown => rfl

theorem list_written {α : Type} {w : α → Out (List Cmd)} : ∀ {l : List α} {cs : List Cmd}, writeList w l = .ok cs → ∀ x ∈ l, ∃ c, w x = .ok c ∧ ∀ k ∈ c, k ∈ cs
  | [], _, _, _, hx => nomatch hx
  | y :: l, cs, h, x, hx => by
    obtain ⟨c, h1, h⟩ := Out.bind_eq_ok.1 h
    obtain ⟨ds, h2, h⟩ := Out.bind_eq_ok.1 h
    simp only [Out.ok.injEq] at h
    subst h
    rcases List.mem_cons.1 hx with hx | hx
    · subst hx
      exact ⟨c, h1, fun k hk => List.mem_append_left _ hk⟩
    · obtain ⟨d, h3, h4⟩ := list_written h2 x hx
      exact ⟨d, h3, fun k hk => List.mem_append_right _ (h4 k hk)⟩

/-- **C73, violation** The identifiers of the converter stations of the HVDC lines are in the anonymized document as they are, whatever the anonymizer. -/
theorem hvdc_stations_revealed {T : Type} {K : XCodec} {A : Anon} {D : Dates T} {x : Net T} {cs : List Cmd} (h : writeNet K A D x = .ok cs) {l : HvdcLine} (hl : l ∈ x.hvdcs) :
    .attr "converterStation1" l.station1 ∈ cs ∧ .attr "converterStation2" l.station2 ∈ cs := by
  obtain ⟨c1, _, h⟩ := Out.bind_eq_ok.1 h
  obtain ⟨c2, _, h⟩ := Out.bind_eq_ok.1 h
  obtain ⟨c3, h3, h⟩ := Out.bind_eq_ok.1 h
  simp only [Out.ok.injEq] at h
  subst h
  obtain ⟨d, h4, h5⟩ := list_written h3 l hl
  obtain ⟨m, _, h4⟩ := Out.bind_eq_ok.1 h4
  simp only [Out.ok.injEq] at h4
  subst h4
  have key : ∀ k, k ∈ writeElem A "hvdcLine" l.ident (hvdcAttrs K m l) [] → k ∈ elemCmds "network" (netAttrs K D x) (identCmds A x.ident ++ (c1 ++ (c2 ++ c3))) := by
    intro k hk
    have := h5 k hk
    simp [elemCmds, this]
  constructor <;> refine key _ ?_ <;> simp [writeElem, elemCmds, attrCmds, hvdcAttrs]

/-! ### A network and a `SimpleAnonymizer` -/

/-- The mapping of an export. -/
def secretNames : Anon := Anon.ofMapping
  [("P".toList, "A".toList), ("RTE".toList, "B".toList), ("north".toList, "C".toList), ("west".toList, "D".toList), ("V1".toList, "E".toList), ("level".toList, "F".toList),
   ("BBS".toList, "G".toList), ("L".toList, "H".toList), ("C1".toList, "I".toList), ("C2".toList, "J".toList), ("LN".toList, "K".toList), ("HL".toList, "L".toList)]

def secretLevel : VL := ⟨⟨⟨"V1", "", false⟩, [("level", "")], []⟩, 225, .nan, 250, .node [⟨⟨⟨"BBS", "", false⟩, [], []⟩, 0⟩] [] [(1, 2)] [],
  ⟨[], [], [⟨⟨⟨"L", "", true⟩, [], [("k", "v")]⟩, 1, 12, 3, ⟨.node 1, 2, .nan⟩⟩], [], [], [], [],
    [⟨⟨⟨"C1", "", false⟩, [], []⟩, 2, 1, ⟨.node 4, 7, .nan⟩⟩, ⟨⟨⟨"C2", "", false⟩, [], []⟩, 2, 1, ⟨.node 5, 7, .nan⟩⟩]⟩⟩

def secretNet : Net String :=
  ⟨⟨⟨"net", "net", false⟩, [], []⟩, "test", 15, "2026-11-17", [⟨⟨⟨"P", "", false⟩, [], []⟩, none, "RTE", ["north", "west"], [secretLevel], [], []⟩],
    [.line ⟨⟨⟨"LN", "", false⟩, [], []⟩, ⟨1, 2, 3, 4, 5, 6⟩, ⟨"level", ⟨.node 7, 1, .nan⟩⟩, ⟨"V1", ⟨.node 8, .nan, 2⟩⟩, ⟨noLims, noLims⟩⟩],
    [⟨⟨⟨"HL", "", false⟩, [], []⟩, 1, 400, 1, 0, 300, "C1", "C2"⟩]⟩

instance (A : Anon) (s : String) : Decidable (A.Inverts s) := inferInstanceAs (Decidable (_ = _))

theorem secret_ident {i : String} {f : Bool} (h : secretNames.Inverts i) {ps : PropMap.Props} (hp : AMap.NodupKeys ps) : IdentOk secretNames ⟨⟨i, "", f⟩, [], ps⟩ :=
  ⟨⟨h, rfl, rfl⟩, no_one, .nil, .nil, hp⟩

theorem secretNet_ok : NetOk toyX secretNames textDates secretNet where
  name := rfl
  id := by decide
  format := by decide
  aliases := no_one
  nodup := .nil
  types := .nil
  props := .nil
  forecast := by decide
  date := rfl
  subs := only_ok {
    ident := secret_ident (by decide) .nil
    country := nofun
    tso := ⟨by decide, by decide⟩
    tags := ⟨by unfold Increasing; decide, by decide, by decide, by decide⟩
    vls := only_ok ⟨⟨⟨by decide, rfl, rfl⟩, only_ok ⟨⟨by decide, by decide⟩, by decide⟩, by decide, by decide, .nil⟩, ⟨by decide, toyX_keeps _⟩, ⟨.inl rfl, toyX_keeps _⟩,
      ⟨.inr (by decide), toyX_keeps _⟩, by decide, ⟨only_ok ⟨secret_ident (by decide) .nil, by decide⟩, no_one, by decide, no_one⟩,
      ⟨no_one, no_one, only_ok ⟨secret_ident (by decide) (by unfold AMap.NodupKeys; decide), by decide, ⟨by decide, toyX_keeps _⟩, ⟨by decide, toyX_keeps _⟩, ⟨place_node (by decide), toyX_keeps _, toyX_keeps _⟩⟩,
        no_one, no_one, no_one, no_one, by
          intro x hx
          simp only [secretLevel, List.mem_cons, List.not_mem_nil, or_false] at hx
          rcases hx with rfl | rfl <;>
            exact ⟨secret_ident (by decide) .nil, ⟨⟨by decide, by decide⟩, toyX_keeps _⟩, ⟨⟨by decide, by decide⟩, toyX_keeps _⟩, ⟨place_node (by decide), toyX_keeps _, toyX_keeps _⟩⟩⟩⟩
    tw2s := no_one
    tw3s := no_one }
  lines := only_ok (show LineOk _ _ _ from ⟨secret_ident (by decide) .nil, toy_charac (by decide), ⟨by decide, branch_node (by decide), toyX_keeps _, toyX_keeps _⟩,
    ⟨by decide, branch_node (by decide), toyX_keeps _, toyX_keeps _⟩, noLims_ok, noLims_ok⟩)
  hvdcs := only_ok ⟨secret_ident (by decide) .nil, toyX_num (by decide), ⟨by decide, toyX_keeps _⟩, by decide, ⟨by decide, toyX_keeps _⟩, ⟨by decide, toyX_keeps _⟩, by decide, by decide⟩

theorem secretNet_apart : secretNet.Apart secretNames := by
  unfold Net.Apart
  decide +kernel

theorem secretNet_tags : secretNet.TagsInOrder secretNames := only_ok (by unfold Increasing; decide)

/-- With the file of the names, the document is imported. -/
example : ∃ r, accept secretNet = .ok r := ⟨_, rfl⟩

/-- Without it, it is refused. -/
example (i : Bool) : ∃ cs toks, writeNet toyX secretNames textDates secretNet = .ok cs ∧ document i cs = .ok toks ∧ importNet toyX .none textDates toks = .thrown :=
  anonymous_hvdc_refused toyX_integers (simple_keeps _) secretNet_ok secretNet_tags secretNet_apart List.mem_cons_self (by decide +kernel) i

/-- Without HVDC line, it is imported as the network with the replaced names. -/
example (i : Bool) : ∃ cs toks r, writeNet toyX secretNames textDates { secretNet with hvdcs := [] } = .ok cs ∧ document i cs = .ok toks ∧
    importNet toyX .none textDates toks = .ok (({ secretNet with hvdcs := [] } : Net String).renamed secretNames.anon, r) := by
  have hc : Consistent (netItems { secretNet with hvdcs := [] }) ∧ ∀ r, Net.HasRef { secretNet with hvdcs := [] } r → RefNamed (netItems { secretNet with hvdcs := [] }) r :=
    (accept_iff _ (by decide +kernel)).1 ⟨_, rfl⟩
  exact anonymous_import_partial (x := { secretNet with hvdcs := [] }) toyX_integers (simple_keeps _) { secretNet_ok with hvdcs := no_one } secretNet_tags (by unfold Net.Apart; decide +kernel) hc.1 hc.2 rfl i

end Verif.XmlNet
