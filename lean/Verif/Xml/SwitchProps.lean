import Verif.Xml.ShuntProps
import Verif.Anonymizer.Props

/-!
C45 for identifiers, switches and internal connections.
-/

namespace Verif.Xml

open Verif

/-! ### The anonymizers -/

/-- A `SimpleAnonymizer` holding the mapping `m`. -/
def Anon.ofMapping (m : Anonymizer.Mapping) : Anon where
  anon s := String.ofList (Anonymizer.anonymize s.toList m).1
  dean s := (Anonymizer.deanonymize s.toList m).map String.ofList

/-- The empty string stands for itself. -/
def Anon.KeepsEmpty (A : Anon) : Prop := A.dean "" = .ok ""

theorem none_inverts (s : String) : Anon.none.Inverts s := rfl

theorem none_keeps : Anon.none.KeepsEmpty := rfl

theorem simple_keeps (m : Anonymizer.Mapping) : (Anon.ofMapping m).KeepsEmpty := rfl

/-- A string anonymized in the course of an export is given back by the anonymizer of the end of the export; the name it got is the
one that the final mapping gives. -/
theorem simple_inverts (ss : List String) {i : Nat} {s : String} {a : Anonymizer.Str} (hs : ss[i]? = some s)
    (ha : (Anonymizer.anonymizeAll (ss.map String.toList) []).1[i]? = some a) :
    let A := Anon.ofMapping (Anonymizer.anonymizeAll (ss.map String.toList) []).2
    A.Inverts s ∧ A.anon s = String.ofList a := by
  have hinv := Anonymizer.anonymizeAll_inv (ss.map String.toList) [] Anonymizer.inv_nil
  have hs' : (ss.map String.toList)[i]? = some s.toList := by simp [hs]
  have hrev := (Anonymizer.names_reversible (ss.map String.toList)).2.2 i s.toList a hs' ha
  have hname : (Anonymizer.anonymize s.toList (Anonymizer.anonymizeAll (ss.map String.toList) []).2).1 = a := by
    rcases hinv.2.2.2 i s.toList a hs' ha with ⟨h1, h2⟩ | ⟨h1, h2⟩
    · simp [Anonymizer.anonymize, h1, h2]
    · have := (Anonymizer.findLeft_eq_some hinv.1.keys).2 h2
      simp [Anonymizer.anonymize, h1, this]
  refine ⟨?_, ?_⟩
  · show ((Anonymizer.deanonymize (String.ofList (Anonymizer.anonymize s.toList _).1).toList _).map String.ofList) = .ok s
    rw [hname, String.toList_ofList, hrev]
    simp [Out.map]
  · show String.ofList (Anonymizer.anonymize s.toList _).1 = _
    rw [hname]

/-! ### Identifiers, names, fictitious flags -/

/-- The identifier and the name are given back. -/
def HeadOk (A : Anon) (h : Head) : Prop := A.Inverts h.id ∧ A.Inverts h.name ∧ A.KeepsEmpty

theorem none_head (h : Head) : HeadOk .none h := ⟨none_inverts _, none_inverts _, none_keeps⟩

theorem readHead_eq {A : Anon} {v : Ver} {h : Head} (hA : HeadOk A h) {n : String} {as : List (String × String)} {e : Bool} {rest : List Tok}
    (hid : lookup "id" as = some (A.anon h.id)) (hname : lookup "name" as = if h.name ≠ "" then some (A.anon h.name) else none)
    (hf : Supports .v12 v → lookup "fictitious" as = if h.fictitious = false then none else some "true") :
    readHead A v (.start n as e :: rest) = .ok { h with fictitious := if v.ge .v12 then h.fictitious else false } := by
  have h1 : getS "id" (.start n as e :: rest) = .ok (A.anon h.id) := getS_attr hid
  have h2 : (optSOr "name" "" (.start n as e :: rest)).bind A.dean = .ok h.name := by
    by_cases hn : h.name = ""
    · have : optSOr "name" "" (.start n as e :: rest) = .ok "" := by simp [optSOr, rawAttr, hname, hn]
      rw [this, Out.bind_ok, hn]
      exact hA.2.2
    · have : optSOr "name" "" (.start n as e :: rest) = .ok (A.anon h.name) := by simp [optSOr, rawAttr, hname, hn]
      rw [this, Out.bind_ok]
      exact hA.2.1
  obtain ⟨nm, h3, h4⟩ := Out.bind_eq_ok.1 h2
  unfold readHead
  rw [h1, Out.bind_ok, hA.1, Out.bind_ok, h3, Out.bind_ok, h4, Out.bind_ok]
  unfold runFromMinimumVersion
  by_cases hv : v.ge .v12 = true
  · rw [if_pos hv, if_pos hv]
    have := hf ((supports_iff _ _).2 hv)
    cases hx : h.fictitious with
    | false => rw [hx] at this; simp [optBOr, rawAttr, this, Out.map]
    | true =>
      rw [hx] at this
      have ht : isTrue "true" = true := by decide
      simp [optBOr, rawAttr, this, Out.map, ht]
  · rw [if_neg hv, if_neg hv]

theorem lookup_headAttrs (A : Anon) (v : Ver) (h : Head) (k : String) :
    lookup k (headAttrs A v h) = if k = "id" then some (A.anon h.id) else if k = "name" then (if h.name ≠ "" then some (A.anon h.name) else none)
      else if k = "fictitious" then (if v.ge .v12 = true ∧ h.fictitious = true then some "true" else none) else none := by
  unfold headAttrs
  rw [lookup_cons]
  by_cases h1 : "id" = k
  · rw [if_pos h1, if_pos h1.symm]
  · have h1' : ¬ k = "id" := fun e => h1 e.symm
    rw [if_neg h1, if_neg h1', lookup_append]
    have h2 : lookup k (if h.name ≠ "" then [("name", A.anon h.name)] else []) = if k = "name" then (if h.name ≠ "" then some (A.anon h.name) else none) else none := by
      by_cases hn : h.name = "" <;> by_cases hk : k = "name" <;> simp [hn, hk, lookup, eq_comm]
    have h3 : lookup k (if v.ge .v12 then attrOptB "fictitious" h.fictitious false else []) =
        if k = "fictitious" then (if v.ge .v12 = true ∧ h.fictitious = true then some "true" else none) else none := by
      by_cases hv : v.ge .v12 = true
      · rw [if_pos hv, lookup_attrOptB]
        by_cases hk : k = "fictitious" <;> cases hf : h.fictitious <;> simp [hv, hk, eq_comm]
      · rw [if_neg hv]
        simp [hv, lookup]
    rw [h2, h3]
    by_cases hk : k = "name"
    · by_cases hn : h.name = "" <;> simp [hk, hn]
    · simp [hk]

/-- **C45** Identifier, name and, from version 1.2 on, the fictitious flag are read back. -/
theorem head_round_trip {A : Anon} {v : Ver} {h : Head} (hA : HeadOk A h) (hv : Supports .v12 v ∨ h.fictitious = false) (root : String) :
    AttrRoundTrip (elemCmds root (headAttrs A v h) []) (readHead A v) h := by
  refine attrRoundTrip_intro fun e rest => ?_
  rw [readHead_eq hA (by simp [lookup_headAttrs]) (by simp [lookup_headAttrs]) ?_]
  · congr
    rcases hv with hv | hv
    · rw [if_pos ((supports_iff _ _).1 hv)]
    · simp [hv]
  · intro hs
    have := (supports_iff _ _).1 hs
    cases hf : h.fictitious <;> simp [lookup_headAttrs, this, hf]

example : AttrRoundTrip (elemCmds "load" (headAttrs .none .v12 ⟨"L1", "", true⟩) []) (readHead .none .v12) ⟨"L1", "", true⟩ :=
  head_round_trip (none_head _) (.inl (by decide)) _

/-- Before version 1.2 the flag of a fictitious identifiable is dropped without a word: what is written is what is written for one that
is not fictitious. -/
theorem fictitious_lost (A : Anon) {v : Ver} (hv : ¬ Supports .v12 v) (id name : String) : headAttrs A v ⟨id, name, true⟩ = headAttrs A v ⟨id, name, false⟩ := by
  have : v.ge .v12 = false := by
    cases h : v.ge .v12 with
    | false => rfl
    | true => exact absurd ((supports_iff _ _).2 h) hv
  simp [headAttrs, this]

/-! ### Switches -/

theorem lookup_switchTail (v : Ver) (kind : String) (retained opened fict : Bool) (k : String) :
    lookup k (("kind", kind) :: (attrB "retained" retained ++ (attrB "open" opened ++ (if v.le .v11 then attrOptB "fictitious" fict false else [])))) =
      if k = "kind" then some kind else if k = "retained" then some (if retained then "true" else "false")
      else if k = "open" then some (if opened then "true" else "false")
      else if k = "fictitious" then (if v.le .v11 = true ∧ fict = true then some "true" else none) else none := by
  rw [lookup_cons, lookup_append, lookup_append, lookup_attrB, lookup_attrB]
  have h3 : lookup k (if v.le .v11 then attrOptB "fictitious" fict false else []) =
      if k = "fictitious" then (if v.le .v11 = true ∧ fict = true then some "true" else none) else none := by
    by_cases hv : v.le .v11 = true
    · rw [if_pos hv, lookup_attrOptB]
      by_cases hk : k = "fictitious" <;> cases fict <;> simp [hv, hk, eq_comm]
    · rw [if_neg hv]
      simp [hv, lookup]
  rw [h3]
  by_cases h1 : k = "kind"
  · simp [h1]
  · by_cases h2 : k = "retained"
    · simp [h2]
    · by_cases h3 : k = "open"
      · simp [h3]
      · simp [h1, h2, h3, Ne.symm h1, Ne.symm h2, Ne.symm h3]

theorem switchKind_nodup : Enums.switchKind.names.Nodup := by decide

/-- The header and then, until version 1.1, the flag of the switch: the flag is there in every version, once. -/
theorem switch_head {A : Anon} {v : Ver} {h : Head} (hA : HeadOk A h) {kind : String} {retained opened : Bool} {n : String} {as more : List (String × String)} {e : Bool}
    {rest : List Tok} (has : as = headAttrs A v h ++ ((("kind", kind) :: (attrB "retained" retained ++ (attrB "open" opened ++ (if v.le .v11 then attrOptB "fictitious" h.fictitious false else [])))) ++ more))
    (hmore : lookup "fictitious" more = none ∧ lookup "name" more = none) :
    readHead A v (.start n as e :: rest) = .ok { h with fictitious := if v.ge .v12 then h.fictitious else false } ∧
    readOldFictitious v (.start n as e :: rest) { h with fictitious := if v.ge .v12 then h.fictitious else false } = .ok h := by
  have hsplit : v.le .v11 = !(v.ge .v12) := by cases v <;> decide
  have hlook : ∀ k, lookup k as = ((lookup k (headAttrs A v h)).or ((lookup k (("kind", kind) :: (attrB "retained" retained ++ (attrB "open" opened ++ (if v.le .v11 then attrOptB "fictitious" h.fictitious false else []))))).or (lookup k more))) := by
    intro k
    rw [has, lookup_append, lookup_append]
  have hfict : lookup "fictitious" as = if h.fictitious = false then none else some "true" := by
    rw [hlook, lookup_headAttrs, lookup_switchTail, hsplit, hmore.1]
    cases v.ge .v12 <;> cases h.fictitious <;> simp
  constructor
  · refine readHead_eq hA ?_ ?_ (fun _ => hfict)
    · rw [hlook, lookup_headAttrs]; simp
    · rw [hlook, lookup_headAttrs, lookup_switchTail, hmore.2]; simp
  · unfold readOldFictitious runUntilMaximumVersion
    rw [hsplit]
    cases hv : v.ge .v12 with
    | true => simp
    | false =>
      have ht : isTrue "true" = true := by decide
      cases hf : h.fictitious with
      | false => rw [hf] at hfict; obtain ⟨_, _, _⟩ := h; simp_all [optBOr, rawAttr, Out.map]
      | true => rw [hf] at hfict; obtain ⟨_, _, _⟩ := h; simp_all [optBOr, rawAttr, Out.map]

/-- **C45** A switch of a node/breaker voltage level is read back, in every version: identifier, name, fictitious flag, kind, retained
and open flags, nodes. -/
theorem node_switch_round_trip {K : Codec} (hN : K.Naturals) {A : Anon} (v : Ver) {s : NodeSwitch} (hA : HeadOk A s.head)
    (hk : s.kind < 3) (hn : s.node1 < 2 ^ 64 ∧ s.node2 < 2 ^ 64) :
    ∃ cs, writeNodeSwitch K A v s = .ok cs ∧ AttrRoundTrip cs (readNodeSwitch K A v) s := by
  obtain ⟨k, hk1, hk2⟩ := Enums.value_round_trip switchKind_nodup (v := s.kind) hk
  refine ⟨_, by unfold writeNodeSwitch switchAttrs; rw [hk1]; rfl, ?_⟩
  refine attrRoundTrip_intro fun e rest => ?_
  generalize has : headAttrs A v s.head ++ ((("kind", k) :: (attrB "retained" s.retained ++ (attrB "open" s.opened ++ (if v.le .v11 then attrOptB "fictitious" s.head.fictitious false else [])))) ++ (attrN K "node1" s.node1 ++ attrN K "node2" s.node2)) = as
  have hlook : ∀ x, lookup x as = ((lookup x (headAttrs A v s.head)).or ((lookup x (("kind", k) :: (attrB "retained" s.retained ++ (attrB "open" s.opened ++ (if v.le .v11 then attrOptB "fictitious" s.head.fictitious false else []))))).or (lookup x (attrN K "node1" s.node1 ++ attrN K "node2" s.node2)))) := by
    intro x
    rw [← has, lookup_append, lookup_append]
  obtain ⟨h1, h2⟩ := switch_head (n := "switch") (e := e) (rest := rest) hA has.symm (by simp [lookup_append, lookup_attrN])
  unfold readNodeSwitch
  rw [h1, Out.bind_ok,
    getB_attr (b := s.opened) (by rw [hlook, lookup_headAttrs, lookup_switchTail]; simp), Out.bind_ok,
    getS_attr (v := k) (by rw [hlook, lookup_headAttrs, lookup_switchTail]; simp), Out.bind_ok, hk2, Out.bind_ok,
    getB_attr (b := s.retained) (by rw [hlook, lookup_headAttrs, lookup_switchTail]; simp), Out.bind_ok, h2, Out.bind_ok,
    getN_attr hN (d := s.node1) (by rw [hlook, lookup_headAttrs, lookup_switchTail]; simp [lookup_append, lookup_attrN]) hn.1, Out.bind_ok,
    getN_attr hN (d := s.node2) (by rw [hlook, lookup_headAttrs, lookup_switchTail]; simp [lookup_append, lookup_attrN]) hn.2, Out.bind_ok]

example : ∃ cs, writeNodeSwitch toy .none .v10 ⟨⟨"SW", "a switch", true⟩, 2, false, true, 4, 7⟩ = .ok cs ∧
    AttrRoundTrip cs (readNodeSwitch toy .none .v10) ⟨⟨"SW", "a switch", true⟩, 2, false, true, 4, 7⟩ :=
  node_switch_round_trip toy_naturals .v10 (none_head _) (by decide) (by decide)

/-- **C45** A switch of a bus/breaker voltage level (always a retained breaker there) is read back, in every version. -/
theorem bus_switch_round_trip_partial {A : Anon} (v : Ver) {s : BusSwitch} (hA : HeadOk A s.head) (hkind : s.kind = 0 ∧ s.retained = true)
    (hb : A.Inverts s.bus1 ∧ A.Inverts s.bus2) (hne : s.bus1 ≠ "" ∧ s.bus2 ≠ "") :
    ∃ cs, writeBusSwitch A v s = .ok cs ∧ AttrRoundTrip cs (readBusSwitch A v) s := by
  obtain ⟨k, hk1, hk2⟩ := Enums.value_round_trip switchKind_nodup (v := s.kind) (by rw [hkind.1]; decide)
  refine ⟨_, by unfold writeBusSwitch switchAttrs; rw [hk1]; rfl, ?_⟩
  refine attrRoundTrip_intro fun e rest => ?_
  generalize has : headAttrs A v s.head ++ ((("kind", k) :: (attrB "retained" s.retained ++ (attrB "open" s.opened ++ (if v.le .v11 then attrOptB "fictitious" s.head.fictitious false else [])))) ++ [("bus1", A.anon s.bus1), ("bus2", A.anon s.bus2)]) = as
  have hlook : ∀ x, lookup x as = ((lookup x (headAttrs A v s.head)).or ((lookup x (("kind", k) :: (attrB "retained" s.retained ++ (attrB "open" s.opened ++ (if v.le .v11 then attrOptB "fictitious" s.head.fictitious false else []))))).or (lookup x [("bus1", A.anon s.bus1), ("bus2", A.anon s.bus2)]))) := by
    intro x
    rw [← has, lookup_append, lookup_append]
  obtain ⟨h1, h2⟩ := switch_head (n := "switch") (e := e) (rest := rest) hA has.symm (by simp [lookup])
  unfold readBusSwitch
  rw [h1, Out.bind_ok,
    getB_attr (b := s.opened) (by rw [hlook, lookup_headAttrs, lookup_switchTail]; simp), Out.bind_ok, h2, Out.bind_ok,
    getS_attr (v := A.anon s.bus1) (by rw [hlook, lookup_headAttrs, lookup_switchTail]; simp [lookup]), Out.bind_ok, hb.1, Out.bind_ok,
    getS_attr (v := A.anon s.bus2) (by rw [hlook, lookup_headAttrs, lookup_switchTail]; simp [lookup]), Out.bind_ok, hb.2, Out.bind_ok,
    if_neg (by rintro (h | h); exact hne.1 h; exact hne.2 h), ← hkind.1, ← hkind.2]

example : ∃ cs, writeBusSwitch .none .v15 ⟨⟨"SW", "", false⟩, 0, true, true, "B1", "B2"⟩ = .ok cs ∧
    AttrRoundTrip cs (readBusSwitch .none .v15) ⟨⟨"SW", "", false⟩, 0, true, true, "B1", "B2"⟩ :=
  bus_switch_round_trip_partial .v15 (none_head _) ⟨rfl, rfl⟩ ⟨none_inverts _, none_inverts _⟩ (by decide)

/-- The kind and the retained flag are written and not read: a switch of another kind (possible when a node/breaker voltage level is
exported at the bus/breaker level) comes back as a retained breaker. -/
theorem bus_switch_kind_lost : ∃ cs, writeBusSwitch .none .v15 ⟨⟨"SW", "", false⟩, 1, true, false, "B1", "B2"⟩ = .ok cs ∧
    AttrRoundTrip cs (readBusSwitch .none .v15) ⟨⟨"SW", "", false⟩, 0, true, false, "B1", "B2"⟩ := by
  refine ⟨_, rfl, ?_⟩
  refine attrRoundTrip_intro fun e rest => ?_
  rfl

/-- **C45** Internal connections are read back. -/
theorem connection_round_trip {K : Codec} (hN : K.Naturals) {x : Nat × Nat} (hx : x.1 < 2 ^ 64 ∧ x.2 < 2 ^ 64) : AttrRoundTrip (writeConnection K x) (readConnection K) x := by
  refine attrRoundTrip_intro fun e rest => ?_
  unfold readConnection
  rw [getN_attr hN (d := x.1) (by simp [lookup_append, lookup_attrN]) hx.1, Out.bind_ok,
    getN_attr hN (d := x.2) (by simp [lookup_append, lookup_attrN]) hx.2, Out.bind_ok]

example : AttrRoundTrip (writeConnection toy (3, 11)) (readConnection toy) (3, 11) := connection_round_trip toy_naturals (by decide)

end Verif.Xml
