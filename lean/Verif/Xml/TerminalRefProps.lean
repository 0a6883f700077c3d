import Verif.Xml.TerminalRef
import Verif.Xml.IdentProps

/-!
C46: a reference to a terminal is resolved, on reading, to the terminal of the same side of the equipment of the same identifier.
-/

namespace Verif.Xml

open Verif Verif.Index

/-- The numbers of terminals of the classes, at distinct addresses. -/
def ConnWF (c : Conn) : Prop :=
  c.terminals.Nodup ∧ match c.cls with
    | .injection => c.terminals.length = 1
    | .branch => c.terminals.length = 2
    | .threeWindings => c.terminals.length = 3
    | .other => False

/-- Spec: the export has the equipment, and not a busbar section of a voltage level exported without its nodes. -/
def Referable (e : RefEnv) (c : Conn) : Prop := e.kept = true ∧ ¬ (c.busbar = true ∧ e.nodeBreaker = true ∧ e.fullLevel = false)

instance (e : RefEnv) (c : Conn) : Decidable (Referable e c) := by unfold Referable; infer_instance

/-- Finding an equipment by its identifier. -/
theorem find_id {s : State} (h : Inv s) {u : Nat} {o : Obj} (hl : live s u = some o) : Index.find s o.id = .ok (some o) := by
  obtain ⟨ho, _⟩ := (live_iff h).1 hl
  have hne := (h.key _ _ ho).2.1
  have hal : s.alias.get? o.id = none := by
    cases ha : s.alias.get? o.id with
    | none => rfl
    | some i =>
      have := (h.fwd _ _ ha).1
      rw [ho] at this
      cases this
  simp [Index.find, Index.resolve, hal, hne, ho]

theorem ref_gate {A : Anon} {e : RefEnv} {id : String} {c : Conn} {t : Nat} (h : Referable e c) :
    refAttrs A e id c t = if 1 < c.terminals.length then
      match c.cls with
      | .injection => .ok [("id", A.anon id)]
      | .branch => (branchSideOf c t).bind fun s => (Enums.toString Enums.branchSide.names s).map fun n => [("id", A.anon id), ("side", n)]
      | .threeWindings => (twtSideOf c t).bind fun s => (Enums.toString Enums.threeWindingsTransformerSide.names s).map fun n => [("id", A.anon id), ("side", n)]
      | .other => .thrown
    else .ok [("id", A.anon id)] := by
  obtain ⟨kept, nb, full⟩ := e
  obtain ⟨h1, h2⟩ := h
  simp only at h1 h2
  subst h1
  unfold refAttrs
  have : (nb && !full && c.busbar) = false := by
    cases nb <;> cases full <;> cases hb : c.busbar <;> simp_all
  simp only [this, Bool.not_true, Bool.false_eq_true, if_false]
  cases c.cls <;> rfl

theorem readRef_ok {A : Anon} {required : Bool} {id : String} (hA : A.Inverts id) {el side : String} {as : List (String × String)} {e : Bool} {rest : List Tok}
    (h1 : lookup "id" as = some (A.anon id)) (h2 : (lookup "side" as).getD "" = side) : readRef A required (.start el as e :: rest) = .ok (id, side) := by
  unfold readRef
  have : (if required then getS "id" (.start el as e :: rest) else optSOr "id" "" (.start el as e :: rest)) = .ok (A.anon id) := by
    cases required <;> simp [getS, optSOr, rawAttr, h1]
  rw [this, Out.bind_ok, hA, Out.bind_ok]
  cases hs : lookup "side" as <;> rw [hs] at h2 <;> simp_all [optSOr, rawAttr, Out.map]

theorem side_branch {c : Conn} (hd : c.terminals.Nodup) (hl : c.terminals.length = 2) {k t : Nat} (hk : c.terminals[k]? = some t) : branchSideOf c t = .ok k ∧ k < 2 := by
  obtain ⟨cls, b, ts⟩ := c
  match ts, hl with
  | [a, b], _ =>
    have hab : a ≠ b := by simpa using hd
    match k, hk with
    | 0, hk => simp at hk; subst hk; simp [branchSideOf, at?]
    | 1, hk => simp at hk; subst hk; simp [branchSideOf, at?, Ne.symm hab]
    | k + 2, hk => simp at hk

theorem side_twt {c : Conn} (hd : c.terminals.Nodup) (hl : c.terminals.length = 3) {k t : Nat} (hk : c.terminals[k]? = some t) : twtSideOf c t = .ok k ∧ k < 3 := by
  obtain ⟨cls, b, ts⟩ := c
  match ts, hl with
  | [a, b, d], _ =>
    have hab : (a ≠ b ∧ a ≠ d) ∧ b ≠ d := by simpa using hd
    match k, hk with
    | 0, hk => simp at hk; subst hk; simp [twtSideOf, at?]
    | 1, hk => simp at hk; subst hk; simp [twtSideOf, at?, hab.1.1]
    | 2, hk => simp at hk; subst hk; simp [twtSideOf, at?, hab.1.2, hab.2]
    | k + 3, hk => simp at hk

/-- **C46** The terminal of rank `k` of an equipment, referred to in a file, is resolved to the terminal of rank `k` of the equipment that has
the same identifier and the same class in the network read, whatever the names and the other objects of that network. -/
theorem terminal_ref_round_trip {A : Anon} {e : RefEnv} {id : String} (hA : A.Inverts id) {c : Conn} (hc : ConnWF c) (he : Referable e c) {k t : Nat}
    (ht : c.terminals[k]? = some t) (el : String) (required : Bool)
    {s : State} (hI : Inv s) {u : Nat} {o : Obj} (hl : live s u = some o) (hid : o.id = id) {conns : Nat → Conn} (hc' : ConnWF (conns u)) (hcls : (conns u).cls = c.cls) :
    ∃ cs r t', writeRef A e el id c t = .ok cs ∧ AttrRoundTrip cs (readRef A required) r ∧ resolve s conns r = .ok t' ∧ (conns u).terminals[k]? = some t' := by
  have hfind := find_id hI hl
  have hu : o.uid = u := ((live_iff hI).1 hl).2
  rw [hid] at hfind
  obtain ⟨hd, hlen⟩ := hc
  obtain ⟨hd', hlen'⟩ := hc'
  rw [hcls] at hlen'
  cases hcl : c.cls with
  | injection =>
    rw [hcl] at hlen hlen' hcls
    have hk : k = 0 := by
      have := (List.getElem?_eq_some_iff.1 ht).1
      simp only at hlen
      omega
    subst hk
    simp only at hlen hlen'
    have h0 : 0 < (conns u).terminals.length := by omega
    refine ⟨elemCmds el [("id", A.anon id)] [], (id, ""), (conns u).terminals[0], ?_, ?_, ?_, List.getElem?_eq_getElem h0⟩
    · unfold writeRef
      rw [ref_gate he, if_neg (by omega)]
      rfl
    · exact attrRoundTrip_intro fun e rest => readRef_ok hA (by simp [lookup]) (by simp [lookup])
    · simp only [resolve, hfind, Out.bind_ok, hu, hcls, at?]
      rw [List.getElem?_eq_getElem h0]
  | branch =>
    rw [hcl] at hlen hlen' hcls
    simp only at hlen hlen'
    obtain ⟨hs, hk2⟩ := side_branch hd hlen ht
    obtain ⟨n, hn1, hn2⟩ := Enums.value_round_trip (names := Enums.branchSide.names) (by decide) (v := k) (by simpa [Enums.branchSide] using hk2)
    have hkl : k < (conns u).terminals.length := by omega
    refine ⟨elemCmds el [("id", A.anon id), ("side", n)] [], (id, n), (conns u).terminals[k], ?_, ?_, ?_, List.getElem?_eq_getElem hkl⟩
    · unfold writeRef
      rw [ref_gate he, if_pos (by omega), hcl]
      simp only [hs, Out.bind_ok, hn1]
      rfl
    · exact attrRoundTrip_intro fun e rest => readRef_ok hA (by simp [lookup]) (by simp [lookup])
    · simp only [resolve, hfind, Out.bind_ok, hu, hcls, hn2, branchTerminal, at?]
      have : k = 0 ∨ k = 1 := by omega
      rcases this with rfl | rfl
      · rw [if_pos rfl, List.getElem?_eq_getElem hkl]
      · rw [if_neg (by decide), if_pos rfl, List.getElem?_eq_getElem hkl]
  | threeWindings =>
    rw [hcl] at hlen hlen' hcls
    simp only at hlen hlen'
    obtain ⟨hs, hk2⟩ := side_twt hd hlen ht
    obtain ⟨n, hn1, hn2⟩ := Enums.value_round_trip (names := Enums.threeWindingsTransformerSide.names) (by decide) (v := k) (by simpa [Enums.threeWindingsTransformerSide] using hk2)
    have hkl : k < (conns u).terminals.length := by omega
    refine ⟨elemCmds el [("id", A.anon id), ("side", n)] [], (id, n), (conns u).terminals[k], ?_, ?_, ?_, List.getElem?_eq_getElem hkl⟩
    · unfold writeRef
      rw [ref_gate he, if_pos (by omega), hcl]
      simp only [hs, Out.bind_ok, hn1]
      rfl
    · exact attrRoundTrip_intro fun e rest => readRef_ok hA (by simp [lookup]) (by simp [lookup])
    · simp only [resolve, hfind, Out.bind_ok, hu, hcls, hn2, twtTerminal, at?]
      have : k = 0 ∨ k = 1 ∨ k = 2 := by omega
      rcases this with rfl | rfl | rfl
      · rw [if_pos rfl, List.getElem?_eq_getElem hkl]
      · rw [if_neg (by decide), if_pos rfl, List.getElem?_eq_getElem hkl]
      · rw [if_neg (by decide), if_neg (by decide), if_pos rfl, List.getElem?_eq_getElem hkl]
  | other => rw [hcl] at hlen; exact hlen.elim

/-- The second terminal of a line, written by one network and read in another one, where the line has other addresses. -/
example : ∃ cs r t', writeRef .none ⟨true, true, true⟩ "regulatingTerminal" "L1" ⟨.branch, false, [40, 48]⟩ 48 = .ok cs ∧ AttrRoundTrip cs (readRef .none false) r ∧
    resolve oneLoad (fun _ => ⟨.branch, false, [7, 9]⟩) r = .ok t' ∧ [7, 9][1]? = some t' :=
  terminal_ref_round_trip (none_inverts _) (c := ⟨.branch, false, [40, 48]⟩) ⟨by decide, rfl⟩ (by decide) (k := 1) rfl _ _ oneLoad_inv (u := 0)
    (o := { uid := 0, id := "L1", ty := 7, noType := [], byType := [] }) (by decide) rfl (conns := fun _ => ⟨.branch, false, [7, 9]⟩) ⟨by decide, rfl⟩ rfl

/-- **C46** A reference that cannot be read back is refused: to an equipment left out of the export, or to a busbar section of a voltage level exported
without its nodes. -/
theorem unreferable_refused (A : Anon) {e : RefEnv} {c : Conn} (he : ¬ Referable e c) (el id : String) (t : Nat) : writeRef A e el id c t = .thrown := by
  obtain ⟨kept, nb, full⟩ := e
  unfold Referable at he
  unfold writeRef refAttrs
  cases kept <;> cases nb <;> cases full <;> cases hb : c.busbar <;> simp_all [Out.map]

example : ¬ Referable ⟨true, true, false⟩ ⟨.injection, true, [3]⟩ := by decide

/-- **C46** Nothing else than the two refusals stands in the way: a terminal of an equipment of the network can be written exactly when it
is referable. -/
theorem ref_written_iff {A : Anon} {e : RefEnv} {id : String} {c : Conn} (hc : ConnWF c) {k t : Nat} (ht : c.terminals[k]? = some t) (el : String) :
    (writeRef A e el id c t).isOk = true ↔ Referable e c := by
  constructor
  · intro h
    apply Classical.byContradiction
    intro hn
    rw [unreferable_refused A hn] at h
    cases h
  · intro he
    unfold writeRef
    rw [ref_gate he]
    obtain ⟨hd, hlen⟩ := hc
    split
    · cases hcl : c.cls with
      | injection => rfl
      | branch =>
        rw [hcl] at hlen
        obtain ⟨hs, hk2⟩ := side_branch hd hlen ht
        obtain ⟨n, hn1, _⟩ := Enums.value_round_trip (names := Enums.branchSide.names) (by decide) (v := k) (by simpa [Enums.branchSide] using hk2)
        simp only [hs, Out.bind_ok, hn1]
        rfl
      | threeWindings =>
        rw [hcl] at hlen
        obtain ⟨hs, hk2⟩ := side_twt hd hlen ht
        obtain ⟨n, hn1, _⟩ := Enums.value_round_trip (names := Enums.threeWindingsTransformerSide.names) (by decide) (v := k) (by simpa [Enums.threeWindingsTransformerSide] using hk2)
        simp only [hs, Out.bind_ok, hn1]
        rfl
      | other => rw [hcl] at hlen; exact hlen.elim
    · rfl

/-! ### Regulating terminals -/

/-- The version from which the regulating terminal of such an equipment can be written. -/
def Regulated.since : Regulated → Ver
  | .generator => .v10
  | .shunt => .v12
  | .svc => .v11

/-- **C46** From the version that supports it on, the regulating terminal is written as a reference when it is not the one of the equipment, and
not written when it is (reading gives the terminal of the equipment then). -/
theorem regulating_written (A : Anon) {c : Ctx} (k : Regulated) (hv : Supports k.since c.version) (e : RefEnv) (own t : Nat) (id : String) (conn : Conn) (w : Written (List Cmd)) :
    writeRegulating A c k e own t id conn w =
      if t = own then .ok w else (writeRef A e "regulatingTerminal" id conn t).map fun cs => { w with doc := w.doc ++ cs } := by
  have hlt : c.version.lt k.since = false := by
    cases h : c.version.lt k.since with
    | false => rfl
    | true => exact absurd hv ((lt_iff_not_supports _ _).1 h)
  have hge := (supports_iff _ _).1 hv
  by_cases ht : t = own
  · subst ht
    rw [if_pos rfl]
    cases k <;> simp [writeRegulating, assertMinimumVersionAndRunIfNotDefault]
  · have ht' : own ≠ t := fun h => ht h.symm
    rw [if_neg ht]
    cases k with
    | generator => cases hw : writeRef A e "regulatingTerminal" id conn t <;> simp [writeRegulating, ht', hw, Out.map]
    | shunt =>
      simp only [Regulated.since] at hlt hge
      cases hw : writeRef A e "regulatingTerminal" id conn t <;> simp [writeRegulating, ht', hw, Out.map, assertMinimumVersion, runFromMinimumVersion, hlt, hge]
    | svc =>
      simp only [Regulated.since] at hlt hge
      cases hw : writeRef A e "regulatingTerminal" id conn t <;> simp [writeRegulating, ht', hw, Out.map, assertMinimumVersionAndRunIfNotDefault, assertMinimumVersion, hlt]

/-- **C46** Before that version, another regulating terminal is reported. -/
theorem regulating_reported (A : Anon) {c : Ctx} (k : Regulated) (hv : ¬ Supports k.since c.version) (e : RefEnv) {own t : Nat} (ht : t ≠ own) (id : String) (conn : Conn) (w w' : Written (List Cmd))
    (h : writeRegulating A c k e own t id conn w = .ok w') : c.behaviour = .logError ∧ "regulatingTerminal" ∈ w'.log := by
  have ht' : own ≠ t := fun h => ht h.symm
  have hlt : c.version.lt k.since = true := (lt_iff_not_supports _ _).2 hv
  cases k with
  | generator => exact absurd hv (by simp only [Regulated.since]; generalize c.version = v; cases v <;> decide)
  | shunt =>
    simp only [Regulated.since] at hlt
    have hge : c.version.ge .v12 = false := by
      cases h : c.version.ge .v12 with
      | false => rfl
      | true => exact absurd ((supports_iff _ _).2 h) hv
    cases hb : c.behaviour <;> simp [writeRegulating, ht', assertMinimumVersion, hlt, createExceptionOrLogError, hb, runFromMinimumVersion, hge, Out.bind] at h
    subst h
    exact ⟨rfl, List.mem_cons_self ..⟩
  | svc =>
    simp only [Regulated.since] at hlt
    cases hb : c.behaviour <;> simp [writeRegulating, ht', assertMinimumVersionAndRunIfNotDefault, assertMinimumVersion, hlt, createExceptionOrLogError, hb, Out.bind] at h
    cases hw : writeRef A e "regulatingTerminal" id conn t <;> rw [hw] at h <;> simp [Out.map] at h
    subst h
    exact ⟨rfl, List.mem_cons_self ..⟩

example : writeRegulating .none ⟨.v11, .logError⟩ .shunt ⟨true, true, true⟩ 1 2 "G" ⟨.injection, false, [2]⟩ ⟨[], []⟩ = .ok ⟨[], ["regulatingTerminal"]⟩ := by decide

end Verif.Xml
