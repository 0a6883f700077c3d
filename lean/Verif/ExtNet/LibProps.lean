import Verif.ExtNet.NetProps
import Verif.XmlNet.AcceptLemmas

/-! Property C80 for the serializers of the repository. -/

namespace Verif.ExtNet

open Verif Verif.Xml Verif.XmlNet Verif.ExtXml Verif.ExtData Verif.Measure

/-! ### Names, prefixes and namespaces -/

theorem mem_titles (t : Title) : t ∈ titles := by
  rcases t with n | _ | _
  · cases n <;> decide
  · decide
  · decide

theorem names_distinct : ∀ t ∈ titles, ∀ u ∈ titles, t.name = u.name → t = u := by decide +kernel

theorem name_injective {t u : Title} (h : t.name = u.name) : t = u := names_distinct t (mem_titles t) u (mem_titles u) h

def Uris.all : Uris → List String
  | .one u => [u]
  | .many _ us => us.map (·.2)

def nsApart (t u : Title) : Bool :=
  match nsOf t, nsOf u with
  | some a, some b => decide (a.1 ≠ b.1) && a.2.all.all fun x => !b.2.all.contains x
  | _, _ => true

theorem ns_apart : ∀ t ∈ titles, ∀ u ∈ titles, t ≠ u → nsApart t u = true := by decide +kernel

theorem nsUri_all {v net u : String} {U : Uris} (h : NsUri v net u U) : u ∈ U.all := by
  cases U with
  | one w => exact List.mem_singleton.2 h
  | many c us =>
    obtain ⟨vs, w, -, h2, -⟩ := h
    have : ∀ l : AMap String String, l.get? w = some u → u ∈ l.map (·.2) := by
      intro l
      induction l with
      | nil => intro h; cases h
      | cons p l ih =>
        intro h
        rw [AMap.get?_cons] at h
        by_cases hp : p.1 = w
        · rw [if_pos hp] at h; cases h; exact List.mem_cons_self
        · rw [if_neg hp] at h; exact List.mem_cons_of_mem _ (ih h)
    exact this us h2

/-- The serializers that are there: those of the extensions that are in the list, but for RemoteReactivePowerControl, which has none. -/
theorem serializers_get {K : XCodec} {A : Anon} {i : Nat} {n : String} : ∀ {ts : List Title} {s : Ser REnv Ext},
    (serializers K A i ts).get? n = some s ↔ ∃ t ∈ ts, t.name = n ∧ serOf K A i t = some s := by
  intro ts s
  induction ts with
  | nil => simp [serializers, AMap.get?]
  | cons t ts ih =>
    unfold serializers at ih ⊢
    cases hs : serOf K A i t with
    | none =>
      rw [List.filterMap_cons_none (by rw [hs]; rfl), ih]
      constructor
      · rintro ⟨u, hu, h⟩; exact ⟨u, List.mem_cons_of_mem _ hu, h⟩
      · rintro ⟨u, hu, h1, h2⟩
        rcases List.mem_cons.1 hu with rfl | hu
        · rw [hs] at h2; cases h2
        · exact ⟨u, hu, h1, h2⟩
    | some q =>
      rw [List.filterMap_cons_some (by rw [hs]; rfl), AMap.get?_cons]
      by_cases hn : t.name = n
      · rw [if_pos hn]
        constructor
        · intro h
          cases h
          exact ⟨t, List.mem_cons_self, hn, hs⟩
        · rintro ⟨u, -, h1, h2⟩
          have := name_injective (h1.trans hn.symm)
          subst this
          rw [hs] at h2
          exact h2
      · rw [if_neg hn, ih]
        constructor
        · rintro ⟨u, hu, h⟩; exact ⟨u, List.mem_cons_of_mem _ hu, h⟩
        · rintro ⟨u, hu, h1, h2⟩
          rcases List.mem_cons.1 hu with rfl | hu
          · exact absurd h1 hn
          · exact ⟨u, hu, h1, h2⟩

theorem serializers_isSome {K : XCodec} {A : Anon} {i : Nat} {t : Title} {ts : List Title} :
    ((serializers K A i ts).get? t.name).isSome = true ↔ t ∈ ts ∧ t ≠ .data .remote := by
  rw [Option.isSome_iff_exists]
  simp only [serializers_get]
  constructor
  · rintro ⟨s, u, hu, h1, h2⟩
    have := name_injective h1
    subst this
    refine ⟨hu, ?_⟩
    rintro rfl
    cases h2
  · rintro ⟨h1, h2⟩
    have : ∃ s, serOf K A i t = some s := by
      rcases t with n | _ | _
      · cases n <;> first | exact ⟨_, rfl⟩ | exact absurd rfl h2
      · exact ⟨_, rfl⟩
      · exact ⟨_, rfl⟩
    obtain ⟨s, hs⟩ := this
    exact ⟨s, t, h1, rfl, hs⟩

/-- The versions of the network and of the extension with which a slack terminal can be written. -/
def slackVersions : List (String × String) := [("1.3", ""), ("1.3", "1.0"), ("1.4", ""), ("1.4", "1.1"), ("1.5", ""), ("1.5", "1.2")]

theorem slack_uri {v net : String} {p : String} {U : Uris} (hU : nsOf (.data .slack) = some (p, U)) : (∃ u, NsUri v net u U) ↔ (net, v) ∈ slackVersions := by
  cases hU
  simp only [NsUri, AMap.get?_cons, AMap.get?, slackVersions, List.mem_cons, Prod.mk.injEq, List.not_mem_nil, or_false]
  constructor
  · rintro ⟨u, vs, w, h1, h2, h3⟩
    by_cases e1 : "1.3" = net
    · rw [if_pos e1] at h1
      cases h1
      split at h3
      · exact .inl ⟨e1.symm, by assumption⟩
      · obtain ⟨-, h3⟩ := h3
        rw [List.mem_singleton] at h3
        exact .inr (.inl ⟨e1.symm, h3⟩)
    · rw [if_neg e1] at h1
      by_cases e2 : "1.4" = net
      · rw [if_pos e2] at h1
        cases h1
        split at h3
        · exact .inr (.inr (.inl ⟨e2.symm, by assumption⟩))
        · obtain ⟨-, h3⟩ := h3
          rw [List.mem_singleton] at h3
          exact .inr (.inr (.inr (.inl ⟨e2.symm, h3⟩)))
      · rw [if_neg e2] at h1
        by_cases e3 : "1.5" = net
        · rw [if_pos e3] at h1
          cases h1
          split at h3
          · exact .inr (.inr (.inr (.inr (.inl ⟨e3.symm, by assumption⟩))))
          · obtain ⟨-, h3⟩ := h3
            rw [List.mem_singleton] at h3
            exact .inr (.inr (.inr (.inr (.inr ⟨e3.symm, h3⟩))))
        · rw [if_neg e3] at h1
          cases h1
  · rintro (⟨rfl, rfl⟩ | ⟨rfl, rfl⟩ | ⟨rfl, rfl⟩ | ⟨rfl, rfl⟩ | ⟨rfl, rfl⟩ | ⟨rfl, rfl⟩)
    · exact ⟨_, ["1.0"], "1.0", rfl, rfl, rfl⟩
    · exact ⟨_, ["1.0"], "1.0", rfl, rfl, by decide⟩
    · exact ⟨_, ["1.1"], "1.1", rfl, rfl, rfl⟩
    · exact ⟨_, ["1.1"], "1.1", rfl, rfl, by decide⟩
    · exact ⟨_, ["1.2"], "1.2", rfl, rfl, rfl⟩
    · exact ⟨_, ["1.2"], "1.2", rfl, rfl, by decide⟩

/-- **C80.**  With the serializers of the repository the namespaces can be declared unless the network has slack terminals, asked for, and the document a version lower
than 1.3, or one that does not go with the version of the extension that is asked for. -/
theorem library_namespaces (K : XCodec) (A : Anon) (i : Nat) (ts : List Title) (o : WOpts) (hs : List (Holder Ext)) :
    (∃ r, namespaces extName (serializers K A i ts) o hs = .ok r) ↔
      (Present extName o hs "slackTerminal" → .data .slack ∈ ts → (o.net, o.version "slackTerminal") ∈ slackVersions) := by
  rw [(namespaces_iff extName (serializers K A i ts) o hs).1]
  constructor
  · rintro ⟨h1, -⟩ hp hts
    obtain ⟨u, hu⟩ := h1 _ hp _ (serializers_get.2 ⟨.data .slack, hts, rfl, rfl⟩)
    exact (slack_uri rfl).1 ⟨u, hu⟩
  · intro h
    refine ⟨?_, ?_⟩
    · intro n hn s hs'
      obtain ⟨t, ht, rfl, hq⟩ := serializers_get.1 hs'
      unfold serOf at hq
      by_cases hsl : t = .data .slack
      · subst hsl
        cases hq
        exact (slack_uri rfl).2 (h hn ht)
      · rcases t with m | _ | _
        · cases m <;> first | exact absurd rfl hsl | (cases hq; exact ⟨_, rfl⟩) | cases hq
        · cases hq; exact ⟨_, rfl⟩
        · cases hq; exact ⟨_, rfl⟩
    · intro n m hnm _ _ s t h1 h2
      obtain ⟨a, -, rfl, q1⟩ := serializers_get.1 h1
      obtain ⟨b, -, rfl, q2⟩ := serializers_get.1 h2
      have hab : a ≠ b := by rintro rfl; exact hnm rfl
      have := ns_apart a (mem_titles a) b (mem_titles b) hab
      unfold serOf at q1 q2
      unfold nsApart at this
      cases ha : nsOf a with
      | none => rw [ha] at q1; cases q1
      | some x =>
        cases hb : nsOf b with
        | none => rw [hb] at q2; cases q2
        | some y =>
          rw [ha] at q1
          rw [hb] at q2
          cases q1
          cases q2
          rw [ha, hb] at this
          simp only [ne_eq, decide_not, Bool.and_eq_true, Bool.not_eq_true', decide_eq_false_iff_not, List.all_eq_true] at this
          refine ⟨this.1, fun u v hu hv huv => ?_⟩
          subst huv
          have := this.2 u (nsUri_all hu)
          rw [← Bool.not_eq_true, List.contains_iff_mem] at this
          exact this (nsUri_all hv)

/-! ### The elements of the extensions can be skipped -/

theorem avoids_props {n : String} (hn : n ≠ "property") : ∀ ps : PropMap.Props, Avoids n (propElems ps) := by
  intro ps
  induction ps with
  | nil => exact avoids_nil n
  | cons p ps ih =>
    obtain ⟨a, b⟩ := p
    exact (Avoids.elem (Ne.symm hn) (avoids_nil n)).append ih

theorem avoids_list {α : Type} {n : String} {w : α → Out (List Cmd)} (hw : ∀ x c, w x = .ok c → Avoids n c) : ∀ (l : List α) cs, writeList w l = .ok cs → Avoids n cs := by
  intro l
  induction l with
  | nil => intro cs h; cases h; exact avoids_nil n
  | cons x l ih =>
    intro cs h
    obtain ⟨c, h1, h⟩ := Out.bind_eq_ok.1 h
    obtain ⟨d, h2, h⟩ := Out.bind_eq_ok.1 h
    cases h
    exact (hw x c h1).append (ih d h2)

theorem avoids_meas {K : XCodec} {m : Meas} {c : List Cmd} (h : writeMeas K m = .ok c) : Avoids "measurements" c := by
  obtain ⟨t, -, h⟩ := Out.bind_eq_ok.1 h
  have key : ∀ as c', Out.ok (elemCmds "measurement" as (propElems m.props)) = .ok c' → Avoids "measurements" c' := by
    intro as c' h
    cases h
    exact Avoids.elem (by decide) (avoids_props (by decide) _)
  cases hs : m.side with
  | none => rw [hs] at h; exact key _ _ h
  | some s =>
    rw [hs] at h
    obtain ⟨_, -, h⟩ := Out.bind_eq_ok.1 h
    exact key _ _ h

theorem avoids_disc {K : XCodec} {m : Disc} {c : List Cmd} (h : writeDisc K m = .ok c) : Avoids "discreteMeasurements" c := by
  obtain ⟨t, -, h⟩ := Out.bind_eq_ok.1 h
  have key : ∀ f : String → List (String × String) → List (String × String), ((nameOf vtypes Enums.discreteMeasurementValueType.names m.vtype).bind fun vt => (discValue K m).bind fun v =>
      .ok (elemCmds "discreteMeasurement" (f vt v) (propElems m.props))) = .ok c → Avoids "discreteMeasurements" c := by
    intro f h
    obtain ⟨_, -, h⟩ := Out.bind_eq_ok.1 h
    obtain ⟨_, -, h⟩ := Out.bind_eq_ok.1 h
    cases h
    exact Avoids.elem (by decide) (avoids_props (by decide) _)
  cases hs : m.tapChanger with
  | none => rw [hs] at h; exact key _ h
  | some s =>
    rw [hs] at h
    obtain ⟨_, -, h⟩ := Out.bind_eq_ok.1 h
    exact key _ h

theorem avoids_feeder {K : XCodec} {el : String} (hel : el ≠ "position") {f : Option Feeder} {c : List Cmd} (h : writeFeeder K el f = .ok c) : Avoids "position" c := by
  cases f with
  | none => cases h; exact avoids_nil _
  | some f =>
    obtain ⟨_, -, h⟩ := Out.bind_eq_ok.1 h
    cases h
    exact Avoids.elem hel (avoids_nil _)

theorem library_plain {K : XCodec} {A : Anon} {i : Nat} {x : Ext} {as : List (String × String)} {body : List Cmd} (h : writeExt K A i x = .ok (as, body)) : Plain (extName x) as body := by
  have hempty : ∀ {n : String} {a : List (String × String)}, body = [] → Plain n a body := fun h => h ▸ plain_of_avoids (avoids_nil _)
  cases x with
  | meas ms =>
    have h : (writeList (writeMeas K) ms).map (fun c => (([] : List (String × String)), c)) = .ok (as, body) := h
    cases hw : writeList (writeMeas K) ms with
    | ok c => rw [hw] at h; cases h; exact plain_of_avoids (avoids_list (fun _ _ => avoids_meas) _ _ hw)
    | thrown => rw [hw] at h; cases h
    | ub => rw [hw] at h; cases h
  | disc ds =>
    have h : (writeList (writeDisc K) ds).map (fun c => (([] : List (String × String)), c)) = .ok (as, body) := h
    cases hw : writeList (writeDisc K) ds with
    | ok c => rw [hw] at h; cases h; exact plain_of_avoids (avoids_list (fun _ _ => avoids_disc) _ _ hw)
    | thrown => rw [hw] at h; cases h
    | ub => rw [hw] at h; cases h
  | data d =>
    cases d with
    | remote => cases h
    | status s =>
      have h : (Enums.toString Enums.branchStatusStatus.names s).map (fun t => (([] : List (String × String)), [Cmd.chars t])) = .ok (as, body) := h
      cases hw : Enums.toString Enums.branchStatusStatus.names s with
      | ok t => rw [hw] at h; cases h; exact plain_text _ _ _
      | thrown => rw [hw] at h; cases h
      | ub => rw [hw] at h; cases h
    | area c =>
      have h : (Enums.toString Enums.entsoeGeographicalCode.names c).map (fun t => (([] : List (String × String)), [Cmd.chars t])) = .ok (as, body) := h
      cases hw : Enums.toString Enums.entsoeGeographicalCode.names c with
      | ok t => rw [hw] at h; cases h; exact plain_text _ _ _
      | thrown => rw [hw] at h; cases h
      | ub => rw [hw] at h; cases h
    | position p =>
      obtain ⟨a, h1, h⟩ := Out.bind_eq_ok.1 h
      obtain ⟨b, h2, h⟩ := Out.bind_eq_ok.1 h
      obtain ⟨c, h3, h⟩ := Out.bind_eq_ok.1 h
      obtain ⟨d, h4, h⟩ := Out.bind_eq_ok.1 h
      cases h
      exact plain_of_avoids ((avoids_feeder (by decide) h1).append ((avoids_feeder (by decide) h2).append ((avoids_feeder (by decide) h3).append (avoids_feeder (by decide) h4))))
    | detail v =>
      have h : writeData K A i (.detail v) = .ok (as, body) := h
      simp only [writeData] at h
      cases hv : v[i]? with
      | none => rw [hv] at h; cases h
      | some p => rw [hv] at h; cases h; exact hempty rfl
    | slack v =>
      have h : writeData K A i (.slack v) = .ok (as, body) := h
      simp only [writeData] at h
      cases hv : v[i]? with
      | none => rw [hv] at h; cases h
      | some p =>
        rw [hv] at h
        cases p <;> (cases h; exact hempty rfl)
    | activePower => cases h; exact hempty rfl
    | reactive => cases h; exact hempty rfl
    | angleDroop => cases h; exact hempty rfl
    | range => cases h; exact hempty rfl
    | clock2 => cases h; exact hempty rfl
    | clock3 => cases h; exact hempty rfl
    | slope => cases h; exact hempty rfl
    | busbar => cases h; exact hempty rfl
    | merged => cases h; exact hempty rfl
    | xnode => cases h; exact hempty rfl

/-! ### A network with extensions of the repository -/

/-- What holds of an extension (C78, C76, C77) of an object that looks like `E` in the network that is read, with names and values that can be read back. -/
def ExtOk (K : XCodec) (A : Anon) (E : REnv) (i : Nat) : Ext → Prop
  | .data x => E.cls ∈ concrete ∧ E.index < E.size ∧ E.cls ∈ holders x.name ∧ Held E.toEnv x ∧ (∀ s, x.size = some s → i < s) ∧ Exact K A E i x
  | .meas ms => (∀ m ∈ ms, MeasOk K (kindOf E.cls) m) ∧ Distinct (ms.map (·.id))
  | .disc ds => (∀ m ∈ ds, DiscOk (kindOf E.cls) m) ∧ Distinct (ds.map (·.id))

/-- The extensions that cannot be read back (C79). -/
def Refusing (i : Nat) : Ext → Prop
  | .data x => Unreadable i x
  | .meas ms => ∃ m ∈ ms, m.valid = true ∧ m.value = .nan
  | .disc ds => ∃ d ∈ ds, d.value = some (.string "")

/-- What an extension becomes (C79): the values of the variant that is written, but for the names of a merged node. -/
def Becomes (E : REnv) (i : Nat) : Ext → Ext → Prop
  | .data x, .data y => ReadAs E.toEnv i x y
  | .meas ms, .meas ms' => ms' = ms
  | .disc ds, .disc ds' => ds' = ds
  | _, _ => False

theorem library_reading {K : XCodec} (hN : K.toCodec.Naturals) (hK : K.Integers) (hS : K.readInt "" = .thrown) {A : Anon} {E : REnv} {i : Nat} {x : Ext} (h : ExtOk K A E i x)
    (hr : x.title ≠ .data .remote) :
    ∃ as body out, writeExt K A i x = .ok (as, body) ∧ Reading (elemCmds (extName x) as body) (readExt K A E x.title) out ∧ out ≠ .ub ∧
      (Refusing i x → out = .thrown) ∧ (¬ Refusing i x → ∃ y, out = .ok y ∧ Becomes E i x y) := by
  cases x with
  | data x =>
    obtain ⟨h1, h2, h3, h4, h5, h6⟩ := h
    have hr' : x.name ≠ .remote := fun e => hr (by show Title.data x.name = _; rw [e])
    obtain ⟨as, body, g1, g2, g3⟩ := data_reading hN h1 h2 h3 h4 h5 h6 hr'
    by_cases hu : Unreadable i x
    · exact ⟨as, body, .thrown, g1, g3 hu, by simp, fun _ => rfl, fun hn => absurd hu hn⟩
    · obtain ⟨y, hy1, hy2⟩ := g2 hu
      exact ⟨as, body, .ok (.data y), g1, hy2, by simp, fun hn => absurd hn hu, fun _ => ⟨_, rfl, hy1⟩⟩
  | meas ms =>
    obtain ⟨body, g1, g2, g3⟩ := meas_reading (A := A) h.1 h.2 i
    by_cases hu : Refusing i (.meas ms)
    · exact ⟨[], body, .thrown, g1, g3 hu, by simp, fun _ => rfl, fun hn => absurd hu hn⟩
    · exact ⟨[], body, .ok (.meas ms), g1, g2 fun m hm hv hn => hu ⟨m, hm, hv, hn⟩, by simp, fun hn => absurd hn hu, fun _ => ⟨_, rfl, rfl⟩⟩
  | disc ds =>
    obtain ⟨body, g1, g2, g3⟩ := disc_reading hK hS (A := A) h.1 h.2 i
    by_cases hu : Refusing i (.disc ds)
    · exact ⟨[], body, .thrown, g1, g3 hu, by simp, fun _ => rfl, fun hn => absurd hu hn⟩
    · exact ⟨[], body, .ok (.disc ds), g1, g2 fun m hm hn => hu ⟨m, hm, hn⟩, by simp, fun hn => absurd hn hu, fun _ => ⟨_, rfl, rfl⟩⟩

/-- The version of the extension that is asked for is one of its versions. -/
def VersionOk (o : WOpts) (t : Title) : Prop := o.version t.name = "" ∨ o.version t.name ∈ if t = .data .slack then ["1.0", "1.1", "1.2"] else ["1.0"]

theorem versionOk_iff {o : WOpts} {t : Title} {n : String × Uris} (hn : nsOf t = some n) : VersionOk o t ↔ (o.version t.name = "" ∨ Supports (o.version t.name) n.2) := by
  unfold VersionOk
  have h1 : ∀ u, n.2 = .one u → t ≠ .data .slack → ((o.version t.name = "" ∨ o.version t.name ∈ if t = .data .slack then ["1.0", "1.1", "1.2"] else ["1.0"]) ↔
      (o.version t.name = "" ∨ Supports (o.version t.name) n.2)) := by
    intro u hu ht
    rw [hu, if_neg ht, List.mem_singleton]
    rfl
  rcases t with m | _ | _
  · cases m <;> first
      | (cases hn; exact h1 _ rfl (by decide))
      | cases hn
    generalize o.version (Title.data Name.slack).name = v
    simp only [Supports, if_true, List.mem_cons, List.not_mem_nil, or_false, AMap.get?_cons, AMap.get?]
    constructor
    · rintro (h | rfl | rfl | rfl)
      · exact .inl h
      · exact .inr ⟨_, rfl⟩
      · exact .inr ⟨_, rfl⟩
      · exact .inr ⟨_, rfl⟩
    · rintro (h | ⟨u, h⟩)
      · exact .inl h
      · by_cases e1 : "1.0" = v
        · exact .inr (.inl e1.symm)
        · by_cases e2 : "1.1" = v
          · exact .inr (.inr (.inl e2.symm))
          · by_cases e3 : "1.2" = v
            · exact .inr (.inr (.inr e3.symm))
            · rw [if_neg e1, if_neg e2, if_neg e3] at h; cases h
  · cases hn; exact h1 _ rfl (by decide)
  · cases hn; exact h1 _ rfl (by decide)

/-- **C80.**  An extension of the repository can be written exactly when its serializer is there, does not decline it (or is not asked, with the option to throw), knows the
version, and can write it. -/
theorem library_writable_iff {K : XCodec} {A : Anon} {i : Nat} {ts : List Title} {o : WOpts} {x : Ext} :
    Writable extName (serializers K A i ts) o x ↔ x.title ∈ ts ∧ x.title ≠ .data .remote ∧ (o.strict = true ∨ canWrite i x = true) ∧ VersionOk o x.title ∧ ∃ p, writeExt K A i x = .ok p := by
  unfold Writable extName
  constructor
  · rintro ⟨s, h1, h2, h3, h4⟩
    have hs := serializers_isSome.1 (Option.isSome_iff_exists.2 ⟨s, h1⟩)
    obtain ⟨t, ht, hn, hq⟩ := serializers_get.1 h1
    have := name_injective hn
    subst this
    unfold serOf at hq
    cases hns : nsOf x.title with
    | none => rw [hns] at hq; cases hq
    | some n => rw [hns] at hq; cases hq; exact ⟨hs.1, hs.2, h2, (versionOk_iff hns).2 h3, h4⟩
  · rintro ⟨h1, h2, h3, h4, h5⟩
    obtain ⟨s, hs⟩ := Option.isSome_iff_exists.1 ((serializers_isSome (K := K) (A := A) (i := i)).2 ⟨h1, h2⟩)
    obtain ⟨t, ht, hn, hq⟩ := serializers_get.1 hs
    have := name_injective hn
    subst this
    refine ⟨s, hs, ?_⟩
    unfold serOf at hq
    cases hns : nsOf x.title with
    | none => rw [hns] at hq; cases hq
    | some n => rw [hns] at hq; cases hq; exact ⟨h3, (versionOk_iff hns).1 h4, h5⟩

theorem library_carries {K : XCodec} (hN : K.toCodec.Naturals) (hK : K.Integers) (hS : K.readInt "" = .thrown) {A : Anon} {E : REnv} {i j : Nat} {ts us : List Title} {o : WOpts} {r : ROpts}
    {x : Ext} (h : ExtOk K A E i x) (h1 : x.title ∈ ts) (h2 : x.title ≠ .data .remote) (h3 : o.strict = true ∨ canWrite i x = true) (h4 : VersionOk o x.title) :
    ∃ out, Carries extName (serializers K A i ts) (serializers K A j us) o r E x out ∧ out ≠ .ub ∧ (Refusing i x → out = .thrown) ∧
      (¬ Refusing i x → ∃ y, out = .ok y ∧ Becomes E i x y) := by
  obtain ⟨as, body, out, g1, g2, g3, g4, g5⟩ := library_reading hN hK hS h h2
  refine ⟨out, ⟨as, body, ?_, library_plain g1, ?_⟩, g3, g4, g5⟩
  · obtain ⟨s, hs⟩ := Option.isSome_iff_exists.1 ((serializers_isSome (K := K) (A := A) (i := i)).2 ⟨h1, h2⟩)
    obtain ⟨t, ht, hn, hq⟩ := serializers_get.1 hs
    have := name_injective hn
    subst this
    unfold serOf at hq
    cases hns : nsOf x.title with
    | none => rw [hns] at hq; cases hq
    | some n =>
      rw [hns] at hq
      cases hq
      have hv := (versionOk_iff hns).1 h4
      have hp : pick extName (serializers K A i ts) o x = .ok (some ⟨n.1, n.2, canWrite i, writeExt K A i, fun E => readExt K A E x.title⟩) := by
        unfold pick extName
        rw [hs]
        cases hst : o.strict with
        | true => rfl
        | false =>
          rw [hst] at h3
          simp only [Bool.false_eq_true, false_or] at h3
          simp [h3]
      unfold writeOne
      rw [hp, Out.monad_bind_ok]
      by_cases hve : o.version (extName x) = ""
      · simp only [hve, g1, Out.monad_bind_ok]
        rfl
      · have := supported_iff.2 (hv.resolve_left hve)
        have this : Uris.supported (o.version (extName x)) n.2 = .ok () := this
        simp only [hve, this, g1, Out.monad_bind_ok, ne_eq, not_false_eq_true, if_true]
  · intro _ q hq
    obtain ⟨t, ht, hn, hq⟩ := serializers_get.1 hq
    have := name_injective hn
    subst this
    unfold serOf at hq
    cases hns : nsOf x.title with
    | none => rw [hns] at hq; cases hq
    | some n => rw [hns] at hq; cases hq; exact ⟨g3, g2⟩

/-- What is assumed of the network, of its extensions and of the options: the objects are found in the network that is read, the extensions are those that the library can
make, their serializers are there, and the versions that are asked for go with the one of the document. -/
structure LibOk {T : Type} (K : XCodec) (A : Anon) (i : Nat) (ts : List Title) (o : WOpts) (look : NetSub → String → Out REnv) (e : String → REnv) (x : Net T) (hs : List (Holder Ext)) : Prop where
  ids : ∀ p ∈ carried extName o hs, A.Inverts p.1
  found : ∀ p ∈ carried extName o hs, look ⟨x.subs, x.lines, x.hvdcs⟩ p.1 = .ok (e p.1)
  exts : ∀ p ∈ carried extName o hs, ExtOk K A (e p.1) i p.2
  known : ∀ p ∈ carried extName o hs, p.2.title ∈ ts ∧ p.2.title ≠ .data .remote
  serializable : ∀ p ∈ carried extName o hs, o.strict = true ∨ canWrite i p.2 = true
  versions : ∀ p ∈ carried extName o hs, VersionOk o p.2.title
  slack : Present extName o hs "slackTerminal" → .data .slack ∈ ts → (o.net, o.version "slackTerminal") ∈ slackVersions

/-- The reader asks for the extension. -/
def Reads (us : List Title) (r : ROpts) (x : Ext) : Prop := Wanted r.list (extName x) ∧ x.title ∈ us ∧ x.title ≠ .data .remote

instance (us : List Title) (r : ROpts) (x : Ext) : Decidable (Reads us r x) := inferInstanceAs (Decidable (_ ∧ _ ∧ _))

theorem known_iff {K : XCodec} {A : Anon} {j : Nat} {us : List Title} {r : ROpts} {x : Ext} : Known extName (serializers K A j us) r x ↔ Reads us r x := by
  unfold Known Reads
  rw [show extName x = x.title.name from rfl, serializers_isSome]

theorem missed_iff {K : XCodec} {A : Anon} {j : Nat} {us : List Title} {r : ROpts} {x : Ext} (hr : x.title ≠ .data .remote) :
    Missed extName (serializers K A j us) r x ↔ Wanted r.list (extName x) ∧ x.title ∉ us := by
  unfold Missed
  rw [← Option.not_isSome_iff_eq_none, show extName x = x.title.name from rfl, serializers_isSome]
  simp [hr]

/-- **C80.**  A network is written with its extensions.  The document is accepted exactly when no extension that the reader asks for and has a serializer for is one that
cannot be read back (C79), and, with the option to throw, when the reader has the serializers of all the extensions that it asks for.  The network that is read is then the
network that was written, and its objects get the extensions that the reader asks for and has a serializer for, in the order of the document, with the values of the
variant that was written. -/
theorem library_network {T : Type} {K : XCodec} (hN : K.toCodec.Naturals) (hK : K.Integers) (hS : K.readInt "" = .thrown) {A : Anon} {D : Dates T} {x : Net T} (h : NetOk K A D x)
    {i j : Nat} {ts us : List Title} {o : WOpts} {r : ROpts} {look : NetSub → String → Out REnv} {e : String → REnv} {hs : List (Holder Ext)}
    (hl : LibOk K A i ts o look e x hs) (ind : Bool) :
    ∃ cs toks, writeNetX K A D extName (serializers K A i ts) o x hs = .ok cs ∧ document ind cs = .ok toks ∧
      readNetX K A D (serializers K A j us) r look toks ≠ .ub ∧
      ((∃ z, readNetX K A D (serializers K A j us) r look toks = .ok z) ↔
        (∀ p ∈ carried extName o hs, Reads us r p.2 → ¬ Refusing i p.2) ∧
        (r.strict = true → ∀ p ∈ carried extName o hs, Wanted r.list (extName p.2) → p.2.title ∈ us)) ∧
      ∀ y s, readNetX K A D (serializers K A j us) r look toks = .ok (y, s) → y = Net.asRead x ∧
        All2 (fun p q => q.1 = p.1 ∧ Becomes (e p.1) i p.2 q.2) ((carried extName o hs).filter fun p => decide (Reads us r p.2)) s.got := by
  have hex : ∀ p : String × Ext, ∃ out : Out Ext, p ∈ carried extName o hs →
      Carries extName (serializers K A i ts) (serializers K A j us) o r (e p.1) p.2 out ∧ out ≠ .ub ∧ (Refusing i p.2 → out = .thrown) ∧
      (¬ Refusing i p.2 → ∃ y, out = .ok y ∧ Becomes (e p.1) i p.2 y) := by
    intro p
    by_cases hp : p ∈ carried extName o hs
    · obtain ⟨out, ho⟩ := library_carries hN hK hS (hl.exts p hp) (hl.known p hp).1 (hl.known p hp).2 (hl.serializable p hp) (hl.versions p hp) (j := j) (us := us) (r := r)
      exact ⟨out, fun _ => ho⟩
    · exact ⟨.ub, fun h => absurd h hp⟩
  obtain ⟨f, hf⟩ := Classical.skolem.1 hex
  have hc : CarriedOk A extName (serializers K A i ts) (serializers K A j us) o r look e (fun i x => f (i, x)) x hs :=
    fun p hp => ⟨hl.ids p hp, hl.found p hp, (hf p hp).1⟩
  obtain ⟨ns, hns⟩ := (library_namespaces K A i ts o hs).2 hl.slack
  by_cases hbad : ∃ p ∈ carried extName o hs, Reads us r p.2 ∧ Refusing i p.2
  · obtain ⟨p, hp, hr1, hr2⟩ := hbad
    obtain ⟨cs, toks, w1, w2, w3⟩ := refused_extension hK h hc hns ind hp (known_iff.2 hr1) ((hf p hp).2.2.1 hr2)
    refine ⟨cs, toks, w1, w2, by rw [w3]; simp, ?_, by rw [w3]; intro y s h; cases h⟩
    rw [w3]
    constructor
    · rintro ⟨z, hz⟩; cases hz
    · rintro ⟨g, -⟩; exact absurd hr2 (g p hp hr1)
  · by_cases hmis : r.strict = true ∧ ∃ p ∈ carried extName o hs, Wanted r.list (extName p.2) ∧ p.2.title ∉ us
    · obtain ⟨hst, p, hp, hw, hu⟩ := hmis
      obtain ⟨cs, toks, w1, w2, w3⟩ := missing_serializer hK h hc hns ind hp ((missed_iff (hl.known p hp).2).2 ⟨hw, hu⟩) hst
      refine ⟨cs, toks, w1, w2, by rw [w3]; simp, ?_, by rw [w3]; intro y s h; cases h⟩
      rw [w3]
      constructor
      · rintro ⟨z, hz⟩; cases hz
      · rintro ⟨-, g⟩; exact absurd (g hst p hp hw) hu
    · have hz : ∀ p : String × Ext, ∃ z : Ext, p ∈ carried extName o hs → Reads us r p.2 → f p = .ok z ∧ Becomes (e p.1) i p.2 z := by
        intro p
        by_cases hp : p ∈ carried extName o hs ∧ Reads us r p.2
        · obtain ⟨y, hy⟩ := (hf p hp.1).2.2.2 fun hr => hbad ⟨p, hp.1, hp.2, hr⟩
          exact ⟨y, fun _ _ => hy⟩
        · exact ⟨p.2, fun h1 h2 => absurd ⟨h1, h2⟩ hp⟩
      obtain ⟨g, hg⟩ := Classical.skolem.1 hz
      obtain ⟨cs, toks, s, w1, w2, w3, w4⟩ := network_extensions_round_trip_partial hK h hc hns ind (z := fun i x => g (i, x)) (fun p hp hk => (hg p hp (known_iff.1 hk)).1)
        (fun hst p hp hm => hmis ⟨hst, p, hp, (missed_iff (hl.known p hp).2).1 hm⟩)
      refine ⟨cs, toks, w1, w2, by rw [w3]; simp, ?_, ?_⟩
      · constructor
        · intro _
          refine ⟨fun p hp hr1 hr2 => hbad ⟨p, hp, hr1, hr2⟩, fun hst p hp hw => ?_⟩
          by_cases hu : p.2.title ∈ us
          · exact hu
          · exact absurd ⟨hst, p, hp, hw, hu⟩ hmis
        · intro _
          exact ⟨_, w3⟩
      · intro y s' hy
        rw [w3] at hy
        cases hy
        refine ⟨rfl, ?_⟩
        rw [w4]
        have hfil : (carried extName o hs).filter (fun p => decide (Known extName (serializers K A j us) r p.2)) = (carried extName o hs).filter fun p => decide (Reads us r p.2) := by
          congr 1
          funext p
          rw [decide_eq_decide]
          exact known_iff
        rw [hfil]
        have : ∀ l : List (String × Ext), (∀ p ∈ l, Becomes (e p.1) i p.2 (g p)) →
            All2 (fun p q => q.1 = p.1 ∧ Becomes (e p.1) i p.2 q.2) l (l.map fun p => (p.1, g (p.1, p.2))) := by
          intro l
          induction l with
          | nil => intro _; exact trivial
          | cons p l ih => intro h; exact ⟨⟨rfl, h p List.mem_cons_self⟩, ih fun q hq => h q (List.mem_cons_of_mem _ hq)⟩
        refine this _ fun p hp => ?_
        obtain ⟨p1, p2⟩ := List.mem_filter.1 hp
        exact (hg p p1 (of_decide_eq_true p2)).2

/-- **C80.**  With the serializers of the repository a network is written exactly when the extensions that the document has to carry all have a serializer, that does not
decline them (unless the option to throw is set), in a version that it knows, and slack terminals are in a document that can have them. -/
theorem library_written_iff {T : Type} {K : XCodec} (hK : K.Integers) {A : Anon} {D : Dates T} {x : Net T} (h : NetOk K A D x) (i : Nat) (ts : List Title) (o : WOpts) (hs : List (Holder Ext)) :
    (∃ cs, writeNetX K A D extName (serializers K A i ts) o x hs = .ok cs) ↔
      (Present extName o hs "slackTerminal" → .data .slack ∈ ts → (o.net, o.version "slackTerminal") ∈ slackVersions) ∧
      ∀ p ∈ carried extName o hs, p.2.title ∈ ts ∧ p.2.title ≠ .data .remote ∧ (o.strict = true ∨ canWrite i p.2 = true) ∧ VersionOk o p.2.title ∧ ∃ c, writeExt K A i p.2 = .ok c := by
  rw [netX_written_iff hK h, library_namespaces]
  simp only [library_writable_iff]

/-! ### Examples -/

def exNet : Net String :=
  ⟨⟨⟨"N", "N", false⟩, [("other name", "")], [("k", "v")]⟩, "test", 15, "2026-11-17", [⟨⟨⟨"P1", "", false⟩, [], []⟩, none, "", [], [], [], []⟩, ⟨⟨⟨"P2", "", true⟩, [], []⟩, none, "", [], [], [], []⟩], [], []⟩

theorem exNet_ok : NetOk toyS Anon.none textDates exNet where
  name := rfl
  id := by decide
  format := by decide
  aliases := by
    intro a ha
    simp only [exNet, List.mem_cons, List.not_mem_nil, or_false] at ha
    subst ha
    exact ⟨⟨rfl, by decide⟩, by decide⟩
  nodup := by decide
  types := by simp [exNet]
  props := by simp [exNet, AMap.NodupKeys, AMap.keys]
  forecast := by decide
  date := rfl
  subs := by
    intro s hs
    simp only [exNet, List.mem_cons, List.not_mem_nil, or_false] at hs
    rcases hs with rfl | rfl <;> exact ⟨plain_ident, nofun, ⟨rfl, by decide⟩, ⟨.nil, no_one, no_one, by decide⟩, no_one, no_one, no_one⟩
  lines := no_one
  hvdcs := no_one

/-- The objects: substations, the voltage level "V", and loads. -/
def exLook (t : NetSub) (id : String) : Out REnv := if t.subs.any fun s => s.ident.head.id == id then .ok (exREnv .substation id) else if id = "V" then .ok (exREnv .voltageLevel id) else .ok (exREnv .load id)

def exObj (id : String) : REnv := if id = "P1" ∨ id = "P2" then exREnv .substation id else if id = "V" then exREnv .voltageLevel id else exREnv .load id

def exMs : List Meas := [⟨"a", .activePower, [("p", "q")], none, 4, .nan, true⟩, ⟨"", .other, [("k", "v")], none, .nan, 1, false⟩]

/-- Four objects with extensions, the last one of which is not written. -/
def exHs : List (Holder Ext) :=
  [⟨"P2", true, [.data (.area ⟨3, by decide⟩)]⟩, ⟨"V", true, [.data (.slack [none, some ⟨"VG", ""⟩])]⟩, ⟨"L", true, [.data (.detail [⟨0, 0, 0, 0⟩, ⟨1, 2, 3, 4⟩]), .meas exMs]⟩,
    ⟨"G", false, [.data (.remote 1 ⟨"VG", ""⟩ true)]⟩]

def exCarried : List (String × Ext) :=
  [("P2", .data (.area ⟨3, by decide⟩)), ("V", .data (.slack [none, some ⟨"VG", ""⟩])), ("L", .data (.detail [⟨0, 0, 0, 0⟩, ⟨1, 2, 3, 4⟩])), ("L", .meas exMs)]

def exO : WOpts := ⟨[], [], false, "1.5"⟩

theorem exHs_carried : carried extName exO exHs = exCarried := by decide

theorem exHs_ok : LibOk toyS Anon.none 1 titles exO exLook exObj exNet exHs where
  ids := fun _ _ => rfl
  found := by
    rw [exHs_carried]
    intro p hp
    simp only [exCarried, List.mem_cons, List.not_mem_nil, or_false] at hp
    rcases hp with rfl | rfl | rfl | rfl <;> simp [exLook, exObj, exNet]
  exts := by
    rw [exHs_carried]
    intro p hp
    simp only [exCarried, List.mem_cons, List.not_mem_nil, or_false] at hp
    rcases hp with rfl | rfl | rfl | rfl
    · refine ⟨by decide, by decide, by decide, ⟨?_, nofun⟩, nofun, exact_toy (fun _ => rfl) ?_⟩
      · intro i k v hv _
        cases k <;> simp [Data.get] at hv
        subst hv
        trivial
      · intro k n hn
        cases k <;> simp [Data.get] at hn
    · refine ⟨by decide, by decide, by decide, ⟨?_, nofun⟩, by simp [Data.size], exact_toy (fun _ => rfl) ?_⟩
      · intro i k v hv _
        cases k <;> simp [Data.get] at hv
        obtain ⟨r, hr, rfl⟩ := hv
        match i, hr with
        | 1, hr => cases hr; rfl
        | n + 2, hr => simp at hr
      · intro k n hn
        cases k <;> simp [Data.get] at hn
    · refine ⟨by decide, by decide, by decide, ⟨?_, nofun⟩, by simp [Data.size], exact_toy (fun _ => rfl) ?_⟩
      · intro i k v hv _
        match i, hv with
        | 0, hv => cases k <;> simp [Data.get] at hv <;> (subst hv; intro h; cases h)
        | 1, hv => cases k <;> simp [Data.get] at hv <;> (subst hv; intro h; cases h)
        | n + 2, hv => cases k <;> simp [Data.get] at hv
      · intro k n hn
        cases k <;> simp [Data.get] at hn
    · refine ⟨?_, by simp [Distinct, exMs]⟩
      intro m hm
      simp only [exMs, List.mem_cons, List.not_mem_nil, or_false] at hm
      rcases hm with rfl | rfl <;> exact ⟨show Measure.Fits .injection _ none from ⟨by simp, by simp, by simp⟩, ⟨by simp [AMap.NodupKeys], by decide⟩, toyS_keeps _, toyS_keeps _⟩
  known := by rw [exHs_carried]; decide
  serializable := by rw [exHs_carried]; decide
  versions := fun _ _ => .inl rfl
  slack := fun _ _ => by decide

theorem exMs_read : ¬ Refusing 1 (.meas exMs) := by
  rintro ⟨m, hm, h1, h2⟩
  simp only [exMs, List.mem_cons, List.not_mem_nil, or_false] at hm
  rcases hm with rfl | rfl
  · cases h2
  · cases h1

theorem two_got {e : String → REnv} {i : Nat} {p q : String × Ext} {l : List (String × Ext)} (h : All2 (fun p q => q.1 = p.1 ∧ Becomes (e p.1) i p.2 q.2) [p, q] l) :
    ∃ x y, l = [(p.1, x), (q.1, y)] ∧ Becomes (e p.1) i p.2 x ∧ Becomes (e q.1) i q.2 y := by
  cases l with
  | nil => exact absurd h id
  | cons a l =>
    cases l with
    | nil => exact absurd h.2 id
    | cons b l =>
      cases l with
      | cons c l => exact absurd h.2.2 id
      | nil =>
        obtain ⟨⟨h6, h9⟩, ⟨h7, h8⟩, -⟩ := h
        exact ⟨a.2, b.2, by rw [← h6, ← h7], h9, h8⟩

theorem becomes_meas {e : REnv} {i : Nat} {ms : List Meas} {y : Ext} (h : Becomes e i (.meas ms) y) : y = .meas ms := by
  cases y with
  | meas ms' => exact congrArg Ext.meas h
  | data _ => exact absurd h id
  | disc _ => exact absurd h id

/-- The reader has serializers for areas and measurements only, and does not mind: it gets these, the others are left out. -/
example (ind : Bool) : ∃ (cs : List Cmd) (toks : List Tok) (s : Sect Ext), writeNetX toyS .none textDates extName (serializers toyS .none 1 titles) exO exNet exHs = .ok cs ∧ document ind cs = .ok toks ∧
    readNetX toyS .none textDates (serializers toyS .none 0 [.data .area, .meas]) ⟨[], false⟩ exLook toks = .ok (exNet, s) ∧ s.got.map Prod.fst = ["P2", "L"] ∧ ("L", Ext.meas exMs) ∈ s.got := by
  obtain ⟨cs, toks, h1, h2, -, h3, h4⟩ := library_network toyS_integers.naturals toyS_integers rfl exNet_ok exHs_ok ind (j := 0) (us := [.data .area, .meas]) (r := ⟨[], false⟩)
  obtain ⟨⟨y, s⟩, hz⟩ := h3.2 ⟨by
    rw [exHs_carried]
    intro p hp hr
    simp only [exCarried, List.mem_cons, List.not_mem_nil, or_false] at hp
    rcases hp with rfl | rfl | rfl | rfl
    · rintro (⟨h, -⟩ | ⟨s, h⟩ | ⟨h, -⟩)
      · cases h
      · cases h
      · cases h
    · exact absurd hr (by decide)
    · exact absurd hr (by decide)
    · exact exMs_read, nofun⟩
  obtain ⟨hy, h5⟩ := h4 y s hz
  rw [hy, show Net.asRead exNet = exNet from rfl] at hz
  refine ⟨cs, toks, s, h1, h2, hz, ?_⟩
  clear h1 h2 h3 h4 hz
  have hf : (carried extName exO exHs).filter (fun p => decide (Reads [.data .area, .meas] ⟨[], false⟩ p.2)) = [("P2", .data (.area ⟨3, by decide⟩)), ("L", .meas exMs)] := by
    rw [exHs_carried]; decide
  rw [hf] at h5
  obtain ⟨a, b, h6, -, h7⟩ := two_got h5
  rw [h6, becomes_meas h7]
  exact ⟨rfl, List.mem_cons_of_mem _ List.mem_cons_self⟩

/-- With the option to throw the same reader refuses the document. -/
example (ind : Bool) : ∃ cs toks, writeNetX toyS .none textDates extName (serializers toyS .none 1 titles) exO exNet exHs = .ok cs ∧ document ind cs = .ok toks ∧
    ¬ ∃ z, readNetX toyS .none textDates (serializers toyS .none 0 [.data .area, .meas]) ⟨[], true⟩ exLook toks = .ok z := by
  obtain ⟨cs, toks, h1, h2, -, h3, -⟩ := library_network toyS_integers.naturals toyS_integers rfl exNet_ok exHs_ok ind (j := 0) (us := [.data .area, .meas]) (r := ⟨[], true⟩)
  refine ⟨cs, toks, h1, h2, fun h => ?_⟩
  have := (h3.1 h).2 rfl ("V", .data (.slack [none, some ⟨"VG", ""⟩])) (by rw [exHs_carried]; simp [exCarried]) (.inl rfl)
  exact absurd this (by decide)

example : (exO.addVersion "slackTerminal" "1.2" = .ok { exO with versions := [("slackTerminal", "1.2")] }) := by decide

/-! ### Violations -/

/-- **Against C80** (NetworkXml.cpp l.169-174): with the default options, a generator with the extension RemoteReactivePowerControl, which has no serializer, makes the
export of the whole network fail, where getExtensionSerializer (l. 83-86) only means to log that the extension is left out. -/
theorem remote_control_fails_export : ¬ ∃ cs, writeNetX toyS .none textDates extName (serializers toyS .none 0 titles) ⟨[], [], false, "1.5"⟩ exNet [⟨"G", true, [.data (.remote 1 ⟨"VG", ""⟩ true)]⟩] = .ok cs := by
  rw [library_written_iff toyS_integers exNet_ok]
  rintro ⟨-, h⟩
  exact (h ("G", .data (.remote 1 ⟨"VG", ""⟩ true)) (by decide)).2.1 rfl

/-- **Against C80** (NetworkXml.cpp l.169-174): so does an extension that its serializer declines: measurements when there are none, a slack terminal that was removed. -/
theorem declined_extension_fails_export (hs : List (Holder Ext)) (h : hs = [⟨"L", true, [.meas []]⟩] ∨ hs = [⟨"V", true, [.data (.slack [none])]⟩]) :
    ¬ ∃ cs, writeNetX toyS .none textDates extName (serializers toyS .none 0 titles) ⟨[], [], false, "1.5"⟩ exNet hs = .ok cs := by
  rw [library_written_iff toyS_integers exNet_ok]
  rintro ⟨-, g⟩
  rcases h with rfl | rfl
  · exact absurd (g ("L", .meas []) (by decide)).2.2.1 (by decide)
  · exact absurd (g ("V", .data (.slack [none])) (by decide)).2.2.1 (by decide)

/-- **Against C80** (AbstractVersionableExtensionXmlSerializer.cpp l.78-80): a network with a slack terminal cannot be exported in the versions 1.0 to 1.2. -/
theorem slack_fails_old_versions (v : String) (hv : v ∈ ["1.0", "1.1", "1.2"]) :
    ¬ ∃ cs, writeNetX toyS .none textDates extName (serializers toyS .none 1 titles) ⟨[], [], false, v⟩ exNet [⟨"V", true, [.data (.slack [none, some ⟨"VG", ""⟩])]⟩] = .ok cs := by
  rw [library_written_iff toyS_integers exNet_ok]
  rintro ⟨h, -⟩
  have := h ⟨.inl rfl, _, List.mem_singleton.2 rfl, _, List.mem_singleton.2 rfl, rfl⟩ (by decide)
  simp only [List.mem_cons, List.not_mem_nil, or_false] at hv
  rcases hv with rfl | rfl | rfl <;> exact absurd this (by decide)

/-- **Against C80** (NetworkXml.cpp l.74-77): with the option to throw, the serializer is not asked whether it declines the extension: a slack terminal that was removed is
written, and the document is refused. -/
theorem strict_export_unreadable (ind : Bool) : ∃ cs toks, writeNetX toyS .none textDates extName (serializers toyS .none 0 titles) ⟨[], [], true, "1.5"⟩ exNet [⟨"V", true, [.data (.slack [none])]⟩] = .ok cs ∧
    document ind cs = .ok toks ∧ readNetX toyS .none textDates (serializers toyS .none 0 titles) ⟨[], false⟩ exLook toks = .thrown := by
  have hcar : carried extName ⟨[], [], true, "1.5"⟩ [⟨"V", true, [.data (.slack [none])]⟩] = [("V", .data (.slack [none]))] := by decide
  obtain ⟨cs, toks, h1, h2, h3, h4, -⟩ := library_network toyS_integers.naturals toyS_integers rfl exNet_ok (i := 0) (j := 0) (ts := titles) (us := titles) (o := ⟨[], [], true, "1.5"⟩)
    (r := ⟨[], false⟩) (look := exLook) (e := exObj) (hs := [⟨"V", true, [.data (.slack [none])]⟩]) {
      ids := fun _ _ => rfl
      found := by
        rw [hcar]
        intro p hp
        rw [List.mem_singleton] at hp
        subst hp
        rfl
      exts := by
        rw [hcar]
        intro p hp
        rw [List.mem_singleton] at hp
        subst hp
        refine ⟨by decide, by decide, by decide, ⟨?_, nofun⟩, by simp [Data.size], exact_toy (fun _ => rfl) ?_⟩
        · intro i k v hv _
          cases k <;> simp [Data.get] at hv
          obtain ⟨r, hr, rfl⟩ := hv
          match i, hr with
          | 0, hr => cases hr
          | n + 1, hr => simp at hr
        · intro k n hn
          cases k <;> simp [Data.get] at hn
      known := by rw [hcar]; decide
      serializable := fun _ _ => .inl rfl
      versions := fun _ _ => .inl rfl
      slack := fun _ _ => by decide } ind
  refine ⟨cs, toks, h1, h2, ?_⟩
  cases hr : readNetX toyS .none textDates (serializers toyS .none 0 titles) ⟨[], false⟩ exLook toks with
  | thrown => rfl
  | ub => exact absurd hr h3
  | ok z =>
    have := (h4.1 ⟨z, hr⟩).1 ("V", .data (.slack [none])) (by rw [hcar]; simp) (by decide)
    exact absurd (.inr (.inr ⟨rfl, rfl⟩)) this

end Verif.ExtNet
