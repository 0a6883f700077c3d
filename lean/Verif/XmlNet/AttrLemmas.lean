import Verif.XmlNet.Injections
import Verif.XmlNet.BaseLemmas
import Verif.Xml.ShuntProps

/-!
Reading back the attributes and the sub elements that several kinds of equipment share.  Helper lemmas, and the conditions on terminals,
references and limits that the round trips need.
-/

namespace Verif.XmlNet

open Verif Verif.Xml

/-! ### Conditions -/

/-- What holds of the place of every terminal: nodes have 64 bits, buses have a name, which can be read back. -/
def PlaceOk (A : Anon) : Adders.Place → Prop
  | .node n => n < 2 ^ 64
  | .bus b _ => b ≠ "" ∧ A.Inverts b

/-- The values of a terminal are read back. -/
structure TermOk (K : XCodec) (A : Anon) (t : Term) : Prop where
  place : PlaceOk A t.place
  p : K.Keeps t.p
  q : K.Keeps t.q

/-- A reference names an equipment. -/
def RefOk (A : Anon) (o : Option Ref) : Prop := ∀ r, o = some r → r.id ≠ "" ∧ A.Inverts r.id

/-- Reactive limits made by the adders, with values that are read back. -/
def ReactiveOk (K : XCodec) : Reactive → Prop
  | .minMax a b => Curve.buildMinMax a b = .ok (a, b) ∧ K.toCodec.Exact a ∧ K.toCodec.Exact b
  | .curve pts => ∃ args, Curve.build args = .ok pts ∧ ∀ x ∈ args, PtExact K.toCodec x

/-- Loading limits made by the adders, with values that are read back; the empty ones are not written (`empty_limits_lost`). -/
def LimitsOk (K : XCodec) (o : Option Limits.LL) : Prop :=
  ∀ l, o = some l → LimitsWF l ∧ LimitsExact K.toCodec l ∧ (l.permanent.isNan = false ∨ l.temps ≠ [])

theorem refOk_none {A : Anon} : RefOk A none := by intro r h; cases h

theorem limitsOk_none {K : XCodec} : LimitsOk K none := by intro r h; cases h

/-! ### Attributes -/

def nodeText (K : XCodec) : Adders.Place → Option String
  | .node n => some (K.showN n)
  | .bus _ _ => none

def busText (A : Anon) : Adders.Place → Option String
  | .node _ => none
  | .bus b c => if c then some (A.anon b) else none

def connectableText (A : Anon) : Adders.Place → Option String
  | .node _ => none
  | .bus b _ => some (A.anon b)

theorem append_ne {a b : String} (h : a.length ≠ b.length) (s : String) : a ++ s ≠ b ++ s := by
  intro e
  have := congrArg String.length e
  simp at this
  exact h this

theorem lookup_place (K : XCodec) (A : Anon) (s k : String) (pl : Adders.Place) :
    lookup k (placeAttrs K A s pl) = if "node" ++ s = k then nodeText K pl else if "bus" ++ s = k then busText A pl else if "connectableBus" ++ s = k then connectableText A pl else none := by
  have h1 : "node" ++ s ≠ "bus" ++ s := append_ne (by decide) s
  have h2 : "node" ++ s ≠ "connectableBus" ++ s := append_ne (by decide) s
  have h3 : "bus" ++ s ≠ "connectableBus" ++ s := append_ne (by decide) s
  cases pl with
  | node n =>
    by_cases h : "node" ++ s = k
    · subst h; simp [placeAttrs, lookup_attrN, nodeText]
    · simp [placeAttrs, lookup_attrN, busText, connectableText, h]
  | bus b c =>
    by_cases hn : "node" ++ s = k
    · subst hn
      cases c <;> simp [placeAttrs, lookup_cons, lookup_nil, nodeText, h1.symm, h2.symm]
    · by_cases hb : "bus" ++ s = k
      · subst hb
        cases c <;> simp [placeAttrs, lookup_cons, lookup_nil, busText, h1, h3.symm]
      · by_cases hc : "connectableBus" ++ s = k
        · subst hc
          cases c <;> simp [placeAttrs, lookup_cons, lookup_nil, connectableText, h2, h3]
        · cases c <;> simp [placeAttrs, lookup_cons, lookup_nil, hn, hb, hc]

theorem lookup_attrI (K : XCodec) (k k' : String) (i : Int) : lookup k (attrI K k' i) = if k' = k then some (K.showI i) else none := by
  simp [attrI, lookup]

theorem lookup_ite (k : String) (c : Prop) [Decidable c] (a b : List (String × String)) : lookup k (if c then a else b) = if c then lookup k a else lookup k b := by
  split <;> rfl

/-- Looking up an attribute among those that `t` writes. -/
macro "lk " t:ident : tactic =>
  `(tactic| simp [$t:ident, lookup_append, lookup_cons, lookup_nil, lookup_attrD, lookup_attrB, lookup_attrOptB, lookup_attrN, lookup_attrI, lookup_headAttrs, lookup_place, lookup_ite, pqAttrs])

theorem getD_at {K : Codec} {k n : String} {as : List (String × String)} {e : Bool} {rest : List Tok} {d : Dbl} (h : lookup k as = if d.isNan then none else some (K.showD d))
    (hn : d.isNan = false) (he : d.isNan = false → K.Exact d) : getD K k (.start n as e :: rest) = .ok d :=
  getD_attr (by simp [h, hn]) (he hn)

/-- The connection attributes of the suffix `s` among `as` are those of the place. -/
structure Placed (K : XCodec) (A : Anon) (s : String) (as : List (String × String)) (pl : Adders.Place) : Prop where
  node : lookup ("node" ++ s) as = nodeText K pl
  bus : lookup ("bus" ++ s) as = busText A pl
  connectable : lookup ("connectableBus" ++ s) as = connectableText A pl

theorem optName_at {A : Anon} {k n : String} {as : List (String × String)} {e : Bool} {rest : List Tok} {o : Option String} {b : String} (h : lookup k as = o.map A.anon)
    (hb : A.Inverts b) (ho : ∀ x, o = some x → x = b) : optName A k (.start n as e :: rest) = .ok (o.getD "") := by
  cases o with
  | none => simp [optName, optS, rawAttr, h]
  | some x =>
    have hx := ho x rfl
    subst hx
    have hb : A.dean (A.anon x) = .ok x := hb
    simp [optName, optS, rawAttr, h, hb]

theorem names_at {K : XCodec} {A : Anon} {s n : String} {as : List (String × String)} {pl : Adders.Place} (hp : Placed K A s as pl) (hok : PlaceOk A pl) (e : Bool) (rest : List Tok) :
    (∃ n0, pl = .node n0 ∧ optName A ("bus" ++ s) (.start n as e :: rest) = .ok "" ∧ optName A ("connectableBus" ++ s) (.start n as e :: rest) = .ok "") ∨
    (∃ b c, pl = .bus b c ∧ b ≠ "" ∧ optName A ("bus" ++ s) (.start n as e :: rest) = .ok (if c then b else "") ∧
      optName A ("connectableBus" ++ s) (.start n as e :: rest) = .ok b) := by
  cases pl with
  | node n0 =>
    refine .inl ⟨n0, rfl, ?_, ?_⟩
    · have := hp.bus
      simp only [busText] at this
      simp [optName, optS, rawAttr, this]
    · have := hp.connectable
      simp only [connectableText] at this
      simp [optName, optS, rawAttr, this]
  | bus b c =>
    have hi : A.dean (A.anon b) = .ok b := hok.2
    refine .inr ⟨b, c, rfl, hok.1, ?_, ?_⟩
    · have := hp.bus
      simp only [busText] at this
      cases c <;> simp_all [optName, optS, rawAttr]
    · have := hp.connectable
      simp only [connectableText] at this
      simp [optName, optS, rawAttr, this, hi]

theorem build_bus {b : String} (hb : b ≠ "") (c : Bool) : Adders.build ⟨none, if c then b else "", b⟩ = .ok (.bus b c) := by
  cases c <;> simp [Adders.build, Adders.connectionBus, Adders.createBusTerminal, hb]

theorem build_node (n : Nat) : Adders.build ⟨some n, "", ""⟩ = .ok (.node n) := by
  simp [Adders.build, Adders.connectionBus]

theorem readPlace_at {K : XCodec} (hK : K.toCodec.Naturals) {A : Anon} {n : String} {as : List (String × String)} {pl : Adders.Place} (hp : Placed K A "" as pl) (hok : PlaceOk A pl)
    (e : Bool) (rest : List Tok) : readPlace K A (.start n as e :: rest) = .ok pl := by
  have hnode := hp.node
  simp only [String.append_empty] at hnode
  unfold readPlace
  rcases names_at (n := n) hp hok e rest with ⟨n0, rfl, h1, h2⟩ | ⟨b, c, rfl, hb, h1, h2⟩
  · simp only [String.append_empty] at h1 h2
    have hn : optN K.toCodec "node" (.start n as e :: rest) = .ok (some n0) := by
      have := hK n0 hok
      simp only [nodeText] at hnode
      simp [optN, rawAttr, hnode, this, Out.map]
    simp only [h1, h2, hn, Out.monad_bind_ok, build_node]
  · simp only [String.append_empty] at h1 h2
    have hn : optN K.toCodec "node" (.start n as e :: rest) = .ok none := by
      simp only [nodeText] at hnode
      simp [optN, rawAttr, hnode]
    simp only [h1, h2, hn, Out.monad_bind_ok, build_bus hb]

theorem readTerm_at {K : XCodec} {s n : String} {as : List (String × String)} {t : Term} (h1 : lookup ("p" ++ s) as = if t.p.isNan then none else some (K.showD t.p))
    (h2 : lookup ("q" ++ s) as = if t.q.isNan then none else some (K.showD t.q)) (hp : K.Keeps t.p) (hq : K.Keeps t.q) (e : Bool) (rest : List Tok) :
    readTerm K s (.start n as e :: rest) t.place = .ok t := by
  unfold readTerm
  rw [optDOr_attr h1 hp, optDOr_attr h2 hq]
  rfl

theorem check_false : check false = .ok () := rfl

/-! ### Sub elements -/

variable {σ : Type}

theorem ref_rt {A : Anon} {el : String} {r : Ref} (hr : A.Inverts r.id) (required : Bool) : RoundTrip (refElem A el r) (readRef A required) r := by
  have hA : A.dean (A.anon r.id) = .ok r.id := hr
  unfold refElem
  apply roundTrip_intro
  intro i
  refine ⟨[], emits_nil i, fun rest => ?_⟩
  show readRef A required (.start el (("id", A.anon r.id) :: (if r.side ≠ "" then [("side", r.side)] else [])) true :: rest) = .ok (r, .start el _ true :: rest)
  have h1 : getS "id" (.start el (("id", A.anon r.id) :: (if r.side ≠ "" then [("side", r.side)] else [])) true :: rest) = .ok (A.anon r.id) := by
    simp [getS, rawAttr, lookup]
  have h2 : optSOr "id" "" (.start el (("id", A.anon r.id) :: (if r.side ≠ "" then [("side", r.side)] else [])) true :: rest) = .ok (A.anon r.id) := by
    simp [optSOr, rawAttr, lookup]
  have hside : optSOr "side" "" (.start el (("id", A.anon r.id) :: (if r.side ≠ "" then [("side", r.side)] else [])) true :: rest) = .ok r.side := by
    by_cases h : r.side = "" <;> simp [optSOr, rawAttr, lookup, h]
  unfold readRef
  cases required <;> simp only [h1, h2, hA, hside, Out.monad_bind_ok, if_true, Bool.false_eq_true, if_false]

/-- Effect of an optional element. -/
def setOpt (set : σ → α → σ) (s : σ) : Option α → σ
  | none => s
  | some a => set s a

theorem ref_body {A : Anon} {h : Handler σ} {root el : String} {required : Bool} {set : σ → Ref → σ} (hh : h el = some (refCb A required set)) {o : Option Ref} (ho : RefOk A o) (s : σ) :
    Body A h root (refElems A el o) s (setOpt set s o) := by
  cases o with
  | none => exact body_nil _ _ _ _
  | some r =>
    refine body_item (ref_rt (ho r rfl).2 required) hh fun toks rest hr => ?_
    simp only [refCb, hr, Out.monad_bind_ok, setOpt]

theorem reactive_ert {K : XCodec} {l : Reactive} (hl : ReactiveOk K l) :
    ∃ n, (n = "reactiveCapabilityCurve" ∨ n = "minMaxReactiveLimits") ∧ ElemRT n (.ok (writeReactive K.toCodec l)) (readReactive K.toCodec) l := by
  cases l with
  | minMax a b =>
    obtain ⟨h1, h2, h3⟩ := hl
    exact ⟨_, .inr rfl, _, _, rfl, minMax_round_trip h1 h2 h3⟩
  | curve pts =>
    obtain ⟨args, h1, h2⟩ := hl
    exact ⟨_, .inl rfl, _, _, rfl, curve_round_trip h1 h2⟩

theorem reactive_body {K : XCodec} {A : Anon} {h : Handler σ} {root : String} {set : σ → Reactive → σ} (h1 : h "reactiveCapabilityCurve" = some (reactiveCb K set))
    (h2 : h "minMaxReactiveLimits" = some (reactiveCb K set)) {l : Reactive} (hl : ReactiveOk K l) (s : σ) : Body A h root (writeReactive K.toCodec l) s (set s l) := by
  obtain ⟨n, hn, as, body, hw, hrt⟩ := reactive_ert hl
  simp only [Out.ok.injEq] at hw
  rw [hw]
  have hh : h n = some (reactiveCb K set) := by rcases hn with rfl | rfl <;> assumption
  refine body_item hrt hh fun toks rest hr => ?_
  simp only [reactiveCb, hr, Out.monad_bind_ok]

theorem limits_body {K : XCodec} (hK : K.toCodec.Naturals) {A : Anon} {h : Handler σ} {root el : String} {set : σ → Limits.LL → σ} (hh : h el = some (limitsSub K el set))
    {o : Option Limits.LL} (ho : LimitsOk K o) (s : σ) : Body A h root (limitsElems K el o) s (setOpt set s o) := by
  cases o with
  | none => exact body_nil _ _ _ _
  | some l =>
    obtain ⟨hw, he, hs⟩ := ho l rfl
    have hrt := limits_round_trip_partial hK el hw he hs
    have hcond : (!l.permanent.isNan || !l.temps.isEmpty) = true := by
      rcases hs with h | h
      · simp [h]
      · simp [h]
    show Body A h root (writeLimits K.toCodec el l) s (set s l)
    unfold writeLimits at hrt ⊢
    rw [if_pos hcond] at hrt ⊢
    refine body_item hrt hh fun toks rest hr => ?_
    simp only [limitsSub, hr, Out.monad_bind_ok]

end Verif.XmlNet
