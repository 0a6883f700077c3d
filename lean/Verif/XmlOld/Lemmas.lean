import Verif.XmlOld.Spec
import Verif.XmlNet.PlainLemmas

/-!
Composition of what writers report, of what readers read back and of what they refuse.  Helper lemmas only, after those of `Verif.XmlNet`.
-/

namespace Verif.XmlOld

open Verif Verif.Xml Verif.XmlNet

/-! ### What is reported -/

theorem Reports.plain {δ : Type} (b : Behaviour) (d : List δ) : Reports b (plain d) d [] := ⟨fun _ => rfl, fun h => absurd rfl h⟩

theorem Reports.andThen {δ : Type} {b : Behaviour} {x y : Piece δ} {d e : List δ} {l m : List String} (h1 : Reports b x d l) (h2 : Reports b y e m) : Reports b (x >+> y) (d ++ e) (l ++ m) := by
  constructor
  · intro h
    have hl : l = [] ∨ b = .logError := h.imp_left fun h => (List.append_eq_nil_iff.1 h).1
    have hm : m = [] ∨ b = .logError := h.imp_left fun h => (List.append_eq_nil_iff.1 h).2
    simp [XmlOld.andThen, h1.1 hl, h2.1 hm, Out.map]
  · intro hne hb
    by_cases hl : l = []
    · have hm : m ≠ [] := by rintro rfl; exact hne (by simp [hl])
      simp [XmlOld.andThen, h1.1 (.inl hl), h2.2 hm hb, Out.map]
    · simp [XmlOld.andThen, h1.2 hl hb]

theorem Reports.cast {δ : Type} {b : Behaviour} {x : Piece δ} {d e : List δ} {l m : List String} (h : Reports b x d l) (h1 : d = e) (h2 : l = m) : Reports b x e m := h1 ▸ h2 ▸ h

theorem lt_ge (v w : Ver) : v.lt w = !v.ge w := by simp [Ver.ge]

theorem reports_since {δ : Type} (name : String) (min : Ver) (c : Ctx) (d : List δ) :
    Reports c.behaviour (since name min c d) (if c.version.ge min then d else []) (if c.version.ge min then [] else [name]) := by
  unfold since assertMinimumVersion runFromMinimumVersion createExceptionOrLogError start
  rw [lt_ge]
  cases h : c.version.ge min with
  | true => exact ⟨fun _ => by simp, fun h => absurd rfl h⟩
  | false =>
    refine ⟨fun hb => ?_, fun _ hb => ?_⟩
    · have : c.behaviour = .logError := hb.resolve_left (by simp)
      simp [this]
    · cases hc : c.behaviour with
      | throwException => simp
      | logError => exact absurd hc hb
      | other => simp

theorem reports_anyway {δ : Type} (nd : Bool) (name : String) (min : Ver) (c : Ctx) (d : List δ) :
    Reports c.behaviour (anyway nd name min c (.ok d)) (if nd then d else []) (if nd && !c.version.ge min then [name] else []) := by
  unfold anyway assertMinimumVersionAndRunIfNotDefault assertMinimumVersion createExceptionOrLogError start
  rw [lt_ge]
  cases nd with
  | false => exact ⟨fun _ => by simp, fun h => absurd rfl h⟩
  | true =>
    cases h : c.version.ge min with
    | true => exact ⟨fun _ => by simp [Out.map], fun h => absurd rfl h⟩
    | false =>
      refine ⟨fun hb => ?_, fun _ hb => ?_⟩
      · have : c.behaviour = .logError := hb.resolve_left (by simp)
        simp [this, Out.map]
      · cases hc : c.behaviour with
        | throwException => simp
        | logError => exact absurd hc hb
        | other => simp

theorem reports_attrSince (K : XCodec) (name : String) (d dflt : Dbl) (min : Ver) (c : Ctx) :
    Reports c.behaviour (attrSince K name d dflt min c) (if c.version.ge min then attrD K.toCodec name d else []) (if !c.version.ge min && !isEqual d dflt then [name] else []) := by
  unfold attrSince writeAttributeFromMinimumVersion assertMinimumVersionIfNotDefault assertMinimumVersion createExceptionOrLogError start
  rw [lt_ge]
  cases h : c.version.ge min with
  | true => exact ⟨fun _ => by simp [Out.map], fun h => absurd rfl h⟩
  | false =>
    cases hq : isEqual d dflt with
    | true => exact ⟨fun _ => by simp, fun h => absurd rfl h⟩
    | false =>
      refine ⟨fun hb => ?_, fun _ hb => ?_⟩
      · have : c.behaviour = .logError := hb.resolve_left (by simp)
        simp [this]
      · cases hc : c.behaviour with
        | throwException => simp
        | logError => exact absurd hc hb
        | other => simp

theorem reports_run {δ : Type} (b : Behaviour) (min v : Ver) (d : List δ) :
    Reports b (runFromMinimumVersion min v (fun w => .ok { w with doc := w.doc ++ d }) start) (if v.ge min then d else []) [] := by
  unfold runFromMinimumVersion start
  cases v.ge min <;> exact ⟨fun _ => by simp, fun h => absurd rfl h⟩

theorem reports_until {δ : Type} (b : Behaviour) (max v : Ver) (d : List δ) :
    Reports b (runUntilMaximumVersion max v (fun w => .ok { w with doc := w.doc ++ d }) start) (if v.le max then d else []) [] := by
  unfold runUntilMaximumVersion start
  cases v.le max <;> exact ⟨fun _ => by simp, fun h => absurd rfl h⟩

/-- What is written of the aliases. -/
def aliasDoc (A : Anon) (v : Ver) (x : Ident) : List Cmd := if v.ge .v13 then aliasesElems A v x.aliases else []

theorem reports_aliases (A : Anon) (c : Ctx) (x : Ident) : Reports c.behaviour (writeAliases A c x) (aliasDoc A c.version x) [] := by
  unfold writeAliases aliasDoc runFromMinimumVersion assertMinimumVersionIfNotDefault assertMinimumVersion start
  rw [lt_ge]
  cases h : c.version.ge .v13 with
  | false => exact ⟨fun _ => by simp, fun h => absurd rfl h⟩
  | true => exact ⟨fun _ => by cases x.aliases.isEmpty <;> simp [Out.map], fun h => absurd rfl h⟩

theorem reports_elem {A : Anon} {c : Ctx} {root : String} {x : Ident} {as : Piece (String × String)} {sub : Piece Cmd} {d : List (String × String)} {e : List Cmd} {l m : List String}
    (h1 : Reports c.behaviour as d l) (h2 : Reports c.behaviour sub e m) :
    Reports c.behaviour (writeElem A c root x as sub) (elemCmds root (headAttrs A c.version x.head ++ d) (aliasDoc A c.version x ++ (propsCmds x.props ++ e))) (l ++ m) := by
  have h3 := (reports_aliases A c x).andThen ((Reports.plain c.behaviour (propsCmds x.props)).andThen h2)
  simp only [List.nil_append] at h3
  unfold writeElem
  constructor
  · intro h
    have hl : l = [] ∨ c.behaviour = .logError := h.imp_left fun h => (List.append_eq_nil_iff.1 h).1
    have hm : m = [] ∨ c.behaviour = .logError := h.imp_left fun h => (List.append_eq_nil_iff.1 h).2
    simp [h1.1 hl, h3.1 hm, Out.map]
  · intro hne hb
    by_cases hl : l = []
    · have hm : m ≠ [] := by rintro rfl; exact hne (by simp [hl])
      simp [h1.1 (.inl hl), h3.2 hm hb, Out.map]
    · simp [h1.2 hl hb]

/-! ### Content of an element -/

variable {σ : Type}

/-- The calls `cs`, inside an element `root`, write complete nodes, on which the callback of a class turns `s` into `s'`. -/
def Body (A : Anon) (v : Ver) (h : Handler σ) (root : String) (cs : List Cmd) (s s' : σ) : Prop :=
  ∀ i, ∃ bt, Emits i cs bt ∧ (∀ x, Reads (elemCb A v h) root (x, s) bt (x, s')) ∧ (bt = [] → s' = s)

theorem body_nil (A : Anon) (v : Ver) (h : Handler σ) (root : String) (s : σ) : Body A v h root [] s s :=
  fun i => ⟨[], emits_nil i, fun _ => reads_nil _ _ _, fun _ => rfl⟩

theorem Body.append {A : Anon} {v : Ver} {h : Handler σ} {root : String} {cs ds : List Cmd} {s s' s'' : σ} (h1 : Body A v h root cs s s') (h2 : Body A v h root ds s' s'') :
    Body A v h root (cs ++ ds) s s'' := by
  intro i
  obtain ⟨bt, a1, a2, a3⟩ := h1 i
  obtain ⟨bu, b1, b2, b3⟩ := h2 i
  refine ⟨bt ++ bu, a1.append b1, fun x => (a2 x).append (b2 x), fun hn => ?_⟩
  obtain ⟨n1, n2⟩ := List.append_eq_nil_iff.1 hn
  rw [b3 n2, a3 n1]

/-- One sub element. -/
theorem body_item {α : Type} {A : Anon} {v : Ver} {h : Handler σ} {root n : String} {as : List (String × String)} {body : List Cmd} {read : List Tok → Out (α × List Tok)} {a : α}
    (hrt : RoundTrip (elemCmds n as body) read a) {cb : Callback σ} (hh : h n = some cb) {s s' : σ}
    (hcb : ∀ toks r, read toks = .ok (a, r) → cb s toks = .ok (s', r)) : Body A v h root (elemCmds n as body) s s' := by
  intro i
  obtain ⟨b, e, tl, h1, h2⟩ := roundTrip_item hrt i
  refine ⟨_, h1, fun x => (reads_sp _ _ _ i).append (reads_element fun rest => ?_), fun hn => by simp at hn⟩
  have h3 := hcb _ _ (h2 rest)
  show elemCb A v h (x, s) (.start n b e :: (tl ++ rest)) = _
  rw [List.cons_append] at h3
  simp only [elemCb, localName, Out.monad_bind_ok, hh, h3]

theorem body_elem {α : Type} {A : Anon} {v : Ver} {h : Handler σ} {root n : String} {w : Out (List Cmd)} {read : List Tok → Out (α × List Tok)} {a : α}
    (hrt : ElemRT n w read a) {cb : Callback σ} (hh : h n = some cb) {s s' : σ}
    (hcb : ∀ toks r, read toks = .ok (a, r) → cb s toks = .ok (s', r)) : ∃ cs, w = .ok cs ∧ Body A v h root cs s s' := by
  obtain ⟨as, body, h1, h2⟩ := hrt
  exact ⟨_, h1, body_item h2 hh hcb⟩

theorem identCb_alias {A : Anon} {v : Ver} (hv : v.ge .v13 = true) {x : Ident} {a : String × String} (hty : v.ge .v14 = false → a.2 = "") (ha : AliasOk A a.1) (hid : a.1 ≠ x.head.id)
    (hn : a.1 ∉ x.aliases.map Prod.fst) (ht : a.2 = "" ∨ a.2 ∉ x.aliases.map Prod.snd) (rest : List Tok) :
    identCb A v x (.start "alias" (if a.2 ≠ "" then [("type", a.2)] else []) false :: .text (A.anon a.1) :: rest) =
      .ok ({ x with aliases := x.aliases ++ [a] }, .text (A.anon a.1) :: rest) := by
  have hty : runFromMinimumVersion .v14 v (fun _ => optSOr "type" "" (.start "alias" (if a.2 ≠ "" then [("type", a.2)] else []) false :: .text (A.anon a.1) :: rest)) "" = .ok a.2 := by
    unfold runFromMinimumVersion
    cases h14 : v.ge .v14 with
    | false => simp [hty h14]
    | true => by_cases h : a.2 = "" <;> simp [optSOr, rawAttr, h, lookup]
  have hver : readAssertMinimumVersion .v13 v = .ok () := by
    unfold readAssertMinimumVersion
    simp only [Ver.ge, Bool.not_eq_true'] at hv
    simp [hv]
  have hadd : x.addAlias a.1 a.2 = .ok { x with aliases := x.aliases ++ [a] } := by
    unfold Ident.addAlias
    rw [if_neg (by rintro ⟨h1, h2⟩; exact ht.elim h1 (fun h => h h2)), if_neg (by rintro (h | h); exact hid h; exact hn h)]
  have hdean : A.dean (A.anon a.1) = .ok a.1 := ha.1
  unfold identCb
  simp only [localName, Out.monad_bind_ok, readCharacters, hdean, hadd, hty, hver, show ("alias" = "property") = False by decide, if_false, if_true]

theorem aliases_body {A : Anon} {v : Ver} (hv : v.ge .v13 = true) {h : Handler σ} {root : String} (hroot : root ≠ "alias") (hal : h "alias" = none) (s : σ) (i : Bool) :
    ∀ (as : List (String × String)) (x : Ident), (∀ a ∈ as, v.ge .v14 = false → a.2 = "") → (∀ a ∈ as, AliasOk A a.1 ∧ a.1 ≠ x.head.id) → ((x.aliases ++ as).map Prod.fst).Nodup →
      (x.aliases ++ as).Pairwise (fun a b => a.2 ≠ "" → a.2 ≠ b.2) →
      ∃ bt, Emits i (XmlNet.aliasesElems A as) bt ∧ Reads (elemCb A v h) root (x, s) bt ({ x with aliases := x.aliases ++ as }, s) ∧ (bt = [] → as = []) := by
  intro as
  induction as with
  | nil => intro x _ _ _ _; exact ⟨[], emits_nil i, by simpa using reads_nil _ _ _, fun _ => rfl⟩
  | cons a as ih =>
    intro x h14 hok hnd hty
    obtain ⟨h1, h2⟩ := hok a (List.mem_cons_self ..)
    have hn : a.1 ∉ x.aliases.map Prod.fst := by
      intro hm
      rw [List.map_append, List.nodup_append] at hnd
      exact hnd.2.2 _ hm a.1 (by simp) rfl
    have ht : a.2 = "" ∨ a.2 ∉ x.aliases.map Prod.snd := by
      by_cases h0 : a.2 = ""
      · exact .inl h0
      · refine .inr fun hm => ?_
        obtain ⟨b, hb, e⟩ := List.mem_map.1 hm
        have := (List.pairwise_append.1 hty).2.2 b hb a (List.mem_cons_self ..)
        exact this (e ▸ h0) e
    obtain ⟨bt, e1, e2, _⟩ := ih { x with aliases := x.aliases ++ [a] } (fun b hb => h14 b (List.mem_cons_of_mem _ hb)) (fun b hb => hok b (List.mem_cons_of_mem _ hb)) (by simpa using hnd) (by simpa using hty)
    refine ⟨(sp i ++ textCore "alias" _ (A.anon a.1)) ++ bt, (emits_text i "alias" _ _).append e1, ?_, fun hn => by simp [textCore] at hn⟩
    have hr : Reads (elemCb A v h) root (x, s) (sp i ++ textCore "alias" (if a.2 ≠ "" then [("type", a.2)] else []) (A.anon a.1)) ({ x with aliases := x.aliases ++ [a] }, s) := by
      refine (reads_sp _ _ _ i).append ?_
      unfold textCore
      rw [textToks_of h1.2]
      refine reads_text (fun e => hroot e.symm) fun rest => ?_
      have := identCb_alias hv (h14 a (List.mem_cons_self ..)) h1 h2 hn ht rest
      simp only [elemCb, localName, Out.monad_bind_ok, hal, this]
    have e2' : Reads (elemCb A v h) root ({ x with aliases := x.aliases ++ [a] }, s) bt ({ x with aliases := x.aliases ++ a :: as }, s) := by simpa using e2
    exact hr.append e2'

theorem props_body {A : Anon} {v : Ver} {h : Handler σ} (root : String) (hpr : h "property" = none) (s : σ) (i : Bool) :
    ∀ (ps : PropMap.Props) (x : Ident), AMap.NodupKeys (x.props ++ ps) →
      ∃ bt, Emits i (propsCmds ps) bt ∧ Reads (elemCb A v h) root (x, s) bt ({ x with props := x.props ++ ps }, s) ∧ (bt = [] → ps = []) := by
  intro ps
  induction ps with
  | nil => intro x _; exact ⟨[], emits_nil i, by simpa using reads_nil _ _ _, fun _ => rfl⟩
  | cons p ps ih =>
    intro x hnd
    obtain ⟨k, val⟩ := p
    have hnone : AMap.get? x.props k = none := by
      rw [AMap.get?_eq_none_iff]
      intro hm
      have hnd : ((x.props ++ (k, val) :: ps).map Prod.fst).Nodup := hnd
      rw [List.map_append, List.nodup_append] at hnd
      exact hnd.2.2 k hm k (by simp) rfl
    have hset : (PropMap.set k val x.props).2 = x.props ++ [(k, val)] := by
      simp only [PropMap.set, hnone]
      simp [AMap.emplace, hnone]
    have hnd' : AMap.NodupKeys ((x.props ++ [(k, val)]) ++ ps) := by simpa using hnd
    obtain ⟨bt, h1, h2, _⟩ := ih { x with props := x.props ++ [(k, val)] } hnd'
    refine ⟨elemToks i "property" [("name", k), ("value", val)] [] ++ bt, ((emits_nil i).elem _ _).append h1, ?_, ?_⟩
    · have hr : Reads (elemCb A v h) root (x, s) (elemToks i "property" [("name", k), ("value", val)] []) ({ x with props := x.props ++ [(k, val)] }, s) := by
        refine (reads_sp _ _ _ i).append ?_
        refine reads_element (body := []) fun rest => ?_
        show elemCb A v h (x, s) (.start "property" [("name", k), ("value", val)] true :: rest) = _
        simp only [elemCb, localName, Out.monad_bind_ok, hpr, identCb]
        rw [getS_attr (v := k) (by simp [lookup]), getS_attr (v := val) (by simp [lookup])]
        simp only [Out.monad_bind_ok, if_true, hset]
        rfl
      have h2' : Reads (elemCb A v h) root ({ x with props := x.props ++ [(k, val)] }, s) bt ({ x with props := x.props ++ (k, val) :: ps }, s) := by simpa using h2
      exact hr.append h2'
    · intro h
      simp [elemToks, coreToks] at h

theorem ref_body {A : Anon} {v : Ver} {h : Handler σ} {root el : String} {required : Bool} {set : σ → Ref → σ} (hh : h el = some (refCb A required set)) {o : Option Ref} (ho : RefOk A o) (s : σ) :
    Body A v h root (refElems A el o) s (setOpt set s o) := by
  cases o with
  | none => exact body_nil _ _ _ _ _
  | some r =>
    refine body_item (ref_rt (ho r rfl).2 required) hh fun toks rest hr => ?_
    simp only [refCb, hr, Out.monad_bind_ok, setOpt]

theorem reactive_body {K : XCodec} {A : Anon} {v : Ver} {h : Handler σ} {root : String} {set : σ → Reactive → σ} (h1 : h "reactiveCapabilityCurve" = some (reactiveCb K set))
    (h2 : h "minMaxReactiveLimits" = some (reactiveCb K set)) {l : Reactive} (hl : ReactiveOk K l) (s : σ) : Body A v h root (writeReactive K.toCodec l) s (set s l) := by
  obtain ⟨n, hn, as, body, hw, hrt⟩ := reactive_ert hl
  simp only [Out.ok.injEq] at hw
  rw [hw]
  have hh : h n = some (reactiveCb K set) := by rcases hn with rfl | rfl <;> assumption
  refine body_item hrt hh fun toks rest hr => ?_
  simp only [reactiveCb, hr, Out.monad_bind_ok]

/-! ### Elements that the reader refuses -/

/-- The calls write complete nodes. -/
def Emitted (cs : List Cmd) : Prop := ∀ i, ∃ bt, Emits i cs bt

theorem Emitted.append {cs ds : List Cmd} (h1 : Emitted cs) (h2 : Emitted ds) : Emitted (cs ++ ds) := fun i => by
  obtain ⟨b, hb⟩ := h1 i
  obtain ⟨d, hd⟩ := h2 i
  exact ⟨_, hb.append hd⟩

theorem Body.emitted {A : Anon} {v : Ver} {h : Handler σ} {root : String} {cs : List Cmd} {s s' : σ} (hb : Body A v h root cs s s') : Emitted cs := fun i => by
  obtain ⟨b, hb, _⟩ := hb i
  exact ⟨b, hb⟩

/-- The calls write complete nodes, on which the callback throws. -/
def Fails (A : Anon) (v : Ver) (h : Handler σ) (root : String) (cs : List Cmd) (s : σ) : Prop :=
  ∀ i, ∃ bt, Emits i cs bt ∧ bt ≠ [] ∧ ∀ x rest, loop (elemCb A v h) root bt.length (x, s) (bt ++ rest) = .thrown

/-- The nodes are read, or the callback throws. -/
structure Step (A : Anon) (v : Ver) (h : Handler σ) (root : String) (cs : List Cmd) (s s' : σ) (good : Bool) : Prop where
  emitted : Emitted cs
  reads : good = true → Body A v h root cs s s'
  fails : good = false → Fails A v h root cs s

theorem Body.step {A : Anon} {v : Ver} {h : Handler σ} {root : String} {cs : List Cmd} {s s' : σ} (hb : Body A v h root cs s s') : Step A v h root cs s s' true :=
  ⟨hb.emitted, fun _ => hb, fun h => nomatch h⟩

theorem Step.append {A : Anon} {v : Ver} {h : Handler σ} {root : String} {cs ds : List Cmd} {s s' s'' : σ} {a b : Bool} (h1 : Step A v h root cs s s' a) (h2 : Step A v h root ds s' s'' b) :
    Step A v h root (cs ++ ds) s s'' (a && b) := by
  refine ⟨h1.emitted.append h2.emitted, fun hg => ?_, fun hg i => ?_⟩
  · rw [Bool.and_eq_true] at hg
    exact (h1.reads hg.1).append (h2.reads hg.2)
  · cases ha : a with
    | false =>
      obtain ⟨bt, e1, n1, f1⟩ := h1.fails ha i
      obtain ⟨bu, e2⟩ := h2.emitted i
      refine ⟨bt ++ bu, e1.append e2, by simp [n1], fun x rest => ?_⟩
      rw [List.append_assoc]
      exact loop_mono' (f1 x (bu ++ rest)) (by simp) (by simp)
    | true =>
      rw [ha] at hg
      obtain ⟨bt, e1, r1, _⟩ := h1.reads ha i
      obtain ⟨bu, e2, n2, f2⟩ := h2.fails hg i
      refine ⟨bt ++ bu, e1.append e2, by simp [n2], fun x rest => ?_⟩
      have := r1 x (bu ++ rest) bu.length .thrown (by simp) (f2 x rest)
      rw [List.append_assoc, List.length_append, Nat.add_comm]
      exact this

/-- One sub element whose callback throws. -/
theorem fails_item {α : Type} {A : Anon} {v : Ver} {h : Handler σ} {root n : String} {as : List (String × String)} {body : List Cmd} {read : List Tok → Out (α × List Tok)} {a : α}
    (hrt : RoundTrip (elemCmds n as body) read a) {cb : Callback σ} (hh : h n = some cb) {s : σ} (hcb : ∀ toks, cb s toks = .thrown) : Fails A v h root (elemCmds n as body) s := by
  intro i
  obtain ⟨b, e, tl, h1, h2⟩ := roundTrip_item hrt i
  refine ⟨_, h1, by simp, fun x rest => ?_⟩
  have hl : loop (elemCb A v h) root (tl.length + 1) (x, s) (.start n b e :: (tl ++ rest)) = .thrown := by
    simp only [loop, elemCb, localName, Out.monad_bind_ok, hh, hcb, Out.monad_bind_thrown]
  rw [List.append_assoc, List.length_append, List.length_cons, List.cons_append]
  rw [Nat.add_comm (sp i).length]
  exact reads_sp (elemCb A v h) root (x, s) i (.start n b e :: (tl ++ rest)) (tl.length + 1) .thrown (by simp) hl

/-! ### Identifiables -/

theorem aliasesElems_kept {A : Anon} {v : Ver} (hv : v.ge .v13 = true) : ∀ (as : List (String × String)) (h : Head) (p : PropMap.Props),
    aliasesElems A v as = XmlNet.aliasesElems A (keptIdent v ⟨h, as, p⟩).aliases := by
  intro as h p
  induction as with
  | nil => cases v <;> rfl
  | cons a as ih =>
    have hs : aliasElem A v a ++ aliasesElems A v as = XmlNet.aliasesElems A (keptIdent v ⟨h, a :: as, p⟩).aliases := by
      rw [ih]
      cases v with
      | v10 => exact absurd hv (by decide)
      | v11 => exact absurd hv (by decide)
      | v12 => exact absurd hv (by decide)
      | v13 => rfl
      | v14 => rfl
      | v15 => rfl
    exact hs

theorem keptIdent_ok {A : Anon} {x : Ident} (hx : IdentOk A x) (v : Ver) : IdentOk A (keptIdent v x) := by
  obtain ⟨h1, h2, h3, h4, h5⟩ := hx
  have hh : HeadOk A { x.head with fictitious := false } := h1
  cases v with
  | v10 => exact ⟨hh, by simp [keptIdent], by simp [keptIdent], by simp [keptIdent], h5⟩
  | v11 => exact ⟨hh, by simp [keptIdent], by simp [keptIdent], by simp [keptIdent], h5⟩
  | v12 => exact ⟨h1, by simp [keptIdent], by simp [keptIdent], by simp [keptIdent], h5⟩
  | v13 =>
    refine ⟨h1, ?_, ?_, ?_, h5⟩
    · intro a ha
      simp only [keptIdent, List.mem_map] at ha
      obtain ⟨b, hb, rfl⟩ := ha
      exact h2 b hb
    · have : (x.aliases.map fun a => (a.1, "")).map Prod.fst = x.aliases.map Prod.fst := by simp
      simp only [keptIdent]
      rw [this]
      exact h3
    · simp only [keptIdent]
      rw [List.pairwise_map]
      exact List.pairwise_of_forall (by simp)
  | v14 => exact ⟨h1, h2, h3, h4, h5⟩
  | v15 => exact ⟨h1, h2, h3, h4, h5⟩

theorem keptIdent_head (v : Ver) (x : Ident) : (keptIdent v x).head = { x.head with fictitious := if v.ge .v12 then x.head.fictitious else false } := by
  cases v <;> rfl

theorem keptIdent_props (v : Ver) (x : Ident) : (keptIdent v x).props = x.props := by cases v <;> rfl

theorem keptIdent_aliases {v : Ver} (hv : v.ge .v13 = false) (x : Ident) : (keptIdent v x).aliases = [] := by
  cases v <;> first | rfl | exact absurd hv (by decide)

theorem keptIdent_types {v : Ver} (hv : v.ge .v14 = false) (x : Ident) : ∀ a ∈ (keptIdent v x).aliases, a.2 = "" := by
  cases v <;> first | exact absurd hv (by decide) | simp [keptIdent]

/-- The attributes hide neither the name nor, from version 1.2 on, the flag. -/
def NoHeadIn (v : Ver) (as : List (String × String)) : Prop := lookup "name" as = none ∧ (v.ge .v12 = true → lookup "fictitious" as = none)

theorem readHead_elem {A : Anon} {v : Ver} {x : Ident} (hA : HeadOk A x.head) {as : List (String × String)} (hn : NoHeadIn v as) (n : String) (e : Bool) (rest : List Tok) :
    readHead A v (.start n (headAttrs A v x.head ++ as) e :: rest) = .ok (keptIdent v x).head := by
  rw [keptIdent_head, readHead_eq hA]
  · simp [lookup_append, lookup_headAttrs]
  · by_cases h0 : x.head.name = "" <;> simp [lookup_append, lookup_headAttrs, h0, hn.1]
  · intro hs
    have hv := (supports_iff _ _).1 hs
    cases hf : x.head.fictitious <;> simp [lookup_append, lookup_headAttrs, hf, hn.2 hv, hv]

/-- Reading the aliases and the properties. -/
theorem ident_body {A : Anon} {v : Ver} {h : Handler σ} {root : String} {x : Ident} (hx : IdentOk A x) (hroot : root ≠ "alias") (hal : h "alias" = none) (hpr : h "property" = none) (s : σ) (i : Bool) :
    ∃ bt, Emits i (aliasDoc A v x ++ propsCmds x.props) bt ∧ Reads (elemCb A v h) root (⟨(keptIdent v x).head, [], []⟩, s) bt (keptIdent v x, s) ∧
      (bt = [] → keptIdent v x = ⟨(keptIdent v x).head, [], []⟩) := by
  have hk := keptIdent_ok hx v
  have h1 : ∃ bt, Emits i (aliasDoc A v x) bt ∧ Reads (elemCb A v h) root (⟨(keptIdent v x).head, [], []⟩, s) bt (⟨(keptIdent v x).head, (keptIdent v x).aliases, []⟩, s) ∧
      (bt = [] → (keptIdent v x).aliases = []) := by
    unfold aliasDoc
    cases hv : v.ge .v13 with
    | false =>
      rw [keptIdent_aliases hv]
      exact ⟨[], by simpa using emits_nil i, reads_nil _ _ _, fun _ => rfl⟩
    | true =>
      have he : aliasesElems A v x.aliases = XmlNet.aliasesElems A (keptIdent v x).aliases := aliasesElems_kept hv x.aliases x.head x.props
      obtain ⟨bt, e1, e2, e3⟩ := aliases_body (A := A) hv hroot hal s i (keptIdent v x).aliases ⟨(keptIdent v x).head, [], []⟩ (fun a ha h14 => keptIdent_types h14 x a ha) hk.aliases
        (by simpa using hk.nodup) (by simpa using hk.types)
      exact ⟨bt, by simpa [he] using e1, by simpa using e2, e3⟩
  obtain ⟨bt, e1, e2, e3⟩ := h1
  obtain ⟨bu, f1, f2, f3⟩ := props_body (A := A) (v := v) root hpr s i x.props ⟨(keptIdent v x).head, (keptIdent v x).aliases, []⟩ (by simpa using hx.props)
  have hkp := keptIdent_props v x
  refine ⟨bt ++ bu, e1.append f1, e2.append ?_, fun hn => ?_⟩
  · have f2' : Reads (elemCb A v h) root (⟨(keptIdent v x).head, (keptIdent v x).aliases, []⟩, s) bu (⟨(keptIdent v x).head, (keptIdent v x).aliases, (keptIdent v x).props⟩, s) := by
      rw [hkp]; simpa using f2
    exact f2'
  · obtain ⟨n1, n2⟩ := List.append_eq_nil_iff.1 hn
    have h1 := e3 n1
    have h2 := f3 n2
    rw [← hkp] at h2
    generalize keptIdent v x = y at h1 h2
    obtain ⟨hd, al, pr⟩ := y
    simp only at h1 h2
    subst h1 h2
    rfl

/-- **The round trip of an element**, from its parts: what is kept of it is read back, or the reader refuses it. -/
theorem readElem_step_in {α β : Type} {A : Anon} {v : Ver} {root : String} {rd : List Tok → Out α} {h : Handler σ} {s0 s1 : σ} {mk : Ident → α → σ → Out β} {x : Ident}
    {as : List (String × String)} {sub : List Cmd} {a : α} {b : β} {good : Bool} (hx : IdentOk A x) (hn : NoHeadIn v as) (hroot : root ≠ "alias") (hal : h "alias" = none) (hpr : h "property" = none)
    (hrd : ∀ e tl, rd (.start root (headAttrs A v x.head ++ as) e :: tl) = .ok a) (hb : Step A v h root sub s0 s1 good) (hmk : good = true → mk (keptIdent v x) a s1 = .ok b) :
    (good = true → RoundTrip (elemCmds root (headAttrs A v x.head ++ as) (aliasDoc A v x ++ (propsCmds x.props ++ sub))) (readElem A v root rd h s0 mk) b) ∧
    (good = false → Refused (elemCmds root (headAttrs A v x.head ++ as) (aliasDoc A v x ++ (propsCmds x.props ++ sub))) (readElem A v root rd h s0 mk)) := by
  constructor
  · intro hg
    apply roundTrip_intro
    intro i
    obtain ⟨bt, e1, e2, e3⟩ := ident_body (v := v) hx hroot hal hpr s0 i
    obtain ⟨bv, g1, g2, g3⟩ := hb.reads hg i
    refine ⟨bt ++ bv, by simpa using e1.append g1, fun rest => ?_⟩
    have hru := readUntilEnd_core (as := headAttrs A v x.head ++ as) i (e2.append (g2 (keptIdent v x))) (by
      intro hnil
      obtain ⟨n1, n2⟩ := List.append_eq_nil_iff.1 hnil
      rw [g3 n2, ← e3 n1]) rest
    obtain ⟨e, tl, hc⟩ := core_start i root (headAttrs A v x.head ++ as) (bt ++ bv)
    rw [hc] at hru ⊢
    rw [List.cons_append] at hru ⊢
    unfold readElem
    simp only [readHead_elem hx.head hn, hrd, hru, hmk hg, Out.monad_bind_ok]
  · intro hg i
    obtain ⟨bt, e1, e2, e3⟩ := ident_body (v := v) hx hroot hal hpr s0 i
    obtain ⟨bv, g1, g2, g3⟩ := hb.fails hg i
    refine ⟨coreToks i root (headAttrs A v x.head ++ as) (bt ++ bv), core_ne_nil _ _ _ _, fun w hw => ?_, fun rest => ?_⟩
    · refine emits_run (Emits.elem (ts := bt ++ bv) root (headAttrs A v x.head ++ as) (by simpa using e1.append g1)) ?_ w hw
      unfold elemToks
      simp [core_ne_nil]
    · have hne : bt ++ bv ≠ [] := by simp [g2]
      have hru : readUntilEnd (elemCb A v h) root (⟨(keptIdent v x).head, [], []⟩, s0) (coreToks i root (headAttrs A v x.head ++ as) (bt ++ bv) ++ rest) = .thrown := by
        unfold coreToks
        rw [if_neg hne]
        show loop _ _ _ _ (bt ++ bv ++ sp i ++ [.stop root] ++ rest) = _
        have h1 := e2 (bv ++ ((sp i ++ [.stop root]) ++ rest)) bv.length .thrown (by simp) (g3 (keptIdent v x) _)
        have h2 : bt ++ bv ++ sp i ++ [.stop root] ++ rest = bt ++ (bv ++ ((sp i ++ [.stop root]) ++ rest)) := by simp
        rw [h2]
        refine loop_mono' h1 (by simp) ?_
        simp
        omega
      obtain ⟨e, tl, hc⟩ := core_start i root (headAttrs A v x.head ++ as) (bt ++ bv)
      rw [hc] at hru ⊢
      rw [List.cons_append] at hru ⊢
      unfold readElem
      simp only [readHead_elem hx.head hn, hrd, hru, Out.monad_bind_ok, Out.monad_bind_thrown]

theorem readElem_step {α β : Type} {A : Anon} {v : Ver} {root : String} {rd : List Tok → Out α} {h : Handler σ} {s0 s1 : σ} {mk : Ident → α → σ → Out β} {x : Ident}
    {as : List (String × String)} {sub : List Cmd} {a : α} {b : β} {good : Bool} (hx : IdentOk A x) (hn : NoHead as) (hroot : root ≠ "alias") (hal : h "alias" = none) (hpr : h "property" = none)
    (hrd : ∀ e tl, rd (.start root (headAttrs A v x.head ++ as) e :: tl) = .ok a) (hb : Step A v h root sub s0 s1 good) (hmk : good = true → mk (keptIdent v x) a s1 = .ok b) :
    (good = true → RoundTrip (elemCmds root (headAttrs A v x.head ++ as) (aliasDoc A v x ++ (propsCmds x.props ++ sub))) (readElem A v root rd h s0 mk) b) ∧
    (good = false → Refused (elemCmds root (headAttrs A v x.head ++ as) (aliasDoc A v x ++ (propsCmds x.props ++ sub))) (readElem A v root rd h s0 mk)) :=
  readElem_step_in hx ⟨hn.1, fun _ => hn.2⟩ hroot hal hpr hrd hb hmk

theorem readElem_rt_in {α β : Type} {A : Anon} {v : Ver} {root : String} {rd : List Tok → Out α} {h : Handler σ} {s0 s1 : σ} {mk : Ident → α → σ → Out β} {x : Ident}
    {as : List (String × String)} {sub : List Cmd} {a : α} {b : β} (hx : IdentOk A x) (hn : NoHeadIn v as) (hroot : root ≠ "alias") (hal : h "alias" = none) (hpr : h "property" = none)
    (hrd : ∀ e tl, rd (.start root (headAttrs A v x.head ++ as) e :: tl) = .ok a) (hb : Body A v h root sub s0 s1) (hmk : mk (keptIdent v x) a s1 = .ok b) :
    RoundTrip (elemCmds root (headAttrs A v x.head ++ as) (aliasDoc A v x ++ (propsCmds x.props ++ sub))) (readElem A v root rd h s0 mk) b :=
  (readElem_step_in hx hn hroot hal hpr hrd hb.step (fun _ => hmk)).1 rfl

theorem readElem_rt {α β : Type} {A : Anon} {v : Ver} {root : String} {rd : List Tok → Out α} {h : Handler σ} {s0 s1 : σ} {mk : Ident → α → σ → Out β} {x : Ident}
    {as : List (String × String)} {sub : List Cmd} {a : α} {b : β} (hx : IdentOk A x) (hn : NoHead as) (hroot : root ≠ "alias") (hal : h "alias" = none) (hpr : h "property" = none)
    (hrd : ∀ e tl, rd (.start root (headAttrs A v x.head ++ as) e :: tl) = .ok a) (hb : Body A v h root sub s0 s1) (hmk : mk (keptIdent v x) a s1 = .ok b) :
    RoundTrip (elemCmds root (headAttrs A v x.head ++ as) (aliasDoc A v x ++ (propsCmds x.props ++ sub))) (readElem A v root rd h s0 mk) b :=
  (readElem_step hx hn hroot hal hpr hrd hb.step (fun _ => hmk)).1 rfl

/-- An element `n` is written for `w` and read back as `a`; what is lost is reported. -/
def Kept {α : Type} (b : Behaviour) (n : String) (w : Piece Cmd) (read : List Tok → Out (α × List Tok)) (a : α) (lost : List String) : Prop :=
  ∃ as body, Reports b w (elemCmds n as body) lost ∧ RoundTrip (elemCmds n as body) read a

theorem Kept.doc {α : Type} {b : Behaviour} {n : String} {w : Piece Cmd} {read : List Tok → Out (α × List Tok)} {a : α} {lost : List String} (h : Kept b n w read a lost) :
    ∃ doc, Reports b w doc lost ∧ RoundTrip doc read a := by
  obtain ⟨as, body, h1, h2⟩ := h
  exact ⟨_, h1, h2⟩

/-! ### Loading limits -/

theorem onlySince_ok {min v : Ver} (hv : v.ge min = true) (cb : Callback σ) (s : σ) (toks : List Tok) : onlySince min v cb s toks = cb s toks := by
  unfold onlySince readAssertMinimumVersion
  rw [lt_ge, hv]
  rfl

theorem onlySince_thrown {min v : Ver} (hv : v.ge min = false) (cb : Callback σ) (s : σ) (toks : List Tok) : onlySince min v cb s toks = .thrown := by
  unfold onlySince readAssertMinimumVersion
  rw [lt_ge, hv]
  rfl

theorem limits_body {K : XCodec} (hK : K.toCodec.Naturals) {A : Anon} {v : Ver} {h : Handler σ} {root el : String} {cb : Callback σ} {set : σ → Limits.LL → σ} (hh : h el = some cb)
    {o : Option Limits.LL} (hcb : ∀ s toks l r, o = some l → readLimits K.toCodec el toks = .ok (l, r) → cb s toks = .ok (set s l, r))
    (ho : LimitsOk K o) (s : σ) : Body A v h root (limitsElems K el o) s (setOpt set s o) := by
  cases o with
  | none => exact body_nil _ _ _ _ _
  | some l =>
    obtain ⟨hw, he, hs⟩ := ho l rfl
    have hrt := limits_round_trip_partial hK el hw he hs
    have hcond : (!l.permanent.isNan || !l.temps.isEmpty) = true := by
      rcases hs with h | h
      · simp [h]
      · simp [h]
    show Body A v h root (writeLimits K.toCodec el l) s (set s l)
    unfold writeLimits at hrt ⊢
    rw [if_pos hcond] at hrt ⊢
    exact body_item hrt hh fun toks rest hr => hcb _ _ _ _ rfl hr

/-- Limits that only exist from version 1.5 on. -/
def only15 (v : Ver) (o : Option Limits.LL) : Option Limits.LL := if v.ge .v15 then o else none

theorem keptLims_eq (v : Ver) (l : Lims) : keptLims v l = ⟨only15 v l.active, only15 v l.apparent, l.current⟩ := by
  cases v <;> rfl

theorem only15_ok {K : XCodec} {v : Ver} {o : Option Limits.LL} (h : LimitsOk K o) : LimitsOk K (only15 v o) := by
  unfold only15
  split
  · exact h
  · exact limitsOk_none

def lost15 (el : String) (v : Ver) (o : Option Limits.LL) : List String := if v.ge .v15 then [] else named el o

theorem lostLims_eq (a p : String) (v : Ver) (l : Lims) : lostLims a p v l = lost15 a v l.active ++ lost15 p v l.apparent := by
  cases v <;> rfl

theorem reports_limits (K : XCodec) (c : Ctx) (el : String) (o : Option Limits.LL) :
    Reports c.behaviour (limitsSince K c el o) (limitsElems K el (only15 c.version o)) (lost15 el c.version o) := by
  unfold only15 lost15
  cases o with
  | none => cases c.version.ge .v15 <;> exact Reports.plain _ _
  | some l =>
    have := reports_since el .v15 c (writeLimits K.toCodec el l)
    cases hv : c.version.ge .v15 with
    | true => rw [hv] at this; exact this
    | false => rw [hv] at this; exact this

theorem limits15_body {K : XCodec} (hK : K.toCodec.Naturals) {A : Anon} {v : Ver} {h : Handler σ} {root el : String} {set : σ → Limits.LL → σ} {cb : Callback σ} (hh : h el = some cb)
    (hcb : v.ge .v15 = true → ∀ s toks l r, readLimits K.toCodec el toks = .ok (l, r) → cb s toks = .ok (set s l, r))
    {o : Option Limits.LL} (ho : LimitsOk K o) (s : σ) : Body A v h root (limitsElems K el (only15 v o)) s (setOpt set s (only15 v o)) := by
  refine limits_body hK hh (fun s toks l r h1 hr => ?_) (only15_ok ho) s
  refine hcb ?_ s toks l r hr
  unfold only15 at h1
  cases hv : v.ge .v15 with
  | true => rfl
  | false => rw [hv] at h1; cases h1

theorem reports_lims (K : XCodec) (ctx : Ctx) (a p c : String) (l : Lims) :
    Reports ctx.behaviour (limsElems K ctx a p c l) (XmlNet.limsElems K a p c (keptLims ctx.version l)) (lostLims a p ctx.version l) := by
  have := (reports_limits K ctx a l.active).andThen ((reports_limits K ctx p l.apparent).andThen (Reports.plain ctx.behaviour (limitsElems K c l.current)))
  refine this.cast ?_ ?_
  · rw [keptLims_eq]; rfl
  · rw [lostLims_eq, List.append_nil]

theorem lims_body {K : XCodec} (hK : K.toCodec.Naturals) {A : Anon} {v : Ver} {h : Handler σ} {root a p c : String} {ca cp cc : Callback σ} {get : σ → Lims} {put : σ → Lims → σ}
    (ha : h a = some ca) (hp : h p = some cp) (hc : h c = some cc)
    (hca : v.ge .v15 = true → ∀ s toks l r, readLimits K.toCodec a toks = .ok (l, r) → ca s toks = .ok (put s { get s with active := some l }, r))
    (hcp : v.ge .v15 = true → ∀ s toks l r, readLimits K.toCodec p toks = .ok (l, r) → cp s toks = .ok (put s { get s with apparent := some l }, r))
    (hcc : ∀ s toks l r, readLimits K.toCodec c toks = .ok (l, r) → cc s toks = .ok (put s { get s with current := some l }, r))
    (gp : ∀ s l, get (put s l) = l) (pp : ∀ s l m, put (put s l) m = put s m) (pg : ∀ s, put s (get s) = s)
    {l : Lims} (hl : LimsOk K l) (s : σ) (hs : get s = noLims) : Body A v h root (XmlNet.limsElems K a p c (keptLims v l)) s (put s (keptLims v l)) := by
  rw [keptLims_eq]
  have h1 := limits15_body hK (A := A) (root := root) ha hca hl.active s
  have h2 := limits15_body hK (A := A) (root := root) hp hcp hl.apparent (put s ⟨only15 v l.active, none, none⟩)
  have h3 := limits_body hK (A := A) (v := v) (root := root) hc (fun s toks l r _ hr => hcc s toks l r hr) hl.current (put s ⟨only15 v l.active, only15 v l.apparent, none⟩)
  unfold XmlNet.limsElems
  obtain ⟨la, lp, lc⟩ := l
  simp only at h1 h2 h3 ⊢
  generalize only15 v la = la at h1 h2 h3 ⊢
  generalize only15 v lp = lp at h2 h3 ⊢
  refine Body.append (s' := put s ⟨la, none, none⟩) ?_ (Body.append (s' := put s ⟨la, lp, none⟩) ?_ ?_)
  · cases la with
    | none =>
      have : put s ⟨none, none, none⟩ = s := by rw [← show get s = ⟨none, none, none⟩ from hs, pg]
      simp only [this]
      exact h1
    | some x =>
      simp only [setOpt, hs] at h1
      exact h1
  · cases lp with
    | none => exact h2
    | some x =>
      simp only [setOpt, gp, pp] at h2
      exact h2
  · cases lc with
    | none => exact h3
    | some x =>
      simp only [setOpt, gp, pp] at h3
      exact h3

theorem reports_branch (K : XCodec) (c : Ctx) (l : BranchLims) : Reports c.behaviour (branchElems K c l) (XmlNet.branchElems K (keptBranch c.version l)) (lostBranch c.version l) :=
  (reports_lims K c _ _ _ l.one).andThen (reports_lims K c _ _ _ l.two)

theorem branch_body {K : XCodec} (hK : K.Integers) {A : Anon} {v : Ver} {root : String} {l : BranchLims} (h1 : LimsOk K l.one) (h2 : LimsOk K l.two) :
    Body A v (branchSub K v) root (XmlNet.branchElems K (keptBranch v l)) ⟨noLims, noLims⟩ (keptBranch v l) := by
  unfold XmlNet.branchElems
  refine Body.append (s' := ⟨keptLims v l.one, noLims⟩) ?_ ?_
  · exact lims_body hK.naturals (h := branchSub K v) (get := BranchLims.one) (put := fun s m => { s with one := m }) rfl rfl rfl
      (fun hv s toks l r hr => by simp only [limitsSub15, onlySince_ok hv, limitsSub, hr, Out.monad_bind_ok]) (fun hv s toks l r hr => by simp only [limitsSub15, onlySince_ok hv, limitsSub, hr, Out.monad_bind_ok])
      (fun s toks l r hr => by simp only [limitsSub, hr, Out.monad_bind_ok]) (fun _ _ => rfl) (fun _ _ _ => rfl) (fun _ => rfl) h1 ⟨noLims, noLims⟩ rfl
  · exact lims_body hK.naturals (h := branchSub K v) (get := BranchLims.two) (put := fun s m => { s with two := m }) rfl rfl rfl
      (fun hv s toks l r hr => by simp only [limitsSub15, onlySince_ok hv, limitsSub, hr, Out.monad_bind_ok]) (fun hv s toks l r hr => by simp only [limitsSub15, onlySince_ok hv, limitsSub, hr, Out.monad_bind_ok])
      (fun s toks l r hr => by simp only [limitsSub, hr, Out.monad_bind_ok]) (fun _ _ => rfl) (fun _ _ _ => rfl) (fun _ => rfl) h2 ⟨keptLims v l.one, noLims⟩ rfl

end Verif.XmlOld
