import Verif.XmlNet.Branches
import Verif.XmlNet.AttrLemmas

/-!
Reading back the parts that equipment with several terminals share: elements that are not identifiables, sides of branches and legs, limits of one
side.  Helper lemmas only.
-/

namespace Verif.XmlNet

open Verif Verif.Xml

variable {σ : Type}

/-- As `Body`, for a callback that refuses unknown elements. -/
def PBody (h : Handler σ) (root : String) (cs : List Cmd) (s s' : σ) : Prop :=
  ∀ i, ∃ bt, Emits i cs bt ∧ Reads (plainCb h) root s bt s' ∧ (bt = [] → s' = s)

theorem pbody_nil (h : Handler σ) (root : String) (s : σ) : PBody h root [] s s :=
  fun i => ⟨[], emits_nil i, reads_nil _ _ _, fun _ => rfl⟩

theorem PBody.append {h : Handler σ} {root : String} {cs ds : List Cmd} {s s' s'' : σ} (h1 : PBody h root cs s s') (h2 : PBody h root ds s' s'') :
    PBody h root (cs ++ ds) s s'' := by
  intro i
  obtain ⟨bt, a1, a2, a3⟩ := h1 i
  obtain ⟨bu, b1, b2, b3⟩ := h2 i
  refine ⟨bt ++ bu, a1.append b1, a2.append b2, fun hn => ?_⟩
  obtain ⟨n1, n2⟩ := List.append_eq_nil_iff.1 hn
  rw [b3 n2, a3 n1]

theorem pbody_item {α : Type} {h : Handler σ} {root n : String} {as : List (String × String)} {body : List Cmd} {read : List Tok → Out (α × List Tok)} {a : α}
    (hrt : RoundTrip (elemCmds n as body) read a) {cb : Callback σ} (hh : h n = some cb) {s s' : σ}
    (hcb : ∀ toks r, read toks = .ok (a, r) → cb s toks = .ok (s', r)) : PBody h root (elemCmds n as body) s s' := by
  intro i
  obtain ⟨b, e, tl, h1, h2⟩ := roundTrip_item hrt i
  refine ⟨_, h1, (reads_sp _ _ _ i).append (reads_element fun rest => ?_), fun hn => by simp at hn⟩
  have h3 := hcb _ _ (h2 rest)
  show plainCb h s (.start n b e :: (tl ++ rest)) = _
  rw [List.cons_append] at h3
  simp only [plainCb, localName, Out.monad_bind_ok, hh, h3]

theorem pbody_elem {α : Type} {h : Handler σ} {root n : String} {w : Out (List Cmd)} {read : List Tok → Out (α × List Tok)} {a : α}
    (hrt : ElemRT n w read a) {cb : Callback σ} (hh : h n = some cb) {s s' : σ}
    (hcb : ∀ toks r, read toks = .ok (a, r) → cb s toks = .ok (s', r)) : ∃ cs, w = .ok cs ∧ PBody h root cs s s' := by
  obtain ⟨as, body, h1, h2⟩ := hrt
  exact ⟨_, h1, pbody_item h2 hh hcb⟩

theorem pbody_list {α : Type} {h : Handler σ} {root n : String} {w : α → Out (List Cmd)} {read : List Tok → Out (α × List Tok)} {cb : Callback σ} {push : σ → α → σ}
    (hh : h n = some cb) (hcb : ∀ s toks a r, read toks = .ok (a, r) → cb s toks = .ok (push s a, r)) :
    ∀ (xs : List α) (s : σ), (∀ x ∈ xs, ElemRT n (w x) read x) → ∃ cs, writeList w xs = .ok cs ∧ PBody h root cs s (xs.foldl push s) := by
  intro xs
  induction xs with
  | nil => intro s _; exact ⟨[], rfl, pbody_nil _ _ _⟩
  | cons x xs ih =>
    intro s hx
    obtain ⟨c, h1, h2⟩ := pbody_elem (root := root) (hx x (List.mem_cons_self ..)) hh (fun toks r hr => hcb s toks x r hr)
    obtain ⟨cs, h3, h4⟩ := ih (push s x) (fun y hy => hx y (List.mem_cons_of_mem _ hy))
    exact ⟨c ++ cs, by simp only [writeList, h1, h3, Out.monad_bind_ok], h2.append h4⟩

/-- **The round trip of an element that is not an identifiable**, from its parts. -/
theorem readPlain_rt {α β : Type} {root : String} {rd : List Tok → Out α} {h : Handler σ} {s0 s1 : σ} {mk : α → σ → Out β} {as : List (String × String)} {sub : List Cmd} {a : α} {b : β}
    (hrd : ∀ e tl, rd (.start root as e :: tl) = .ok a) (hb : PBody h root sub s0 s1) (hmk : mk a s1 = .ok b) :
    RoundTrip (elemCmds root as sub) (readPlain root rd h s0 mk) b := by
  apply roundTrip_intro
  intro i
  obtain ⟨bt, e1, e2, e3⟩ := hb i
  refine ⟨bt, e1, fun rest => ?_⟩
  have hru := readUntilEnd_core (as := as) i e2 e3 rest
  obtain ⟨e, tl, hc⟩ := core_start i root as bt
  rw [hc] at hru ⊢
  rw [List.cons_append] at hru ⊢
  unfold readPlain
  simp only [hrd, hru, hmk, Out.monad_bind_ok]

/-- An element that has only attributes. -/
theorem attrs_rt {α : Type} {n : String} {as : List (String × String)} {rd : List Tok → Out α} {a : α} (hrd : ∀ e tl, rd (.start n as e :: tl) = .ok a) :
    RoundTrip (elemCmds n as []) (fun toks => do let y ← rd toks; .ok (y, toks)) a := by
  apply roundTrip_intro
  intro i
  refine ⟨[], emits_nil i, fun rest => ?_⟩
  show (do let y ← rd (Tok.start n as true :: rest); Out.ok (y, Tok.start n as true :: rest)) = .ok (a, Tok.start n as true :: rest)
  simp only [hrd, Out.monad_bind_ok]

/-! ### Attributes of sides -/

/-- The node of a branch is read as an `int`. -/
def BranchPlaceOk (A : Anon) : Adders.Place → Prop
  | .node n => n < 2 ^ 31
  | .bus b _ => b ≠ "" ∧ A.Inverts b

structure BranchSideOk (K : XCodec) (A : Anon) (x : Side) : Prop where
  vl : A.Inverts x.vl
  place : BranchPlaceOk A x.term.place
  p : K.Keeps x.term.p
  q : K.Keeps x.term.q

structure LegSideOk (K : XCodec) (A : Anon) (x : Side) : Prop where
  vl : A.Inverts x.vl
  term : TermOk K A x.term

theorem BranchPlaceOk.weak {A : Anon} {pl : Adders.Place} (h : BranchPlaceOk A pl) : PlaceOk A pl := by
  cases pl with
  | node n => exact Nat.lt_trans h (by decide)
  | bus b c => exact h

/-- What is written of a side, among the attributes `as`. -/
structure Sided (K : XCodec) (A : Anon) (s : String) (as : List (String × String)) (x : Side) : Prop where
  placed : Placed K A s as x.term.place
  vl : lookup ("voltageLevelId" ++ s) as = some (A.anon x.vl)
  p : lookup ("p" ++ s) as = if x.term.p.isNan then none else some (K.showD x.term.p)
  q : lookup ("q" ++ s) as = if x.term.q.isNan then none else some (K.showD x.term.q)

theorem readBranchPlace_at {K : XCodec} (hK : K.Integers) {A : Anon} {s n : String} {as : List (String × String)} {x : Side} (hs : Sided K A s as x) (hx : BranchSideOk K A x)
    (e : Bool) (rest : List Tok) : readBranchPlace K A s (.start n as e :: rest) = .ok (x.vl, x.term.place) := by
  have hv : A.dean (A.anon x.vl) = .ok x.vl := hx.vl
  have hnode := hs.placed.node
  unfold readBranchPlace
  rw [getS_attr hs.vl]
  rcases names_at (n := n) hs.placed hx.place.weak e rest with ⟨n0, hp, h1, h2⟩ | ⟨b, c, hp, hb, h1, h2⟩
  · have hok := hx.place
    rw [hp] at hok hnode
    have hn : optInt K ("node" ++ s) (.start n as e :: rest) = .ok (some (n0 : Int)) := by
      have := hK.intOfNat n0 hok
      simp only [nodeText] at hnode
      simp [optInt, rawAttr, hnode, this, Out.map]
    have hmod : ((n0 : Int) % 2 ^ 64).toNat = n0 := by
      have : n0 < 2 ^ 31 := hok
      omega
    simp only [h1, h2, hn, hv, Out.monad_bind_ok, Option.map, hmod, build_node, hp]
  · rw [hp] at hnode
    have hn : optInt K ("node" ++ s) (.start n as e :: rest) = .ok none := by
      simp only [nodeText] at hnode
      simp [optInt, rawAttr, hnode]
    simp only [h1, h2, hn, hv, Out.monad_bind_ok, Option.map, build_bus hb, hp]

theorem readLegPlace_at {K : XCodec} (hK : K.Integers) {A : Anon} {s n : String} {as : List (String × String)} {x : Side} (hs : Sided K A s as x) (hx : LegSideOk K A x)
    (e : Bool) (rest : List Tok) : readLegPlace K A s (.start n as e :: rest) = .ok (x.vl, x.term.place) := by
  have hv : A.dean (A.anon x.vl) = .ok x.vl := hx.vl
  have hnode := hs.placed.node
  unfold readLegPlace
  rw [getS_attr hs.vl]
  rcases names_at (n := n) hs.placed hx.term.place e rest with ⟨n0, hp, h1, h2⟩ | ⟨b, c, hp, hb, h1, h2⟩
  · have hok := hx.term.place
    rw [hp] at hok hnode
    have hn : optN K.toCodec ("node" ++ s) (.start n as e :: rest) = .ok (some n0) := by
      have := hK.naturals n0 hok
      simp only [nodeText] at hnode
      simp [optN, rawAttr, hnode, this, Out.map]
    simp only [h1, h2, hn, hv, Out.monad_bind_ok, build_node, hp]
  · rw [hp] at hnode
    have hn : optN K.toCodec ("node" ++ s) (.start n as e :: rest) = .ok none := by
      simp only [nodeText] at hnode
      simp [optN, rawAttr, hnode]
    simp only [h1, h2, hn, hv, Out.monad_bind_ok, build_bus hb, hp]

theorem readSides_at {K : XCodec} (hK : K.Integers) {A : Anon} {n : String} {as : List (String × String)} {x y : Side} (h1 : Sided K A "1" as x) (h2 : Sided K A "2" as y)
    (hx : BranchSideOk K A x) (hy : BranchSideOk K A y) (e : Bool) (rest : List Tok) : readSides K A (.start n as e :: rest) = .ok (x, y) := by
  unfold readSides
  simp only [readBranchPlace_at hK h1 hx, readBranchPlace_at hK h2 hy, Out.monad_bind_ok]
  rw [readTerm_at h1.p h1.q hx.p hx.q, readTerm_at h2.p h2.q hy.p hy.q]
  rfl

theorem readLegSide_at {K : XCodec} (hK : K.Integers) {A : Anon} {s n : String} {as : List (String × String)} {x : Side} (h1 : Sided K A s as x) (hx : LegSideOk K A x) (e : Bool)
    (rest : List Tok) : readLegSide K A s (.start n as e :: rest) = .ok x := by
  unfold readLegSide
  simp only [readLegPlace_at hK h1 hx, Out.monad_bind_ok]
  rw [readTerm_at h1.p h1.q hx.term.p hx.term.q]
  rfl

/-! ### Limits of a side -/

structure LimsOk (K : XCodec) (l : Lims) : Prop where
  active : LimitsOk K l.active
  apparent : LimitsOk K l.apparent
  current : LimitsOk K l.current

theorem noLims_ok {K : XCodec} : LimsOk K noLims := ⟨limitsOk_none, limitsOk_none, limitsOk_none⟩

theorem limits_body' {K : XCodec} (hK : K.toCodec.Naturals) {A : Anon} {h : Handler σ} {root el : String} {cb : Callback σ} {set : σ → Limits.LL → σ} (hh : h el = some cb)
    (hcb : ∀ s toks l r, readLimits K.toCodec el toks = .ok (l, r) → cb s toks = .ok (set s l, r))
    {o : Option Limits.LL} (ho : LimitsOk K o) (s : σ) : Body A h root (limitsElems K el o) s (setOpt set s o) := by
  cases o with
  | none => exact body_nil _ _ _ _
  | some l =>
    obtain ⟨hw, he, hs⟩ := ho l rfl
    have hrt := limits_round_trip_partial hK el hw he hs
    have hcond : (!l.permanent.isNan || !l.temps.isEmpty) = true := by
      rcases hs with h | h
      · simp [h]
      · simp [h]
    show Body A h root (writeLimits K.toCodec el l) s (set s l)
    unfold writeLimits at hrt ⊢
    rw [if_pos hcond] at hrt ⊢
    exact body_item hrt hh fun toks rest hr => hcb _ _ _ _ hr

theorem lims_body {K : XCodec} (hK : K.toCodec.Naturals) {A : Anon} {h : Handler σ} {root a p c : String} {ca cp cc : Callback σ} {get : σ → Lims} {put : σ → Lims → σ}
    (ha : h a = some ca) (hp : h p = some cp) (hc : h c = some cc)
    (hca : ∀ s toks l r, readLimits K.toCodec a toks = .ok (l, r) → ca s toks = .ok (put s { get s with active := some l }, r))
    (hcp : ∀ s toks l r, readLimits K.toCodec p toks = .ok (l, r) → cp s toks = .ok (put s { get s with apparent := some l }, r))
    (hcc : ∀ s toks l r, readLimits K.toCodec c toks = .ok (l, r) → cc s toks = .ok (put s { get s with current := some l }, r))
    (gp : ∀ s l, get (put s l) = l) (pp : ∀ s l m, put (put s l) m = put s m) (pg : ∀ s, put s (get s) = s)
    {l : Lims} (hl : LimsOk K l) (s : σ) (hs : get s = noLims) : Body A h root (limsElems K a p c l) s (put s l) := by
  have h1 := limits_body' hK (A := A) (root := root) ha hca hl.active s
  have h2 := limits_body' hK (A := A) (root := root) hp hcp hl.apparent (put s ⟨l.active, none, none⟩)
  have h3 := limits_body' hK (A := A) (root := root) hc hcc hl.current (put s ⟨l.active, l.apparent, none⟩)
  unfold limsElems
  refine Body.append (s' := put s ⟨l.active, none, none⟩) ?_ (Body.append (s' := put s ⟨l.active, l.apparent, none⟩) ?_ ?_)
  · obtain ⟨la, lp, lc⟩ := l
    cases la with
    | none =>
      have : put s ⟨none, none, none⟩ = s := by rw [← show get s = ⟨none, none, none⟩ from hs, pg]
      simp only [this]
      exact h1
    | some x =>
      simp only [setOpt, hs] at h1
      exact h1
  · obtain ⟨la, lp, lc⟩ := l
    cases lp with
    | none => exact h2
    | some x =>
      simp only [setOpt, gp, pp] at h2
      exact h2
  · obtain ⟨la, lp, lc⟩ := l
    cases lc with
    | none => exact h3
    | some x =>
      simp only [setOpt, gp, pp] at h3
      exact h3

end Verif.XmlNet
