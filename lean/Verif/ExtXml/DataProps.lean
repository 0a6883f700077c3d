import Verif.ExtXml.Lemmas

/-! Property C79: the XML serializers of the extensions. -/

namespace Verif.ExtXml

open Verif Verif.Xml Verif.XmlNet Verif.ExtData Verif.Measure

/-! ### Specification -/

/-- The values are those that the extension may hold, but that the setter of the name of a feeder lets an empty one pass (see `ExtData.empty_feeder_name`). -/
def Held (E : Env) (x : Data) : Prop :=
  (∀ i k v, x.get i k = some v → (∀ s, k ≠ .feederName s) → Fit E x.name k v) ∧ (x.name = .position → shapeOf (x.get E.index) ∈ shapes)

/-- The values of the variant `i` survive the text: numbers are read back as they were written, and the reference of a terminal designates the same one. -/
structure Exact (K : XCodec) (A : Anon) (E : REnv) (i : Nat) (x : Data) : Prop where
  doubles : ∀ k d, x.get i k = some (.d d) → K.Keeps d
  naturals : ∀ k n, x.get i k = some (.n n) → n < 2 ^ 64
  terminals : ∀ k r, x.get i k = some (.r r) → A.Inverts r.id ∧ E.find r = .ok r

/-- What the serializers write but cannot read: an active power control whose droop is not a number, a feeder without name, a slack terminal that is
nowhere in the variant. -/
def Unreadable (i : Nat) (x : Data) : Prop :=
  (x.name = .activePower ∧ x.get i .droop = some (.d .nan)) ∨ (∃ s, x.get i (.feederName s) = some (.s "")) ∨ (x.name = .slack ∧ x.get i .terminal = none)

/-- The values that are not written: the names of the lines of a merged node. -/
def lost : List Key := [.line1Name, .line2Name]

/-! ### Proofs -/

theorem added_ok {E : REnv} {d : Draft} {y : Data} (hc : E.cls ∈ concrete) (hi : E.index < E.size) (hh : E.cls ∈ holders d.name) (ho : d.Ok E.toEnv) (hm : d.made E.toEnv = some y)
    (toks : List Tok) : added E d toks = .ok (.data y, toks) := by
  unfold added
  rw [(add_iff hc hi).2 ⟨hh, ho, hm⟩]
  rfl

/-- What the attributes and the text of a feeder do to the position. -/
def putFeeder (s : Slot) (o : Option Feeder) (p : Position) : Out Position :=
  match o with
  | none => .ok p
  | some f => if f.name = "" then .thrown else .ok (p.set f s)

theorem putFeeder_ne (s : Slot) (o : Option Feeder) (p : Position) : putFeeder s o p ≠ .ub := by
  unfold putFeeder
  split
  · simp
  · split <;> simp

theorem slotOf_name : slotOf "feeder" = some .only ∧ slotOf "feeder1" = some .one ∧ slotOf "feeder2" = some .two ∧ slotOf "feeder3" = some .three := by decide

theorem feeder_runs {K : XCodec} (hN : K.toCodec.Naturals) {el : String} {s : Slot} (hs : slotOf el = some s) (o : Option Feeder) (ho : ∀ f, o = some f → f.order < 2 ^ 64) :
    ∃ cs, writeFeeder K el o = .ok cs ∧ ∀ i, ∃ bt, Emits i cs bt ∧ (bt = [] → o = none) ∧ ∀ p, Runs (feederCb K) "position" p bt (putFeeder s o p) := by
  cases o with
  | none => exact ⟨[], rfl, fun i => ⟨[], emits_nil i, fun _ => rfl, fun p => runs_nil _ _ _⟩⟩
  | some f =>
    obtain ⟨d, h1, -, h2⟩ := enum_rt nodup_tables.2.2.1 f.direction
    refine ⟨elemCmds el (("name", f.name) :: (attrN K.toCodec "order" f.order ++ [("direction", d)])) [], ?_, fun i => ?_⟩
    · simp only [writeFeeder, h1, Out.map]
    · refine ⟨_, (emits_nil i).elem _ _, fun h => by simp [elemToks, coreToks] at h, fun p => ?_⟩
      have := (runs_sp (feederCb K) "position" p i).append (f := putFeeder s (some f)) (us := coreToks i el (("name", f.name) :: (attrN K.toCodec "order" f.order ++ [("direction", d)])) [])
        (fun s' hs' => by
          cases hs'
          refine runs_element (body := []) (putFeeder_ne _ _ _) fun rest => ?_
          show feederCb K p (.start el _ true :: rest) = _
          unfold feederCb
          rw [getS_attr (v := f.name) (by simp [lookup]), getN_attr hN (d := f.order) (by simp [lookup_cons, lookup_append, lookup_attrN]) (ho f rfl),
            getS_attr (v := d) (by simp [lookup_cons, lookup_append, lookup_attrN])]
          simp only [localName, Out.monad_bind_ok, hs, h2, FeederDraft.make, putFeeder]
          by_cases hn : f.name = ""
          · simp only [hn, if_true]; rfl
          · simp only [hn, if_false]; rfl)
      exact this

/-- The whole position. -/
theorem position_reading {K : XCodec} {A : Anon} {E : REnv} (hN : K.toCodec.Naturals) {p : Position} (hp : ∀ s f, p.get s = some f → f.order < 2 ^ 64)
    (hc : E.cls ∈ concrete) (hi : E.index < E.size) (hh : E.cls ∈ holders .position) (hs : (p.feeder.isSome, p.feeder1.isSome, p.feeder2.isSome, p.feeder3.isSome) ∈ shapes) (i : Nat) :
    ∃ body, writeData K A i (.position p) = .ok ([], body) ∧
      ((∀ s f, p.get s = some f → f.name ≠ "") → Reading (elemCmds "position" [] body) (readData K A E .position) (.ok (.data (.position p)))) ∧
      ((∃ s f, p.get s = some f ∧ f.name = "") → Reading (elemCmds "position" [] body) (readData K A E .position) .thrown) := by
  obtain ⟨a, h1, k1⟩ := feeder_runs hN slotOf_name.1 p.feeder fun f hf => hp .only f hf
  obtain ⟨b, h2, k2⟩ := feeder_runs hN slotOf_name.2.1 p.feeder1 fun f hf => hp .one f hf
  obtain ⟨c, h3, k3⟩ := feeder_runs hN slotOf_name.2.2.1 p.feeder2 fun f hf => hp .two f hf
  obtain ⟨d, h4, k4⟩ := feeder_runs hN slotOf_name.2.2.2 p.feeder3 fun f hf => hp .three f hf
  refine ⟨a ++ (b ++ (c ++ d)), by simp only [writeData, h1, h2, h3, h4, Out.monad_bind_ok], ?_⟩
  let o : Out Position := (putFeeder .only p.feeder ⟨none, none, none, none⟩).bind fun q => (putFeeder .one p.feeder1 q).bind fun q => (putFeeder .two p.feeder2 q).bind fun q => putFeeder .three p.feeder3 q
  have hconn : isA E.cls .connectable = true := by
    have := assert_eq hc (.position p)
    simpa [Data.assertExtendable, Data.name, hh] using this
  have key : ∀ r, (∀ q, o = .ok q → added E (.position q) = fun toks => r.map fun x => (x, toks)) → (o = .thrown → r = .thrown) →
      Reading (elemCmds "position" [] (a ++ (b ++ (c ++ d)))) (readData K A E .position) r := by
    intro r hr hr'
    refine reading_intro fun i => ?_
    obtain ⟨ta, ea, na, ra⟩ := k1 i
    obtain ⟨tb, eb, nb, rb⟩ := k2 i
    obtain ⟨tc, ec, nc, rc⟩ := k3 i
    obtain ⟨td, ed, nd, rd⟩ := k4 i
    refine ⟨ta ++ (tb ++ (tc ++ td)), ea.append (eb.append (ec.append ed)), fun rest => ?_⟩
    have hrun : Runs (feederCb K) "position" ⟨none, none, none, none⟩ (ta ++ (tb ++ (tc ++ td))) o :=
      (ra _).append fun q _ => (rb q).append fun q _ => (rc q).append fun q _ => rd q
    have hu := readUntilEnd_runs (as := []) i hrun (by
      intro hn
      exfalso
      simp only [List.append_eq_nil_iff] at hn
      rw [na hn.1, nb hn.2.1, nc hn.2.2.1, nd hn.2.2.2] at hs
      revert hs
      decide) rest
    simp only [readData, hconn, require, if_true, Out.monad_bind_ok, hu]
    cases ho : o with
    | ub => rw [ho] at hrun; exact absurd hrun id
    | thrown => rw [hr' ho]; rfl
    | ok q =>
      simp only [Out.map, Out.monad_bind_ok, hr q ho]
  constructor
  · intro hne
    have ho : o = .ok p := by
      obtain ⟨fa, fb, fc, fd⟩ := p
      have g1 := hne .only
      have g2 := hne .one
      have g3 := hne .two
      have g4 := hne .three
      simp only [Position.get] at g1 g2 g3 g4
      cases fa <;> cases fb <;> cases fc <;> cases fd <;> simp_all [o, putFeeder, Position.set]
    refine key _ (fun q hq => ?_) (fun ht => by rw [ho] at ht; cases ht)
    rw [ho] at hq
    cases hq
    funext toks
    exact added_ok (d := .position p) hc hi hh hs rfl toks
  · rintro ⟨s, f, hf, hn⟩
    have ho : o = .thrown := by
      obtain ⟨fa, fb, fc, fd⟩ := p
      cases s <;> simp only [Position.get] at hf <;> subst hf
      · simp [o, putFeeder, hn]
      · cases fa with
        | none => simp [o, putFeeder, hn]
        | some g => by_cases hg : g.name = "" <;> simp [o, putFeeder, hn, hg]
      · cases fa with
        | none =>
          cases fb with
          | none => simp [o, putFeeder, hn]
          | some g => by_cases hg : g.name = "" <;> simp [o, putFeeder, hn, hg]
        | some g' =>
          by_cases hg' : g'.name = ""
          · simp [o, putFeeder, hg']
          · cases fb with
            | none => simp [o, putFeeder, hn, hg']
            | some g => by_cases hg : g.name = "" <;> simp [o, putFeeder, hn, hg, hg']
      · exact Classical.byContradiction fun hne => by
          revert hne
          rcases fa with _ | fa <;> rcases fb with _ | fb <;> rcases fc with _ | fc <;> simp only [o, putFeeder, Out.bind_ok, hn, if_true] <;> (repeat' split) <;> simp
    exact key _ (fun q hq => by rw [ho] at hq; cases hq) fun _ => rfl

/-- What is read of the extension. -/
def ReadAs (E : Env) (i : Nat) (x y : Data) : Prop :=
  y.name = x.name ∧ (∀ s, y.size = some s → s = E.size) ∧ (∀ k, k ∉ lost → y.get E.index k = x.get i k) ∧ ∀ k ∈ lost, y.get E.index k = (x.get i k).map fun _ => .s ""

theorem readAs_self {E : Env} {i : Nat} {x : Data} (h1 : x.size = none) (h2 : ∀ k, x.get E.index k = x.get i k) (h3 : ∀ k ∈ lost, x.get i k = none) : ReadAs E i x x :=
  ⟨rfl, fun s hs => (by rw [h1] at hs; cases hs), fun k _ => h2 k, fun k hk => (by rw [h2, h3 k hk]; rfl)⟩

theorem title_name (x : Data) : (Ext.data x).title = .data x.name := rfl

theorem data_reading {K : XCodec} {A : Anon} {E : REnv} {i : Nat} {x : Data} (hN : K.toCodec.Naturals) (hc : E.cls ∈ concrete) (hi : E.index < E.size)
    (hh : E.cls ∈ holders x.name) (hx : Held E.toEnv x) (hb : ∀ s, x.size = some s → i < s) (he : Exact K A E i x) (hr : x.name ≠ .remote) :
    ∃ as body, writeData K A i x = .ok (as, body) ∧
      (¬ Unreadable i x → ∃ y, ReadAs E.toEnv i x y ∧ Reading (elemCmds (Title.data x.name).name as body) (readData K A E x.name) (.ok (.data y))) ∧
      (Unreadable i x → Reading (elemCmds (Title.data x.name).name as body) (readData K A E x.name) .thrown) := by
  have had : ∀ {d : Draft} {y : Data}, d.name = x.name → d.Ok E.toEnv → d.made E.toEnv = some y → ∀ toks, added E d toks = .ok (.data y, toks) :=
    fun hn ho hm toks => added_ok hc hi (hn ▸ hh) ho hm toks
  have ha := assert_eq hc x
  rw [decide_eq_true hh] at ha
  have hn2 : ∀ {d : Dbl}, d ≠ .nan → d.isNan = false := fun h => ExtData.isNan_iff.2 h
  have hle : ∀ {d : Dbl}, Dbl.le 0 d = true → d ≠ .nan := by rintro d h rfl; cases h
  have hfit := fun k v (h : x.get i k = some v) hk => hx.1 i k v h hk
  cases x with
  | activePower p d =>
    refine ⟨_, _, rfl, fun hu => ⟨.activePower p d, readAs_self rfl (fun k => by cases k <;> rfl) (by simp [lost, Data.get]), ?_⟩, fun hu => ?_⟩
    · have hd : d ≠ .nan := fun h => hu (.inl ⟨rfl, by rw [h]; rfl⟩)
      refine reading_empty fun rest => ?_
      simp only [readData, Data.name]
      rw [getB_attr (b := p) (by simp [lookup_append, lookup_attrB]), getD_at (d := d) (by simp [lookup_append, lookup_attrB, lookup_attrD]) (hn2 hd) (he.doubles .droop d rfl)]
      simp only [Out.monad_bind_ok]
      refine had ?_ ?_ ?_ _
      · rfl
      · exact trivial
      · rfl
    · rcases hu with ⟨-, h⟩ | ⟨s, h⟩ | ⟨h, -⟩
      · simp only [Data.get, Option.some.injEq, Val.d.injEq] at h
        subst h
        refine reading_empty fun rest => ?_
        simp only [readData, Data.name]
        rw [getB_attr (b := p) (by simp [lookup_append, lookup_attrB]), getD_none (by simp [lookup_append, lookup_attrB, lookup_attrD, Dbl.isNan])]
        rfl
      · simp [Data.get] at h
      · cases h
  | reactive q =>
    refine ⟨_, _, rfl, fun _ => ⟨.reactive q, readAs_self rfl (fun k => by cases k <;> rfl) (by simp [lost, Data.get]), ?_⟩, fun hu => by simp [Unreadable, Data.get, Data.name] at hu⟩
    have hq : q ≠ .nan := hfit .qPercent _ rfl (by simp)
    refine reading_empty fun rest => ?_
    simp only [readData, Data.name]
    rw [getD_at (d := q) (by simp [lookup_attrD]) (hn2 hq) (he.doubles .qPercent q rfl)]
    simp only [Out.monad_bind_ok]
    refine had ?_ ?_ ?_ _
    · rfl
    · exact hq
    · rfl
  | angleDroop p d e =>
    refine ⟨_, _, rfl, fun _ => ⟨.angleDroop p d e, readAs_self rfl (fun k => by cases k <;> rfl) (by simp [lost, Data.get]), ?_⟩, fun hu => by simp [Unreadable, Data.get, Data.name] at hu⟩
    have hp : p ≠ .nan := hfit .p0 _ rfl (by simp)
    have hd : d ≠ .nan := hfit .droop _ rfl (by simp)
    have ha : isA E.cls .hvdcLine = true := ha
    refine reading_empty fun rest => ?_
    simp only [readData, Data.name]
    rw [getD_at (d := p) (by simp [lookup_append, lookup_attrD, lookup_attrB]) (hn2 hp) (he.doubles .p0 p rfl),
      getD_at (d := d) (by simp [lookup_append, lookup_attrD, lookup_attrB]) (hn2 hd) (he.doubles .droop d rfl), getB_attr (b := e) (by simp [lookup_append, lookup_attrD, lookup_attrB])]
    simp only [Out.monad_bind_ok, require, ha, if_true]
    refine had ?_ ?_ ?_ _
    · rfl
    · exact ⟨hp, hd⟩
    · rfl
  | range a b =>
    refine ⟨_, _, rfl, fun _ => ⟨.range a b, readAs_self rfl (fun k => by cases k <;> rfl) (by simp [lost, Data.get]), ?_⟩, fun hu => by simp [Unreadable, Data.get, Data.name] at hu⟩
    have ha : isA E.cls .hvdcLine = true := ha
    refine reading_empty fun rest => ?_
    simp only [readData, Data.name]
    rw [optDOr_opt (d := a) (by simp [lookup_append, lookup_attrOptD]) (he.doubles .range12 a rfl), optDOr_opt (d := b) (by simp [lookup_append, lookup_attrOptD]) (he.doubles .range21 b rfl)]
    simp only [Out.monad_bind_ok, require, ha, if_true]
    refine had ?_ ?_ ?_ _
    · rfl
    · exact ⟨hfit .range12 _ rfl (by simp), hfit .range21 _ rfl (by simp)⟩
    · rfl
  | clock2 c =>
    refine ⟨_, _, rfl, fun _ => ⟨.clock2 c, readAs_self rfl (fun k => by cases k <;> rfl) (by simp [lost, Data.get]), ?_⟩, fun hu => by simp [Unreadable, Data.get, Data.name] at hu⟩
    refine reading_empty fun rest => ?_
    simp only [readData, Data.name]
    rw [optNOr_opt hN (c := c) (by simp [lookup_attrOptN]) (he.naturals .clock c rfl)]
    simp only [Out.monad_bind_ok]
    refine had ?_ ?_ ?_ _
    · rfl
    · exact ⟨c, rfl, hfit .clock _ rfl (by simp)⟩
    · rfl
  | clock3 c d =>
    refine ⟨_, _, rfl, fun _ => ⟨.clock3 c d, readAs_self rfl (fun k => by cases k <;> rfl) (by simp [lost, Data.get]), ?_⟩, fun hu => by simp [Unreadable, Data.get, Data.name] at hu⟩
    refine reading_empty fun rest => ?_
    simp only [readData, Data.name]
    rw [optNOr_opt hN (c := c) (by simp [lookup_append, lookup_attrOptN]) (he.naturals .clockLeg2 c rfl), optNOr_opt hN (c := d) (by simp [lookup_append, lookup_attrOptN]) (he.naturals .clockLeg3 d rfl)]
    simp only [Out.monad_bind_ok]
    refine had ?_ ?_ ?_ _
    · rfl
    · exact ⟨c, d, rfl, rfl, hfit .clockLeg2 _ rfl (by simp), hfit .clockLeg3 _ rfl (by simp)⟩
    · rfl
  | slope s =>
    refine ⟨_, _, rfl, fun _ => ⟨.slope s, readAs_self rfl (fun k => by cases k <;> rfl) (by simp [lost, Data.get]), ?_⟩, fun hu => by simp [Unreadable, Data.get, Data.name] at hu⟩
    have hs : Dbl.le 0 s = true := hfit .slope _ rfl (by simp)
    refine reading_empty fun rest => ?_
    simp only [readData, Data.name]
    rw [getD_at (d := s) (by simp [lookup_attrD]) (hn2 (hle hs)) (he.doubles .slope s rfl)]
    simp only [Out.monad_bind_ok]
    refine had ?_ ?_ ?_ _
    · rfl
    · exact hs
    · rfl
  | remote q t e => exact absurd rfl hr
  | status s =>
    obtain ⟨n, h1, h2, h3⟩ := enum_rt nodup_tables.1 s
    refine ⟨[], [.chars n], by simp only [writeData, h1, Out.map], fun _ => ⟨.status s, readAs_self rfl (fun k => by cases k <;> rfl) (by simp [lost, Data.get]), ?_⟩, fun hu => by simp [Unreadable, Data.get, Data.name] at hu⟩
    refine reading_text (texts_not_blank.1 n h2) fun rest => ?_
    simp only [readData, Data.name]
    show ((readText "branchStatus" (.start "branchStatus" [] false :: .text n :: .stop "branchStatus" :: rest)) >>= _) = _
    rw [readText_read]
    simp only [Out.monad_bind_ok, h3]
    refine had ?_ ?_ ?_ _
    · rfl
    · exact rfl
    · rfl
  | busbar b s =>
    refine ⟨_, _, rfl, fun _ => ⟨.busbar b s, readAs_self rfl (fun k => by cases k <;> rfl) (by simp [lost, Data.get]), ?_⟩, fun hu => by simp [Unreadable, Data.get, Data.name] at hu⟩
    have ha : isA E.cls .busbarSection = true := ha
    refine reading_empty fun rest => ?_
    simp only [readData, Data.name]
    rw [getN_attr hN (d := b) (by simp [lookup_append, lookup_attrN]) (he.naturals .busbarIndex b rfl), getN_attr hN (d := s) (by simp [lookup_append, lookup_attrN]) (he.naturals .sectionIndex s rfl)]
    simp only [Out.monad_bind_ok, require, ha, if_true]
    refine had ?_ ?_ ?_ _
    · rfl
    · exact ⟨rfl, rfl⟩
    · rfl
  | position p =>
    have hs : (p.feeder.isSome, p.feeder1.isSome, p.feeder2.isSome, p.feeder3.isSome) ∈ shapes := by simpa [shapeOf, Data.get, Position.get] using hx.2 rfl
    obtain ⟨body, h1, h2, h3⟩ := position_reading (K := K) (A := A) (E := E) hN (p := p) (fun s f hf => he.naturals (.feederOrder s) f.order (by simp [Data.get, hf])) hc hi hh hs i
    refine ⟨[], body, h1, fun hu => ⟨.position p, readAs_self rfl (fun k => by cases k <;> rfl) (by simp [lost, Data.get]), ?_⟩, fun hu => ?_⟩
    · exact h2 fun s f hf hn => hu (.inr (.inl ⟨s, by simp [Data.get, hf, hn]⟩))
    · rcases hu with ⟨h, -⟩ | ⟨s, h⟩ | ⟨h, -⟩
      · cases h
      · refine h3 ⟨s, ?_⟩
        simp only [Data.get, Option.map_eq_some_iff, Val.s.injEq] at h
        exact h
      · cases h
  | area c =>
    obtain ⟨n, h1, h2, h3⟩ := enum_rt nodup_tables.2.1 c
    refine ⟨[], [.chars n], by simp only [writeData, h1, Out.map], fun _ => ⟨.area c, readAs_self rfl (fun k => by cases k <;> rfl) (by simp [lost, Data.get]), ?_⟩, fun hu => by simp [Unreadable, Data.get, Data.name] at hu⟩
    refine reading_text (texts_not_blank.2 n h2) fun rest => ?_
    simp only [readData, Data.name]
    show ((readText "entsoeArea" (.start "entsoeArea" [] false :: .text n :: .stop "entsoeArea" :: rest)) >>= _) = _
    rw [readText_read]
    simp only [Out.monad_bind_ok, h3]
    refine had ?_ ?_ ?_ _
    · rfl
    · exact rfl
    · rfl
  | merged m =>
    obtain ⟨rdp, xdp, p1, q1, p2, q2, n1, n2, code⟩ := m
    refine ⟨_, _, rfl, fun _ => ⟨.merged ⟨rdp, xdp, p1, q1, p2, q2, "", "", code⟩, ⟨rfl, nofun, fun k hk => ?_, fun k hk => ?_⟩, ?_⟩, fun hu => by simp [Unreadable, Data.get, Data.name] at hu⟩
    · cases k <;> first | rfl | simp [lost] at hk
    · simp only [lost, List.mem_cons, List.not_mem_nil, or_false] at hk
      rcases hk with rfl | rfl <;> rfl
    · have a1 : Dbl.le 0 rdp = true ∧ Dbl.le rdp 1 = true := hfit .rdp _ rfl (by simp)
      have a2 : Dbl.le 0 xdp = true ∧ Dbl.le xdp 1 = true := hfit .xdp _ rfl (by simp)
      have a3 : p1 ≠ .nan := hfit .xnodeP1 _ rfl (by simp)
      have a4 : q1 ≠ .nan := hfit .xnodeQ1 _ rfl (by simp)
      have a5 : p2 ≠ .nan := hfit .xnodeP2 _ rfl (by simp)
      have a6 : q2 ≠ .nan := hfit .xnodeQ2 _ rfl (by simp)
      have a7 : code ≠ "" := hfit .xnodeCode _ rfl (by simp)
      refine reading_empty fun rest => ?_
      simp only [readData, Data.name]
      rw [getD_at (d := rdp) (by simp [lookup_append, lookup_cons, lookup_nil, lookup_attrD]) (hn2 (hle a1.1)) (he.doubles .rdp _ rfl),
        getD_at (d := xdp) (by simp [lookup_append, lookup_cons, lookup_nil, lookup_attrD]) (hn2 (hle a2.1)) (he.doubles .xdp _ rfl),
        getD_at (d := p1) (by simp [lookup_append, lookup_cons, lookup_nil, lookup_attrD]) (hn2 a3) (he.doubles .xnodeP1 _ rfl),
        getD_at (d := q1) (by simp [lookup_append, lookup_cons, lookup_nil, lookup_attrD]) (hn2 a4) (he.doubles .xnodeQ1 _ rfl),
        getD_at (d := p2) (by simp [lookup_append, lookup_cons, lookup_nil, lookup_attrD]) (hn2 a5) (he.doubles .xnodeP2 _ rfl),
        getD_at (d := q2) (by simp [lookup_append, lookup_cons, lookup_nil, lookup_attrD]) (hn2 a6) (he.doubles .xnodeQ2 _ rfl),
        getS_attr (v := code) (by simp [lookup_append, lookup_cons, lookup_nil, lookup_attrD])]
      simp only [Out.monad_bind_ok]
      refine had ?_ ?_ ?_ _
      · rfl
      · exact ⟨a1, a2, a3, a4, a5, a6, a7⟩
      · rfl
  | xnode c =>
    refine ⟨_, _, rfl, fun _ => ⟨.xnode c, readAs_self rfl (fun k => by cases k <;> rfl) (by simp [lost, Data.get]), ?_⟩, fun hu => by simp [Unreadable, Data.get, Data.name] at hu⟩
    have hcd : c ≠ "" := hfit .xnodeCode _ rfl (by simp)
    refine reading_empty fun rest => ?_
    simp only [readData, Data.name]
    rw [getS_attr (v := c) (by simp [lookup_cons])]
    simp only [Out.monad_bind_ok]
    refine had ?_ ?_ ?_ _
    · rfl
    · exact hcd
    · rfl
  | detail v =>
    have hl : i < v.length := hb _ rfl
    have hv : v[i]? = some v[i] := List.getElem?_eq_getElem hl
    generalize v[i] = w at hv
    obtain ⟨fp, fq, vp, vq⟩ := w
    have a1 : fp ≠ .nan := hfit .fixedP (.d fp) (by simp [Data.get, hv]) (by simp)
    have a2 : fq ≠ .nan := hfit .fixedQ (.d fq) (by simp [Data.get, hv]) (by simp)
    have a3 : vp ≠ .nan := hfit .varP (.d vp) (by simp [Data.get, hv]) (by simp)
    have a4 : vq ≠ .nan := hfit .varQ (.d vq) (by simp [Data.get, hv]) (by simp)
    have hrep : (List.replicate E.size (⟨fp, fq, vp, vq⟩ : Powers))[E.index]? = some ⟨fp, fq, vp, vq⟩ := by simp [hi]
    refine ⟨attrD K.toCodec "fixedActivePower" fp ++ (attrD K.toCodec "fixedReactivePower" fq ++
        (attrD K.toCodec "variableActivePower" vp ++ attrD K.toCodec "variableReactivePower" vq)), [], by simp only [writeData, hv],
      fun _ => ⟨.detail (List.replicate E.size ⟨fp, fq, vp, vq⟩), ⟨rfl, fun s hs => by simpa [Data.size, eq_comm] using hs, fun k hk => ?_, fun k hk => ?_⟩, ?_⟩,
      fun hu => by simp [Unreadable, Data.get, Data.name] at hu⟩
    · cases k <;> simp [Data.get, hv, hrep, hi]
    · simp only [lost, List.mem_cons, List.not_mem_nil, or_false] at hk
      rcases hk with rfl | rfl <;> rfl
    · have ha : isA E.cls .load = true := ha
      have hp : ∀ {k old : String} {as : List (String × String)} {rest : List Tok} {d : Dbl} {n : String}, lookup k as = (if d.isNan then none else some (K.showD d)) → d ≠ .nan → K.Keeps d →
          readPower K k old (.start n as true :: rest) = .ok d := by
        intro k old as rest d n h1 h2 h3
        unfold readPower
        rw [optDOr_attr h1 h3]
        simp [hn2 h2]
      refine reading_empty fun rest => ?_
      simp only [readData, Data.name]
      rw [hp (d := fp) (by simp [lookup_append, lookup_attrD]) a1 (he.doubles .fixedP _ (by simp [Data.get, hv])),
        hp (d := fq) (by simp [lookup_append, lookup_attrD]) a2 (he.doubles .fixedQ _ (by simp [Data.get, hv])),
        hp (d := vp) (by simp [lookup_append, lookup_attrD]) a3 (he.doubles .varP _ (by simp [Data.get, hv])),
        hp (d := vq) (by simp [lookup_append, lookup_attrD]) a4 (he.doubles .varQ _ (by simp [Data.get, hv]))]
      simp only [Out.monad_bind_ok, require, ha, if_true]
      refine had ?_ ?_ ?_ _
      · rfl
      · exact ⟨a1, a2, a3, a4⟩
      · rfl
  | slack ts =>
    have hl : i < ts.length := hb _ rfl
    have hv : ts[i]? = some ts[i] := List.getElem?_eq_getElem hl
    generalize ts[i] = t at hv
    have ha : isA E.cls .voltageLevel = true := ha
    cases t with
    | none =>
      refine ⟨[], [], by simp only [writeData, hv], fun hu => absurd (.inr (.inr ⟨rfl, by simp [Data.get, hv]⟩)) hu, fun _ => ?_⟩
      refine reading_empty fun rest => ?_
      simp only [readData, Data.name]
      rw [getS_none (by simp [lookup_nil])]
      simp only [Out.monad_bind_ok, require, ha, if_true]
      rfl
    | some r =>
      have hg : (Data.slack ts).get i .terminal = some (.r r) := by simp [Data.get, hv]
      have hlv : E.levelOf r = E.id := hfit .terminal _ hg (by simp)
      obtain ⟨hA, hf⟩ := he.terminals _ _ hg
      refine ⟨refAttrs A r, [], by simp only [writeData, hv], fun _ => ⟨.slack ((List.replicate E.size none).set E.index (some r)),
        ⟨rfl, fun s hs => by simpa [Data.size, eq_comm] using hs, fun k hk => ?_, fun k hk => ?_⟩, ?_⟩, fun hu => ?_⟩
      · cases k <;> simp [Data.get, hv, List.getElem?_set, hi]
      · simp only [lost, List.mem_cons, List.not_mem_nil, or_false] at hk
        rcases hk with rfl | rfl <;> rfl
      · refine reading_empty fun rest => ?_
        simp only [readData, Data.name]
        have hside : ∀ n, optSOr "side" "" (.start n (refAttrs A r) true :: rest) = .ok r.side := by
          intro n
          by_cases h : r.side = "" <;> simp [optSOr, rawAttr, lookup, refAttrs, h]
        have hA : A.dean (A.anon r.id) = .ok r.id := hA
        rw [getS_attr (v := A.anon r.id) (by simp [refAttrs, lookup_cons]), hside]
        simp only [Out.monad_bind_ok, require, ha, if_true, hA, hf]
        refine had ?_ ?_ ?_ _
        · rfl
        · exact ⟨r, rfl, hlv⟩
        · rfl
      · rcases hu with ⟨h, -⟩ | ⟨s, h⟩ | ⟨-, h⟩
        · cases h
        · simp [Data.get] at h
        · rw [hg] at h; cases h

end Verif.ExtXml
