import Verif.RegTerm.Lemmas

/-!
Property C84: the terminal an equipment regulates is the one last asked for, and it is a terminal of an equipment of the network.

The second half does not hold: the removal of an equipment leaves the references to its terminals as they are (`dangling_write`,
`dangling_setter`), and two places do not check the network (`foreign_ratio`, `foreign_control`).
-/

namespace Verif.RegTerm

open Verif

/-- A short history for the examples: a load in network 0, a generator that regulates it, a transformer with a phase tap changer on it. -/
def sampleOps : List Op :=
  [.addOther 0 1, .addDevice 0 (some ⟨0, 0⟩) true true, .addOther 0 2, .addTap 2 (.phase 0) false true true true (some ⟨0, 0⟩)]

/-- The calls in turn. -/
def runOps : List Op → World → World
  | [], w => w
  | o :: os, w => runOps os (step w o).2

/-- The facts of the calls in turn, the last one first. -/
def factsOf : List Op → World → List Fact → List Fact
  | [], _, h => h
  | o :: os, w, h => factsOf os (step w o).2 (fact o (step w o).1 :: h)

/-- No call of the list is undefined. -/
def Defined : List Op → World → Prop
  | [], _ => True
  | o :: os, w => (step w o).1 ≠ .ub ∧ Defined os (step w o).2

instance : (ops : List Op) → (w : World) → Decidable (Defined ops w)
  | [], _ => .isTrue trivial
  | o :: os, w => by
    unfold Defined
    have := instDecidableDefined os (step w o).2
    exact inferInstance

theorem reach_ops {ops : List Op} : ∀ {h : List Fact} {w : World}, Reach h w → Defined ops w → Reach (factsOf ops w h) (runOps ops w) := by
  induction ops with
  | nil => intro h w hr _; exact hr
  | cons o os ih => intro h w hr hd; exact ih (.step o hr hd.1) hd.2

/-- The facts of the sample. -/
def sampleFacts : List Fact := factsOf sampleOps init []

/-- The world of the sample. -/
def sampleWorld : World := runOps sampleOps init

theorem sample_reach : Reach sampleFacts sampleWorld := reach_ops .init (by decide)

/-- The getter gives the terminal last asked for. -/
theorem getter {h : List Fact} {w : World} (hr : Reach h w) (e : Nat) (he : Here h e) (s : Slot) : w.getRef e s = asked e s h := by
  have hi := reach_inv hr
  obtain ⟨q, hq⟩ := Option.isSome_iff_exists.mp ((hi.here e).mpr he)
  simp only [World.getRef, hq]
  exact (hi.refs e q hq).1 s

example : Here sampleFacts 1 := ⟨⟨0, 1, some ⟨0, 0⟩, by decide⟩, by decide⟩
example : sampleWorld.getRef 1 .own = some (some ⟨0, 0⟩) := by decide
example : sampleWorld.getRef 2 (.phase 0) = some (some ⟨0, 0⟩) ∧ sampleWorld.getRef 2 (.ratio 0) = none := by decide

/-- A terminal is readable exactly when it is there, and then it tells the network of its equipment. -/
theorem netOf_iff {h : List Fact} {w : World} (hr : Reach h w) (t : Term) (n : Nat) :
    w.netOf t = some n ↔ THere h t ∧ home t.eq h = some n := by
  have hi := reach_inv hr
  constructor
  · intro hn
    obtain ⟨q, hq, hl, hnet⟩ := netOf_some hn
    obtain ⟨_, k2, k3, _⟩ := hi.refs _ _ hq
    exact ⟨⟨(hi.here _).mp (by simp [hq]), by rw [k3]; exact hl⟩, by rw [k2, hnet]⟩
  · rintro ⟨⟨hh, hl⟩, hn⟩
    obtain ⟨q, hq⟩ := Option.isSome_iff_exists.mp ((hi.here _).mpr hh)
    obtain ⟨_, k2, k3, _⟩ := hi.refs _ _ hq
    rw [k3] at hl
    rw [k2] at hn
    simp only [World.netOf, hq, hl, if_true]
    exact hn

example : THere sampleFacts ⟨2, 1⟩ ∧ ¬ THere sampleFacts ⟨2, 2⟩ :=
  ⟨⟨⟨⟨0, 2, none, by decide⟩, by decide⟩, by decide⟩, fun h => absurd h.2 (by decide)⟩

theorem netOf_none_iff {h : List Fact} {w : World} (hr : Reach h w) (t : Term) : w.netOf t = none ↔ ¬ THere h t := by
  constructor
  · intro hn hth
    have hi := reach_inv hr
    obtain ⟨q, hq⟩ := Option.isSome_iff_exists.mp ((hi.here _).mpr hth.1)
    have := (netOf_iff hr t q.net).mpr ⟨hth, (hi.refs _ _ hq).2.1⟩
    rw [hn] at this; cases this
  · intro hth
    cases hn : w.netOf t with
    | none => rfl
    | some n => exact absurd ((netOf_iff hr t n).mp hn).1 hth

/-- `setRegulatingTerminal` on an equipment that has one: without a terminal it always works and the own terminal is taken; with one it works
    when the terminal is there and in the same network, throws when it is in another network, and is undefined when it is no longer there. -/
theorem set_regulating {h : List Fact} {w : World} (hr : Reach h w) (e : Nat) (he : Here h e) (ho : asked e .own h ≠ none) (t : Option Term) :
    ((step w (.setReg e t)).1 = .ok .unit ↔ ∀ x, t = some x → THere h x ∧ home x.eq h = home e h) ∧
    ((step w (.setReg e t)).1 = .thrown ↔ ∃ x, t = some x ∧ THere h x ∧ home x.eq h ≠ home e h) ∧
    ((step w (.setReg e t)).1 = .ub ↔ ∃ x, t = some x ∧ ¬ THere h x) ∧
    ((step w (.setReg e t)).1 = .ok .unit → (step w (.setReg e t)).2.getRef e .own = some (some (orOwn e t))) ∧
    ((step w (.setReg e t)).1 ≠ .ok .unit → (step w (.setReg e t)).2 = w) := by
  have hi := reach_inv hr
  obtain ⟨q, hq⟩ := Option.isSome_iff_exists.mp ((hi.here e).mpr he)
  obtain ⟨k1, k2, k3, _⟩ := hi.refs e q hq
  obtain ⟨t0, ht0⟩ := Option.ne_none_iff_exists'.mp ho
  have hown : q.refs.get? .own = some t0 := by rw [k1, ht0]
  have hget : ∀ x, (w.put e q .own (some x)).getRef e .own = some (some x) := by
    intro x
    simp [World.getRef, World.put, AMap.get?_set]
  cases t with
  | none =>
    have : step w (.setReg e none) = (.ok .unit, w.put e q .own (some ⟨e, 0⟩)) := by
      simp only [step, setReg, hq, hown, checkRegulatingTerminal, Option.getD_none]
    rw [this]
    exact ⟨by simp, by simp, by simp, fun _ => hget _, by simp⟩
  | some x =>
    cases hn : w.netOf x with
    | none =>
      have : step w (.setReg e (some x)) = (.ub, w) := by
        simp only [step, setReg, hq, hown, checkRegulatingTerminal, hn]
      rw [this]
      have hx := (netOf_none_iff hr x).mp hn
      refine ⟨by simp [hx], by simp [hx], by simp [hx], by simp, by simp⟩
    | some n =>
      obtain ⟨hx, hnx⟩ := (netOf_iff hr x n).mp hn
      by_cases hnn : n = q.net
      · have : step w (.setReg e (some x)) = (.ok .unit, w.put e q .own (some x)) := by
          simp only [step, setReg, hq, hown, checkRegulatingTerminal, hn, hnn, if_true, Option.getD_some]
        rw [this]
        exact ⟨by simp [hx, hnx, k2, hnn], by simp [hnx, k2, hnn], by simp [hx], fun _ => hget _, by simp⟩
      · have : step w (.setReg e (some x)) = (.thrown, w) := by
          simp only [step, setReg, hq, hown, checkRegulatingTerminal, hn, hnn, if_false]
        rw [this]
        exact ⟨by simp [hnx, k2, hnn], by simp [hx, hnx, k2, hnn], by simp [hx], by simp, by simp⟩

example : asked 1 .own sampleFacts ≠ none := by decide
example : (step sampleWorld (.setReg 1 (some ⟨2, 1⟩))).1 = .ok .unit ∧ (step sampleWorld (.setReg 1 (some ⟨7, 0⟩))).1 = .ub := by decide
example : (step (runOps [.addOther 5 1] sampleWorld) (.setReg 1 (some ⟨3, 0⟩))).1 = .thrown := by decide

/-- The adder of a generator, a shunt compensator or a static VAR compensator whose other checks pass: the same rule. -/
theorem add_device {h : List Fact} {w : World} (hr : Reach h w) (net : Nat) (t : Option Term) :
    ((∃ e, (step w (.addDevice net t true true)).1 = .ok (.made e)) ↔ ∀ x, t = some x → THere h x ∧ home x.eq h = some net) ∧
    ((step w (.addDevice net t true true)).1 = .thrown ↔ ∃ x, t = some x ∧ THere h x ∧ home x.eq h ≠ some net) ∧
    (∀ e, (step w (.addDevice net t true true)).1 = .ok (.made e) →
      ¬ Here h e ∧ Fact.gone e ∉ h ∧ (step w (.addDevice net t true true)).2.getRef e .own = some (some (orOwn e t))) := by
  have hi := reach_inv hr
  have hnew : ¬ Here h w.next ∧ Fact.gone w.next ∉ h :=
    ⟨fun hh => absurd ((hi.made _).mp hh.1) (Nat.lt_irrefl _), fun hg => absurd (hi.gones _ hg) (Nat.lt_irrefl _)⟩
  have hget : ∀ x, (w.make net 1 [(.own, some x)]).getRef w.next .own = some (some x) := by
    intro x
    simp [World.getRef, World.make, AMap.get?_set, AMap.get?_cons]
  cases t with
  | none =>
    have : step w (.addDevice net none true true) = (.ok (.made w.next), w.make net 1 [(.own, some ⟨w.next, 0⟩)]) := rfl
    rw [this]
    refine ⟨by simp, by simp, ?_⟩
    intro e he
    cases he
    exact ⟨hnew.1, hnew.2, hget _⟩
  | some x =>
    cases hn : w.netOf x with
    | none =>
      have : step w (.addDevice net (some x) true true) = (.ub, w) := by
        simp [step, addDevice, checkRegulatingTerminal, hn]
      rw [this]
      have hx := (netOf_none_iff hr x).mp hn
      exact ⟨by simp [hx], by simp [hx], by simp⟩
    | some n =>
      obtain ⟨hx, hnx⟩ := (netOf_iff hr x n).mp hn
      by_cases hnn : n = net
      · have : step w (.addDevice net (some x) true true) = (.ok (.made w.next), w.make net 1 [(.own, some x)]) := by
          simp [step, addDevice, checkRegulatingTerminal, hn, hnn]
        rw [this]
        refine ⟨by simp [hx, hnx, hnn], by simp [hnx, hnn], ?_⟩
        intro e he
        cases he
        exact ⟨hnew.1, hnew.2, hget _⟩
      · have : step w (.addDevice net (some x) true true) = (.thrown, w) := by
          simp [step, addDevice, checkRegulatingTerminal, hn, hnn]
        rw [this]
        exact ⟨by simp [hnx, hnn], by simp [hx, hnx, hnn], by simp⟩

example : (step sampleWorld (.addDevice 0 (some ⟨2, 0⟩) true true)).1 = .ok (.made 3) ∧
    (step sampleWorld (.addDevice 1 (some ⟨2, 0⟩) true true)).1 = .thrown := by decide

/-- `setRegulationTerminal` on a tap changer whose values are right: it works when the terminal is there and in the same network, or when there is
    none and the tap changer does not regulate; it is undefined when the terminal is no longer there. -/
theorem set_tap {h : List Fact} {w : World} (hr : Reach h w) (e : Nat) (he : Here h e) (s : Slot) (hs : (∃ i, s = .ratio i) ∨ ∃ i, s = .phase i)
    (ho : asked e s h ≠ none) (regulating ltc : Bool) (t : Option Term) :
    ((step w (.setTap e s regulating ltc true t)).1 = .ok .unit ↔
      (t = none → regulating = false) ∧ ∀ x, t = some x → THere h x ∧ home x.eq h = home e h) ∧
    ((step w (.setTap e s regulating ltc true t)).1 = .ub ↔ ∃ x, t = some x ∧ ¬ THere h x) ∧
    ((step w (.setTap e s regulating ltc true t)).1 = .ok .unit → (step w (.setTap e s regulating ltc true t)).2.getRef e s = some t) ∧
    ((step w (.setTap e s regulating ltc true t)).1 ≠ .ok .unit → (step w (.setTap e s regulating ltc true t)).2 = w) := by
  have hi := reach_inv hr
  obtain ⟨q, hq⟩ := Option.isSome_iff_exists.mp ((hi.here e).mpr he)
  obtain ⟨k1, k2, k3, _⟩ := hi.refs e q hq
  obtain ⟨t0, ht0⟩ := Option.ne_none_iff_exists'.mp ho
  have hown : q.refs.get? s = some t0 := by rw [k1, ht0]
  have hget : (w.put e q s t).getRef e s = some t := by
    simp [World.getRef, World.put, AMap.get?_set]
  cases t with
  | none =>
    cases regulating with
    | false =>
      have : step w (.setTap e s false ltc true none) = (.ok .unit, w.put e q s none) := by
        rcases hs with ⟨i, rfl⟩ | ⟨i, rfl⟩ <;>
          simp [step, setTap, hq, hown, checkTap, checkRatio, checkPhase, checkRegulatingTerminal]
      rw [this]
      exact ⟨by simp, by simp, fun _ => hget, by simp⟩
    | true =>
      have : step w (.setTap e s true ltc true none) = (.thrown, w) := by
        rcases hs with ⟨i, rfl⟩ | ⟨i, rfl⟩ <;>
          simp [step, setTap, hq, hown, checkTap, checkRatio, checkPhase]
      rw [this]
      exact ⟨by simp, by simp, by simp, by simp⟩
  | some x =>
    cases hn : w.netOf x with
    | none =>
      have : step w (.setTap e s regulating ltc true (some x)) = (.ub, w) := by
        rcases hs with ⟨i, rfl⟩ | ⟨i, rfl⟩ <;> cases regulating <;>
          simp [step, setTap, hq, hown, checkTap, checkRatio, checkPhase, checkRegulatingTerminal, hn]
      rw [this]
      have hx := (netOf_none_iff hr x).mp hn
      exact ⟨by simp [hx], by simp [hx], by simp, by simp⟩
    | some n =>
      obtain ⟨hx, hnx⟩ := (netOf_iff hr x n).mp hn
      by_cases hnn : n = q.net
      · have : step w (.setTap e s regulating ltc true (some x)) = (.ok .unit, w.put e q s (some x)) := by
          rcases hs with ⟨i, rfl⟩ | ⟨i, rfl⟩ <;> cases regulating <;>
            simp [step, setTap, hq, hown, checkTap, checkRatio, checkPhase, checkRegulatingTerminal, hn, hnn]
        rw [this]
        exact ⟨by simp [hx, hnx, k2, hnn], by simp [hx], fun _ => hget, by simp⟩
      · have : step w (.setTap e s regulating ltc true (some x)) = (.thrown, w) := by
          rcases hs with ⟨i, rfl⟩ | ⟨i, rfl⟩ <;> cases regulating <;> cases ltc <;>
            simp [step, setTap, hq, hown, checkTap, checkRatio, checkPhase, checkRegulatingTerminal, hn, hnn]
        rw [this]
        exact ⟨by simp [hnx, k2, hnn], by simp [hx], by simp, by simp⟩

example : asked 2 (.phase 0) sampleFacts ≠ none := by decide
example : (step sampleWorld (.setTap 2 (.phase 0) true true true none)).1 = .thrown ∧
    (step sampleWorld (.setTap 2 (.phase 0) true true true (some ⟨1, 0⟩))).1 = .ok .unit := by decide

/-- The adder of a tap changer whose other checks pass, given no terminal or one that is there.  A phase tap changer takes a terminal of the same
    network, or none when it does not regulate.  A ratio tap changer that does not regulate takes anything; one that regulates takes a terminal of
    the same network, and without load tap changing capabilities a terminal of any network. -/
theorem add_tap {h : List Fact} {w : World} (hr : Reach h w) (e : Nat) (he : Here h e) (i : Nat) (regulating ltc : Bool) (t : Option Term)
    (ht : ∀ x, t = some x → THere h x) :
    ((step w (.addTap e (.phase i) regulating ltc true true t)).1 = .ok .unit ↔
      (t = none → regulating = false) ∧ ∀ x, t = some x → home x.eq h = home e h) ∧
    ((step w (.addTap e (.ratio i) regulating ltc true true t)).1 = .ok .unit ↔
      (regulating = true → ∃ x, t = some x ∧ (ltc = true → home x.eq h = home e h))) ∧
    (∀ s, (step w (.addTap e s regulating ltc true true t)).1 ≠ .ub) ∧
    (∀ s, (step w (.addTap e s regulating ltc true true t)).1 = .ok .unit →
      (step w (.addTap e s regulating ltc true true t)).2.getRef e s = some t) := by
  have hi := reach_inv hr
  obtain ⟨q, hq⟩ := Option.isSome_iff_exists.mp ((hi.here e).mpr he)
  obtain ⟨k1, k2, k3, _⟩ := hi.refs e q hq
  have hget : ∀ s, (w.put e q s t).getRef e s = some t := by
    intro s
    simp [World.getRef, World.put, AMap.get?_set]
  have hlast : ∀ s, (step w (.addTap e s regulating ltc true true t)).1 = .ok .unit →
      (step w (.addTap e s regulating ltc true true t)).2.getRef e s = some t := by
    intro s hok
    simp only [step, addTap, hq] at hok ⊢
    by_cases hg : given w t = false
    · simp [hg] at hok
    · simp only [hg] at hok ⊢
      cases hc : checkTap w s regulating ltc true t q.net with
      | ub => simp [hc] at hok
      | thrown => simp [hc] at hok
      | ok u => simpa using hget s
  refine ⟨?_, ?_, ?_, hlast⟩
  · cases t with
    | none => cases regulating <;> simp [step, addTap, hq, given, checkTap, checkPhase]
    | some x =>
      cases hn : w.netOf x with
      | none => exact absurd (ht x rfl) ((netOf_none_iff hr x).mp hn)
      | some n =>
        obtain ⟨hx, hnx⟩ := (netOf_iff hr x n).mp hn
        by_cases hnn : n = q.net <;> simp [step, addTap, hq, given, checkTap, checkPhase, hn, hnn, hnx, k2]
  · cases t with
    | none => cases regulating <;> simp [step, addTap, hq, given, checkTap, checkRatio]
    | some x =>
      cases hn : w.netOf x with
      | none => exact absurd (ht x rfl) ((netOf_none_iff hr x).mp hn)
      | some n =>
        obtain ⟨hx, hnx⟩ := (netOf_iff hr x n).mp hn
        by_cases hnn : n = q.net <;> cases regulating <;> cases ltc <;>
          simp [step, addTap, hq, given, checkTap, checkRatio, hn, hnn, hnx, k2]
  · intro s
    cases t with
    | none => cases s <;> cases regulating <;> simp [step, addTap, hq, given, checkTap, checkRatio, checkPhase]
    | some x =>
      cases hn : w.netOf x with
      | none => exact absurd (ht x rfl) ((netOf_none_iff hr x).mp hn)
      | some n =>
        by_cases hnn : n = q.net <;> cases s <;> cases regulating <;> cases ltc <;>
          simp [step, addTap, hq, given, checkTap, checkRatio, checkPhase, hn, hnn]

example : (step (runOps [.addOther 5 1] sampleWorld) (.addTap 2 (.ratio 0) true false true true (some ⟨3, 0⟩))).1 = .ok .unit ∧
    (step (runOps [.addOther 5 1] sampleWorld) (.addTap 2 (.ratio 0) true true true true (some ⟨3, 0⟩))).1 = .thrown := by decide

/-- The terminal a reference names is still there exactly as long as its equipment has not been removed. -/
theorem dangling_iff {h : List Fact} {w : World} (hr : Reach h w) (e : Nat) (he : Here h e) (s : Slot) (t : Term)
    (ha : asked e s h = some (some t)) : (THere h t ↔ Fact.gone t.eq ∉ h) ∧ (w.netOf t = none ↔ Fact.gone t.eq ∈ h) := by
  have hi := reach_inv hr
  obtain ⟨q, hq⟩ := Option.isSome_iff_exists.mp ((hi.here e).mpr he)
  have hrs : q.refs.get? s = some (some t) := by rw [(hi.refs e q hq).1]; exact ha
  obtain ⟨hlt, hix⟩ := hi.ever e q s t hq hrs
  have h1 : THere h t ↔ Fact.gone t.eq ∉ h := ⟨fun hth => hth.1.2, fun hng => ⟨⟨(hi.made _).mpr hlt, hng⟩, hix⟩⟩
  refine ⟨h1, ?_⟩
  rw [netOf_none_iff hr t, h1, Classical.not_not]

example : asked 2 (.phase 0) sampleFacts = some (some ⟨0, 0⟩) ∧ Fact.gone 0 ∉ sampleFacts := by decide

/-- The other setters of a tap changer are undefined exactly when they look at the terminal, which a phase tap changer always does and a ratio tap
    changer does when it regulates, and the equipment of the terminal has been removed. -/
theorem touch_tap {h : List Fact} {w : World} (hr : Reach h w) (e : Nat) (he : Here h e) (i : Nat) (t : Term) (regulating ltc : Bool) :
    (asked e (.phase i) h = some (some t) → ((step w (.touchTap e (.phase i) regulating ltc true)).1 = .ub ↔ Fact.gone t.eq ∈ h)) ∧
    (asked e (.ratio i) h = some (some t) →
      ((step w (.touchTap e (.ratio i) regulating ltc true)).1 = .ub ↔ regulating = true ∧ Fact.gone t.eq ∈ h)) := by
  have hi := reach_inv hr
  obtain ⟨q, hq⟩ := Option.isSome_iff_exists.mp ((hi.here e).mpr he)
  obtain ⟨k1, _⟩ := hi.refs e q hq
  constructor
  · intro ha
    have hs : q.refs.get? (.phase i) = some (some t) := by rw [k1, ha]
    rw [← (dangling_iff hr e he _ t ha).2]
    cases hn : w.netOf t with
    | none => simp [step, touchTap, hq, hs, checkTap, checkPhase, hn]
    | some n =>
      by_cases hnn : n = q.net <;> simp [step, touchTap, hq, hs, checkTap, checkPhase, hn, hnn]
  · intro ha
    have hs : q.refs.get? (.ratio i) = some (some t) := by rw [k1, ha]
    rw [← (dangling_iff hr e he _ t ha).2]
    cases regulating with
    | false => simp [step, touchTap, hq, hs, checkTap, checkRatio]
    | true =>
      cases hn : w.netOf t with
      | none => simp [step, touchTap, hq, hs, checkTap, checkRatio, hn]
      | some n =>
        by_cases hnn : n = q.net <;> cases ltc <;> simp [step, touchTap, hq, hs, checkTap, checkRatio, hn, hnn]

example : (step (runOps [.remove 0] sampleWorld) (.touchTap 2 (.phase 0) false true true)).1 = .ub := by decide

/-- A regulating terminal, and the terminal of a phase tap changer, is in the network of the equipment as long as it is there. -/
theorem same_network {h : List Fact} {w : World} (hr : Reach h w) (e : Nat) (he : Here h e) (s : Slot) (hs : s = .own ∨ ∃ i, s = .phase i)
    (t : Term) (ha : asked e s h = some (some t)) (hg : Fact.gone t.eq ∉ h) : home t.eq h = home e h := by
  have hi := reach_inv hr
  obtain ⟨q, hq⟩ := Option.isSome_iff_exists.mp ((hi.here e).mpr he)
  have hrs : q.refs.get? s = some (some t) := by rw [(hi.refs e q hq).1]; exact ha
  obtain ⟨hlt, hix⟩ := hi.ever e q s t hq hrs
  obtain ⟨q', hq'⟩ := Option.isSome_iff_exists.mp ((hi.here t.eq).mpr ⟨(hi.made _).mpr hlt, hg⟩)
  rw [(hi.refs e q hq).2.1, (hi.refs _ q' hq').2.1, hi.same e q s t hq hs hrs q' hq']

example : home 0 sampleFacts = some 0 ∧ home 1 sampleFacts = some 0 := by decide

/-- An equipment always has a regulating terminal once it has one, and its own terminal never dangles. -/
theorem own_terminal {h : List Fact} {w : World} (hr : Reach h w) (e : Nat) (he : Here h e) (ha : asked e .own h = some (some ⟨e, 0⟩)) :
    w.netOf ⟨e, 0⟩ = home e h := by
  have hi := reach_inv hr
  obtain ⟨q, hq⟩ := Option.isSome_iff_exists.mp ((hi.here e).mpr he)
  have h1 := ((dangling_iff hr e he .own ⟨e, 0⟩ ha).1).mpr he.2
  rw [(hi.refs e q hq).2.1]
  exact (netOf_iff hr ⟨e, 0⟩ q.net).mpr ⟨h1, (hi.refs e q hq).2.1⟩

example : asked 3 .own (factsOf [.addDevice 4 none true true] sampleWorld sampleFacts) = some (some ⟨3, 0⟩) := by decide

theorem careful_here {h : List Fact} {w : World} (hr : Reach h w) (hc : Careful h) :
    ∀ e s t, Here h e → asked e s h = some (some t) → Fact.gone t.eq ∉ h := by
  induction hr with
  | init => intro e s t he; obtain ⟨⟨_, _, _, hm⟩, _⟩ := he; cases hm
  | @step h w o hr hu ih =>
    have hd := step_does w o hu
    have hr' := Reach.step o hr hu
    generalize fact o (step w o).1 = f at hd hr' hc
    generalize (step w o).2 = w' at hd hr'
    intro e s t he ha hg
    have hdang := (dangling_iff hr' e he s t ha)
    have hi := reach_inv hr
    cases hd with
    | nothing =>
      rw [here_cons_other (by intros; simp) (by intros; simp)] at he
      exact ih hc e s t he ha ((gone_cons_other (by intros; simp) _).mp hg)
    | merged a b =>
      rw [here_cons_other (by intros; simp) (by intros; simp)] at he
      exact ih hc e s t he ha ((gone_cons_other (by intros; simp) _).mp hg)
    | dropped e' q s' hq hs =>
      rw [here_cons_other (by intros; simp) (by intros; simp)] at he
      have hg' := (gone_cons_other (by intros; simp) _).mp hg
      simp only [asked] at ha
      split at ha
      · cases ha
      · exact ih hc e s t he ha hg'
    | told e' q s' t' hq hh hn ho =>
      rw [here_cons_other (by intros; simp) (by intros; simp)] at he
      have hg' := (gone_cons_other (by intros; simp) _).mp hg
      simp only [asked] at ha
      split at ha
      · rename_i hes
        obtain ⟨rfl, rfl⟩ := hes
        simp only [Option.some.injEq] at ha
        rcases hh t ha with hl | ⟨_, rfl⟩
        · obtain ⟨n, hn'⟩ := Option.isSome_iff_exists.mp hl
          exact ((netOf_iff hr t n).mp hn').1.1.2 hg'
        · exact he.2 hg'
      · exact ih hc e s t he ha hg'
    | gone e' q hq =>
      simp only [Careful] at hc
      have he' : e ≠ e' := by
        rintro rfl
        exact he.2 List.mem_cons_self
      have heh : Here h e :=
        ⟨(made_cons_other (by intros; simp) e).mp he.1, fun hm => he.2 (List.mem_cons_of_mem _ hm)⟩
      rcases List.mem_cons.mp hg with hg | hg
      · cases hg
        exact hc.1 e s t heh he' ha rfl
      · exact ih hc.2 e s t heh ha hg
    | born net k =>
      have hg' := (gone_cons_other (by intros; simp) _).mp hg
      simp only [asked] at ha
      split at ha
      · rename_i hx; simp at hx
      · by_cases hen : w.next ≤ e
        · rw [(hi.fresh e hen).1] at ha; cases ha
        · exact ih hc e s t ⟨(hi.made e).mpr (by omega), fun hm => he.2 (List.mem_cons_of_mem _ hm)⟩ ha hg'
    | bornD net x hx =>
      have hg' := (gone_cons_other (by intros; simp) _).mp hg
      simp only [asked] at ha
      split at ha
      · rename_i hy
        obtain ⟨rfl, rfl, _⟩ := hy
        simp only [Option.some.injEq] at ha
        subst ha
        rcases hx with rfl | hn
        · exact absurd (hi.gones _ hg') (Nat.lt_irrefl _)
        · exact ((netOf_iff hr x net).mp hn).1.1.2 hg'
      · by_cases hen : w.next ≤ e
        · rw [(hi.fresh e hen).1] at ha; cases ha
        · exact ih hc e s t ⟨(hi.made e).mpr (by omega), fun hm => he.2 (List.mem_cons_of_mem _ hm)⟩ ha hg'

/-- As long as no equipment is removed while another one refers to it, every reference names a terminal that is there.
    Missing: nothing in the code enforces the hypothesis (`dangling_write`). -/
theorem references_partial {h : List Fact} {w : World} (hr : Reach h w) (hc : Careful h) (e : Nat) (he : Here h e) (s : Slot) (t : Term)
    (hg : w.getRef e s = some (some t)) : THere h t ∧ (w.netOf t).isSome := by
  have ha : asked e s h = some (some t) := by rw [← getter hr e he s]; exact hg
  have hng := careful_here hr hc e s t he ha
  have h1 := ((dangling_iff hr e he s t ha).1).mpr hng
  refine ⟨h1, ?_⟩
  cases hn : w.netOf t with
  | none => exact absurd ((dangling_iff hr e he s t ha).2.mp hn) hng
  | some n => rfl

example : Careful sampleFacts := by simp [sampleFacts, sampleOps, factsOf, Careful, step, fact, addDevice, checkRegulatingTerminal, World.netOf,
  init, World.make, AMap.set, AMap.get?, addTap, given, checkTap, checkPhase]

theorem writeRefs_ub {w : World} {e : Nat} {l : AMap Slot (Option Term)} (h : ∀ s t, (s, some t) ∈ l → s ≠ .ctrl → (w.netOf t).isSome) :
    ∃ r, writeRefs w e l = .ok r ∧
      ∀ t, t ∈ r ↔ ∃ s, (s, some t) ∈ l ∧ s ≠ .ctrl ∧ ¬ (s = .own ∧ t.eq = e) := by
  induction l with
  | nil => exact ⟨[], rfl, by simp⟩
  | cons p l ih =>
    obtain ⟨s, o⟩ := p
    obtain ⟨r, hr, hm⟩ := ih (fun s' t ht => h s' t (List.mem_cons_of_mem _ ht))
    by_cases hs : s = .ctrl
    · subst hs
      refine ⟨r, by cases o <;> exact hr, fun t => ?_⟩
      rw [hm]
      constructor
      · rintro ⟨s', h1, h2⟩; exact ⟨s', List.mem_cons_of_mem _ h1, h2⟩
      · rintro ⟨s', h1, h2, h3⟩
        rcases List.mem_cons.mp h1 with h1 | h1
        · cases h1; exact absurd rfl h2
        · exact ⟨s', h1, h2, h3⟩
    · cases o with
      | none =>
        refine ⟨r, by cases s <;> first | exact hr | exact absurd rfl hs, fun t => ?_⟩
        rw [hm]
        constructor
        · rintro ⟨s', h1, h2⟩; exact ⟨s', List.mem_cons_of_mem _ h1, h2⟩
        · rintro ⟨s', h1, h2, h3⟩
          rcases List.mem_cons.mp h1 with h1 | h1
          · cases h1
          · exact ⟨s', h1, h2, h3⟩
      | some x =>
        obtain ⟨n, hn⟩ := Option.isSome_iff_exists.mp (h s x List.mem_cons_self hs)
        have hw : writeRefs w e ((s, some x) :: l) = .ok (if s = .own && x.eq = e then r else x :: r) := by
          cases s with
          | ctrl => exact absurd rfl hs
          | _ => simp only [writeRefs, hn, hr]
        refine ⟨_, hw, fun t => ?_⟩
        by_cases hc : s = .own ∧ x.eq = e
        · have : (decide (s = .own) && decide (x.eq = e)) = true := by simp [hc.1, hc.2]
          rw [if_pos this, hm]
          constructor
          · rintro ⟨s', h1, h2⟩; exact ⟨s', List.mem_cons_of_mem _ h1, h2⟩
          · rintro ⟨s', h1, h2, h3⟩
            rcases List.mem_cons.mp h1 with h1 | h1
            · cases h1; exact absurd hc h3
            · exact ⟨s', h1, h2, h3⟩
        · have : ¬ (decide (s = .own) && decide (x.eq = e)) = true := by simpa using hc
          rw [if_neg this, List.mem_cons, hm]
          constructor
          · rintro (rfl | ⟨s', h1, h2⟩)
            · exact ⟨s, List.mem_cons_self, hs, hc⟩
            · exact ⟨s', List.mem_cons_of_mem _ h1, h2⟩
          · rintro ⟨s', h1, h2, h3⟩
            rcases List.mem_cons.mp h1 with h1 | h1
            · cases h1; exact .inl rfl
            · exact .inr ⟨s', h1, h2, h3⟩

theorem writeRefs_bad {w : World} {e : Nat} {l : AMap Slot (Option Term)} {s : Slot} {t : Term} (hm : (s, some t) ∈ l) (hs : s ≠ .ctrl)
    (hn : w.netOf t = none) : writeRefs w e l = .ub := by
  induction l with
  | nil => cases hm
  | cons p l ih =>
    obtain ⟨s', o⟩ := p
    rcases List.mem_cons.mp hm with hm | hm
    · cases hm
      cases s with
      | ctrl => exact absurd rfl hs
      | _ => simp only [writeRefs, hn]
    · have := ih hm
      by_cases hs' : s' = .ctrl
      · subst hs'
        cases o <;> exact this
      · cases o with
        | none => cases s' <;> first | exact this | exact absurd rfl hs'
        | some x =>
          cases hx : w.netOf x with
          | none => cases s' <;> first | exact absurd rfl hs' | simp only [writeRefs, hx]
          | some n => cases s' <;> first | exact absurd rfl hs' | simp only [writeRefs, hx, this]

/-- An equipment is written without trouble exactly when no equipment it refers to has been removed; the references written are then those asked
    for, apart from its own terminal; otherwise the behaviour is undefined. -/
theorem write_refs {h : List Fact} {w : World} (hr : Reach h w) (e : Nat) (he : Here h e) :
    ((∀ s t, s ≠ .ctrl → asked e s h = some (some t) → Fact.gone t.eq ∉ h) →
      ∃ l, (step w (.write e)).1 = .ok (.wrote l) ∧
        ∀ t, t ∈ l ↔ ∃ s, s ≠ .ctrl ∧ asked e s h = some (some t) ∧ ¬ (s = .own ∧ t.eq = e)) ∧
    ((∃ s t, s ≠ .ctrl ∧ asked e s h = some (some t) ∧ Fact.gone t.eq ∈ h) → (step w (.write e)).1 = .ub) := by
  have hi := reach_inv hr
  obtain ⟨q, hq⟩ := Option.isSome_iff_exists.mp ((hi.here e).mpr he)
  obtain ⟨k1, k2, k3, k4⟩ := hi.refs e q hq
  have hmem : ∀ s t, (s, some t) ∈ q.refs ↔ asked e s h = some (some t) := by
    intro s t
    rw [← k1, AMap.mem_iff_get? k4]
  constructor
  · intro hall
    obtain ⟨l, h1, h2⟩ := writeRefs_ub (w := w) (e := e) (l := q.refs) (fun s t hm hs => by
      have ha := (hmem s t).mp hm
      cases hn : w.netOf t with
      | none => exact absurd ((dangling_iff hr e he s t ha).2.mp hn) (hall s t hs ha)
      | some n => rfl)
    refine ⟨l, by simp only [step, write, hq, h1], fun t => ?_⟩
    rw [h2]
    constructor
    · rintro ⟨s, a, b, c⟩; exact ⟨s, b, (hmem s t).mp a, c⟩
    · rintro ⟨s, b, a, c⟩; exact ⟨s, (hmem s t).mpr a, b, c⟩
  · rintro ⟨s, t, hs, ha, hg⟩
    have := writeRefs_bad (e := e) ((hmem s t).mpr ha) hs ((dangling_iff hr e he s t ha).2.mpr hg)
    simp only [step, write, hq, this]

example : (step sampleWorld (.write 1)).1 = .ok (.wrote [⟨0, 0⟩]) ∧ (step sampleWorld (.write 0)).1 = .ok (.wrote []) := by decide

/-- As long as no equipment is removed while another one refers to it, no call that names equipment and terminals that are there is undefined.
    Missing: as for `references_partial`. -/
theorem defined_partial {h : List Fact} {w : World} (hr : Reach h w) (hc : Careful h) (o : Op) (hn : Named h o) : (step w o).1 ≠ .ub := by
  have hi := reach_inv hr
  have live : ∀ e, Here h e → ∃ q, w.live.get? e = some q := fun e he => Option.isSome_iff_exists.mp ((hi.here e).mpr he)
  have net : ∀ x, THere h x → ∃ n, w.netOf x = some n := by
    intro x hx
    cases hn : w.netOf x with
    | none => exact absurd hx ((netOf_none_iff hr x).mp hn)
    | some n => exact ⟨n, rfl⟩
  have chkR : ∀ (t : Option Term) (m : Nat), (∀ x, t = some x → THere h x) → checkRegulatingTerminal w t m ≠ .ub := by
    intro t m ht
    cases t with
    | none => simp [checkRegulatingTerminal]
    | some x =>
      obtain ⟨n, hx⟩ := net x (ht x rfl)
      simp only [checkRegulatingTerminal, hx]
      split <;> simp
  have chkT : ∀ (s : Slot) (r l p : Bool) (t : Option Term) (m : Nat), (∀ x, t = some x → THere h x) → checkTap w s r l p t m ≠ .ub := by
    intro s r l p t m ht
    cases t with
    | none => cases s <;> cases p <;> cases r <;> simp [checkTap, checkRatio, checkPhase]
    | some x =>
      obtain ⟨n, hx⟩ := net x (ht x rfl)
      cases s with
      | own => simp [checkTap]
      | ctrl => simp [checkTap]
      | ratio i =>
        simp only [checkTap, checkRatio, hx]
        split
        · simp
        · split
          · simp
          · split <;> simp
      | phase i =>
        simp only [checkTap, checkPhase, hx]
        split
        · simp
        · split <;> simp
  have chkG : ∀ t : Option Term, (∀ x, t = some x → THere h x) → given w t ≠ false := by
    intro t ht
    cases t with
    | none => simp [given]
    | some x =>
      obtain ⟨n, hx⟩ := net x (ht x rfl)
      simp [given, hx]
  cases o with
  | addDevice net t pre post =>
    simp only [step, addDevice]
    split
    · simp
    · cases hch : checkRegulatingTerminal w t net with
      | ub => exact absurd hch (chkR t net hn)
      | thrown => simp
      | ok u => simp only; split <;> simp
  | addOther a b => simp [step]
  | setReg e t =>
    obtain ⟨q, hq⟩ := live e hn.1
    simp only [step, setReg, hq]
    split
    · simp
    · cases hch : checkRegulatingTerminal w t q.net with
      | ub => exact absurd hch (chkR t q.net hn.2)
      | thrown => simp
      | ok u => simp
  | addTap e s r l pre post t =>
    obtain ⟨q, hq⟩ := live e hn.1
    simp only [step, addTap, hq, chkG t hn.2, if_false]
    cases hch : checkTap w s r l pre t q.net with
    | ub => exact absurd hch (chkT s r l pre t q.net hn.2)
    | thrown => simp
    | ok u => cases post <;> simp
  | setTap e s r l pre t =>
    obtain ⟨q, hq⟩ := live e hn.1
    simp only [step, setTap, hq]
    split
    · simp
    · cases hch : checkTap w s r l pre t q.net with
      | ub => exact absurd hch (chkT s r l pre t q.net hn.2)
      | thrown => simp
      | ok u =>
        simp only
        cases hcr : checkRegulatingTerminal w t q.net with
        | ub => exact absurd hcr (chkR t q.net hn.2)
        | thrown => simp
        | ok u => simp
  | touchTap e s r l pre =>
    obtain ⟨q, hq⟩ := live e hn
    simp only [step, touchTap, hq]
    cases ho : q.refs.get? s with
    | none => simp
    | some t =>
      simp only
      cases hch : checkTap w s r l pre t q.net with
      | ub =>
        refine absurd hch (chkT s r l pre t q.net ?_)
        rintro x rfl
        exact (references_partial hr hc e hn s x (by simp only [World.getRef, hq, ho])).1
      | thrown => simp
      | ok u => simp
  | addCtrl e t =>
    obtain ⟨q, hq⟩ := live e hn.1
    simp only [step, addCtrl, hq]
    cases t with
    | none => simp
    | some x =>
      obtain ⟨n, hx⟩ := net x (hn.2 x rfl)
      simp [hx]
  | drop e s =>
    obtain ⟨q, hq⟩ := live e hn
    simp only [step, drop, hq]
    split <;> simp
  | remove e =>
    obtain ⟨q, hq⟩ := live e hn
    simp [step, remove, hq]
  | merge a b => simp [step, merge]
  | write e =>
    obtain ⟨l, hl, _⟩ := (write_refs hr e hn).1 (fun s t _ ha => careful_here hr hc e s t hn ha)
    rw [hl]; simp

example : Named sampleFacts (.touchTap 2 (.phase 0) false true true) ∧ Named sampleFacts (.setReg 1 (some ⟨2, 0⟩)) :=
  ⟨⟨⟨0, 2, none, by decide⟩, by decide⟩, ⟨⟨⟨0, 1, some ⟨0, 0⟩, by decide⟩, by decide⟩, fun x hx => by
    cases hx; exact ⟨⟨⟨0, 2, none, by decide⟩, by decide⟩, by decide⟩⟩⟩

/-- The property fails: a generator regulates a load, the load is removed, and the generator can no longer be written. -/
theorem dangling_write :
    ∃ h w, Reach h w ∧ Here h 1 ∧ Here h 0 ∧ (step w (.remove 0)).1 = .ok .unit ∧
      (step w (.remove 0)).2.getRef 1 .own = some (some ⟨0, 0⟩) ∧ (step (step w (.remove 0)).2 (.write 1)).1 = .ub :=
  ⟨sampleFacts, sampleWorld, sample_reach, ⟨⟨0, 1, some ⟨0, 0⟩, by decide⟩, by decide⟩, ⟨⟨0, 1, none, by decide⟩, by decide⟩, by decide, by decide,
    by decide⟩

/-- The same for a tap changer: after the removal even a setter that does not name the terminal is undefined. -/
theorem dangling_setter :
    ∃ h w, Reach h w ∧ Here h 2 ∧ (step w (.touchTap 2 (.phase 0) false true true)).1 = .ok .unit ∧
      (step (step w (.remove 0)).2 (.touchTap 2 (.phase 0) false true true)).1 = .ub :=
  ⟨sampleFacts, sampleWorld, sample_reach, ⟨⟨0, 2, none, by decide⟩, by decide⟩, by decide, by decide⟩

/-- The adder of a ratio tap changer that does not regulate accepts a terminal of another network, which its setter refuses. -/
theorem foreign_ratio :
    ∃ h w, Reach h w ∧ Here h 2 ∧ THere h ⟨3, 0⟩ ∧ home 3 h ≠ home 2 h ∧
      (step w (.addTap 2 (.ratio 0) false true true true (some ⟨3, 0⟩))).1 = .ok .unit ∧
      (step (step w (.addTap 2 (.ratio 0) false true true true none)).2 (.setTap 2 (.ratio 0) false true true (some ⟨3, 0⟩))).1 = .thrown :=
  ⟨factsOf [.addOther 5 1] sampleWorld sampleFacts, runOps [.addOther 5 1] sampleWorld, reach_ops sample_reach (by decide),
    ⟨⟨0, 2, none, by decide⟩, by decide⟩, ⟨⟨⟨5, 1, none, by decide⟩, by decide⟩, by decide⟩, by decide, by decide, by decide⟩

/-- The remote reactive power control accepts a terminal of another network. -/
theorem foreign_control :
    ∃ h w, Reach h w ∧ Here h 1 ∧ THere h ⟨3, 0⟩ ∧ home 3 h ≠ home 1 h ∧ (step w (.addCtrl 1 (some ⟨3, 0⟩))).1 = .ok .unit :=
  ⟨factsOf [.addOther 5 1] sampleWorld sampleFacts, runOps [.addOther 5 1] sampleWorld, reach_ops sample_reach (by decide),
    ⟨⟨0, 1, some ⟨0, 0⟩, by decide⟩, by decide⟩, ⟨⟨⟨5, 1, none, by decide⟩, by decide⟩, by decide⟩, by decide, by decide⟩

end Verif.RegTerm
