import Verif.BusRefs.Lemmas
import Verif.Electric.Props

/-! Property C92: references to buses, sides of branches. -/

namespace Verif.BusRefs

open Verif Verif.Graph
open Verif.NodeBreaker (Passing OnBus getBus_eq_some compute_ok)
open Verif.BusBreaker (BusAt)
open Verif.CompBuses (Level LevelsOk)
open Verif.Electric (End Spot OnView levelAt levelAt_eq viewBus node_level conf_level level_unique)

/-! ### C92 -/

/-- **C92** A reference to an injection, or to a side of a branch, gives the bus that the terminal is on at the level of topology, and none if it is on none. -/
theorem resolve_terminal {net : Net} (h : NetOk net) {r : Ref} {level : Topo} (hn : level ≠ .nodeBreaker) {a : End}
    (ha : (net.find r.id = some (.injection a) ∧ r.side = none) ∨ (∃ b, net.find r.id = some (.branch a b) ∧ r.side = some .one) ∨
      ∃ b, net.find r.id = some (.branch b a) ∧ r.side = some .two) :
    ∃ x, resolve net r level = .ok x ∧ ∀ i, x = some i ↔ SitsOn net.levels level a i := by
  rcases ha with ⟨h1, h2⟩ | ⟨b, h1, h2⟩ | ⟨b, h1, h2⟩
  · have := chooseBus_placed h.levels (h.injection _ a h1) hn
    simpa only [resolve, if_neg hn, resolveByLevel, h1, h2] using this
  · have := chooseBus_placed h.levels (h.branch _ a b h1).1 hn
    simpa only [resolve, if_neg hn, resolveByLevel, h1, h2] using this
  · have := chooseBus_placed h.levels (h.branch _ b a h1).2 hn
    simpa only [resolve, if_neg hn, resolveByLevel, h1, h2] using this

/-- **C92** A reference to a configured bus gives that bus at the bus/breaker level; at the bus/branch level, the bus of the bus view that it is part of, provided some equipment is connected to
it: whichever connected terminal comes first. -/
theorem resolve_bus {net : Net} (h : NetOk net) {r : Ref} (hs : r.side = none) {id vl : String} {b : Nat} (hf : net.find r.id = some (.bus id vl b)) :
    resolve net r .busBreaker = .ok (some id) ∧
    ∃ x, resolve net r .busBranch = .ok x ∧ ∀ i, x = some i ↔ OnView net.levels (.bus vl b) i ∧ .bus vl b true ∈ net.attached vl b := by
  constructor
  · simp only [resolve, resolveByLevel, hf, hs]
    rfl
  · obtain ⟨g, o, t, u, c, hv, hc, e, _⟩ := h.bus _ _ _ _ hf
    obtain ⟨x, hx, hm⟩ := firstView_ok h.levels (vl := vl) (h := b) ⟨g, o, t, u, c, hv, hc, e⟩ ((net.attached vl b).filter connected) (fun a ha => by
      obtain ⟨h1, h2⟩ := List.mem_filter.1 ha
      obtain ⟨k, rfl⟩ := h.attached vl b a h1
      have : k = true := h2
      rw [this])
    refine ⟨x, ?_, fun i => ?_⟩
    · simp only [resolve, resolveByLevel, hf, hs]
      exact hx
    · rw [hm, and_comm]
      refine and_congr Iff.rfl ?_
      constructor
      · intro hne
        obtain ⟨a, ha⟩ := List.exists_mem_of_ne_nil _ hne
        obtain ⟨h1, h2⟩ := List.mem_filter.1 ha
        obtain ⟨k, rfl⟩ := h.attached vl b a h1
        have : k = true := h2
        rw [← this]
        exact h1
      · intro ha hnil
        have : End.bus vl b true ∈ (net.attached vl b).filter connected := List.mem_filter.2 ⟨ha, rfl⟩
        rw [hnil] at this
        exact absurd this List.not_mem_nil

/-- **C92** A reference is refused exactly at the node/breaker level, for an object that is neither a bus nor an injection without a side, and for one that is not a branch with a side. A name
that is not in the network gives no bus. No resolution is undefined. -/
theorem resolve_refused_iff {net : Net} (h : NetOk net) (r : Ref) (level : Topo) :
    (resolve net r level = .thrown ↔ level = .nodeBreaker ∨ ∃ o, net.find r.id = some o ∧
      ((r.side = none ∧ (o = .other ∨ ∃ a b, o = .branch a b)) ∨ (r.side ≠ none ∧ ∀ a b, o ≠ .branch a b))) ∧
    (level ≠ .nodeBreaker → net.find r.id = none → resolve net r level = .ok none) ∧ resolve net r level ≠ .ub := by
  by_cases hn : level = .nodeBreaker
  · subst hn
    exact ⟨⟨fun _ => .inl rfl, fun _ => rfl⟩, fun k => absurd rfl k, fun k => (by cases k)⟩
  · cases hf : net.find r.id with
    | none =>
      have hr : resolve net r level = .ok none := by simp only [resolve, if_neg hn, resolveByLevel, hf]
      refine ⟨⟨fun k => (by rw [hr] at k; cases k), fun k => ?_⟩, fun _ _ => hr, fun k => (by rw [hr] at k; cases k)⟩
      rcases k with k | ⟨o, ho, _⟩
      · exact absurd k hn
      · cases ho
    | some o =>
      have fine : (∃ x, resolve net r level = .ok x) → ¬ ((r.side = none ∧ (o = .other ∨ ∃ a b, o = .branch a b)) ∨ (r.side ≠ none ∧ ∀ a b, o ≠ .branch a b)) →
          (resolve net r level = .thrown ↔ level = .nodeBreaker ∨ ∃ o', some o = some o' ∧
            ((r.side = none ∧ (o' = .other ∨ ∃ a b, o' = .branch a b)) ∨ (r.side ≠ none ∧ ∀ a b, o' ≠ .branch a b))) ∧
          (level ≠ .nodeBreaker → some o = none → resolve net r level = .ok none) ∧ resolve net r level ≠ .ub := by
        rintro ⟨x, hx⟩ hno
        rw [hx]
        refine ⟨⟨fun k => (by cases k), fun k => ?_⟩, fun _ k => (by cases k), fun k => (by cases k)⟩
        rcases k with k | ⟨o', ho, k⟩
        · exact absurd k hn
        · cases ho
          exact absurd k hno
      have bad : resolve net r level = .thrown → ((r.side = none ∧ (o = .other ∨ ∃ a b, o = .branch a b)) ∨ (r.side ≠ none ∧ ∀ a b, o ≠ .branch a b)) →
          (resolve net r level = .thrown ↔ level = .nodeBreaker ∨ ∃ o', some o = some o' ∧
            ((r.side = none ∧ (o' = .other ∨ ∃ a b, o' = .branch a b)) ∨ (r.side ≠ none ∧ ∀ a b, o' ≠ .branch a b))) ∧
          (level ≠ .nodeBreaker → some o = none → resolve net r level = .ok none) ∧ resolve net r level ≠ .ub := by
        intro hx hyes
        rw [hx]
        exact ⟨⟨fun _ => .inr ⟨o, rfl, hyes⟩, fun _ => rfl⟩, fun _ k => (by cases k), fun k => (by cases k)⟩
      cases hs : r.side with
      | none =>
        rw [hs] at fine bad
        cases o with
        | bus id vl b =>
          refine fine ?_ (by simp)
          obtain ⟨k1, x, k2, _⟩ := resolve_bus h hs hf
          cases level with
          | nodeBreaker => exact absurd rfl hn
          | busBreaker => exact ⟨_, k1⟩
          | busBranch => exact ⟨x, k2⟩
        | injection a =>
          obtain ⟨x, hx, _⟩ := resolve_terminal h (r := r) hn (.inl ⟨hf, hs⟩)
          exact fine ⟨x, hx⟩ (by simp)
        | branch a b => exact bad (by simp only [resolve, if_neg hn, resolveByLevel, hf, hs]) (.inl ⟨rfl, .inr ⟨a, b, rfl⟩⟩)
        | other => exact bad (by simp only [resolve, if_neg hn, resolveByLevel, hf, hs]) (.inl ⟨rfl, .inl rfl⟩)
      | some s =>
        rw [hs] at fine bad
        cases o with
        | branch a b =>
          refine fine ?_ (by simp)
          cases s with
          | one =>
            obtain ⟨x, hx, _⟩ := resolve_terminal h (r := r) hn (.inr (.inl ⟨b, hf, hs⟩))
            exact ⟨x, hx⟩
          | two =>
            obtain ⟨x, hx, _⟩ := resolve_terminal h (r := r) hn (.inr (.inr ⟨a, hf, hs⟩))
            exact ⟨x, hx⟩
        | bus id vl b => exact bad (by simp only [resolve, if_neg hn, resolveByLevel, hf, hs]) (.inr ⟨nofun, nofun⟩)
        | injection a => exact bad (by simp only [resolve, if_neg hn, resolveByLevel, hf, hs]) (.inr ⟨nofun, nofun⟩)
        | other => exact bad (by simp only [resolve, if_neg hn, resolveByLevel, hf, hs]) (.inr ⟨nofun, nofun⟩)

/-! ### Sides -/

/-- **C92** The side of a terminal of a branch and the terminal of a side are inverse of each other; any other terminal is refused. -/
theorem side_terminal {t1 t2 : T} (hd : t1.addr ≠ t2.addr) :
    (∀ s t, getTerminal [t1, t2] s = .ok t → getSide [t1, t2] t.addr = .ok s) ∧
    (∀ a s, getSide [t1, t2] a = .ok s → ∃ t, getTerminal [t1, t2] s = .ok t ∧ t.addr = a) ∧
    (∀ s, ∃ t, getTerminal [t1, t2] s = .ok t) ∧ ∀ a, getSide [t1, t2] a = .thrown ↔ a ≠ t1.addr ∧ a ≠ t2.addr := by
  have hg : ∀ a, getSide [t1, t2] a = if a = t1.addr then .ok .one else if a = t2.addr then .ok .two else .thrown := fun a => rfl
  refine ⟨?_, ?_, ?_, ?_⟩
  · intro s t h
    cases s with
    | one =>
      cases Out.ok.inj (show Out.ok t1 = .ok t from h)
      rw [hg, if_pos rfl]
    | two =>
      cases Out.ok.inj (show Out.ok t2 = .ok t from h)
      rw [hg, if_neg (Ne.symm hd), if_pos rfl]
  · intro a s h
    rw [hg] at h
    split at h
    · cases Out.ok.inj h
      exact ⟨t1, rfl, by simp [*]⟩
    · split at h
      · cases Out.ok.inj h
        exact ⟨t2, rfl, by simp [*]⟩
      · cases h
  · intro s
    cases s with
    | one => exact ⟨t1, rfl⟩
    | two => exact ⟨t2, rfl⟩
  · intro a
    rw [hg]
    by_cases h1 : a = t1.addr
    · simp [h1]
    · by_cases h2 : a = t2.addr <;> simp [h1, h2, Ne.symm hd]

/-- **C92** The terminal of a branch in a voltage level is the only one there; with both there, or none, it is refused. -/
theorem terminal_in_level {t1 t2 : T} (hd : t1.addr ≠ t2.addr) (vl : String) :
    (∀ t, getTerminalIn [t1, t2] vl = .ok t ↔ (t = t1 ∨ t = t2) ∧ t.vl = vl ∧ ∀ t', (t' = t1 ∨ t' = t2) → t'.vl = vl → t' = t) ∧
    (getTerminalIn [t1, t2] vl = .thrown ↔ (t1.vl = vl ↔ t2.vl = vl)) := by
  have hne : t1 ≠ t2 := fun e => hd (by rw [e])
  have hg : getTerminalIn [t1, t2] vl = if (t1.vl == vl && t2.vl == vl) then .thrown else if t1.vl == vl then .ok t1 else if t2.vl == vl then .ok t2 else .thrown := rfl
  by_cases h1 : t1.vl = vl <;> by_cases h2 : t2.vl = vl
  · have : getTerminalIn [t1, t2] vl = .thrown := by rw [hg]; simp [h1, h2]
    rw [this]
    refine ⟨fun t => ⟨nofun, fun ⟨_, _, k⟩ => ?_⟩, by simp [h1, h2]⟩
    exact absurd ((k t1 (.inl rfl) h1).trans (k t2 (.inr rfl) h2).symm) hne
  · have : getTerminalIn [t1, t2] vl = .ok t1 := by rw [hg]; simp [h1, h2]
    rw [this]
    refine ⟨fun t => ⟨fun e => ?_, fun ⟨_, hv, k⟩ => ?_⟩, by simp [h1, h2]⟩
    · cases Out.ok.inj e
      refine ⟨.inl rfl, h1, fun t' ht' hv => ?_⟩
      rcases ht' with rfl | rfl
      · rfl
      · exact absurd hv h2
    · rw [k t1 (.inl rfl) h1]
  · have : getTerminalIn [t1, t2] vl = .ok t2 := by rw [hg]; simp [h1, h2]
    rw [this]
    refine ⟨fun t => ⟨fun e => ?_, fun ⟨_, hv, k⟩ => ?_⟩, by simp [h1, h2]⟩
    · cases Out.ok.inj e
      refine ⟨.inr rfl, h2, fun t' ht' hv => ?_⟩
      rcases ht' with rfl | rfl
      · exact absurd hv h1
      · rfl
    · rw [k t2 (.inr rfl) h2]
  · have : getTerminalIn [t1, t2] vl = .thrown := by rw [hg]; simp [h1, h2]
    rw [this]
    refine ⟨fun t => ⟨nofun, fun ⟨ht, hv, _⟩ => ?_⟩, by simp [h1, h2]⟩
    rcases ht with rfl | rfl
    · exact absurd hv h1
    · exact absurd hv h2

/-- **C92** The same for the legs of a three windings transformer. -/
theorem leg_terminal {l : Legs} (h12 : l.leg1.addr ≠ l.leg2.addr) (h13 : l.leg1.addr ≠ l.leg3.addr) (h23 : l.leg2.addr ≠ l.leg3.addr) :
    (∀ s, getSide3 l (getTerminal3 l s).addr = .ok s) ∧ (∀ a s, getSide3 l a = .ok s → (getTerminal3 l s).addr = a) ∧
    ∀ a, getSide3 l a = .thrown ↔ ∀ s, (getTerminal3 l s).addr ≠ a := by
  refine ⟨fun s => ?_, fun a s h => ?_, fun a => ?_⟩
  · cases s
    · simp [getSide3, getTerminal3]
    · simp [getSide3, getTerminal3, h12]
    · simp [getSide3, getTerminal3, h13, h23]
  · unfold getSide3 at h
    split at h
    · cases Out.ok.inj h; assumption
    · split at h
      · cases Out.ok.inj h; assumption
      · split at h
        · cases Out.ok.inj h; assumption
        · cases h
  · constructor
    · intro h s e
      subst e
      cases s
      · simp [getSide3, getTerminal3] at h
      · simp [getSide3, getTerminal3, h12] at h
      · simp [getSide3, getTerminal3, h13, h23] at h
    · intro h
      have h1 := h .one
      have h2 := h .two
      have h3 := h .three
      simp only [getTerminal3] at h1 h2 h3
      simp [getSide3, h1, h2, h3]

/-! ### Examples -/

open Verif.Electric (exLevels exLevels_ok exP)

/-- The levels of C91: a load L in P, a line X from P to the bus A, a generator G connectable to the bus D and disconnected, a load M at the bus C. -/
def exFind (x : String) : Option Obj :=
  if x = "L" then some (.injection (.node "P" 3))
  else if x = "X" then some (.branch (.node "P" 1) (.bus "W" 10 true))
  else if x = "G" then some (.injection (.bus "W" 13 false))
  else if x = "C" then some (.bus "C" "W" 12)
  else if x = "D" then some (.bus "D" "W" 13)
  else if x = "P" then some .other
  else none

def exAttached (vl : String) (h : Nat) : List End :=
  if vl = "W" ∧ h = 12 then [.bus "W" 12 false, .bus "W" 12 true] else if vl = "W" ∧ h = 13 then [.bus "W" 13 false] else []

def exNet : Net := ⟨exLevels, exFind, exAttached⟩

theorem exNet_ok : NetOk exNet := by
  have m0 : exLevels[0] ∈ exLevels := by simp [exLevels]
  have m2 : exLevels[2] ∈ exLevels := by simp [exLevels]
  have p3 : Placed exLevels (.node "P" 3) := ⟨_, _, _, m0, by decide⟩
  have p1 : Placed exLevels (.node "P" 1) := ⟨_, _, _, m0, by decide⟩
  have wA : Placed exLevels (.bus "W" 10 true) := ⟨_, _, _, 0, ⟨10, "A"⟩, m2, (by unfold BusBreaker.BusAt; decide), rfl⟩
  have wD : Placed exLevels (.bus "W" 13 false) := ⟨_, _, _, 3, ⟨13, "D"⟩, m2, (by unfold BusBreaker.BusAt; decide), rfl⟩
  have all : ∀ x o, exFind x = some o → o = .injection (.node "P" 3) ∨ o = .branch (.node "P" 1) (.bus "W" 10 true) ∨ o = .injection (.bus "W" 13 false) ∨
      o = .bus "C" "W" 12 ∨ o = .bus "D" "W" 13 ∨ o = .other := by
    intro x o h
    unfold exFind at h
    repeat' split at h
    all_goals first | (cases Option.some.inj h; simp; done) | cases h
  refine ⟨exLevels_ok, fun x a h => ?_, fun x a b h => ?_, fun x id vl b h => ?_, fun vl b a h => ?_⟩
  · rcases all x _ h with k | k | k | k | k | k <;> cases k
    · exact p3
    · exact wD
  · rcases all x _ h with k | k | k | k | k | k <;> cases k
    exact ⟨p1, wA⟩
  · rcases all x _ h with k | k | k | k | k | k <;> cases k
    · exact ⟨_, _, _, 2, ⟨12, "C"⟩, m2, (by unfold BusBreaker.BusAt; decide), rfl, rfl⟩
    · exact ⟨_, _, _, 3, ⟨13, "D"⟩, m2, (by unfold BusBreaker.BusAt; decide), rfl, rfl⟩
  · replace h : a ∈ exAttached vl b := h
    by_cases k : vl = "W" ∧ b = 12
    · obtain ⟨rfl, rfl⟩ := k
      have h : a ∈ [End.bus "W" 12 false, .bus "W" 12 true] := h
      simp only [List.mem_cons, List.not_mem_nil, or_false] at h
      rcases h with rfl | rfl <;> exact ⟨_, rfl⟩
    · by_cases k' : vl = "W" ∧ b = 13
      · obtain ⟨rfl, rfl⟩ := k'
        have h : a ∈ [End.bus "W" 13 false] := h
        simp only [List.mem_cons, List.not_mem_nil, or_false] at h
        subst h
        exact ⟨_, rfl⟩
      · simp only [exAttached, if_neg k, if_neg k'] at h
        exact absurd h List.not_mem_nil

example : resolve exNet ⟨"L", none⟩ .busBranch = .ok (some "P_0") ∧ resolve exNet ⟨"X", some .one⟩ .busBreaker = .ok (some "P_0") ∧
    resolve exNet ⟨"X", some .two⟩ .busBreaker = .ok (some "A") ∧ resolve exNet ⟨"X", some .two⟩ .busBranch = .ok (some "W_0") ∧
    resolve exNet ⟨"G", none⟩ .busBranch = .ok none ∧ resolve exNet ⟨"C", none⟩ .busBranch = .ok (some "W_1") ∧ resolve exNet ⟨"C", none⟩ .busBreaker = .ok (some "C") ∧
    resolve exNet ⟨"P", none⟩ .busBranch = .thrown ∧ resolve exNet ⟨"X", none⟩ .busBranch = .thrown ∧ resolve exNet ⟨"L", some .one⟩ .busBranch = .thrown ∧
    resolve exNet ⟨"Z", none⟩ .busBranch = .ok none ∧ resolve exNet ⟨"Z", none⟩ .nodeBreaker = .thrown := by decide +kernel

example : ∃ x, resolve exNet ⟨"X", some .two⟩ .busBranch = .ok x ∧ ∀ i, x = some i ↔ SitsOn exNet.levels .busBranch (.bus "W" 10 true) i :=
  resolve_terminal (r := ⟨"X", some .two⟩) (level := .busBranch) exNet_ok nofun (.inr (.inr ⟨.node "P" 1, by decide, rfl⟩))

/-- The property as it is expected, that a reference to a configured bus gives the bus of the bus view that it is part of, is FALSE: the bus D is part of the same bus as C, but nothing is
connected to it. -/
theorem bus_without_terminal : NetOk exNet ∧ exNet.find "D" = some (.bus "D" "W" 13) ∧ OnView exNet.levels (.bus "W" 13) "W_1" ∧ resolve exNet ⟨"D", none⟩ .busBranch = .ok none := by
  refine ⟨exNet_ok, by decide, ?_, by decide +kernel⟩
  have m2 : exLevels[2] ∈ exLevels := by simp [exLevels]
  obtain ⟨r, hr, hm⟩ := viewBus_placed exLevels_ok (a := .bus "W" 13 true) ⟨_, _, _, 3, ⟨13, "D"⟩, m2, (by unfold BusBreaker.BusAt; decide), rfl⟩
  have : viewBus exLevels (.bus "W" 13 true) = .ok (some "W_1") := by decide +kernel
  rw [this] at hr
  exact ((hm "W_1").1 (Out.ok.inj hr).symm).2

example : getTerminalIn [⟨1, "A"⟩, ⟨2, "B"⟩] "B" = .ok ⟨2, "B"⟩ ∧ getTerminalIn [⟨1, "A"⟩, ⟨2, "A"⟩] "A" = .thrown ∧ getSide [⟨1, "A"⟩, ⟨2, "A"⟩] 2 = .ok .two ∧
    getSide [⟨1, "A"⟩, ⟨2, "A"⟩] 3 = .thrown ∧ getSide3 ⟨⟨1, "A"⟩, ⟨2, "A"⟩, ⟨3, "A"⟩⟩ 3 = .ok .three := by decide

end Verif.BusRefs
