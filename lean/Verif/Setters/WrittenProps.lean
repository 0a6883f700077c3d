import Verif.Setters.Lemmas
import Verif.PropMap.Props
import Verif.UniqueId.Props

/-!
C94: what the calls on identifiers and terminals write, and that they write nothing else.
-/

namespace Verif.Setters

open Verif Verif.Xml Verif.XmlNet

/-! ### Terminals -/

/-- **C94** `setP` writes the active power of the terminal only. -/
theorem active_power_written {d : Dbl} {t u : Term} : (TermOp.setP d).set t = .ok u ↔ u.p = d ∧ u.q = t.q ∧ u.place = t.place := by
  obtain ⟨a, b, c⟩ := t; obtain ⟨a', b', c'⟩ := u
  simp only [TermOp.set, Out.ok.injEq, Term.mk.injEq]
  constructor
  · rintro ⟨rfl, rfl, rfl⟩; exact ⟨rfl, rfl, rfl⟩
  · rintro ⟨rfl, rfl, rfl⟩; exact ⟨rfl, rfl, rfl⟩

/-- **C94** `setQ` writes the reactive power of the terminal only. -/
theorem reactive_power_written {d : Dbl} {t u : Term} : (TermOp.setQ d).set t = .ok u ↔ u.q = d ∧ u.p = t.p ∧ u.place = t.place := by
  obtain ⟨a, b, c⟩ := t; obtain ⟨a', b', c'⟩ := u
  simp only [TermOp.set, Out.ok.injEq, Term.mk.injEq]
  constructor
  · rintro ⟨rfl, rfl, rfl⟩; exact ⟨rfl, rfl, rfl⟩
  · rintro ⟨rfl, rfl, rfl⟩; exact ⟨rfl, rfl, rfl⟩

/-- The place, connected or not. -/
def Switched (on : Bool) : Adders.Place → Adders.Place → Prop
  | .node n, q => q = .node n
  | .bus b _, q => q = .bus b on

/-- **C94** Connecting or disconnecting is always accepted, keeps the flows and the bus, and leaves a terminal of a node where it is. -/
theorem connection_written {t u : Term} :
    (TermOp.connect.set t = .ok u ↔ u.p = t.p ∧ u.q = t.q ∧ Switched true t.place u.place) ∧ (TermOp.disconnect.set t = .ok u ↔ u.p = t.p ∧ u.q = t.q ∧ Switched false t.place u.place) := by
  obtain ⟨a, b, c⟩ := t; obtain ⟨a', b', c'⟩ := u
  cases a <;> simp only [TermOp.set, Switched, Out.ok.injEq, Term.mk.injEq] <;> refine ⟨⟨?_, ?_⟩, ⟨?_, ?_⟩⟩ <;> rintro ⟨rfl, rfl, rfl⟩ <;> exact ⟨rfl, rfl, rfl⟩

/-- **C94** A terminal is moved exactly when it is that of a bus and the voltage level has the other bus; it is as connected as it was, with the same flows. -/
theorem move_written {b : String} {known : Bool} {t u : Term} : (TermOp.setConnectableBus b known).set t = .ok u ↔
    b ≠ "" ∧ known = true ∧ u.p = t.p ∧ u.q = t.q ∧ ∃ old on, t.place = .bus old on ∧ u.place = .bus b on := by
  obtain ⟨a, p, q⟩ := t; obtain ⟨a', p', q'⟩ := u
  cases a with
  | node n => simp [TermOp.set]
  | bus c on =>
    simp only [TermOp.set, grd_ok, Bool.or_eq_false_iff, beq_eq_false_iff_ne, Bool.not_eq_false', Term.mk.injEq, Adders.Place.bus.injEq]
    constructor
    · rintro ⟨⟨h1, h2⟩, rfl, rfl, rfl⟩; exact ⟨h1, h2, rfl, rfl, c, on, ⟨rfl, rfl⟩, rfl⟩
    · rintro ⟨h1, h2, rfl, rfl, _, _, ⟨rfl, rfl⟩, rfl⟩; exact ⟨⟨h1, h2⟩, rfl, rfl, rfl⟩

/-- **C94** The active power of the terminal of a shunt compensator may only be made unknown; the other calls are those of every terminal. -/
theorem shunt_terminal_written {o : TermOp} {t u : Term} : shTermSet o t = .ok u ↔ (∀ d, o = .setP d → d = .nan) ∧ o.set t = .ok u := by
  cases o with
  | setP d =>
    simp only [shTermSet, grd_ok, TermOp.set, Out.ok.injEq, Bool.not_eq_false', TermOp.setP.injEq]
    constructor
    · rintro ⟨h, rfl⟩; refine ⟨?_, rfl⟩; rintro _ rfl; cases d <;> simp_all [Dbl.isNan]
    · rintro ⟨h, rfl⟩; rw [h d rfl]; exact ⟨rfl, rfl⟩
  | setQ d => simp [shTermSet]
  | connect => simp [shTermSet]
  | disconnect => simp [shTermSet]
  | setConnectableBus b k => simp [shTermSet]

example : (TermOp.setP 3).set ⟨.node 2, .nan, 1⟩ = .ok ⟨.node 2, 3, 1⟩ := active_power_written.2 ⟨rfl, rfl, rfl⟩
example : (TermOp.setQ 3).set ⟨.node 2, .nan, 1⟩ = .ok ⟨.node 2, .nan, 3⟩ := reactive_power_written.2 ⟨rfl, rfl, rfl⟩
example : TermOp.disconnect.set ⟨.bus "B" true, 1, 2⟩ = .ok ⟨.bus "B" false, 1, 2⟩ := connection_written.2.2 ⟨rfl, rfl, rfl⟩
example : TermOp.connect.set ⟨.node 2, 1, 2⟩ = .ok ⟨.node 2, 1, 2⟩ := connection_written.1.2 ⟨rfl, rfl, rfl⟩
example : (TermOp.setConnectableBus "B2" true).set ⟨.bus "B" false, 1, 2⟩ = .ok ⟨.bus "B2" false, 1, 2⟩ := move_written.2 ⟨by decide, rfl, rfl, rfl, "B", false, rfl, rfl⟩
example : shTermSet (.setQ 3) ⟨.node 2, .nan, 1⟩ = .ok ⟨.node 2, .nan, 3⟩ ∧ shTermSet (.setP 3) ⟨.node 2, .nan, 1⟩ = .thrown := by
  exact ⟨shunt_terminal_written.2 ⟨nofun, rfl⟩, by decide⟩

/-! ### Identifiers -/

/-- **C94** `setFictitious` is always accepted and writes nothing else. -/
theorem fictitious_written {b : Bool} {x y : Ident} :
    (IdentOp.setFictitious b).set x = .ok y ↔ y.head.fictitious = b ∧ y.head.id = x.head.id ∧ y.head.name = x.head.name ∧ y.aliases = x.aliases ∧ y.props = x.props := by
  obtain ⟨⟨i, n, f⟩, al, pr⟩ := x; obtain ⟨⟨i', n', f'⟩, al', pr'⟩ := y
  simp only [IdentOp.set, Out.ok.injEq, Ident.mk.injEq, Head.mk.injEq]
  constructor
  · rintro ⟨⟨rfl, rfl, rfl⟩, rfl, rfl⟩; exact ⟨rfl, rfl, rfl, rfl, rfl⟩
  · rintro ⟨rfl, rfl, rfl, rfl, rfl⟩; exact ⟨⟨rfl, rfl, rfl⟩, rfl, rfl⟩

/-- **C94** An alias is removed exactly when the object has it; it is the only one that goes. -/
theorem alias_removed {a : String} {x y : Ident} : (IdentOp.removeAlias a).set x = .ok y ↔
    (∃ t, (a, t) ∈ x.aliases) ∧ y.head = x.head ∧ y.props = x.props ∧ List.Sublist y.aliases x.aliases ∧ y.aliases = x.aliases.filter fun z => decide (z.1 ≠ a) := by
  obtain ⟨h, al, pr⟩ := x; obtain ⟨h', al', pr'⟩ := y
  simp only [IdentOp.set, grd_ok, Bool.not_eq_false', List.contains_iff_mem, List.mem_map, Prod.exists, exists_and_right, exists_eq_right, Ident.mk.injEq]
  have e : (al.filter fun z => z.1 != a) = al.filter fun z => decide (z.1 ≠ a) := by
    congr 1; funext z; rw [Bool.eq_iff_iff]; simp
  constructor
  · rintro ⟨h1, rfl, rfl, rfl⟩; exact ⟨h1, rfl, rfl, List.filter_sublist, e⟩
  · rintro ⟨h1, rfl, rfl, _, rfl⟩; exact ⟨h1, rfl, e, rfl⟩

/-- The names of an object. -/
def HasName (x : Ident) (n : String) : Prop := n = x.head.id ∨ ∃ t, (n, t) ∈ x.aliases

theorem own_iff {x : Ident} {n : String} : own x n = true ↔ HasName x n := by
  simp [own, HasName]

theorem names_used (x : Ident) (used : List String) : (fun n => own x n || decide (n ∈ used)) = fun n => decide (n ∈ x.head.id :: (x.aliases.map Prod.fst ++ used)) := by
  funext n
  rw [Bool.eq_iff_iff]
  simp [own_iff, HasName, or_assoc]

/-- **C94** An alias is added exactly when its type is not that of another alias of the object and nobody else has the name; a name that the object has already is not
added again.  If unicity is asked for, the name is the first free one made from the alias. -/
theorem alias_added {used : List String} {a t : String} {ensure : Bool} {x y : Ident} (hs : (x.head.id :: (x.aliases.map Prod.fst ++ used)).length < UniqueId.ulongMax) :
    (IdentOp.addAlias (fun n => decide (n ∈ used)) a t ensure).set x = .ok y ↔ (t ≠ "" → ∀ z ∈ x.aliases, z.2 ≠ t) ∧ ∃ n,
      (ensure = false → n = a) ∧ (ensure = true → UniqueId.IsUniqueName (fun n => HasName x n ∨ n ∈ used) a n) ∧
      ((HasName x n ∧ y = x) ∨ (¬ HasName x n ∧ n ∉ used ∧ y.head = x.head ∧ y.props = x.props ∧ y.aliases = x.aliases ++ [(n, t)])) := by
  have hu : ∀ n, n ∈ x.head.id :: (x.aliases.map Prod.fst ++ used) ↔ (HasName x n ∨ n ∈ used) := by
    intro n; simp [HasName, or_assoc]
  have ht : (¬ (t ≠ "" ∧ t ∈ x.aliases.map Prod.snd)) ↔ (t ≠ "" → ∀ z ∈ x.aliases, z.2 ≠ t) := by
    constructor
    · intro h h1 z hz h2; exact h ⟨h1, List.mem_map.2 ⟨z, hz, h2⟩⟩
    · rintro h ⟨h1, h2⟩
      obtain ⟨z, hz, h3⟩ := List.mem_map.1 h2
      exact h h1 z hz h3
  have hc := UniqueId.getUniqueId_correct a _ hs
  simp only [hu] at hc
  have one : ∀ {used : String → Prop} {n m : String}, UniqueId.IsUniqueName used a n → UniqueId.IsUniqueName used a m → n = m := by
    intro used n m h1 h2
    rcases h1 with ⟨h1, h1', rfl⟩ | ⟨h1, k, rfl, h1', h1''⟩ <;> rcases h2 with ⟨h2, h2', rfl⟩ | ⟨h2, j, rfl, h2', h2''⟩
    · rfl
    · rcases h2 with h2 | h2
      · exact absurd h2 h1
      · exact absurd h2 h1'
    · rcases h1 with h1 | h1
      · exact absurd h1 h2
      · exact absurd h1 h2'
    · rcases Nat.lt_trichotomy k j with h | rfl | h
      · exact absurd (h2'' k h) h1'
      · rfl
      · exact absurd (h1'' j h) h2'
  have key : ∀ n, (if own x n = true then Out.ok x else if decide (n ∈ used) = true then .thrown else .ok { x with aliases := x.aliases ++ [(n, t)] }) = .ok y ↔
      ((HasName x n ∧ y = x) ∨ (¬ HasName x n ∧ n ∉ used ∧ y.head = x.head ∧ y.props = x.props ∧ y.aliases = x.aliases ++ [(n, t)])) := by
    intro n
    by_cases h1 : HasName x n
    · simp [own_iff.2 h1, h1, eq_comm]
    · have : own x n = false := by rw [← Bool.not_eq_true, own_iff]; exact h1
      obtain ⟨h, al, pr⟩ := x; obtain ⟨h', al', pr'⟩ := y
      by_cases h2 : n ∈ used
      · simp [this, h1, h2]
      · simp only [this, h1, h2, decide_false, Bool.false_eq_true, if_false, Out.ok.injEq, Ident.mk.injEq, false_and, not_false_eq_true, true_and, false_or]
        constructor
        · rintro ⟨rfl, rfl, rfl⟩; exact ⟨rfl, rfl, rfl⟩
        · rintro ⟨rfl, rfl, rfl⟩; exact ⟨rfl, rfl, rfl⟩
  simp only [IdentOp.set]
  rw [names_used]
  by_cases h : t ≠ "" ∧ t ∈ x.aliases.map Prod.snd
  · rw [if_pos h]
    simp only [reduceCtorEq, false_iff, not_and]
    intro h1
    exact absurd h (ht.2 h1)
  · rw [if_neg h, key]
    cases ensure with
    | false =>
      simp only [Bool.false_eq_true, if_false, forall_const, false_implies, true_and]
      constructor
      · intro h1; exact ⟨ht.1 h, a, rfl, h1⟩
      · rintro ⟨_, n, rfl, h1⟩; exact h1
    | true =>
      simp only [if_true, forall_const, reduceCtorEq, false_implies, true_and]
      constructor
      · intro h1; exact ⟨ht.1 h, _, hc, h1⟩
      · rintro ⟨_, n, h1, h2⟩; rw [one hc h1]; exact h2

example : (IdentOp.setFictitious true).set ⟨⟨"L", "l", false⟩, [("a", "")], []⟩ = .ok ⟨⟨"L", "l", true⟩, [("a", "")], []⟩ := fictitious_written.2 ⟨rfl, rfl, rfl, rfl, rfl⟩

example : (IdentOp.removeAlias "a").set ⟨⟨"L", "l", false⟩, [("b", ""), ("a", "t")], []⟩ = .ok ⟨⟨"L", "l", false⟩, [("b", "")], []⟩ :=
  alias_removed.2 ⟨⟨"t", by decide⟩, rfl, rfl, by decide, by decide⟩

example : (IdentOp.addAlias (fun n => decide (n ∈ ["V", "c"])) "c" "t" true).set ⟨⟨"L", "l", false⟩, [("b", "")], []⟩ = .ok ⟨⟨"L", "l", false⟩, [("b", ""), ("c#0", "t")], []⟩ := by
  refine (alias_added (by decide)).2 ⟨by decide, "c#0", nofun, fun _ => .inr ⟨.inr (.inr (by decide)), 0, by decide, ?_, nofun⟩, .inr ⟨?_, by decide, rfl, rfl, rfl⟩⟩
  · rintro (h | h)
    · rcases h with h | ⟨t, h⟩ <;> simp at h
    · simp at h
  · rintro (h | ⟨t, h⟩) <;> simp at h

end Verif.Setters
