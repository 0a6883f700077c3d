import Verif.NodeBreaker.VLProps
import Verif.Graph.Stateful

/-!
Model of the connectable bus of a node (NodeBreakerVoltageLevelTopology.cpp l.157-189; called for the terminals by
NodeTerminalViews.cpp l.35-45 and l.67-77) and helper lemmas.
-/

namespace Verif.NodeBreaker

open Verif Verif.Graph

/-- The first key of a `std::map<std::string, ...>`: the least one.  `std::string` compares bytes, which for UTF-8 is the
    order of the code points used here. -/
def firstKey {ν : Type} : List (String × ν) → Option String
  | [] => none
  | p :: ps =>
    match firstKey ps with
    | none => some p.1
    | some m => if m < p.1 then some m else some p.1

/-- The part of `getConnectableBus` after the first `getBus` (NodeBreakerVoltageLevelTopology.cpp l.158-189), with the
    cache and the graph as this first call leaves them: the calls of `getBus` in the callback and `getBuses` find the
    cache filled.  The callback is `seekCb`: once a bus is found it refuses every direction (l.167-171), otherwise the
    traversal goes on until a node has a bus (l.172-174).  Switches are not asked. -/
def connectable (c : Cache) (g : Gr) (node : Nat) : Out (Option String) :=
  (c.getBus node).bind fun r =>
    match r with
    | some b => .ok (some b)
    | none =>
      (g.sTraverse (seekCb c.getBus) none node).map fun r =>
        match r with
        | some b => some b
        | none => firstKey c.byId

/-- `getConnectableBus(node)` (NodeBreakerVoltageLevelTopology.cpp l.157-189) in variant `w`. -/
def VL.getConnectableBus (s : VL) (view : View) (w node : Nat) : Out (Option String) × VL :=
  match s.update view w with
  | (.ok c, s') => (connectable c s'.graph node, s')
  | (.thrown, s') => (.thrown, s')
  | (.ub, s') => (.ub, s')

theorem firstKey_none {ν : Type} {l : List (String × ν)} : firstKey l = none ↔ l = [] := by
  cases l with
  | nil => simp [firstKey]
  | cons p ps =>
    simp only [firstKey]
    cases firstKey ps with
    | none => simp
    | some m => simp only []; split <;> simp

theorem firstKey_some {ν : Type} {l : List (String × ν)} {k : String} (h : firstKey l = some k) :
    k ∈ l.map Prod.fst ∧ ∀ k' ∈ l.map Prod.fst, ¬ k' < k := by
  induction l generalizing k with
  | nil => cases h
  | cons p ps ih =>
    simp only [firstKey] at h
    cases hf : firstKey ps with
    | none =>
      rw [hf] at h
      cases h
      rw [firstKey_none] at hf
      subst hf
      simp [String.lt_irrefl]
    | some m =>
      rw [hf] at h
      simp only [] at h
      obtain ⟨i1, i2⟩ := ih hf
      by_cases hm : m < p.1
      · rw [if_pos hm] at h
        cases h
        refine ⟨by simpa using Or.inr i1, ?_⟩
        intro k' hk'
        rcases List.mem_cons.mp (by simpa using hk' : k' ∈ p.1 :: ps.map Prod.fst) with rfl | hk'
        · exact fun hh => String.lt_asymm hm hh
        · exact i2 k' hk'
      · rw [if_neg hm] at h
        cases h
        refine ⟨by simp, ?_⟩
        intro k' hk'
        rcases List.mem_cons.mp (by simpa using hk' : k' ∈ p.1 :: ps.map Prod.fst) with rfl | hk'
        · exact String.lt_irrefl _
        · intro hh
          have h1 := String.not_lt.mp (i2 k' hk')
          have h2 := String.not_lt.mp hm
          exact String.not_lt.mpr (String.le_trans h2 h1) hh

end Verif.NodeBreaker
