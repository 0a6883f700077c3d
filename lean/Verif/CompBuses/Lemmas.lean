import Verif.CompBuses.Spec
import Verif.BusState.Props
import Verif.BusBreaker.BusProps

/-! Lemmas about the component of a bus. -/

namespace Verif.CompBuses

open Verif Verif.Graph
open Verif.NodeBreaker (Gr EqType Term Conn Passing View)
open Verif.BusBreaker (BGr)
open Verif.BusState (Bus Holder Owns Valid construct merge Tied)
open Verif.NetComponents (Snap Sorter Adds AnyLink Right numberLoop computeWith)

/-! ### Names of buses -/

theorem split_at_mark {α : Type} {c : α} : ∀ {l l' d d' : List α}, l ++ c :: d = l' ++ c :: d' → c ∉ d → c ∉ d' → l = l'
  | [], [], _, _, _, _, _ => rfl
  | [], x :: l', d, d', h, hd, _ => by
    simp only [List.nil_append, List.cons_append, List.cons.injEq] at h
    exact absurd (h.2 ▸ List.mem_append_right l' List.mem_cons_self) hd
  | x :: l, [], d, d', h, _, hd' => by
    simp only [List.nil_append, List.cons_append, List.cons.injEq] at h
    exact absurd (h.2 ▸ List.mem_append_right l List.mem_cons_self) hd'
  | x :: l, y :: l', d, d', h, hd, hd' => by
    simp only [List.cons_append, List.cons.injEq] at h
    rw [h.1, split_at_mark h.2 hd hd']

theorem name_level {v w : String} {i j : Nat} (h : v ++ "_" ++ toString i = w ++ "_" ++ toString j) : v = w := by
  have hd : ∀ n : Nat, '_' ∉ (toString n).toList := by
    intro n hn
    rw [Nat.toString_eq_repr, Nat.toList_repr] at hn
    have := Nat.isDigit_of_mem_toDigits (by decide) (by decide) hn
    revert this; decide
  have h1 := congrArg String.toList h
  simp only [String.toList_append, List.append_assoc] at h1
  exact String.toList_inj.mp (split_at_mark h1 (hd i) (hd j))

/-! ### Numbers kept by the objects -/

/-- The number kept by a terminal or a configured bus. -/
def Marks.at (m : Marks) : Holder → Option Nat
  | .terminal t => m.term t
  | .bus b => m.bus b

theorem putAll_eq (k : Option Nat) : ∀ (os : List Nat) (f : Nat → Option Nat) (o : Nat), putAll k os f o = if o ∈ os then k else f o
  | [], f, o => by simp [putAll]
  | a :: os, f, o => by
    rw [putAll, putAll_eq k os]
    unfold put
    by_cases h1 : o ∈ os
    · simp [h1]
    · by_cases h2 : o = a <;> simp [h1, h2]

theorem setNumber_at (k : Option Nat) (m : Marks) {b : Bus} (hv : Valid b) :
    ∃ m', setNumber k m b = .ok m' ∧ ∀ h, m'.at h = if Owns b h then k else m.at h := by
  cases b with
  | calculated valid ts ref =>
    have hv : valid = true := hv
    subst hv
    refine ⟨_, rfl, fun h => ?_⟩
    cases h with
    | terminal t => simp [Marks.at, Owns, putAll_eq]
    | bus b => simp [Marks.at, Owns]
  | conf c =>
    refine ⟨_, rfl, fun h => ?_⟩
    cases h with
    | terminal t => simp [Marks.at, Owns]
    | bus b => simp [Marks.at, Owns, put]
  | merged valid bs =>
    have hv : valid = true := hv
    subst hv
    refine ⟨_, rfl, fun h => ?_⟩
    cases h with
    | terminal t => simp [Marks.at, Owns]
    | bus b => simp [Marks.at, Owns, putAll_eq]

theorem reset_at : ∀ (bs : List Named) (m : Marks), (∀ b ∈ bs, Valid b.2) →
    ∃ m', reset bs m = .ok m' ∧ (∀ b ∈ bs, ∀ h, Owns b.2 h → m'.at h = none) ∧ ∀ h, m.at h = none → m'.at h = none
  | [], m, _ => ⟨m, rfl, fun _ h => absurd h List.not_mem_nil, fun _ h => h⟩
  | b :: bs, m, hv => by
    obtain ⟨m1, e1, h1⟩ := setNumber_at none m (hv b List.mem_cons_self)
    obtain ⟨m2, e2, h2, h3⟩ := reset_at bs m1 fun c hc => hv c (List.mem_cons_of_mem _ hc)
    refine ⟨m2, by rw [reset, e1, Out.bind_ok, e2], fun c hc h ho => ?_, fun h hh => h3 h ?_⟩
    · rcases List.mem_cons.1 hc with rfl | hc
      · exact h3 h (by rw [h1, if_pos ho])
      · exact h2 c hc h ho
    · rw [h1]; split <;> simp [hh]

theorem store_at : ∀ (ks : List Nat) (bs : List Named) (m : Marks), ks.length = bs.length → (∀ b ∈ bs, Valid b.2) →
    bs.Pairwise (fun a b => ∀ h, ¬ (Owns a.2 h ∧ Owns b.2 h)) →
    ∃ m', store ks bs m = .ok m' ∧
      (∀ (i : Nat) k b, ks[i]? = some k → bs[i]? = some b → ∀ h, Owns b.2 h → m'.at h = some k) ∧
      ∀ h, (∀ b ∈ bs, ¬ Owns b.2 h) → m'.at h = m.at h
  | [], [], m, _, _, _ => ⟨m, rfl, fun i k b h => (by simp at h), fun _ _ => rfl⟩
  | [], _ :: _, m, hl, _, _ => by simp at hl
  | _ :: _, [], m, hl, _, _ => by simp at hl
  | k :: ks, b :: bs, m, hl, hv, hp => by
    obtain ⟨m1, e1, h1⟩ := setNumber_at (some k) m (hv b List.mem_cons_self)
    rw [List.pairwise_cons] at hp
    obtain ⟨m2, e2, h2, h3⟩ := store_at ks bs m1 (by simpa using hl) (fun c hc => hv c (List.mem_cons_of_mem _ hc)) hp.2
    refine ⟨m2, by rw [store, e1, Out.bind_ok, e2], ?_, fun h hh => ?_⟩
    · intro i k' b' hk hb h ho
      cases i with
      | zero =>
        simp only [List.getElem?_cons_zero, Option.some.injEq] at hk hb
        subst hk hb
        rw [h3 h fun c hc hoc => hp.1 c hc h ⟨ho, hoc⟩, h1, if_pos ho]
      | succ i =>
        simp only [List.getElem?_cons_succ] at hk hb
        exact h2 i k' b' hk hb h ho
    · rw [h3 h fun c hc => hh c (List.mem_cons_of_mem _ hc), h1, if_neg (hh b List.mem_cons_self)]

/-! ### Lists of buses -/

theorem constructAll_ok {g : Gr} {opened : Nat → Bool} : ∀ (l : AMap String NodeBreaker.Bus),
    (∀ p ∈ l, ∃ b, construct g opened p.2 = .ok b) →
    ∃ bs, constructAll g opened l = .ok bs ∧ bs.map Prod.fst = l.map Prod.fst ∧
      ∀ i b, (i, b) ∈ bs ↔ ∃ nb, (i, nb) ∈ l ∧ construct g opened nb = .ok b
  | [], _ => ⟨[], rfl, rfl, fun i b => by simp⟩
  | (i, nb) :: l, h => by
    obtain ⟨b, hb⟩ := h (i, nb) List.mem_cons_self
    obtain ⟨bs, e, h1, h2⟩ := constructAll_ok l fun p hp => h p (List.mem_cons_of_mem _ hp)
    refine ⟨(i, b) :: bs, by rw [constructAll, hb, Out.bind_ok, e, Out.bind_ok], by simp [h1], fun j c => ?_⟩
    simp only [List.mem_cons, h2, Prod.mk.injEq]
    constructor
    · rintro (⟨rfl, rfl⟩ | ⟨nb', h3, h4⟩)
      · exact ⟨nb, .inl ⟨rfl, rfl⟩, hb⟩
      · exact ⟨nb', .inr h3, h4⟩
    · rintro ⟨nb', ⟨rfl, rfl⟩ | h3, h4⟩
      · rw [hb] at h4; cases h4; exact .inl ⟨rfl, rfl⟩
      · exact .inr ⟨nb', h3, h4⟩

theorem mergeAll_ok : ∀ (l : AMap String (List Nat)), (∀ p ∈ l, p.2 ≠ []) →
    mergeAll l = .ok (l.map fun p => (p.1, .merged true p.2))
  | [], _ => rfl
  | (i, hs) :: l, h => by
    have h1 : hs ≠ [] := h (i, hs) List.mem_cons_self
    have h2 : merge hs = .ok (.merged true hs) := by
      cases hs with
      | nil => exact absurd rfl h1
      | cons a as => rfl
    rw [mergeAll, h2, Out.bind_ok, mergeAll_ok l fun p hp => h p (List.mem_cons_of_mem _ hp), Out.bind_ok]
    rfl

theorem listAll_ok {f : Level → Out (List Named)} : ∀ {levels : List Level}, (∀ v ∈ levels, ∃ l, f v = .ok l) →
    ∃ bs, listAll f levels = .ok bs ∧ ∀ b, b ∈ bs ↔ ∃ v ∈ levels, ∃ l, f v = .ok l ∧ b ∈ l
  | [], _ => ⟨[], rfl, fun b => by simp⟩
  | v :: vs, h => by
    obtain ⟨l, hl⟩ := h v List.mem_cons_self
    obtain ⟨bs, e, h1⟩ := listAll_ok fun w hw => h w (List.mem_cons_of_mem _ hw)
    refine ⟨l ++ bs, by rw [listAll, hl, Out.bind_ok, e, Out.bind_ok], fun b => ?_⟩
    rw [List.mem_append, h1]
    simp only [List.mem_cons, exists_eq_or_imp]
    constructor
    · rintro (hb | hb)
      · exact .inl ⟨l, hl, hb⟩
      · exact .inr hb
    · rintro (⟨l', e', hb⟩ | hb)
      · rw [hl] at e'; cases e'; exact .inl hb
      · exact .inr hb

end Verif.CompBuses
