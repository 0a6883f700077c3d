import Verif.Anonymizer.Model

/-! Properties C42 (anonymised names are reversible and never collide) and C43 (the mapping file round-trips). -/

namespace Verif.Anonymizer

open Verif

/-! ### Names -/

/-- Value of a name read as a number in base 26 without zero (A = 1, ..., Z = 26). -/
def value (s : Str) : Nat := s.foldl (fun a c => a * 26 + (c.toNat - 64)) 0

theorem value_append (s : Str) (c : Char) : value (s ++ [c]) = value s * 26 + (c.toNat - 64) := by
  simp [value]

theorem alphaLoop_append : ∀ (n : Nat) (acc : Str), alphaLoop n acc = alphaLoop n [] ++ acc := by
  intro n
  induction n using Nat.strongRecOn with
  | _ n ih =>
    intro acc
    rw [alphaLoop]
    conv => rhs; rw [alphaLoop]
    split
    · simp
    · rw [ih _ (by omega), ih ((n - 1 - (n - 1) % 26) / 26) (by omega) [_]]
      simp

theorem digit_toNat : ∀ r, r < 26 → (Char.ofNat (r + 'A'.toNat)).toNat - 64 = r + 1 := by decide

/-- Reading a generated name as a number gives back its rank. -/
theorem value_getAlpha (n : Nat) : value (getAlpha n) = n := by
  induction n using Nat.strongRecOn with
  | _ n ih =>
    rw [getAlpha, alphaLoop]
    split
    · subst_vars; rfl
    · show value (alphaLoop ((n - 1 - (n - 1) % 26) / 26) [_]) = n
      rw [alphaLoop_append, value_append]
      have := ih ((n - 1 - (n - 1) % 26) / 26) (by omega)
      rw [getAlpha] at this
      rw [this, digit_toNat _ (Nat.mod_lt _ (by decide))]
      omega

/-- Names of different ranks are different. -/
theorem getAlpha_injective {a b : Nat} (h : getAlpha a = getAlpha b) : a = b := by
  rw [← value_getAlpha a, h, value_getAlpha]

theorem getAlpha_nonempty {n : Nat} (h : n ≠ 0) : getAlpha n ≠ [] := by
  intro e
  apply h
  have := value_getAlpha n
  rw [e] at this
  exact this.symm

/-- Generated names have letters A to Z only. -/
theorem getAlpha_letters (n : Nat) : ∀ c ∈ getAlpha n, 'A' ≤ c ∧ c ≤ 'Z' := by
  induction n using Nat.strongRecOn with
  | _ n ih =>
    intro c hc
    rw [getAlpha, alphaLoop] at hc
    split at hc
    · cases hc
    · rw [alphaLoop_append] at hc
      rcases List.mem_append.1 hc with hc | hc
      · exact ih ((n - 1 - (n - 1) % 26) / 26) (by omega) c hc
      · rw [List.mem_singleton.1 hc]
        have key : ∀ r, r < 26 → 'A' ≤ Char.ofNat (r + 'A'.toNat) ∧ Char.ofNat (r + 'A'.toNat) ≤ 'Z' := by decide
        exact key _ (Nat.mod_lt _ (by decide))

example : getAlpha 1 = ['A'] ∧ getAlpha 26 = ['Z'] ∧ getAlpha 27 = ['A', 'A'] := by
  refine ⟨?_, ?_, ?_⟩ <;> simp [getAlpha, alphaLoop] <;> decide

/-! ### C42 -/

/-- The mapping of an anonymiser that was only used to anonymise: the `k`-th entry has the `k`-th name. -/
structure Inv (m : Mapping) : Prop where
  names : ∀ (k : Nat) (h : k < m.length), (m[k]).2 = getAlpha (k + 1)
  keys : m.Pairwise (fun p q => p.1 ≠ q.1)
  nonempty : ∀ p ∈ m, p.1 ≠ []

theorem inv_nil : Inv [] := ⟨fun k h => absurd h (Nat.not_lt_zero _), List.Pairwise.nil, by intro p hp; cases hp⟩

theorem Inv.right_ne {m : Mapping} (h : Inv m) : m.Pairwise (fun p q => p.2 ≠ q.2) := by
  rw [List.pairwise_iff_getElem]
  intro i j hi hj hij e
  rw [h.names i hi, h.names j hj] at e
  have := getAlpha_injective e
  omega

theorem Inv.right_nonempty {m : Mapping} (h : Inv m) : ∀ p ∈ m, p.2 ≠ [] := by
  intro p hp
  rcases List.mem_iff_getElem.1 hp with ⟨k, hk, rfl⟩
  rw [h.names k hk]
  exact getAlpha_nonempty (by omega)

theorem findLeft_eq_some {m : Mapping} (hk : m.Pairwise (fun p q => p.1 ≠ q.1)) {s a : Str} : findLeft m s = some a ↔ (s, a) ∈ m := by
  induction m with
  | nil => simp [findLeft]
  | cons p ps ih =>
    have hk := List.pairwise_cons.1 hk
    simp only [findLeft, List.find?_cons]
    by_cases h : p.1 = s
    · have : (p.1 == s) = true := by simpa using h
      simp only [this, Option.map_some, Option.some.injEq, List.mem_cons]
      constructor
      · intro e; left; rw [← h, ← e]
      · rintro (e | e)
        · rw [← e]
        · exact absurd h (hk.1 _ e)
    · have : (p.1 == s) = false := by simpa using h
      simp only [this]
      have := ih hk.2
      simp only [findLeft] at this
      rw [this, List.mem_cons]
      constructor
      · exact .inr
      · rintro (e | e)
        · exact absurd (by rw [← e]) h
        · exact e

theorem findRight_eq_some {m : Mapping} (hk : m.Pairwise (fun p q => p.2 ≠ q.2)) {s a : Str} : findRight m s = some a ↔ (a, s) ∈ m := by
  induction m with
  | nil => simp [findRight]
  | cons p ps ih =>
    have hk := List.pairwise_cons.1 hk
    simp only [findRight, List.find?_cons]
    by_cases h : p.2 = s
    · have : (p.2 == s) = true := by simpa using h
      simp only [this, Option.map_some, Option.some.injEq, List.mem_cons]
      constructor
      · intro e; left; rw [← h, ← e]
      · rintro (e | e)
        · rw [← e]
        · exact absurd h (hk.1 _ e)
    · have : (p.2 == s) = false := by simpa using h
      simp only [this]
      have := ih hk.2
      simp only [findRight] at this
      rw [this, List.mem_cons]
      constructor
      · exact .inr
      · rintro (e | e)
        · exact absurd (by rw [← e]) h
        · exact e

theorem findLeft_eq_none {m : Mapping} {s : Str} : findLeft m s = none ↔ ∀ p ∈ m, p.1 ≠ s := by
  simp [findLeft]

theorem findRight_eq_none {m : Mapping} {s : Str} : findRight m s = none ↔ ∀ p ∈ m, p.2 ≠ s := by
  simp [findRight]

theorem Inv.fresh {m : Mapping} (h : Inv m) : ∀ p ∈ m, p.2 ≠ getAlpha (m.length + 1) := by
  intro p hp e
  rcases List.mem_iff_getElem.1 hp with ⟨k, hk, rfl⟩
  rw [h.names k hk] at e
  have := getAlpha_injective e
  omega

/-- What one call of `anonymize` does from such a state. -/
theorem anonymize_step {m : Mapping} (h : Inv m) (s : Str) :
    let x := anonymize s m
    Inv x.2 ∧ (∀ p ∈ m, p ∈ x.2) ∧ ((s = [] ∧ x.1 = []) ∨ (s ≠ [] ∧ (s, x.1) ∈ x.2)) := by
  simp only [anonymize]
  split
  · rename_i hs
    exact ⟨h, fun p hp => hp, .inl ⟨hs, rfl⟩⟩
  · rename_i hs
    cases hf : findLeft m s with
    | some a =>
      simp only
      exact ⟨h, fun p hp => hp, .inr ⟨hs, (findLeft_eq_some h.keys).1 hf⟩⟩
    | none =>
      have hr : findRight m (getAlpha (m.length + 1)) = none := findRight_eq_none.2 h.fresh
      simp only [insert, hf, hr, Option.isSome_none, Bool.or_false, Bool.false_eq_true, if_false]
      refine ⟨⟨?_, ?_, ?_⟩, fun p hp => List.mem_append_left _ hp, .inr ⟨hs, by simp⟩⟩
      · intro k hk
        simp only [List.length_append, List.length_cons, List.length_nil] at hk
        by_cases hkm : k < m.length
        · rw [List.getElem_append_left hkm]; exact h.names k hkm
        · have : k = m.length := by omega
          subst this
          rw [List.getElem_append_right (Nat.le_refl _)]
          simp
      · rw [List.pairwise_append]
        refine ⟨h.keys, List.pairwise_singleton _ _, ?_⟩
        intro p hp q hq
        rw [List.mem_singleton.1 hq]
        exact findLeft_eq_none.1 hf p hp
      · intro p hp
        rcases List.mem_append.1 hp with hp | hp
        · exact h.nonempty p hp
        · rw [List.mem_singleton.1 hp]; exact hs

theorem anonymizeAll_inv : ∀ (ss : List Str) (m : Mapping), Inv m →
    Inv (anonymizeAll ss m).2 ∧ (∀ p ∈ m, p ∈ (anonymizeAll ss m).2) ∧ (anonymizeAll ss m).1.length = ss.length ∧
    ∀ (i : Nat) (s a : Str), ss[i]? = some s → (anonymizeAll ss m).1[i]? = some a →
      (s = [] ∧ a = []) ∨ (s ≠ [] ∧ (s, a) ∈ (anonymizeAll ss m).2) := by
  intro ss
  induction ss with
  | nil => intro m h; exact ⟨h, fun p hp => hp, rfl, by intro i s a hs; simp at hs⟩
  | cons t ts ih =>
    intro m h
    have h1 := anonymize_step h t
    have h2 := ih _ h1.1
    refine ⟨h2.1, fun p hp => h2.2.1 p (h1.2.1 p hp), by simp [anonymizeAll, h2.2.2.1], ?_⟩
    intro i s a hs ha
    cases i with
    | zero =>
      simp only [anonymizeAll, List.getElem?_cons_zero, Option.some.injEq] at hs ha
      subst hs ha
      rcases h1.2.2 with h' | ⟨h', h''⟩
      · exact .inl h'
      · exact .inr ⟨h', h2.2.1 _ h''⟩
    | succ i => exact h2.2.2.2 i s a (by simpa using hs) (by simpa [anonymizeAll] using ha)

/-- **C42**: in any sequence of strings anonymised from a new anonymiser, two strings get the same name exactly when they are equal, and
    de-anonymising a name at the end gives back the string. -/
theorem names_reversible (ss : List Str) :
    let names := (anonymizeAll ss []).1
    let m := (anonymizeAll ss []).2
    names.length = ss.length ∧
    (∀ (i j : Nat) (s t a b : Str), ss[i]? = some s → ss[j]? = some t → names[i]? = some a → names[j]? = some b → (a = b ↔ s = t)) ∧
    ∀ (i : Nat) (s a : Str), ss[i]? = some s → names[i]? = some a → deanonymize a m = .ok s := by
  have h := anonymizeAll_inv ss [] inv_nil
  refine ⟨h.2.2.1, ?_, ?_⟩
  · intro i j s t a b hs ht ha hb
    have h1 := h.2.2.2 i s a hs ha
    have h2 := h.2.2.2 j t b ht hb
    have hr := h.1.right_nonempty
    rcases h1 with ⟨rfl, rfl⟩ | ⟨h1, h1'⟩ <;> rcases h2 with ⟨rfl, rfl⟩ | ⟨h2, h2'⟩
    · simp
    · exact ⟨fun e => absurd e.symm (hr _ h2'), fun e => absurd e.symm h2⟩
    · exact ⟨fun e => absurd e (hr _ h1'), fun e => absurd e h1⟩
    · constructor
      · intro e; subst e
        have e1 := (findRight_eq_some h.1.right_ne).2 h1'
        have e2 := (findRight_eq_some h.1.right_ne).2 h2'
        rw [e1] at e2; exact Option.some.inj e2
      · intro e; subst e
        have e1 := (findLeft_eq_some h.1.keys).2 h1'
        have e2 := (findLeft_eq_some h.1.keys).2 h2'
        rw [e1] at e2; exact Option.some.inj e2
  · intro i s a hs ha
    rcases h.2.2.2 i s a hs ha with ⟨rfl, rfl⟩ | ⟨h1, h1'⟩
    · rfl
    · have e1 := (findRight_eq_some h.1.right_ne).2 h1'
      simp only [deanonymize, h.1.right_nonempty _ h1', if_false, e1]

/-- **C42**: the names are those of the ranks of the distinct strings: they never reveal more than equality. -/
theorem name_by_rank {ss : List Str} {s : Str} (hs : s ∈ ss) (hne : s ≠ []) :
    ∃ k, k < (anonymizeAll ss []).2.length ∧ (s, getAlpha (k + 1)) ∈ (anonymizeAll ss []).2 := by
  have h := anonymizeAll_inv ss [] inv_nil
  rcases List.mem_iff_getElem.1 hs with ⟨i, hi, e⟩
  have hi' : i < (anonymizeAll ss []).1.length := by rw [h.2.2.1]; exact hi
  rcases h.2.2.2 i s _ (by rw [List.getElem?_eq_getElem hi, e]) (List.getElem?_eq_getElem hi') with ⟨h1, _⟩ | ⟨_, h1⟩
  · exact absurd h1 hne
  · rcases List.mem_iff_getElem.1 h1 with ⟨k, hk, e'⟩
    refine ⟨k, hk, ?_⟩
    have := h.1.names k hk
    rw [e'] at this
    simp only at this
    rw [← this]; exact h1

example : (anonymizeAll ["x".toList, "".toList, "y".toList, "x".toList] []).1 = ["A".toList, [], "B".toList, "A".toList] := by
  simp [anonymizeAll, anonymize, findLeft, findRight, insert, getAlpha, alphaLoop]

/-- An unknown name is refused. -/
theorem deanonymize_unknown {m : Mapping} {a : Str} (ha : a ≠ []) (h : ∀ p ∈ m, p.2 ≠ a) : deanonymize a m = .thrown := by
  simp [deanonymize, ha, findRight_eq_none.2 h]

/-! ### C43 -/

/-- No separator in a string. -/
def Clean (s : Str) : Prop := ';' ∉ s ∧ '\n' ∉ s

instance (s : Str) : Decidable (Clean s) := inferInstanceAs (Decidable (_ ∧ _))

theorem split_clean : ∀ (s cur : Str), ';' ∉ s → split cur s = [cur ++ s] := by
  intro s
  induction s with
  | nil => intro cur _; simp [split]
  | cons c cs ih =>
    intro cur h
    have h1 : c ≠ ';' := fun e => h (by rw [e]; exact List.mem_cons_self)
    simp only [split, h1, if_false]
    rw [ih _ (fun h' => h (List.mem_cons_of_mem _ h'))]
    simp

theorem split_pair : ∀ (s cur t : Str), ';' ∉ s → ';' ∉ t → split cur (s ++ ';' :: t) = [cur ++ s, t] := by
  intro s
  induction s with
  | nil => intro cur t _ ht; simp [split, split_clean t [] ht]
  | cons c cs ih =>
    intro cur t h ht
    have h1 : c ≠ ';' := fun e => h (by rw [e]; exact List.mem_cons_self)
    simp only [List.cons_append, split, h1, if_false]
    rw [ih _ _ (fun h' => h (List.mem_cons_of_mem _ h')) ht]
    simp

theorem getLines_line : ∀ (s cur rest : Str), '\n' ∉ s → getLines cur (s ++ '\n' :: rest) = (cur ++ s) :: getLines [] rest := by
  intro s
  induction s with
  | nil => intro cur rest _; simp [getLines]
  | cons c cs ih =>
    intro cur rest h
    have h1 : c ≠ '\n' := fun e => h (by rw [e]; exact List.mem_cons_self)
    simp only [List.cons_append, getLines, h1, if_false]
    rw [ih _ _ (fun h' => h (List.mem_cons_of_mem _ h'))]
    simp

theorem getLines_write : ∀ (m : Mapping), (∀ p ∈ m, Clean p.1 ∧ Clean p.2) →
    getLines [] (writeEntries m) = m.map (fun p => p.1 ++ ';' :: p.2) := by
  intro m
  induction m with
  | nil => intro _; simp [writeEntries, getLines]
  | cons p ps ih =>
    intro h
    have hp := h p List.mem_cons_self
    have e : writeEntries (p :: ps) = (p.1 ++ ';' :: p.2) ++ '\n' :: writeEntries ps := by simp [writeEntries]
    rw [e, getLines_line]
    · rw [ih fun q hq => h q (List.mem_cons_of_mem _ hq)]; simp
    · intro hm
      rcases List.mem_append.1 hm with hm | hm
      · exact hp.1.2 hm
      · rcases List.mem_cons.1 hm with hm | hm
        · cases hm
        · exact hp.2.2 hm

theorem readLines_write : ∀ (m acc : Mapping), (∀ p ∈ m, Clean p.1 ∧ Clean p.2) →
    (acc ++ m).Pairwise (fun p q => p.1 ≠ q.1) → (acc ++ m).Pairwise (fun p q => p.2 ≠ q.2) →
    readLines (m.map (fun p => p.1 ++ ';' :: p.2)) acc = (.ok (), acc ++ m) := by
  intro m
  induction m with
  | nil => intro acc _ _ _; simp [readLines]
  | cons p ps ih =>
    intro acc h h1 h2
    have hp := h p List.mem_cons_self
    have hins : insert acc (p.1, p.2) = acc ++ [p] := by
      have e1 : findLeft acc p.1 = none := findLeft_eq_none.2 fun q hq => (List.pairwise_append.1 h1).2.2 q hq p List.mem_cons_self
      have e2 : findRight acc p.2 = none := findRight_eq_none.2 fun q hq => (List.pairwise_append.1 h2).2.2 q hq p List.mem_cons_self
      simp [insert, e1, e2]
    simp only [List.map_cons, readLines, split_pair p.1 [] p.2 hp.1.1 hp.2.1, List.nil_append, hins]
    have e : acc ++ p :: ps = (acc ++ [p]) ++ ps := by simp
    rw [e] at h1 h2 ⊢
    exact ih _ (fun q hq => h q (List.mem_cons_of_mem _ hq)) h1 h2

theorem find_perm {m m' : Mapping} (hp : m.Perm m') (hk : m.Pairwise (fun p q => p.1 ≠ q.1)) (hr : m.Pairwise (fun p q => p.2 ≠ q.2)) (s : Str) :
    findLeft m s = findLeft m' s ∧ findRight m s = findRight m' s := by
  have hk' : m'.Pairwise (fun p q => p.1 ≠ q.1) := hp.pairwise hk (fun {a b} h e => h e.symm)
  have hr' : m'.Pairwise (fun p q => p.2 ≠ q.2) := hp.pairwise hr (fun {a b} h e => h e.symm)
  constructor
  · apply Option.ext; intro a
    rw [findLeft_eq_some hk, findLeft_eq_some hk', hp.mem_iff]
  · apply Option.ext; intro a
    rw [findRight_eq_some hr, findRight_eq_some hr', hp.mem_iff]

/-- Mappings with the same entries, in any order, answer alike for ever. -/
theorem answers_perm : ∀ (os : List Op) (m m' : Mapping), Inv m → m.Perm m' → answers os m = answers os m' := by
  intro os
  induction os with
  | nil => intro m m' _ _; rfl
  | cons o os ih =>
    intro m m' hi hp
    have hf := find_perm hp hi.keys hi.right_ne
    cases o with
    | anonymize s =>
      have hstep : (anonymize s m).1 = (anonymize s m').1 ∧ (anonymize s m).2.Perm (anonymize s m').2 := by
        simp only [anonymize]
        by_cases hs : s = []
        · simp [hs, hp]
        · simp only [hs, if_false, ← (hf s).1]
          cases hl : findLeft m s with
          | some a => exact ⟨rfl, hp⟩
          | none =>
            simp only [insert, ← hp.length_eq, ← (hf s).1, ← (hf (getAlpha (m.length + 1))).2]
            refine ⟨trivial, ?_⟩
            split
            · exact hp
            · exact hp.append_right _
      have h1 := (anonymize_step hi s).1
      simp only [answers, step, hstep.1]
      rw [ih _ _ h1 hstep.2]
    | deanonymize s =>
      simp only [answers, step]
      rw [ih _ _ hi hp]
      simp only [deanonymize, ← (hf s).2]
    | count =>
      simp only [answers, step, hp.length_eq]
      rw [ih _ _ hi hp]

/-- **C43**, partial: for strings without `;` and without end of line, writing the mapping (in whatever order the entries are listed) and
    reading it in a new anonymiser succeeds and gives an anonymiser that answers every later sequence of calls as the first one.
    Missing: strings with a separator (`semicolon_breaks_file`, `newline_breaks_file`). -/
theorem file_round_trip_partial {ss : List Str} (hclean : ∀ s ∈ ss, Clean s) (listing : Mapping)
    (hl : listing.Perm (anonymizeAll ss []).2) :
    ∃ m', read (writeEntries listing) [] = (.ok (), m') ∧ ∀ os : List Op, answers os m' = answers os (anonymizeAll ss []).2 := by
  have hi := (anonymizeAll_inv ss [] inv_nil).1
  have hk : ∀ (ss : List Str) (m : Mapping) (p : Str × Str), p ∈ (anonymizeAll ss m).2 → p ∈ m ∨ p.1 ∈ ss := by
    intro ss
    induction ss with
    | nil => intro m p h; exact .inl h
    | cons t ts ih =>
      intro m p h
      rcases ih _ p h with h | h
      · have : p ∈ (anonymize t m).2 → p ∈ m ∨ p.1 = t := by
          simp only [anonymize]
          split
          · exact .inl
          · split
            · exact .inl
            · simp only [insert]
              split
              · exact .inl
              · intro h
                rcases List.mem_append.1 h with h | h
                · exact .inl h
                · rw [List.mem_singleton.1 h]; exact .inr rfl
        rcases this h with h | h
        · exact .inl h
        · exact .inr (by rw [h]; exact List.mem_cons_self)
      · exact .inr (List.mem_cons_of_mem _ h)
  have hc : ∀ p ∈ listing, Clean p.1 ∧ Clean p.2 := by
    intro p hp
    have hp := hl.mem_iff.1 hp
    constructor
    · rcases hk ss [] p hp with h | h
      · cases h
      · exact hclean _ h
    · rcases List.mem_iff_getElem.1 hp with ⟨k, hk, rfl⟩
      rw [hi.names k hk]
      have := getAlpha_letters (k + 1)
      exact ⟨fun h => absurd (this _ h) (by decide), fun h => absurd (this _ h) (by decide)⟩
  have h1 : listing.Pairwise (fun p q => p.1 ≠ q.1) := hl.symm.pairwise hi.keys (fun {a b} h e => h e.symm)
  have h2 : listing.Pairwise (fun p q => p.2 ≠ q.2) := hl.symm.pairwise hi.right_ne (fun {a b} h e => h e.symm)
  refine ⟨listing, ?_, fun os => ?_⟩
  · rw [read, getLines_write listing hc, readLines_write listing [] hc h1 h2]; rfl
  · exact (answers_perm os _ _ hi hl.symm).symm

example : Clean "LOAD 1".toList := by decide

/-- A string with `;` is anonymised, and the file written cannot be read back. -/
theorem semicolon_breaks_file :
    ∃ m, (anonymizeAll ["a;b".toList] []).2 = m ∧ (read (writeEntries m) []).1 = .thrown := by
  refine ⟨[("a;b".toList, ['A'])], ?_, ?_⟩
  · simp [anonymizeAll, anonymize, findLeft, findRight, insert, getAlpha, alphaLoop]
  · decide

/-- A string with an end of line is anonymised, and the file written is read back as another mapping, silently. -/
theorem newline_breaks_file :
    ∃ m m', (anonymizeAll ["a;X\nb".toList] []).2 = m ∧ read (writeEntries m) [] = (.ok (), m') ∧
      deanonymize ['A'] m = .ok "a;X\nb".toList ∧ deanonymize ['A'] m' = .ok "b".toList := by
  refine ⟨[("a;X\nb".toList, ['A'])], [("a".toList, ['X']), ("b".toList, ['A'])], ?_, ?_, ?_, ?_⟩
  · simp [anonymizeAll, anonymize, findLeft, findRight, insert, getAlpha, alphaLoop]
  · decide
  · decide
  · decide

/-- After reading a mapping not written by an anonymiser, two strings may get the same name: the names depend only on the number of entries,
    and the failed insertion is ignored. -/
theorem foreign_mapping_collides :
    ∃ m, read "x;B\n".toList [] = (.ok (), m) ∧ (anonymize "x".toList m).1 = (anonymize "y".toList m).1 := by
  refine ⟨[("x".toList, ['B'])], ?_, ?_⟩
  · decide
  · simp [anonymize, findLeft, getAlpha, alphaLoop]

end Verif.Anonymizer
