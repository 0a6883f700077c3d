import Verif.Build.TogetherProps

/-!
C98: networks that are built with adders and setters, from nothing, are valid, go together, and are exported and imported as they are.
-/

namespace Verif.Build

open Verif Verif.Xml Verif.XmlNet Verif.Setters Verif.ReadBack

variable {T : Type} {l : List Item}

/-! ### What spoils an addition -/

/-- **C98** An injection is left in the index without its terminal (C29) exactly when its name is accepted and its place is not: no place is wanted, unless the terminal is
built first, or the place that is wanted is none of the voltage level or is taken. -/
theorem spoilt_injection_iff (hs : Countable l) {vl : String} {node first : Bool} {b : Base} {a : Adders.Args} :
    attach1 l vl node first b a = .ub ↔ (∃ n, NewName l b n) ∧ ((first = false ∧ ∀ p, ¬ Adders.Wanted a p) ∨ ∃ p, Adders.Wanted a p ∧ ¬ Fits l vl node p) := by
  unfold attach1
  cases hn : newId l b with
  | none => simp only [reduceCtorEq, false_iff, not_and]; intro h; exact absurd h ((newName_iff hs).1 hn)
  | some n =>
    have h1 : ∃ n, NewName l b n := ⟨n, (newId_iff hs).1 hn⟩
    have h2 := Adders.terminal_spec a
    simp only [h1, true_and]
    cases hb : Adders.build a with
    | ok p =>
      have hp := (h2 p).1 hb
      have one : ∀ q, Adders.Wanted a q → q = p := fun q hq => by
        have := ((h2 q).2 hq).symm.trans hb; simpa using this
      dsimp only
      by_cases hf : Fits l vl node p
      · rw [if_pos (fits_iff.2 hf)]
        simp only [reduceCtorEq, false_iff]
        rintro (⟨_, h⟩ | ⟨q, hq, hqf⟩)
        · exact h p hp
        · exact hqf (one q hq ▸ hf)
      · rw [if_neg (fun h => hf (fits_iff.1 h))]
        simp only [true_iff]
        exact .inr ⟨p, hp, hf⟩
    | thrown =>
      have none : ∀ p, ¬ Adders.Wanted a p := fun p hp => by rw [(h2 p).2 hp] at hb; cases hb
      cases first with
      | true => simp [none]
      | false => simp [none]
    | ub =>
      have none : ∀ p, ¬ Adders.Wanted a p := fun p hp => by rw [(h2 p).2 hp] at hb; cases hb
      cases first with
      | true => simp [none]
      | false => simp [none]

/-- **C98** A branch is left in the index without its terminals exactly when its name is accepted and a node of its sides has a terminal, or is that of two of them. -/
theorem spoilt_branch_iff (hs : Countable l) {b : Base} {ss : List Side} : attachAll l b ss = .ub ↔ (∃ n, NewName l b n) ∧ ¬ SidesFree l ss := by
  unfold attachAll
  cases hn : newId l b with
  | none => simp only [reduceCtorEq, false_iff, not_and]; intro h; exact absurd h ((newName_iff hs).1 hn)
  | some n =>
    have h1 : ∃ n, NewName l b n := ⟨n, (newId_iff hs).1 hn⟩
    simp only [h1, true_and]
    rw [← sidesFree_iff]
    split <;> simp_all

/-! ### New networks -/

/-- **C98** A network is made exactly when it has an identifier and a source format; it is empty, its name is its identifier. -/
theorem new_network_iff {id format : String} {date : T} {x : Net T} :
    newNet id format date = .ok x ↔ id ≠ "" ∧ format ≠ "" ∧ x = ⟨⟨⟨id, id, false⟩, [], []⟩, format, 0, date, [], [], []⟩ := by
  simp only [newNet, grd_ok, Bool.or_eq_false_iff, beq_eq_false_iff_ne, and_assoc, eq_comm (a := x)]

theorem new_network_valid {id format : String} {date : T} {x : Net T} (h : newNet id format date = .ok x) : NetValid x ∧ TidyNet x ∧ NetInside x := by
  obtain ⟨h1, h2, rfl⟩ := new_network_iff.1 h
  refine ⟨⟨ident_new ⟨id, id, false, false⟩ id, h1, rfl, rfl, h2, Int.le_refl 0, none_in, none_in, none_in⟩, ⟨⟨⟨?_, ?_, ?_, ?_, ?_, ?_⟩, ?_, ?_⟩, ?_⟩, none_in⟩
  · simp [netItems, plain, Item.names]
  · intro a ha
    simp only [netItems, List.flatMap_nil, List.map_nil, List.append_nil, List.mem_singleton] at ha
    subst ha; exact h1
  all_goals try
    intro a ha
    simp only [netItems, List.flatMap_nil, List.map_nil, List.append_nil, List.mem_singleton] at ha
    subst ha
    first
      | exact fun n hn => by cases hn
      | exact nofun
  · simp [netItems, plain]
  · intro r hr; cases mem_netRefs.2 hr

/-! ### Histories -/

/-- **C98** Every safe call, adders included, leaves the network valid, its objects together, and referring to each other by their identifiers. -/
theorem safe_call_keeps {x y : Net T} {o : Call T} (hv : NetValid x) (ht : TidyNet x) (hi : NetInside x) (ho : o.Safe x) (h : o.run x = .ok y) : NetValid y ∧ TidyNet y ∧ NetInside y := by
  cases o with
  | add o => exact ⟨(network_built_valid_iff hv ht.1.together.ids ho.2.1 h).2 ho.1, addition_goes_together ht ho.2.2 h, network_inside hi h⟩
  | set o => exact ⟨(network_stays_valid_iff hv hi h).2 ho.1, honest_call_goes_together ht ho.2 h, network_stays_inside hi h⟩

/-- **C98** The same for every history of safe calls, refused calls included. -/
theorem built_network_holds : ∀ (os : List (Call T)) {x y : Net T}, NetValid x → TidyNet x → NetInside x → SafeCalls x os → runCalls x os = .ok y → NetValid y ∧ TidyNet y ∧ NetInside y := by
  intro os
  induction os with
  | nil => intro x y hv ht hi _ h; simp only [runCalls, Out.ok.injEq] at h; exact h ▸ ⟨hv, ht, hi⟩
  | cons o os ih =>
    intro x y hv ht hi ho h
    simp only [runCalls] at h
    cases hz : o.run x with
    | ok z =>
      rw [hz] at h
      obtain ⟨h1, h2, h3⟩ := safe_call_keeps hv ht hi ho.1 hz
      exact ih h1 h2 h3 (ho.2.1 z hz) h
    | thrown => rw [hz] at h; exact ih hv ht hi (ho.2.2 hz) h
    | ub => rw [hz] at h; cases h

section
variable {K : XCodec} {D : Dates T}

/-- **C98** A network that was built from nothing by safe calls of adders and setters is exported, and imported as it was, but for the way regulating terminals were given. -/
theorem built_network_comes_back (hK : K.Integers) (hd : K.Doubles) {id format : String} {date : T} {x y : Net T} {os : List (Call T)} (hx : newNet id format date = .ok x)
    (hs : SafeCalls x os) (h : runCalls x os = .ok y) (hf : NetFits D y) (hk : Kept K (netNumbers y)) (i : Bool) :
    ∃ cs toks z, exportNet K D y = .ok cs ∧ document i cs = .ok toks ∧ importSettled K D toks = .ok z ∧ SameNet (netItems y) y z ∧ ById z ∧ (ById y → z = y) := by
  obtain ⟨hv, ht, hi⟩ := new_network_valid hx
  obtain ⟨hv, ⟨ht, hr⟩, _⟩ := built_network_holds os hv ht hi hs h
  have hr := fun r hy => refNamed_of_id (hr r hy)
  obtain ⟨cs, toks, w1, w2, w3, _⟩ := export_imported hK hd hv ht.together hr hf hk i
  exact ⟨cs, toks, _, w1, w2, w3, settled_same ht.together.names, settled_by_id ht.together hr, by_id_settled ht.together.names⟩

/-- **C98** Import, then add and set, then export and import: the network that was imported may grow. -/
theorem extended_network_comes_back (hK : K.Integers) (hd : K.Doubles) {toks : List Tok} {x y : Net T} {os : List (Call T)} (hx : importSettled K D toks = .ok x)
    (hi : NetInside x) (hs : SafeCalls x os) (h : runCalls x os = .ok y) (hf : NetFits D y) (hk : Kept K (netNumbers y)) (i : Bool) :
    ∃ cs toks' z, exportNet K D y = .ok cs ∧ document i cs = .ok toks' ∧ importSettled K D toks' = .ok z ∧ SameNet (netItems y) y z ∧ ById z ∧ (ById y → z = y) := by
  obtain ⟨hv, hc, hr, hb⟩ := imported_by_id hd hx
  obtain ⟨hv, ⟨ht, hr⟩, _⟩ := built_network_holds os hv (by_id_tidy hc hr hb) hi hs h
  have hr := fun r hy => refNamed_of_id (hr r hy)
  obtain ⟨cs, toks', w1, w2, w3, _⟩ := export_imported hK hd hv ht.together hr hf hk i
  exact ⟨cs, toks', _, w1, w2, w3, settled_same ht.together.names, settled_by_id ht.together hr, by_id_settled ht.together.names⟩

end

end Verif.Build
