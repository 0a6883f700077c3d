import Verif.ExtNet.Lemmas

/-! Property C80: which extensions of a network are in its document, and which of them are given to the objects of the network that is read. -/

namespace Verif.ExtNet

open Verif Verif.Xml Verif.XmlNet Verif.ExtXml

variable {ε X : Type}

/-! ### Specification -/

/-- The extensions that the document carries, with the objects that have them: those of the objects that are written, as far as they are asked for. -/
def carried (nm : X → String) (o : WOpts) (hs : List (Holder X)) : List (String × X) := hs.flatMap fun h => (h.written nm o).map fun x => (h.id, x)

theorem mem_carried {nm : X → String} {o : WOpts} {hs : List (Holder X)} {i : String} {x : X} :
    (i, x) ∈ carried nm o hs ↔ ∃ h ∈ hs, h.id = i ∧ h.exported = true ∧ x ∈ h.exts ∧ Wanted o.list (nm x) := by
  simp only [carried, Holder.written, List.mem_flatMap, List.mem_map, Prod.mk.injEq]
  constructor
  · rintro ⟨h, hh, z, hz, h1, rfl⟩
    split at hz
    · rename_i he
      obtain ⟨hz1, hz2⟩ := List.mem_filter.1 hz
      exact ⟨h, hh, h1, he, hz1, of_decide_eq_true hz2⟩
    · cases hz
  · rintro ⟨h, hh, h1, h2, h3, h4⟩
    exact ⟨h, hh, x, by rw [if_pos h2]; exact List.mem_filter.2 ⟨h3, decide_eq_true h4⟩, h1, rfl⟩

/-- The version of an extension that a serializer can write. -/
def Supports (v : String) : Uris → Prop
  | .one _ => v = "1.0"
  | .many _ us => ∃ u, us.get? v = some u

/-- The namespace of an extension in version `v` (the last one that goes with the version `net` of the network if it is empty). -/
def NsUri (v net : String) (u : String) : Uris → Prop
  | .one w => u = w
  | .many compat us => ∃ vs w, compat.get? net = some vs ∧ us.get? w = some u ∧ if v = "" then vs.getLast? = some w else w = v ∧ v ∈ vs

/-- An extension can be written: there is a serializer, which does not decline it unless the option to throw is set, and which knows the version that is asked for. -/
def Writable (nm : X → String) (P : Providers ε X) (o : WOpts) (x : X) : Prop :=
  ∃ s, P.get? (nm x) = some s ∧ (o.strict = true ∨ s.serializable x = true) ∧ (o.version (nm x) = "" ∨ Supports (o.version (nm x)) s.uris) ∧ ∃ p, s.write x = .ok p

/-- Extensions named `n` are in the network, and asked for. -/
def Present (nm : X → String) (o : WOpts) (hs : List (Holder X)) (n : String) : Prop := Wanted o.list n ∧ ∃ h ∈ hs, ∃ x ∈ h.exts, nm x = n

/-! ### Options -/

/-- **C80.**  A version can be asked for once, and only for an extension that is asked for; it is then the one of that extension, and of no other. -/
theorem version_added (o : WOpts) (n v : String) : ((∃ o', o.addVersion n v = .ok o') ↔ Wanted o.list n ∧ o.versions.get? n = none) ∧
    ∀ o', o.addVersion n v = .ok o' → o'.version n = v ∧ (∀ m, m ≠ n → o'.version m = o.version m) ∧ o'.list = o.list ∧ o'.strict = o.strict ∧ o'.net = o.net := by
  unfold WOpts.addVersion
  have hw : (!o.list.isEmpty && !o.list.contains n) = true ↔ ¬ Wanted o.list n := by simp [Wanted]
  by_cases h1 : Wanted o.list n
  · rw [if_neg (fun h => hw.1 h h1)]
    cases h2 : o.versions.get? n with
    | some w => simp
    | none =>
      refine ⟨by simp [h1], ?_⟩
      intro o' ho
      simp only [Option.isSome_none, Bool.false_eq_true, if_false, Out.ok.injEq] at ho
      subst ho
      have key : ∀ m, (o.versions.emplace n v).get? m = if n = m then some v else o.versions.get? m := by
        intro m
        unfold AMap.emplace
        rw [h2]
        clear hw h1
        revert h2
        generalize o.versions = l
        intro h2
        induction l with
        | nil => rfl
        | cons p l ih =>
          rw [AMap.get?_cons] at h2
          by_cases hp : p.1 = n
          · rw [if_pos hp] at h2; cases h2
          · rw [if_neg hp] at h2
            rw [List.cons_append, AMap.get?_cons, AMap.get?_cons]
            by_cases hm : p.1 = m
            · rw [if_pos hm, if_pos hm, if_neg (by rintro rfl; exact hp hm)]
            · rw [if_neg hm, if_neg hm]; exact ih h2
      refine ⟨by simp [WOpts.version, key], fun m hm => by simp [WOpts.version, key, Ne.symm hm], rfl, rfl, rfl⟩
  · rw [if_pos (hw.2 h1)]
    simp [h1]

/-! ### Namespaces -/

theorem supported_iff {v : String} {u : Uris} : u.supported v = .ok () ↔ Supports v u := by
  cases u with
  | one w =>
    simp only [Uris.supported, Supports]
    split <;> simp_all
  | many c us =>
    simp only [Uris.supported, Supports]
    cases us.get? v <;> simp

theorem choose_iff {v net u : String} {U : Uris} : U.choose v net = .ok u ↔ NsUri v net u U := by
  cases U with
  | one w =>
    simp only [Uris.choose, NsUri, Out.ok.injEq]
    exact eq_comm
  | many c us =>
    simp only [Uris.choose, NsUri]
    by_cases hv : v = ""
    · simp only [hv, ne_eq, not_true_eq_false, if_false, if_true]
      cases hc : c.get? net with
      | none => simp
      | some vs =>
        cases hl : vs.getLast? with
        | none =>
          simp only [hl, reduceCtorEq, false_iff]
          rintro ⟨vs', w, h1, -, h2⟩
          cases h1
          rw [hl] at h2
          cases h2
        | some w =>
          simp only [hl, uriOf]
          constructor
          · intro h
            cases hu : us.get? w with
            | none => rw [hu] at h; cases h
            | some u' => rw [hu] at h; cases h; exact ⟨vs, w, rfl, hu, hl⟩
          · rintro ⟨vs', w', h1, h2, h3⟩
            cases h1
            rw [hl] at h3
            cases h3
            rw [h2]
    · simp only [ne_eq, hv, not_false_eq_true, if_true, if_false]
      constructor
      · intro h
        obtain ⟨_, h1, h⟩ := Out.bind_eq_ok.1 h
        cases hc : c.get? net with
        | none => rw [hc] at h; cases h
        | some vs =>
          rw [hc] at h
          simp only at h
          by_cases hm : v ∈ vs
          · rw [if_pos (List.contains_iff_mem.2 hm)] at h
            unfold uriOf at h
            cases hu : us.get? v with
            | none => rw [hu] at h; cases h
            | some u' => rw [hu] at h; cases h; exact ⟨vs, v, rfl, hu, rfl, hm⟩
          · rw [if_neg (fun h' => hm (List.contains_iff_mem.1 h'))] at h
            cases h
      · rintro ⟨vs, w, h1, h2, rfl, h3⟩
        have : Uris.supported w (.many c us) = .ok () := by simp [Uris.supported, h2]
        rw [this, Out.monad_bind_ok, h1]
        simp only
        rw [if_pos (List.contains_iff_mem.2 h3)]
        simp [uriOf, h2]

theorem mem_uniq {a : String} {l : List String} : a ∈ uniq l ↔ a ∈ l := by
  induction l with
  | nil => rfl
  | cons b l ih =>
    unfold uniq
    split
    · rename_i h
      rw [ih, List.mem_cons]
      have hb : b ∈ l := by
        rw [List.contains_iff_mem] at h
        have : ∀ c, c ∈ uniq l → c ∈ l := by
          clear ih h
          induction l with
          | nil => intro c h; exact h
          | cons d l ih2 =>
            intro c h
            unfold uniq at h
            split at h
            · exact List.mem_cons_of_mem _ (ih2 c h)
            · rcases List.mem_cons.1 h with h | h
              · exact h ▸ List.mem_cons_self
              · exact List.mem_cons_of_mem _ (ih2 c h)
        exact this b h
      constructor
      · exact .inr
      · rintro (rfl | h)
        · exact hb
        · exact h
    · rw [List.mem_cons, List.mem_cons, ih]

theorem uniq_nodup : ∀ l : List String, (uniq l).Nodup := by
  intro l
  induction l with
  | nil => exact List.nodup_nil
  | cons b l ih =>
    unfold uniq
    split
    · exact ih
    · rename_i h
      exact List.nodup_cons.2 ⟨fun hc => h (List.contains_iff_mem.2 hc), ih⟩

theorem mem_extNames {nm : X → String} {o : WOpts} {hs : List (Holder X)} {n : String} : (n ∈ extNames nm hs ∧ Wanted o.list n) ↔ Present nm o hs n := by
  simp only [extNames, mem_uniq, Present, List.mem_flatMap, List.mem_map]
  exact and_comm

/-- Different prefixes and different namespaces. -/
def Apart (P : Providers ε X) (o : WOpts) (n m : String) : Prop :=
  Wanted o.list n → Wanted o.list m → ∀ s t, P.get? n = some s → P.get? m = some t →
    s.pre ≠ t.pre ∧ ∀ u v, NsUri (o.version n) o.net u s.uris → NsUri (o.version m) o.net v t.uris → u ≠ v

theorem nsLoop_iff (P : Providers ε X) (o : WOpts) : ∀ (ns us ps : List String),
    ((∃ r, nsLoop P o us ps ns = .ok r) ↔ (∀ n ∈ ns, Wanted o.list n → ∀ s, P.get? n = some s → s.pre ∉ ps ∧ ∃ u, NsUri (o.version n) o.net u s.uris ∧ u ∉ us) ∧ ns.Pairwise (Apart P o)) ∧
    ∀ r, nsLoop P o us ps ns = .ok r → ∀ a u, (a, u) ∈ r ↔ ∃ n ∈ ns, Wanted o.list n ∧ ∃ s, P.get? n = some s ∧ s.pre = a ∧ NsUri (o.version n) o.net u s.uris := by
  intro ns
  induction ns with
  | nil => intro us ps; simp [nsLoop]
  | cons n ns ih =>
    intro us ps
    by_cases hw : Wanted o.list n
    · cases hp : P.get? n with
      | none =>
        have he : nsLoop P o us ps (n :: ns) = nsLoop P o us ps ns := by simp [nsLoop, withExt_iff.2 hw, hp]
        have hA : ∀ m, Apart P o n m := fun m _ _ s t h1 => by rw [hp] at h1; cases h1
        rw [he]
        refine ⟨?_, ?_⟩
        · rw [(ih us ps).1, List.pairwise_cons]
          simp only [List.forall_mem_cons, hp]
          simp [hA]
        · intro r hr a u
          rw [(ih us ps).2 r hr]
          simp [hp]
      | some s =>
        have he : nsLoop P o us ps (n :: ns) = (s.uris.choose (o.version n) o.net).bind fun u =>
            if us.contains u then .thrown else if ps.contains s.pre then .thrown else (nsLoop P o (u :: us) (s.pre :: ps) ns).bind fun r => .ok ((s.pre, u) :: r) := by
          simp only [nsLoop, withExt_iff.2 hw, hp, if_true]; rfl
        rw [he]
        constructor
        · constructor
          · rintro ⟨r, hr⟩
            obtain ⟨u, h1, hr⟩ := Out.bind_eq_ok.1 hr
            have hu := choose_iff.1 h1
            by_cases h2 : us.contains u
            · rw [if_pos h2] at hr; cases hr
            rw [if_neg h2] at hr
            by_cases h3 : ps.contains s.pre
            · rw [if_pos h3] at hr; cases hr
            rw [if_neg h3] at hr
            obtain ⟨r', h4, -⟩ := Out.bind_eq_ok.1 hr
            obtain ⟨h5, h6⟩ := ((ih (u :: us) (s.pre :: ps)).1).1 ⟨r', h4⟩
            rw [List.contains_iff_mem] at h2 h3
            refine ⟨?_, List.pairwise_cons.2 ⟨?_, h6⟩⟩
            · intro m hm hwm t ht
              rcases List.mem_cons.1 hm with rfl | hm
              · rw [hp] at ht
                cases ht
                exact ⟨h3, u, hu, h2⟩
              · obtain ⟨h7, w, h8, h9⟩ := h5 m hm hwm t ht
                exact ⟨fun h => h7 (List.mem_cons_of_mem _ h), w, h8, fun h => h9 (List.mem_cons_of_mem _ h)⟩
            · intro m hm _ hwm s' t hs' ht
              rw [hp] at hs'
              cases hs'
              obtain ⟨h7, w, h8, h9⟩ := h5 m hm hwm t ht
              refine ⟨fun h => h7 (h ▸ List.mem_cons_self), fun u' v hu' hv => ?_⟩
              have e1 := Out.ok.inj ((choose_iff.2 hu').symm.trans (choose_iff.2 hu))
              have e2 := Out.ok.inj ((choose_iff.2 hv).symm.trans (choose_iff.2 h8))
              rw [e1, e2]
              rintro rfl
              exact h9 List.mem_cons_self
          · rintro ⟨h1, h2⟩
            obtain ⟨h3, u, h4, h5⟩ := h1 n List.mem_cons_self hw s hp
            obtain ⟨h6, h7⟩ := List.pairwise_cons.1 h2
            obtain ⟨r, hr⟩ := ((ih (u :: us) (s.pre :: ps)).1).2 ⟨by
              intro m hm hwm t ht
              obtain ⟨g1, w, g2, g3⟩ := h1 m (List.mem_cons_of_mem _ hm) hwm t ht
              obtain ⟨g4, g5⟩ := h6 m hm hw hwm s t hp ht
              refine ⟨fun h => ?_, w, g2, fun h => ?_⟩
              · rcases List.mem_cons.1 h with h | h
                · exact g4 h.symm
                · exact g1 h
              · rcases List.mem_cons.1 h with h | h
                · exact g5 u w h4 g2 h.symm
                · exact g3 h, h7⟩
            refine ⟨(s.pre, u) :: r, ?_⟩
            rw [choose_iff.2 h4, Out.bind_ok, if_neg (fun h => h5 (List.contains_iff_mem.1 h)), if_neg (fun h => h3 (List.contains_iff_mem.1 h)), hr, Out.bind_ok]
        · intro r hr a w
          obtain ⟨u, h1, hr⟩ := Out.bind_eq_ok.1 hr
          have hu := choose_iff.1 h1
          by_cases h2 : us.contains u
          · rw [if_pos h2] at hr; cases hr
          rw [if_neg h2] at hr
          by_cases h3 : ps.contains s.pre
          · rw [if_pos h3] at hr; cases hr
          rw [if_neg h3] at hr
          obtain ⟨r', h4, hr⟩ := Out.bind_eq_ok.1 hr
          cases hr
          have h5 := (ih (u :: us) (s.pre :: ps)).2 r' h4 a w
          rw [List.mem_cons, Prod.mk.injEq, h5]
          constructor
          · rintro (⟨rfl, rfl⟩ | ⟨m, hm, h⟩)
            · exact ⟨n, List.mem_cons_self, hw, s, hp, rfl, hu⟩
            · exact ⟨m, List.mem_cons_of_mem _ hm, h⟩
          · rintro ⟨m, hm, hwm, t, ht, rfl, hn⟩
            rcases List.mem_cons.1 hm with rfl | hm
            · rw [hp] at ht
              cases ht
              exact .inl ⟨rfl, Out.ok.inj ((choose_iff.2 hn).symm.trans (choose_iff.2 hu))⟩
            · exact .inr ⟨m, hm, hwm, t, ht, rfl, hn⟩
    · have hf : withExt o.list n = false := by rw [← Bool.not_eq_true, withExt_iff]; exact hw
      have he : nsLoop P o us ps (n :: ns) = nsLoop P o us ps ns := by simp [nsLoop, hf]
      have hA : ∀ m, Apart P o n m := fun m h => absurd h hw
      rw [he]
      refine ⟨?_, ?_⟩
      · rw [(ih us ps).1, List.pairwise_cons]
        simp only [List.forall_mem_cons]
        simp [hA, hw]
      · intro r hr a u
        rw [(ih us ps).2 r hr]
        simp [hw]

/-- **C80.**  The namespaces can be declared exactly when every serializer of the extensions of the network that are asked for has one for the version that is asked for,
and when no two of them have the same prefix or the same namespace.  All of them are then declared, and nothing else. -/
theorem namespaces_iff (nm : X → String) (P : Providers ε X) (o : WOpts) (hs : List (Holder X)) :
    ((∃ r, namespaces nm P o hs = .ok r) ↔
      (∀ n, Present nm o hs n → ∀ s, P.get? n = some s → ∃ u, NsUri (o.version n) o.net u s.uris) ∧
      ∀ n m, n ≠ m → Present nm o hs n → Present nm o hs m → ∀ s t, P.get? n = some s → P.get? m = some t →
        s.pre ≠ t.pre ∧ ∀ u v, NsUri (o.version n) o.net u s.uris → NsUri (o.version m) o.net v t.uris → u ≠ v) ∧
    ∀ r, namespaces nm P o hs = .ok r → ∀ a u, (a, u) ∈ r ↔ ∃ n s, Present nm o hs n ∧ P.get? n = some s ∧ s.pre = a ∧ NsUri (o.version n) o.net u s.uris := by
  obtain ⟨h1, h2⟩ := nsLoop_iff P o (extNames nm hs) [] []
  unfold namespaces
  constructor
  · rw [h1]
    constructor
    · rintro ⟨g1, g2⟩
      refine ⟨fun n hn s hs' => ?_, fun n m hnm hn hm s t h3 h4 => ?_⟩
      · obtain ⟨hm, hw⟩ := mem_extNames.2 hn
        obtain ⟨-, u, hu, -⟩ := g1 n hm hw s hs'
        exact ⟨u, hu⟩
      · obtain ⟨n1, n2⟩ := mem_extNames.2 hn
        obtain ⟨m1, m2⟩ := mem_extNames.2 hm
        have hsym : ∀ {a b}, Apart P o a b → Apart P o b a := fun h w1 w2 s t q1 q2 =>
          ⟨fun h' => (h w2 w1 t s q2 q1).1 h'.symm, fun u v q3 q4 h' => (h w2 w1 t s q2 q1).2 v u q4 q3 h'.symm⟩
        have : ∀ l : List String, l.Pairwise (Apart P o) → n ∈ l → m ∈ l → Apart P o n m := by
          intro l
          induction l with
          | nil => intro _ h; cases h
          | cons a l ih =>
            intro hp hn hm
            obtain ⟨p1, p2⟩ := List.pairwise_cons.1 hp
            rcases List.mem_cons.1 hn with rfl | hn' <;> rcases List.mem_cons.1 hm with rfl | hm'
            · exact absurd rfl hnm
            · exact p1 _ hm'
            · exact hsym (p1 _ hn')
            · exact ih p2 hn' hm'
        exact this _ g2 n1 m1 n2 m2 s t h3 h4
    · rintro ⟨g1, g2⟩
      refine ⟨fun n hn hw s hs' => ⟨by simp, ?_⟩, ?_⟩
      · obtain ⟨u, hu⟩ := g1 n (mem_extNames.1 ⟨hn, hw⟩) s hs'
        exact ⟨u, hu, by simp⟩
      · refine (uniq_nodup _).imp_of_mem fun {n m} hn hm hnm w1 w2 s t h3 h4 => ?_
        exact g2 n m hnm (mem_extNames.1 ⟨hn, w1⟩) (mem_extNames.1 ⟨hm, w2⟩) s t h3 h4
  · intro r hr a u
    rw [h2 r hr]
    constructor
    · rintro ⟨n, hn, hw, s, h⟩
      exact ⟨n, s, mem_extNames.1 ⟨hn, hw⟩, h⟩
    · rintro ⟨n, s, hn, h⟩
      obtain ⟨m1, m2⟩ := mem_extNames.2 hn
      exact ⟨n, m1, m2, s, h⟩

/-! ### Writing -/

theorem writeOne_iff {nm : X → String} {P : Providers ε X} {o : WOpts} {x : X} : (∃ cs, writeOne nm P o x = .ok cs) ↔ Writable nm P o x := by
  unfold writeOne pick Writable
  cases hp : P.get? (nm x) with
  | none => cases o.strict <;> simp [Out.monad_bind_ok]
  | some s =>
    have hrest : (∃ cs, (if o.version (nm x) ≠ "" then (do
          let _ ← s.uris.supported (o.version (nm x))
          let p ← s.write x
          .ok (elemCmds (nm x) p.1 p.2))
        else (do
          let p ← s.write x
          .ok (elemCmds (nm x) p.1 p.2)) : Out (List Cmd)) = .ok cs) ↔ (o.version (nm x) = "" ∨ Supports (o.version (nm x)) s.uris) ∧ ∃ p, s.write x = .ok p := by
      by_cases hv : o.version (nm x) = ""
      · rw [if_neg (by simpa using hv)]
        constructor
        · rintro ⟨cs, h⟩
          obtain ⟨p, h2, -⟩ := Out.bind_eq_ok.1 h
          exact ⟨.inl hv, p, h2⟩
        · rintro ⟨-, p, h2⟩
          rw [h2]
          exact ⟨_, rfl⟩
      · rw [if_pos hv]
        constructor
        · rintro ⟨cs, h⟩
          obtain ⟨_, h1, h⟩ := Out.bind_eq_ok.1 h
          obtain ⟨p, h2, -⟩ := Out.bind_eq_ok.1 h
          exact ⟨.inr (supported_iff.1 h1), p, h2⟩
        · rintro ⟨h1, p, h2⟩
          rw [supported_iff.2 (h1.resolve_left hv), h2]
          exact ⟨_, rfl⟩
    cases hst : o.strict with
    | true =>
      simp only [if_true, Out.monad_bind_ok]
      rw [hrest]
      simp
    | false =>
      simp only [Bool.false_eq_true, if_false, Out.monad_bind_ok]
      by_cases hser : s.serializable x = true
      · rw [if_pos hser]
        simp only
        rw [hrest]
        simp [hser]
      · rw [if_neg hser]
        simp [hser]

theorem writeList_iff {α : Type} {w : α → Out (List Cmd)} : ∀ l : List α, (∃ cs, writeList w l = .ok cs) ↔ ∀ x ∈ l, ∃ c, w x = .ok c := by
  intro l
  induction l with
  | nil => simp [writeList]
  | cons x l ih =>
    rw [List.forall_mem_cons, ← ih]
    constructor
    · rintro ⟨cs, h⟩
      obtain ⟨c, h1, h⟩ := Out.bind_eq_ok.1 h
      obtain ⟨d, h2, -⟩ := Out.bind_eq_ok.1 h
      exact ⟨⟨c, h1⟩, d, h2⟩
    · rintro ⟨⟨c, h1⟩, d, h2⟩
      exact ⟨c ++ d, by simp only [writeList, h1, h2, Out.monad_bind_ok]⟩

/-- **C80.**  The extensions are written exactly when every extension that the document has to carry can be written: one that cannot is not left out, it makes the export
fail. -/
theorem section_written_iff (A : Anon) (nm : X → String) (P : Providers ε X) (o : WOpts) (hs : List (Holder X)) :
    (∃ cs, writeSection A nm P o hs = .ok cs) ↔ ∀ p ∈ carried nm o hs, Writable nm P o p.2 := by
  unfold writeSection
  rw [writeList_iff]
  have : ∀ h : Holder X, (∃ c, writeHolder A nm P o h = .ok c) ↔ ∀ x ∈ h.written nm o, Writable nm P o x := by
    intro h
    rw [writeHolder_eq]
    by_cases hw : h.written nm o = []
    · rw [if_pos hw, hw]; simp
    · rw [if_neg hw]
      have : (∃ c, (writeList (writeOne nm P o) (h.written nm o)).map (fun c => elemCmds "extension" [("id", A.anon h.id)] c) = .ok c) ↔ ∃ c, writeList (writeOne nm P o) (h.written nm o) = .ok c := by
        cases writeList (writeOne nm P o) (h.written nm o) <;> simp [Out.map]
      rw [this, writeList_iff]
      simp only [writeOne_iff]
  constructor
  · rintro h ⟨i, x⟩ hp
    simp only [carried, List.mem_flatMap, List.mem_map, Prod.mk.injEq] at hp
    obtain ⟨g, hg, z, hz, -, rfl⟩ := hp
    exact (this g).1 (h g hg) z hz
  · intro h g hg
    refine (this g).2 fun x hx => h (g.id, x) ?_
    simp only [carried, List.mem_flatMap, List.mem_map]
    exact ⟨g, hg, x, hx, rfl⟩

/-! ### Reading -/

def takePairs (nm : X → String) (Q : Providers ε X) (r : ROpts) (y : String → X → Out X) : List (String × X) → Sect X → Out (Sect X)
  | [], s => .ok s
  | p :: l, s => (take1 nm Q r p.1 p.2 (y p.1 p.2) s).bind (takePairs nm Q r y l)

theorem takePairs_append {nm : X → String} {Q : Providers ε X} {r : ROpts} {y : String → X → Out X} : ∀ (l m : List (String × X)) (s : Sect X),
    takePairs nm Q r y (l ++ m) s = (takePairs nm Q r y l s).bind (takePairs nm Q r y m) := by
  intro l
  induction l with
  | nil => intro m s; rfl
  | cons p l ih =>
    intro m s
    simp only [List.cons_append, takePairs]
    cases take1 nm Q r p.1 p.2 (y p.1 p.2) s with
    | ok s' => exact ih m s'
    | thrown => rfl
    | ub => rfl

theorem takeAll_pairs {nm : X → String} {Q : Providers ε X} {r : ROpts} {y : String → X → Out X} (id : String) : ∀ (xs : List X) (s : Sect X),
    takeAll nm Q r id (y id) xs s = takePairs nm Q r y (xs.map fun x => (id, x)) s := by
  intro xs
  induction xs with
  | nil => intro s; rfl
  | cons x xs ih =>
    intro s
    simp only [takeAll, List.map_cons, takePairs]
    cases take1 nm Q r id x (y id x) s with
    | ok s' => exact ih s'
    | thrown => rfl
    | ub => rfl

theorem takeSection_pairs {nm : X → String} {Q : Providers ε X} {o : WOpts} {r : ROpts} {y : String → X → Out X} : ∀ (hs : List (Holder X)) (s : Sect X),
    takeSection nm Q o r y hs s = takePairs nm Q r y (carried nm o hs) s := by
  intro hs
  induction hs with
  | nil => intro s; rfl
  | cons h hs ih =>
    intro s
    simp only [takeSection, carried, List.flatMap_cons]
    rw [takePairs_append, takeAll_pairs]
    cases takePairs nm Q r y ((h.written nm o).map fun x => (h.id, x)) s with
    | ok s' => exact ih s'
    | thrown => rfl
    | ub => rfl

theorem mem_insertName {n m : String} {l : List String} : n ∈ insertName m l ↔ n ∈ l ∨ n = m := by
  unfold insertName
  split
  · rename_i h
    rw [List.contains_iff_mem] at h
    constructor
    · exact .inl
    · rintro (h' | rfl)
      · exact h'
      · exact h
  · simp

/-- The extension is asked for by the reader, which has a serializer for it. -/
def Known (nm : X → String) (Q : Providers ε X) (r : ROpts) (x : X) : Prop := Wanted r.list (nm x) ∧ (Q.get? (nm x)).isSome = true

instance (nm : X → String) (Q : Providers ε X) (r : ROpts) (x : X) : Decidable (Known nm Q r x) := inferInstanceAs (Decidable (_ ∧ _))

/-- The extension is asked for by the reader, which has no serializer for it. -/
def Missed (nm : X → String) (Q : Providers ε X) (r : ROpts) (x : X) : Prop := Wanted r.list (nm x) ∧ Q.get? (nm x) = none

theorem take1_cases (nm : X → String) (Q : Providers ε X) (r : ROpts) (id : String) (x : X) (y : Out X) (s : Sect X) :
    (Known nm Q r x ∧ take1 nm Q r id x y s = y.map fun z => { s with got := s.got ++ [(id, z)] }) ∨
    (Missed nm Q r x ∧ ¬ Known nm Q r x ∧ take1 nm Q r id x y s = .ok { s with missing := insertName (nm x) s.missing }) ∨
    (¬ Known nm Q r x ∧ ¬ Missed nm Q r x ∧ take1 nm Q r id x y s = .ok s) := by
  unfold take1 Known Missed
  by_cases hw : Wanted r.list (nm x)
  · cases hq : Q.get? (nm x) with
    | none => simp [hw]
    | some q => simp [hw]
  · simp [hw]

theorem pairs_missing {nm : X → String} {Q : Providers ε X} {r : ROpts} {y : String → X → Out X} : ∀ (l : List (String × X)) (s s' : Sect X), takePairs nm Q r y l s = .ok s' →
    ∀ n, n ∈ s'.missing ↔ n ∈ s.missing ∨ ∃ p ∈ l, Missed nm Q r p.2 ∧ nm p.2 = n := by
  intro l
  induction l with
  | nil => intro s s' h n; cases h; simp
  | cons p l ih =>
    intro s s' h n
    obtain ⟨s1, h1, h2⟩ := Out.bind_eq_ok.1 h
    rw [ih s1 s' h2 n]
    have hcons : (∃ q ∈ p :: l, Missed nm Q r q.2 ∧ nm q.2 = n) ↔ (Missed nm Q r p.2 ∧ nm p.2 = n) ∨ ∃ q ∈ l, Missed nm Q r q.2 ∧ nm q.2 = n := by simp
    rw [hcons]
    rcases take1_cases nm Q r p.1 p.2 (y p.1 p.2) s with ⟨hk, ht⟩ | ⟨hm, -, ht⟩ | ⟨-, hm, ht⟩
    · have hnm : ¬ Missed nm Q r p.2 := fun hm => by
        have := hk.2
        rw [hm.2] at this
        cases this
      rw [ht] at h1
      cases hy : y p.1 p.2 with
      | ok z => rw [hy] at h1; cases h1; simp [hnm]
      | thrown => rw [hy] at h1; cases h1
      | ub => rw [hy] at h1; cases h1
    · rw [ht] at h1
      cases h1
      simp only [mem_insertName, hm, true_and, or_assoc, eq_comm]
    · rw [ht] at h1
      cases h1
      simp [hm]

theorem pairs_ok {nm : X → String} {Q : Providers ε X} {r : ROpts} {y : String → X → Out X} {z : String → X → X} : ∀ (l : List (String × X)) (s : Sect X),
    (∀ p ∈ l, Known nm Q r p.2 → y p.1 p.2 = .ok (z p.1 p.2)) →
    ∃ s', takePairs nm Q r y l s = .ok s' ∧ s'.got = s.got ++ (l.filter fun p => decide (Known nm Q r p.2)).map fun p => (p.1, z p.1 p.2) := by
  intro l
  induction l with
  | nil => intro s _; exact ⟨s, rfl, by simp⟩
  | cons p l ih =>
    intro s hy
    have hl := fun s => ih s fun q hq => hy q (List.mem_cons_of_mem _ hq)
    simp only [takePairs]
    rcases take1_cases nm Q r p.1 p.2 (y p.1 p.2) s with ⟨hk, ht⟩ | ⟨-, hk, ht⟩ | ⟨hk, -, ht⟩
    · rw [ht, hy p List.mem_cons_self hk]
      obtain ⟨s', h1, h2⟩ := hl { s with got := s.got ++ [(p.1, z p.1 p.2)] }
      exact ⟨s', h1, by rw [h2, List.filter_cons_of_pos (by simpa using hk)]; simp⟩
    · rw [ht]
      obtain ⟨s', h1, h2⟩ := hl { s with missing := insertName (nm p.2) s.missing }
      exact ⟨s', h1, by rw [h2, List.filter_cons_of_neg (by simpa using hk)]⟩
    · rw [ht]
      obtain ⟨s', h1, h2⟩ := hl s
      exact ⟨s', h1, by rw [h2, List.filter_cons_of_neg (by simpa using hk)]⟩

theorem pairs_defined {nm : X → String} {Q : Providers ε X} {r : ROpts} {y : String → X → Out X} : ∀ (l : List (String × X)) (s : Sect X),
    (∀ p ∈ l, Known nm Q r p.2 → y p.1 p.2 ≠ .ub) →
    takePairs nm Q r y l s ≠ .ub ∧ ((∃ p ∈ l, Known nm Q r p.2 ∧ y p.1 p.2 = .thrown) → takePairs nm Q r y l s = .thrown) := by
  intro l
  induction l with
  | nil => intro s _; simp [takePairs]
  | cons p l ih =>
    intro s hy
    have hl := fun s => ih s fun q hq => hy q (List.mem_cons_of_mem _ hq)
    have hcons : (∃ q ∈ p :: l, Known nm Q r q.2 ∧ y q.1 q.2 = .thrown) ↔ (Known nm Q r p.2 ∧ y p.1 p.2 = .thrown) ∨ ∃ q ∈ l, Known nm Q r q.2 ∧ y q.1 q.2 = .thrown := by simp
    rw [hcons]
    simp only [takePairs]
    rcases take1_cases nm Q r p.1 p.2 (y p.1 p.2) s with ⟨hk, ht⟩ | ⟨-, hk, ht⟩ | ⟨hk, -, ht⟩
    · rw [ht]
      have := hy p List.mem_cons_self hk
      cases hyp : y p.1 p.2 with
      | ub => exact absurd hyp this
      | thrown => simp [Out.map, Out.bind]
      | ok z =>
        simp only [Out.map, Out.bind_ok]
        refine ⟨(hl _).1, ?_⟩
        rintro (⟨-, h⟩ | h)
        · cases h
        · exact (hl _).2 h
    · rw [ht]
      refine ⟨(hl _).1, ?_⟩
      rintro (⟨h, -⟩ | h)
      · exact absurd h hk
      · exact (hl _).2 h
    · rw [ht]
      refine ⟨(hl _).1, ?_⟩
      rintro (⟨h, -⟩ | h)
      · exact absurd h hk
      · exact (hl _).2 h

end Verif.ExtNet
