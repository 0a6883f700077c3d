import Verif.Adders.Props

/-! Property C29 over histories of additions and removals. -/

namespace Verif.Adders

open Verif

/-- A call. -/
inductive Op where
  | injection (o : Order) (valid ensure : Bool) (id vl : String) (a : Args)
  | multi (valid ensure : Bool) (id : String) (sub : Option String) (ends : List (String × Args))
  | other (valid ensure : Bool) (id : String)
  | vl (valid ensure : Bool) (id sub : String) (nodeBreaker : Bool)
  | bus (ensure : Bool) (id vl : String)
  | switch (ensure : Bool) (id vl : String) (n1 n2 : Nat)
  | remove (debug : Bool) (id : String)
  deriving Repr

/-- The network after a call. -/
def after (s : Net) : Op → Net
  | .injection o valid ensure id vl a => (addInjection s o valid ensure id vl a).2
  | .multi valid ensure id sub ends => (addMulti s valid ensure id sub ends).2
  | .other valid ensure id => (addOther s valid ensure id).2
  | .vl valid ensure id sub nb => (addVL s valid ensure id sub nb).2
  | .bus ensure id vl => (addBus s ensure id vl).2
  | .switch ensure id vl n1 n2 => (addSwitch s ensure id vl n1 n2).2
  | .remove debug id => (remove s debug id).2

def init : Net := ⟨[], [], []⟩

/-- A history of calls, whether they throw or not. -/
inductive Reach : Net → Prop where
  | init : Reach init
  | step {s : Net} (op : Op) : Reach s → Reach (after s op)

theorem inv_init : Inv init := by
  refine ⟨?_, ?_, ?_, ?_⟩
  · intro vl k x hx; cases hx
  · intro vl k; simp [listed, init]
  · intro vl v hv; cases hv
  · intro vl v bs b hv; cases hv

theorem all_init : All init := ⟨fun id terms i vl p h => (by cases h), fun id terms h => (by cases h)⟩

/-- The insertion of a new equipment, before its terminals are attached. -/
theorem inv_insert {s : Net} (hi : Inv s) {n : String} (hn : n ∉ used s) (l : List (String × Place)) : Inv { s with equips := s.equips.set n l } := by
  refine ⟨?_, hi.once, hi.wf, hi.buses⟩
  intro vl k x hx
  obtain ⟨terms, p, h1, h2, h3⟩ := hi.owner vl k x hx
  refine ⟨terms, p, ?_, h2, h3⟩
  simp only [AMap.get?_set]
  rw [if_neg]
  · exact h1
  · rintro rfl
    rw [fresh_equips hn] at h1
    cases h1

theorem fresh_not_listed {s : Net} (hi : Inv s) {n : String} (hn : n ∉ used s) (j : Nat) (vl : String) (k : Nat ⊕ String) : (n, j) ∉ listed s vl k := by
  intro hx
  obtain ⟨terms, p, h1, _⟩ := hi.owner vl k _ hx
  rw [fresh_equips hn] at h1
  cases h1

theorem inv_attachAll {s : Net} (hi : Inv s) {n : String} (hn : n ∉ used s) (l : List (String × Place)) :
    Inv (attachAll { s with equips := s.equips.set n l } n 0 l).2 := by
  refine attachAll_inv n l l _ 0 (inv_insert hi hn l) ?_ (by simp) ?_
  · simp [AMap.get?_set]
  · intro j _ vl k
    exact fresh_not_listed hi hn j vl k

theorem inv_injection {s : Net} (hi : Inv s) (o : Order) (valid ensure : Bool) (id vl : String) (a : Args) : Inv (addInjection s o valid ensure id vl a).2 := by
  by_cases hv : s.vls.get? vl = none
  · unfold addInjection; rw [if_pos hv]; exact hi
  obtain ⟨h1, h2, h3⟩ := injection_refused s o valid ensure id vl a hv
  cases valid with
  | false => rw [h1 (.inl rfl)]; exact hi
  | true =>
    cases hn : newId s ensure id with
    | none => rw [h1 (.inr (.inl hn))]; exact hi
    | some n =>
      have hfr := newId_fresh hn
      by_cases hp : ∃ p, Wanted a p
      · obtain ⟨p, hp⟩ := hp
        by_cases hf : Fit s vl p
        · have hb := (terminal_spec a p).2 hp
          have key : (addInjection s o true ensure id vl a).2 = (attachAll { s with equips := s.equips.set n [(vl, p)] } n 0 [(vl, p)]).2 := by
            have hok := (attach_ok_iff { s with equips := s.equips.set n [(vl, p)] } (n, 0) vl p).2 hf
            unfold addInjection
            rw [if_neg hv]
            rcases h : attach { s with equips := s.equips.set n [(vl, p)] } (n, 0) vl p with ⟨r, t⟩
            rw [h] at hok
            cases hok
            cases o <;> simp [hb, hn, finishInjection, attachAll, h]
          rw [key]
          exact inv_attachAll hi hfr _
        · rw [h3 n p rfl hn hp hf]; exact inv_insert hi hfr _
      · have hp' : ∀ p, ¬ Wanted a p := fun p h => hp ⟨p, h⟩
        cases o with
        | terminalFirst => rw [h1 (.inr (.inr ⟨rfl, hp'⟩))]; exact hi
        | terminalLast => rw [h2 n rfl hn rfl hp']; exact inv_insert hi hfr _

theorem inv_multi {s : Net} (hi : Inv s) (valid ensure : Bool) (id : String) (sub : Option String) (ends : List (String × Args)) :
    Inv (addMulti s valid ensure id sub ends).2 := by
  cases valid with
  | false => exact hi
  | true =>
    rcases multi_cases s ensure id sub ends with e | ⟨l, n, hl, hd, hn, e⟩
    · rw [e]; exact hi
    · rw [e]; exact inv_attachAll hi (newId_fresh hn) l

theorem inv_other {s : Net} (hi : Inv s) (valid ensure : Bool) (id : String) : Inv (addOther s valid ensure id).2 := by
  unfold addOther
  split
  · exact hi
  · split
    · exact hi
    · exact ⟨hi.owner, hi.once, hi.wf, fun vl v bs b h1 h2 h3 => List.mem_cons_of_mem _ (hi.buses vl v bs b h1 h2 h3)⟩

theorem fresh_vls {s : Net} {n : String} (h : n ∉ used s) : s.vls.get? n = none := by
  rw [AMap.get?_eq_none_iff]
  intro hk
  apply h
  unfold used
  exact List.mem_append_left _ (List.mem_append_right _ hk)

theorem fresh_others {s : Net} {n : String} (h : n ∉ used s) : n ∉ s.others := fun hk => h (List.mem_append_right _ hk)

/-- A new topology for a voltage level, with the same terminals. -/
theorem inv_topo {s : Net} (hi : Inv s) (hall : Prop) (ha : hall → All s) {vl : String} {v' : VL} {o' : List String} (hsub : ∀ b, b ∈ s.others → b ∈ o')
    (hobj : ∀ k, objectsAt v'.topo k = listed s vl k) (hwf : topoWF v'.topo)
    (hb : ∀ bs b, v'.topo = .busBreaker bs → bs.get? b ≠ none → b ∈ o') :
    Inv { s with vls := s.vls.set vl v', others := o' } ∧ (hall → All { s with vls := s.vls.set vl v', others := o' }) := by
  have hl : ∀ vl' k, listed { s with vls := s.vls.set vl v', others := o' } vl' k = listed s vl' k := by
    intro vl' k
    by_cases e : vl = vl'
    · subst e
      rw [← hobj k]
      simp [listed, AMap.get?_set]
    · simp [listed, AMap.get?_set, e]
  refine ⟨⟨?_, ?_, ?_, ?_⟩, ?_⟩
  · intro vl' k x hx
    rw [hl] at hx
    exact hi.owner vl' k x hx
  · intro vl' k
    rw [hl]
    exact hi.once vl' k
  · intro vl' v hv
    simp only [AMap.get?_set] at hv
    split at hv
    · cases hv; exact hwf
    · exact hi.wf vl' v hv
  · intro vl' v bs b hv ht hne
    simp only [AMap.get?_set] at hv
    split at hv
    · cases hv; exact hb bs b ht hne
    · exact hsub _ (hi.buses vl' v bs b hv ht hne)
  · intro h
    refine ⟨?_, (ha h).ne⟩
    intro id terms i vl' p h1 h2
    rw [hl]
    exact (ha h).att id terms i vl' p h1 h2

theorem inv_vl {s : Net} (hi : Inv s) (valid ensure : Bool) (id sub : String) (nb : Bool) :
    Inv (addVL s valid ensure id sub nb).2 ∧ (All s → All (addVL s valid ensure id sub nb).2) := by
  unfold addVL
  split
  · exact ⟨hi, fun h => h⟩
  · split
    · exact ⟨hi, fun h => h⟩
    · rename_i n hn
      have hv := fresh_vls (newId_fresh hn)
      refine inv_topo hi (All s) (fun h => h) (o' := s.others) (fun _ h => h) ?_ ?_ ?_
      · intro k
        cases nb <;> cases k <;> simp [objectsAt, listed, hv, asList]
      · cases nb <;> simp [topoWF]
      · intro bs b h1 h2
        cases nb
        · simp only [Bool.false_eq_true, if_false, Topo.busBreaker.injEq] at h1
          subst h1
          simp at h2
        · simp at h1

theorem inv_bus {s : Net} (hi : Inv s) (ensure : Bool) (id vl : String) : Inv (addBus s ensure id vl).2 ∧ (All s → All (addBus s ensure id vl).2) := by
  unfold addBus
  cases hv : s.vls.get? vl with
  | none => exact ⟨hi, fun h => h⟩
  | some v =>
    cases hn : newId s ensure id with
    | none => exact ⟨hi, fun h => h⟩
    | some n =>
      simp only
      cases hb : busTopo v.topo n with
      | none => exact ⟨hi, fun h => h⟩
      | some t =>
        cases ht : v.topo with
        | nodeBreaker nodes touched => rw [ht] at hb; cases hb
        | busBreaker buses =>
          rw [ht] at hb
          cases hb
          have hwf := hi.wf vl v hv
          rw [ht] at hwf
          have hnb : buses.get? n = none := by
            cases e : buses.get? n with
            | none => rfl
            | some l => exact absurd (hi.buses vl v buses n hv ht (by rw [e]; simp)) (fresh_others (newId_fresh hn))
          refine inv_topo hi (All s) (fun h => h) (fun _ h => List.mem_cons_of_mem _ h) ?_ (AMap.nodupKeys_set hwf _ _) ?_
          · intro k
            simp only [listed, hv, ht]
            cases k with
            | inl m => rfl
            | inr b =>
              simp only [objectsAt, AMap.get?_set]
              by_cases e : n = b
              · subst e; simp [hnb]
              · simp [e]
          · intro bs b h1 h2
            cases h1
            simp only [AMap.get?_set] at h2
            split at h2
            · rename_i e; subst e; exact List.mem_cons_self
            · exact List.mem_cons_of_mem _ (hi.buses vl v buses b hv ht h2)

theorem ensureVertex_spec {nodes : AMap Nat (Option TermId)} (h : nodes.NodupKeys) (n : Nat) :
    (ensureVertex nodes n).NodupKeys ∧ ∀ m, asList ((ensureVertex nodes n).get? m) = asList (nodes.get? m) := by
  unfold ensureVertex
  cases e : nodes.get? n with
  | some _ => exact ⟨h, fun _ => rfl⟩
  | none =>
    refine ⟨AMap.nodupKeys_set h _ _, ?_⟩
    intro m
    simp only [AMap.get?_set]
    by_cases e' : n = m
    · subst e'; simp [e, asList]
    · simp [e']

theorem inv_switch {s : Net} (hi : Inv s) (ensure : Bool) (id vl : String) (n1 n2 : Nat) :
    Inv (addSwitch s ensure id vl n1 n2).2 ∧ (All s → All (addSwitch s ensure id vl n1 n2).2) := by
  unfold addSwitch
  cases hv : s.vls.get? vl with
  | none => exact ⟨hi, fun h => h⟩
  | some v =>
    cases hn : newId s ensure id with
    | none => exact ⟨hi, fun h => h⟩
    | some n =>
      simp only
      cases hb : switchTopo v.topo n1 n2 with
      | none => exact ⟨hi, fun h => h⟩
      | some t =>
        cases ht : v.topo with
        | busBreaker buses => rw [ht] at hb; cases hb
        | nodeBreaker nodes touched =>
          rw [ht] at hb
          cases hb
          have hwf := hi.wf vl v hv
          rw [ht] at hwf
          obtain ⟨w1, l1⟩ := ensureVertex_spec hwf n1
          obtain ⟨w2, l2⟩ := ensureVertex_spec w1 n2
          refine inv_topo hi (All s) (fun h => h) (fun _ h => List.mem_cons_of_mem _ h) ?_ w2 ?_
          · intro k
            simp only [listed, hv, ht]
            cases k with
            | inl m => simp only [objectsAt]; rw [l2, l1]
            | inr b => rfl
          · intro bs b h1
            cases h1

theorem inv_remove {s : Net} (hi : Inv s) (debug : Bool) (id : String) : Inv (remove s debug id).2 := by
  unfold remove
  cases h : s.equips.get? id with
  | none => exact hi
  | some terms =>
    cases terms with
    | nil => exact hi
    | cons e r =>
      simp only
      obtain ⟨a, b, c⟩ := detachAll_inv debug id (e :: r) s [] hi h (fun j hj => absurd hj (Nat.not_lt_zero j))
      rcases hd : detachAll debug s id [] (e :: r) with ⟨o, t⟩
      rw [hd] at a b c
      cases o with
      | thrown => exact a
      | ub => exact a
      | ok u =>
        simp only
        refine ⟨?_, a.once, a.wf, a.buses⟩
        intro vl k x hx
        have hx : x ∈ listed t vl k := hx
        obtain ⟨terms, p, h1, h2, h3⟩ := a.owner vl k x hx
        refine ⟨terms, p, ?_, h2, h3⟩
        simp only [AMap.get?_erase]
        rw [if_neg]
        · exact h1
        · rintro rfl
          exact c rfl x.2 vl k hx

/-- **C29**: after every history, a terminal listed at a node or bus belongs to an equipment found in the network, is the terminal of that rank of the equipment and is
    listed where this terminal says, once. -/
theorem listed_is_owned {s : Net} (h : Reach s) : Inv s := by
  induction h with
  | init => exact inv_init
  | step op _ ih =>
    cases op with
    | injection o valid ensure id vl a => exact inv_injection ih o valid ensure id vl a
    | multi valid ensure id sub ends => exact inv_multi ih valid ensure id sub ends
    | other valid ensure id => exact inv_other ih valid ensure id
    | vl valid ensure id sub nb => exact (inv_vl ih valid ensure id sub nb).1
    | bus ensure id vl => exact (inv_bus ih ensure id vl).1
    | switch ensure id vl n1 n2 => exact (inv_switch ih ensure id vl n1 n2).1
    | remove debug id => exact inv_remove ih debug id

/-! ### Histories in which terminals fit -/

/-- The terminals of the additions fit: wanted terminals on free nodes or existing buses. -/
def Guard (s : Net) : Op → Prop
  | .injection o _ _ _ vl a => s.vls.get? vl ≠ none ∧ (∀ p, Wanted a p → Fit s vl p) ∧ (o = .terminalLast → ∃ p, Wanted a p)
  | .multi _ _ _ sub ends => ends ≠ [] ∧ ∀ l, resolveAll s sub ends = some l → Fits s l
  | _ => True

inductive Careful : Net → Prop where
  | init : Careful init
  | step {s : Net} (op : Op) : Careful s → Guard s op → Careful (after s op)

theorem careful_reach {s : Net} (h : Careful s) : Reach s := by
  induction h with
  | init => exact .init
  | step op _ _ ih => exact .step op ih

theorem resolveAll_ne {s : Net} {sub : Option String} {ends : List (String × Args)} {l : List (String × Place)} (h : resolveAll s sub ends = some l) (hne : ends ≠ []) : l ≠ [] := by
  cases ends with
  | nil => exact absurd rfl hne
  | cons e r =>
    unfold resolveAll at h
    split at h
    · cases h
    · split at h
      · cases h
      · cases h; simp

/-- The removal of an equipment whose terminals are attached. -/
theorem remove_attached {s : Net} (hi : Inv s) (ha : All s) (debug : Bool) {id : String} (h : s.equips.get? id ≠ none) :
    (remove s debug id).1 = .ok () ∧ (∀ id', (remove s debug id).2.equips.get? id' = if id = id' then none else s.equips.get? id') ∧ All (remove s debug id).2 := by
  cases ht : s.equips.get? id with
  | none => exact absurd ht h
  | some terms =>
    cases terms with
    | nil => exact absurd rfl (ha.ne id [] ht)
    | cons e r =>
      obtain ⟨_, b, _⟩ := detachAll_inv debug id (e :: r) s [] hi ht (fun j hj => absurd hj (Nat.not_lt_zero j))
      obtain ⟨hok, hkeep⟩ := detachAll_ok debug id (e :: r) s [] hi ht (by
        intro j vl p hj
        simp only [List.length_nil, Nat.zero_add]
        exact ha.att id (e :: r) j vl p ht hj)
      unfold remove
      rw [ht]
      simp only
      rcases hd : detachAll debug s id [] (e :: r) with ⟨o, t⟩
      rw [hd] at b hok hkeep
      cases hok
      have hg : ∀ id', AMap.get? (AMap.erase t.equips id) id' = if id = id' then none else s.equips.get? id' := by
        intro id'
        rw [AMap.get?_erase]
        split
        · rfl
        · rename_i hne; exact b id' (fun e => hne e.symm)
      refine ⟨rfl, hg, ?_, ?_⟩
      · intro id' terms i vl p h1 h2
        simp only at h1
        rw [hg] at h1
        split at h1
        · cases h1
        · rename_i hne
          exact hkeep vl p.key (id', i) (fun e => hne e.symm) (ha.att id' terms i vl p h1 h2)
      · intro id' terms h1
        simp only at h1
        rw [hg] at h1
        split at h1
        · cases h1
        · exact ha.ne id' terms h1

theorem all_careful {s : Net} (h : Careful s) : All s := by
  induction h with
  | init => exact all_init
  | @step s op hc hg ih =>
    have hi := listed_is_owned (careful_reach hc)
    cases op with
    | injection o valid ensure id vl a =>
      obtain ⟨hv, hfit, hlast⟩ := hg
      show All (addInjection s o valid ensure id vl a).2
      cases valid with
      | false => rw [(injection_refused s o false ensure id vl a hv).1 (.inl rfl)]; exact ih
      | true =>
        cases hn : newId s ensure id with
        | none => rw [(injection_refused s o true ensure id vl a hv).1 (.inr (.inl hn))]; exact ih
        | some n =>
          by_cases hp : ∃ p, Wanted a p
          · obtain ⟨p, hp⟩ := hp
            obtain ⟨t, e, he, _, hl⟩ := injection_added (o := o) hn hp (hfit p hp)
            rw [e]
            refine ⟨?_, ?_⟩
            · intro id' terms i vl' p' h1 h2
              simp only at h1 ⊢
              rw [he] at h1
              rw [hl]
              split at h1
              · rename_i e'
                subst e'
                cases h1
                cases i with
                | zero =>
                  simp only [List.getElem?_cons_zero, Option.some.injEq, Prod.mk.injEq] at h2
                  obtain ⟨rfl, rfl⟩ := h2
                  simp
                | succ i => simp at h2
              · have := ih.att id' terms i vl' p' h1 h2
                split
                · exact List.mem_append_left _ this
                · exact this
            · intro id' terms h1
              simp only at h1
              rw [he] at h1
              split at h1
              · cases h1; simp
              · exact ih.ne id' terms h1
          · have hp' : ∀ p, ¬ Wanted a p := fun p h => hp ⟨p, h⟩
            cases o with
            | terminalFirst => rw [(injection_refused s .terminalFirst true ensure id vl a hv).1 (.inr (.inr ⟨rfl, hp'⟩))]; exact ih
            | terminalLast => exact absurd (hlast rfl) hp
    | multi valid ensure id sub ends =>
      obtain ⟨hne, hfit⟩ := hg
      show All (addMulti s valid ensure id sub ends).2
      cases valid with
      | false => exact ih
      | true =>
        rcases multi_cases s ensure id sub ends with e | ⟨l, n, hl, _, hn, e⟩
        · rw [e]; exact ih
        · obtain ⟨t, e', he, hat, hmono⟩ := multi_added hl hn (hfit l hl)
          rw [e']
          refine ⟨?_, ?_⟩
          · intro id' terms i vl' p' h1 h2
            simp only at h1 ⊢
            rw [he] at h1
            split at h1
            · rename_i e''
              subst e''
              cases h1
              exact hat i vl' p' h2
            · exact hmono _ _ _ (ih.att id' terms i vl' p' h1 h2)
          · intro id' terms h1
            simp only at h1
            rw [he] at h1
            split at h1
            · cases h1; exact resolveAll_ne hl hne
            · exact ih.ne id' terms h1
    | other valid ensure id =>
      show All (addOther s valid ensure id).2
      unfold addOther
      split
      · exact ih
      · split
        · exact ih
        · exact ⟨ih.att, ih.ne⟩
    | vl valid ensure id sub nb => exact (inv_vl hi valid ensure id sub nb).2 ih
    | bus ensure id vl => exact (inv_bus hi ensure id vl).2 ih
    | switch ensure id vl n1 n2 => exact (inv_switch hi ensure id vl n1 n2).2 ih
    | remove debug id =>
      show All (remove s debug id).2
      by_cases h : s.equips.get? id = none
      · unfold remove; rw [h]; exact ih
      · exact (remove_attached hi ih debug h).2.2

/-- **C29**, partial: when the terminals of all additions fit, every equipment found in the network has a terminal and all its terminals are attached.  Missing: the
    leftovers of additions whose terminals do not fit. -/
theorem found_is_attached_partial {s : Net} (h : Careful s) {id : String} {terms : List (String × Place)} (ht : s.equips.get? id = some terms) :
    terms ≠ [] ∧ ∀ i vl p, terms[i]? = some (vl, p) → (id, i) ∈ listed s vl p.key :=
  ⟨(all_careful h).ne id terms ht, fun i vl p => (all_careful h).att id terms i vl p ht⟩

/-- **C29**, partial: in such a history every equipment can be removed, with assertions enabled or not; then it is not found, the others are and stay attached. -/
theorem removal_works_partial {s : Net} (h : Careful s) (debug : Bool) {id : String} (ht : s.equips.get? id ≠ none) :
    (remove s debug id).1 = .ok () ∧ (∀ id', (remove s debug id).2.equips.get? id' = if id = id' then none else s.equips.get? id') ∧
    ∀ id' terms i vl p, (remove s debug id).2.equips.get? id' = some terms → terms[i]? = some (vl, p) → (id', i) ∈ listed (remove s debug id).2 vl p.key := by
  obtain ⟨a, b, c⟩ := remove_attached (listed_is_owned (careful_reach h)) (all_careful h) debug ht
  exact ⟨a, b, c.att⟩

/-- The nodes that have a switch or an internal connection. -/
def KeepsNodes (s t : Net) : Prop :=
  ∀ vl sub nodes touched, s.vls.get? vl = some ⟨sub, .nodeBreaker nodes touched⟩ →
    ∃ nodes', t.vls.get? vl = some ⟨sub, .nodeBreaker nodes' touched⟩ ∧ ∀ n, n ∈ touched → nodes.get? n ≠ none → nodes'.get? n ≠ none

theorem keepsNodes_refl (s : Net) : KeepsNodes s s := fun _ _ nodes _ h => ⟨nodes, h, fun _ _ hn => hn⟩

theorem keepsNodes_trans {s t u : Net} (h1 : KeepsNodes s t) (h2 : KeepsNodes t u) : KeepsNodes s u := by
  intro vl sub nodes touched h
  obtain ⟨n1, a1, b1⟩ := h1 vl sub nodes touched h
  obtain ⟨n2, a2, b2⟩ := h2 vl sub n1 touched a1
  exact ⟨n2, a2, fun n hn h => b2 n hn (b1 n hn h)⟩

theorem detachTopo_keeps {debug : Bool} {nodes : AMap Nat (Option TermId)} {touched : List Nat} {x : TermId} {p : Place} {t : Topo}
    (h : detachTopo debug (.nodeBreaker nodes touched) x p = .ok t) :
    ∃ nodes', t = .nodeBreaker nodes' touched ∧ ∀ n, n ∈ touched → nodes.get? n ≠ none → nodes'.get? n ≠ none := by
  cases p with
  | bus b c => cases h
  | node k =>
    unfold detachTopo at h
    simp only at h
    split at h
    · cases h
    split at h
    · cases h
    · cases h
      refine ⟨_, rfl, ?_⟩
      intro n hn hne h0
      have hm : n ∈ (nodes.set k none).map (·.1) := by
        apply Classical.byContradiction
        intro hx
        have := (AMap.get?_eq_none_iff _ _).2 hx
        rw [AMap.get?_set] at this
        split at this
        · cases this
        · exact hne this
      obtain ⟨q, hq, rfl⟩ := List.mem_map.1 hm
      have h1 := (AMap.get?_eq_none_iff _ _).1 h0
      apply h1
      refine List.mem_map.2 ⟨q, ?_, rfl⟩
      unfold clean
      rw [List.mem_filter]
      exact ⟨hq, by simp [hn]⟩

theorem detachAll_keeps (debug : Bool) (id : String) : ∀ (l done : List (String × Place)) (s : Net), KeepsNodes s (detachAll debug s id done l).2 := by
  intro l
  induction l with
  | nil => intro done s; exact keepsNodes_refl s
  | cons e r ih =>
    intro done s
    unfold detachAll
    cases hv : s.vls.get? e.1 with
    | none => exact keepsNodes_refl s
    | some v =>
      simp only
      cases hd : detachTopo debug v.topo (id, done.length) e.2 with
      | thrown => exact keepsNodes_refl s
      | ub => exact keepsNodes_refl s
      | ok t =>
        simp only
        refine keepsNodes_trans ?_ (ih _ _)
        intro vl sub nodes touched h
        simp only [AMap.get?_set]
        by_cases he : e.1 = vl
        · subst he
          rw [hv] at h
          cases h
          obtain ⟨n', rfl, h2⟩ := detachTopo_keeps hd
          exact ⟨n', by simp, h2⟩
        · exact ⟨nodes, by simp [he, h], fun _ _ hn => hn⟩

/-- **C29**: removing an equipment never removes a node that has a switch or an internal connection, nor changes the kind of a voltage level, whatever the state. -/
theorem removal_keeps_nodes (s : Net) (debug : Bool) (id : String) : KeepsNodes s (remove s debug id).2 := by
  unfold remove
  cases h : s.equips.get? id with
  | none => exact keepsNodes_refl s
  | some terms =>
    cases terms with
    | nil => exact keepsNodes_refl s
    | cons e r =>
      simp only
      have := detachAll_keeps debug id (e :: r) [] s
      generalize detachAll debug s id [] (e :: r) = z at this
      obtain ⟨o, t⟩ := z
      cases o <;> exact this

/-! ### Leftovers -/

/-- An equipment left without terminal can never be removed: the removal throws, and no call ever changes it. -/
theorem leftover_forever {s : Net} {id : String} (h : s.equips.get? id = some []) (hr : Reach s) :
    (∀ debug, remove s debug id = (.thrown, s)) ∧ ∀ op, (after s op).equips.get? id = some [] := by
  refine ⟨fun debug => by unfold remove; rw [h], ?_⟩
  have hkeep : ∀ n l, n ∉ used s → AMap.get? (AMap.set s.equips n l) id = some [] := by
    intro n l hn
    rw [AMap.get?_set, if_neg]
    · exact h
    · rintro rfl
      rw [fresh_equips hn] at h
      cases h
  intro op
  cases op with
  | injection o valid ensure id' vl a =>
    show (addInjection s o valid ensure id' vl a).2.equips.get? id = some []
    by_cases hv : s.vls.get? vl = none
    · unfold addInjection; rw [if_pos hv]; exact h
    obtain ⟨h1, h2, h3⟩ := injection_refused s o valid ensure id' vl a hv
    cases valid with
    | false => rw [h1 (.inl rfl)]; exact h
    | true =>
      cases hn : newId s ensure id' with
      | none => rw [h1 (.inr (.inl hn))]; exact h
      | some n =>
        have hfr := newId_fresh hn
        by_cases hp : ∃ p, Wanted a p
        · obtain ⟨p, hp⟩ := hp
          by_cases hf : Fit s vl p
          · obtain ⟨t, e, he, _⟩ := injection_added o hn hp hf
            rw [e]
            simp only
            rw [he, ← AMap.get?_set]
            exact hkeep n _ hfr
          · rw [h3 n p rfl hn hp hf]; exact hkeep n _ hfr
        · have hp' : ∀ p, ¬ Wanted a p := fun p h => hp ⟨p, h⟩
          cases o with
          | terminalFirst => rw [h1 (.inr (.inr ⟨rfl, hp'⟩))]; exact h
          | terminalLast => rw [h2 n rfl hn rfl hp']; exact hkeep n _ hfr
  | multi valid ensure id' sub ends =>
    show (addMulti s valid ensure id' sub ends).2.equips.get? id = some []
    cases valid with
    | false => exact h
    | true =>
      rcases multi_cases s ensure id' sub ends with e | ⟨l, n, hl, _, hn, e⟩
      · rw [e]; exact h
      · rw [e]
        simp only
        rw [attachAll_equips]
        exact hkeep n _ (newId_fresh hn)
  | other valid ensure id' =>
    show (addOther s valid ensure id').2.equips.get? id = some []
    unfold addOther
    split
    · exact h
    · split <;> exact h
  | vl valid ensure id' sub nb =>
    show (addVL s valid ensure id' sub nb).2.equips.get? id = some []
    unfold addVL
    split
    · exact h
    · split <;> exact h
  | bus ensure id' vl =>
    show (addBus s ensure id' vl).2.equips.get? id = some []
    unfold addBus
    repeat' (first | exact h | split)
  | switch ensure id' vl n1 n2 =>
    show (addSwitch s ensure id' vl n1 n2).2.equips.get? id = some []
    unfold addSwitch
    repeat' (first | exact h | split)
  | remove debug id' =>
    show (remove s debug id').2.equips.get? id = some []
    by_cases hid : id' = id
    · subst hid
      unfold remove
      rw [h]
      exact h
    · unfold remove
      cases ht : s.equips.get? id' with
      | none => exact h
      | some terms =>
        cases terms with
        | nil => exact h
        | cons e r =>
          simp only
          obtain ⟨_, b, _⟩ := detachAll_inv debug id' (e :: r) s [] (listed_is_owned hr) ht (fun j hj => absurd hj (Nat.not_lt_zero j))
          have hb := b id (fun e => hid e.symm)
          rcases hd : detachAll debug s id' [] (e :: r) with ⟨o, t⟩
          rw [hd] at hb
          simp only at hb
          cases o with
          | ok u => simp only [AMap.get?_erase, if_neg hid]; rw [hb]; exact h
          | thrown => simp only; rw [hb]; exact h
          | ub => simp only; rw [hb]; exact h

/-! ### Examples and witnesses -/

/-- A substation, a node/breaker voltage level N with a load L1 on node 0 and a bus/breaker one B with a bus. -/
def sample : Net :=
  after (after (after (after (after init (.other true false "S")) (.vl true false "N" "S" true)) (.vl true false "B" "S" false)) (.bus false "BUS" "B"))
    (.injection .terminalLast true false "L1" "N" ⟨some 0, "", ""⟩)

theorem sample_careful : Careful sample := by
  refine .step _ (.step _ (.step _ (.step _ (.step _ .init trivial) trivial) trivial) trivial) ⟨by decide, ?_, ?_⟩
  · intro p hp
    have : p = .node 0 := wanted_unique (q := .node 0) hp ⟨rfl, rfl, rfl⟩
    subst this
    exact ⟨⟨"S", .nodeBreaker [] []⟩, by decide, fun x h => by cases h⟩
  · intro _
    exact ⟨.node 0, rfl, rfl, rfl⟩

/-- The load is found, attached to its node, and a line to the bus fits. -/
example : sample.equips.get? "L1" = some [("N", .node 0)] ∧ listed sample "N" (.inl 0) = [("L1", 0)] ∧
    Fits sample [("N", .node 1), ("B", .bus "BUS" true)] := by
  refine ⟨by decide, by decide, ?_, ?_⟩
  · intro e he
    simp only [List.mem_cons, List.not_mem_nil, or_false] at he
    rcases he with rfl | rfl
    · exact ⟨⟨"S", .nodeBreaker [(0, some ("L1", 0))] []⟩, by decide, fun x h => by cases h⟩
    · exact ⟨⟨"S", .busBreaker [("BUS", [])]⟩, by decide, fun h => by cases h⟩
  · simp

/-- A load on an occupied node: the addition throws but the load is found in the network, not attached. -/
theorem occupied_node_leaves :
    (addInjection sample .terminalLast true false "L2" "N" ⟨some 0, "", ""⟩).1 = .thrown ∧
    (addInjection sample .terminalLast true false "L2" "N" ⟨some 0, "", ""⟩).2.equips.get? "L2" = some [("N", .node 0)] ∧
    ("L2", 0) ∉ listed (addInjection sample .terminalLast true false "L2" "N" ⟨some 0, "", ""⟩).2 "N" (.inl 0) := by decide

/-- A load with an unknown bus: the addition throws but the load is found in the network. -/
theorem unknown_bus_leaves :
    (addInjection sample .terminalLast true false "L2" "B" ⟨none, "NONE", ""⟩).1 = .thrown ∧
    (addInjection sample .terminalLast true false "L2" "B" ⟨none, "NONE", ""⟩).2.equips.get? "L2" = some [("B", .bus "NONE" true)] := by decide

/-- A load with neither node nor bus: the addition throws but the load is found in the network, without terminal; it can never be removed (`leftover_forever`).  A generator
    is refused without effect. -/
theorem no_terminal_leaves :
    (addInjection sample .terminalLast true false "L2" "B" ⟨none, "", ""⟩).1 = .thrown ∧
    (addInjection sample .terminalLast true false "L2" "B" ⟨none, "", ""⟩).2.equips.get? "L2" = some [] ∧
    addInjection sample .terminalFirst true false "G" "B" ⟨none, "", ""⟩ = (.thrown, sample) := by decide

/-- A line whose second node is occupied: the addition throws but the line is found, attached to its first bus only. -/
theorem line_half_attached :
    (addMulti sample true false "LINE" none [("B", ⟨none, "BUS", ""⟩), ("N", ⟨some 0, "", ""⟩)]).1 = .thrown ∧
    (addMulti sample true false "LINE" none [("B", ⟨none, "BUS", ""⟩), ("N", ⟨some 0, "", ""⟩)]).2.equips.get? "LINE" = some [("B", .bus "BUS" true), ("N", .node 0)] ∧
    listed (addMulti sample true false "LINE" none [("B", ⟨none, "BUS", ""⟩), ("N", ⟨some 0, "", ""⟩)]).2 "B" (.inr "BUS") = [("LINE", 0)] := by decide

/-- Removing a load left on an occupied node detaches the other load: with assertions disabled the removal succeeds and the first load is found but not attached any
    more; with assertions enabled the program ends. -/
theorem leftover_detaches_other :
    (remove (addInjection sample .terminalLast true false "L2" "N" ⟨some 0, "", ""⟩).2 false "L2").1 = .ok () ∧
    (remove (addInjection sample .terminalLast true false "L2" "N" ⟨some 0, "", ""⟩).2 false "L2").2.equips.get? "L1" = some [("N", .node 0)] ∧
    listed (remove (addInjection sample .terminalLast true false "L2" "N" ⟨some 0, "", ""⟩).2 false "L2").2 "N" (.inl 0) = [] ∧
    (remove (addInjection sample .terminalLast true false "L2" "N" ⟨some 0, "", ""⟩).2 true "L2").1 = .ub := by decide

end Verif.Adders
