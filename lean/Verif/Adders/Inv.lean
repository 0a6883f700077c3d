import Verif.Adders.Lemmas

/-! Invariants of networks built by the adders. -/

namespace Verif.Adders

open Verif

/-- What holds after every history: a listed terminal belongs to an equipment found in the network and is listed where the terminal says, once. -/
structure Inv (s : Net) : Prop where
  owner : ∀ vl k x, x ∈ listed s vl k → ∃ terms p, s.equips.get? x.1 = some terms ∧ terms[x.2]? = some (vl, p) ∧ p.key = k
  once : ∀ vl k, (listed s vl k).Nodup
  wf : ∀ vl v, s.vls.get? vl = some v → topoWF v.topo
  buses : ∀ vl v bs b, s.vls.get? vl = some v → v.topo = .busBreaker bs → bs.get? b ≠ none → b ∈ s.others

/-- Every equipment found has its terminals attached. -/
structure All (s : Net) : Prop where
  att : ∀ id terms i vl p, s.equips.get? id = some terms → terms[i]? = some (vl, p) → (id, i) ∈ listed s vl p.key
  ne : ∀ id terms, s.equips.get? id = some terms → terms ≠ []

theorem node_le_one {s : Net} {vl : String} {n : Nat} {x y : TermId} (hx : x ∈ listed s vl (.inl n)) (hy : y ∈ listed s vl (.inl n)) : x = y := by
  unfold listed at hx hy
  cases h : s.vls.get? vl with
  | none => rw [h] at hx; cases hx
  | some v =>
    rw [h] at hx hy
    simp only at hx hy
    cases ht : v.topo with
    | busBreaker b => rw [ht] at hx; cases hx
    | nodeBreaker nodes touched =>
      rw [ht] at hx hy
      simp only [objectsAt] at hx hy
      cases e : nodes.get? n with
      | none => rw [e] at hx; cases hx
      | some o =>
        cases o with
        | none => rw [e] at hx; cases hx
        | some z =>
          rw [e] at hx hy
          simp only [asList, List.mem_singleton] at hx hy
          rw [hx, hy]

theorem attachTopo_buses {t t' : Topo} {x : TermId} {p : Place} (h : attachTopo t x p = some t') {bs' : AMap String (List TermId)} (hb : t' = .busBreaker bs') :
    ∃ bs, t = .busBreaker bs ∧ ∀ b, bs'.get? b ≠ none → bs.get? b ≠ none := by
  subst hb
  cases t with
  | nodeBreaker nodes touched =>
    cases p <;> simp only [attachTopo] at h
    · split at h <;> cases h
    · cases h
  | busBreaker buses =>
    cases p <;> simp only [attachTopo] at h
    · cases h
    · split at h
      · cases h
      · rename_i b _ _ l hl
        cases h
        refine ⟨buses, rfl, ?_⟩
        intro b' hb'
        simp only [AMap.get?_set] at hb'
        split at hb'
        · rename_i e; subst e; rw [hl]; simp
        · exact hb'

theorem detachTopo_buses {debug : Bool} {t t' : Topo} {x : TermId} {p : Place} (h : detachTopo debug t x p = .ok t') {bs' : AMap String (List TermId)} (hb : t' = .busBreaker bs') :
    ∃ bs, t = .busBreaker bs ∧ ∀ b, bs'.get? b ≠ none → bs.get? b ≠ none := by
  subst hb
  cases t with
  | nodeBreaker nodes touched =>
    cases p <;> simp only [detachTopo] at h
    · split at h
      · cases h
      · split at h <;> cases h
    · cases h
  | busBreaker buses =>
    cases p <;> simp only [detachTopo] at h
    · cases h
    · split at h
      · cases h
      · rename_i b _ _ l hl
        split at h
        · cases h
          refine ⟨buses, rfl, ?_⟩
          intro b' hb'
          simp only [AMap.get?_set] at hb'
          split at hb'
          · rename_i e; subst e; rw [hl]; simp
          · exact hb'
        · cases h

/-! ### Attachment -/

theorem attach_inv {s s' : Net} {id : String} {i : Nat} {vl : String} {p : Place} {terms : List (String × Place)} (hi : Inv s)
    (ht : s.equips.get? id = some terms) (hp : terms[i]? = some (vl, p)) (hno : ∀ vl' k, (id, i) ∉ listed s vl' k)
    (h : attach s (id, i) vl p = (.ok (), s')) : Inv s' := by
  obtain ⟨he, ho, hl, _⟩ := attach_state h
  refine ⟨?_, ?_, ?_, ?_⟩
  · intro vl' k x hx
    rw [hl] at hx
    rw [he]
    split at hx
    · rename_i hc
      rcases List.mem_append.1 hx with hx | hx
      · exact hi.owner vl' k x hx
      · simp only [List.mem_singleton] at hx
        subst hx
        obtain ⟨rfl, rfl⟩ := hc
        exact ⟨terms, p, ht, hp, rfl⟩
    · exact hi.owner vl' k x hx
  · intro vl' k
    rw [hl]
    split
    · rw [List.nodup_append]
      refine ⟨hi.once vl' k, by simp, ?_⟩
      intro a ha b hb
      simp only [List.mem_singleton] at hb
      subst hb
      rintro rfl
      exact hno vl' k ha
    · exact hi.once vl' k
  · intro vl' v hv
    rcases attach_cases s (id, i) vl p with ⟨_, e⟩ | ⟨_, _, _, e⟩ | ⟨w, t, hw, _, htt, e⟩
    · rw [e] at h; cases h
    · rw [e] at h; cases h
    · rw [e] at h
      cases h
      simp only [AMap.get?_set] at hv
      split at hv
      · cases hv; exact attachTopo_wf (hi.wf _ _ hw) htt
      · exact hi.wf vl' v hv
  · intro vl' v bs b hv hb hne
    rcases attach_cases s (id, i) vl p with ⟨_, e⟩ | ⟨_, _, _, e⟩ | ⟨w, t, hw, _, htt, e⟩
    · rw [e] at h; cases h
    · rw [e] at h; cases h
    · rw [e] at h
      cases h
      simp only [AMap.get?_set] at hv
      split at hv
      · cases hv
        obtain ⟨bs', hb', hsub⟩ := attachTopo_buses htt hb
        exact hi.buses _ _ _ b hw hb' (hsub b hne)
      · exact hi.buses vl' v bs b hv hb hne

theorem attach_mono {s s' : Net} {x : TermId} {vl : String} {p : Place} (h : attach s x vl p = (.ok (), s')) {vl' : String} {k : Nat ⊕ String} {y : TermId}
    (hy : y ∈ listed s vl' k) : y ∈ listed s' vl' k := by
  rw [(attach_state h).2.2.1]
  split
  · exact List.mem_append_left _ hy
  · exact hy

theorem attachAll_inv (id : String) (terms : List (String × Place)) : ∀ (ends : List (String × Place)) (s : Net) (i : Nat), Inv s → s.equips.get? id = some terms →
    terms.drop i = ends → (∀ j, i ≤ j → ∀ vl k, (id, j) ∉ listed s vl k) → Inv (attachAll s id i ends).2
  | [], s, i, hi, _, _, _ => hi
  | (vl, p) :: r, s, i, hi, ht, hd, hno => by
    have hp : terms[i]? = some (vl, p) := by
      have := List.getElem?_drop (xs := terms) (i := i) (j := 0)
      rw [hd] at this
      simpa using this.symm
    have hd' : terms.drop (i + 1) = r := by
      rw [← List.drop_drop, hd]; rfl
    unfold attachAll
    rcases h : attach s (id, i) vl p with ⟨o, t⟩
    cases o with
    | ok u =>
      simp only
      have hl := (attach_state h).2.2.1
      refine attachAll_inv id terms r t (i + 1) (attach_inv hi ht hp (hno i (Nat.le_refl i)) h) ?_ hd' ?_
      · rw [(attach_state h).1]; exact ht
      · intro j hj vl' k hm
        rw [hl] at hm
        split at hm
        · rcases List.mem_append.1 hm with hm | hm
          · exact hno j (by omega) vl' k hm
          · simp only [List.mem_singleton, Prod.mk.injEq, true_and] at hm
            omega
        · exact hno j (by omega) vl' k hm
    | thrown =>
      rcases attach_cases s (id, i) vl p with ⟨_, e⟩ | ⟨_, _, _, e⟩ | ⟨w, t, hw, _, htt, e⟩ <;> rw [e] at h <;> cases h
      exact hi
    | ub =>
      rcases attach_cases s (id, i) vl p with ⟨_, e⟩ | ⟨_, _, _, e⟩ | ⟨w, t, hw, _, htt, e⟩ <;> rw [e] at h <;> cases h
      exact hi

theorem attachAll_mono (id : String) : ∀ (ends : List (String × Place)) (s : Net) (i : Nat) {vl : String} {k : Nat ⊕ String} {y : TermId}, y ∈ listed s vl k →
    y ∈ listed (attachAll s id i ends).2 vl k
  | [], _, _, _, _, _, hy => hy
  | (vl, p) :: r, s, i, _, _, _, hy => by
    unfold attachAll
    rcases h : attach s (id, i) vl p with ⟨o, t⟩
    cases o with
    | ok u => exact attachAll_mono id r t (i + 1) (attach_mono h hy)
    | thrown =>
      rcases attach_cases s (id, i) vl p with ⟨_, e⟩ | ⟨_, _, _, e⟩ | ⟨w, t, hw, _, htt, e⟩ <;> rw [e] at h <;> cases h
      exact hy
    | ub =>
      rcases attach_cases s (id, i) vl p with ⟨_, e⟩ | ⟨_, _, _, e⟩ | ⟨w, t, hw, _, htt, e⟩ <;> rw [e] at h <;> cases h
      exact hy

/-- After a successful attachment of all ends, all are listed. -/
theorem attachAll_listed (id : String) : ∀ (ends : List (String × Place)) (s : Net) (i : Nat), (attachAll s id i ends).1 = .ok () →
    ∀ j vl p, ends[j]? = some (vl, p) → (id, i + j) ∈ listed (attachAll s id i ends).2 vl p.key
  | [], _, _, _, j, _, _, hj => by simp at hj
  | (vl, p) :: r, s, i, hok, j, vl', p', hj => by
    unfold attachAll at hok ⊢
    rcases h : attach s (id, i) vl p with ⟨o, t⟩
    rw [h] at hok
    cases o with
    | ok u =>
      simp only at hok ⊢
      cases j with
      | zero =>
        simp only [List.getElem?_cons_zero, Option.some.injEq, Prod.mk.injEq] at hj
        obtain ⟨rfl, rfl⟩ := hj
        apply attachAll_mono
        rw [(attach_state h).2.2.1]
        simp
      | succ j =>
        have := attachAll_listed id r t (i + 1) hok j vl' p' (by simpa using hj)
        have e : i + 1 + j = i + (j + 1) := by omega
        rw [← e]
        exact this
    | thrown => cases hok
    | ub => cases hok

/-! ### Detachment -/

theorem detach_step {debug : Bool} {s : Net} {id : String} {done r : List (String × Place)} {e : String × Place} {v : VL} {t : Topo} (hi : Inv s)
    (ht : s.equips.get? id = some (done ++ e :: r)) (hv : s.vls.get? e.1 = some v) (hd : detachTopo debug v.topo (id, done.length) e.2 = .ok t)
    {s' : Net} (hs' : s' = { s with vls := s.vls.set e.1 { v with topo := t }, equips := s.equips.set id (done ++ cleared e :: r) }) :
    Inv s' ∧ (∀ vl k x, x ∈ listed s' vl k → x ∈ listed s vl k) ∧ (∀ vl k, (id, done.length) ∉ listed s' vl k) ∧
    ((id, done.length) ∈ listed s e.1 e.2.key → ∀ vl k x, x ≠ (id, done.length) → x ∈ listed s vl k → x ∈ listed s' vl k) := by
  obtain ⟨hwf, hobj⟩ := detachTopo_spec (hi.wf _ _ hv) hd
  have hl : ∀ vl k, listed s' vl k = if e.1 = vl ∧ e.2.key = k then afterDetach (id, done.length) k (listed s vl k) else listed s vl k := by
    intro vl k
    subst hs'
    simp only [listed, AMap.get?_set]
    by_cases e1 : e.1 = vl
    · subst e1
      simp only [if_true, hv, true_and]
      exact hobj k
    · simp [e1]
  have hsub : ∀ vl k x, x ∈ listed s' vl k → x ∈ listed s vl k := by
    intro vl k x hx
    rw [hl] at hx
    split at hx
    · cases k with
      | inl n => cases hx
      | inr b => exact List.mem_of_mem_erase hx
    · exact hx
  have hgone : ∀ vl k, (id, done.length) ∉ listed s' vl k := by
    intro vl k hx
    have h1 := hsub vl k _ hx
    obtain ⟨terms, p, h2, h3, h4⟩ := hi.owner vl k _ h1
    rw [ht] at h2
    cases h2
    simp only [List.getElem?_append_right (Nat.le_refl _), Nat.sub_self, List.getElem?_cons_zero, Option.some.injEq] at h3
    subst h3
    rw [hl, if_pos ⟨rfl, h4⟩] at hx
    cases k with
    | inl n => cases hx
    | inr b =>
      exact absurd hx (fun hx => by
        have := (List.Nodup.mem_erase_iff (hi.once vl (.inr b))).1 hx
        exact this.1 rfl)
  refine ⟨⟨?_, ?_, ?_, ?_⟩, hsub, hgone, ?_⟩
  · intro vl k x hx
    obtain ⟨terms, p, h2, h3, h4⟩ := hi.owner vl k x (hsub vl k x hx)
    subst hs'
    simp only [AMap.get?_set]
    by_cases hid : id = x.1
    · subst hid
      simp only [if_true]
      rw [ht] at h2
      cases h2
      refine ⟨_, p, rfl, ?_, h4⟩
      have hne : x.2 ≠ done.length := by
        intro hc
        apply hgone vl k
        rw [← hc]
        exact hx
      rw [List.getElem?_append] at h3 ⊢
      split
      · rename_i hlt
        rw [if_pos hlt] at h3
        exact h3
      · rename_i hge
        rw [if_neg hge] at h3
        obtain ⟨m, hm⟩ : ∃ m, x.2 - done.length = m + 1 := ⟨x.2 - done.length - 1, by omega⟩
        rw [hm] at h3 ⊢
        simpa using h3
    · exact ⟨terms, p, by rw [if_neg hid]; exact h2, h3, h4⟩
  · intro vl k
    rw [hl]
    split
    · cases k with
      | inl n => simp [afterDetach]
      | inr b => exact (hi.once vl (.inr b)).erase _
    · exact hi.once vl k
  · intro vl w hw
    subst hs'
    simp only [AMap.get?_set] at hw
    split at hw
    · cases hw; exact hwf
    · exact hi.wf vl w hw
  · intro vl w bs b hw hb hne
    subst hs'
    simp only [AMap.get?_set] at hw
    split at hw
    · cases hw
      obtain ⟨bs', hb', hs⟩ := detachTopo_buses hd hb
      exact hi.buses _ _ _ b hv hb' (hs b hne)
    · exact hi.buses vl w bs b hw hb hne
  · intro hown vl k x hne hx
    rw [hl]
    split
    · rename_i hc
      obtain ⟨rfl, rfl⟩ := hc
      cases hk : e.2.key with
      | inl n =>
        rw [hk] at hown hx
        exact absurd (node_le_one hx hown) hne
      | inr b =>
        rw [hk] at hx
        exact (List.mem_erase_of_ne hne).2 hx
    · exact hx

/-- The loop of the removal keeps the invariant; when it ends normally no terminal of the equipment is listed any more. -/
theorem detachAll_inv (debug : Bool) (id : String) : ∀ (rest : List (String × Place)) (s : Net) (done : List (String × Place)), Inv s →
    s.equips.get? id = some (done ++ rest) → (∀ j, j < done.length → ∀ vl k, (id, j) ∉ listed s vl k) →
    Inv (detachAll debug s id done rest).2 ∧
    (∀ id', id' ≠ id → (detachAll debug s id done rest).2.equips.get? id' = s.equips.get? id') ∧
    ((detachAll debug s id done rest).1 = .ok () → ∀ j vl k, (id, j) ∉ listed (detachAll debug s id done rest).2 vl k)
  | [], s, done, hi, ht, hd => by
    refine ⟨hi, fun _ _ => rfl, ?_⟩
    intro _ j vl k hx
    have hx : (id, j) ∈ listed s vl k := hx
    obtain ⟨terms, p, h2, h3, _⟩ := hi.owner vl k _ hx
    rw [ht] at h2
    cases h2
    simp only [List.append_nil] at h3
    have : j < done.length := by
      rcases Nat.lt_or_ge j done.length with h | h
      · exact h
      · rw [List.getElem?_eq_none h] at h3; cases h3
    exact hd j this vl k hx
  | e :: r, s, done, hi, ht, hd => by
    unfold detachAll
    cases hv : s.vls.get? e.1 with
    | none => exact ⟨hi, fun _ _ => rfl, fun h => (by cases h)⟩
    | some v =>
      simp only
      cases hdt : detachTopo debug v.topo (id, done.length) e.2 with
      | thrown => exact ⟨hi, fun _ _ => rfl, fun h => (by cases h)⟩
      | ub => exact ⟨hi, fun _ _ => rfl, fun h => (by cases h)⟩
      | ok t =>
        simp only
        obtain ⟨hi', hsub, hgone, _⟩ := detach_step hi ht hv hdt rfl
        have hlen : (done ++ [cleared e]).length = done.length + 1 := by simp
        obtain ⟨a, b, c⟩ := detachAll_inv debug id r _ (done ++ [cleared e]) hi' (by simp [AMap.get?_set]) (by
          intro j hj vl k hx
          rw [hlen] at hj
          rcases Nat.lt_or_ge j done.length with h | h
          · exact hd j h vl k (hsub vl k _ hx)
          · have : j = done.length := by omega
            subst this
            exact hgone vl k hx)
        refine ⟨a, ?_, c⟩
        intro id' hid
        rw [b id' hid]
        simp only [AMap.get?_set]
        rw [if_neg (fun e => hid e.symm)]

/-- When the terminals left to detach are all listed the loop ends normally, without a failed assertion, and other terminals stay listed. -/
theorem detachAll_ok (debug : Bool) (id : String) : ∀ (rest : List (String × Place)) (s : Net) (done : List (String × Place)), Inv s →
    s.equips.get? id = some (done ++ rest) → (∀ j vl p, rest[j]? = some (vl, p) → (id, done.length + j) ∈ listed s vl p.key) →
    (detachAll debug s id done rest).1 = .ok () ∧ ∀ vl k x, x.1 ≠ id → x ∈ listed s vl k → x ∈ listed (detachAll debug s id done rest).2 vl k
  | [], s, done, _, _, _ => ⟨rfl, fun _ _ _ _ hx => hx⟩
  | e :: r, s, done, hi, ht, hall => by
    have h0 := hall 0 e.1 e.2 (by simp)
    simp only [Nat.add_zero] at h0
    unfold detachAll
    cases hv : s.vls.get? e.1 with
    | none => unfold listed at h0; rw [hv] at h0; cases h0
    | some v =>
      simp only
      have h0' : (id, done.length) ∈ objectsAt v.topo e.2.key := by
        unfold listed at h0; rw [hv] at h0; exact h0
      obtain ⟨t, hdt⟩ := detachTopo_listed debug h0'
      rw [hdt]
      simp only
      obtain ⟨hi', _, _, hkeep⟩ := detach_step hi ht hv hdt rfl
      have hkeep := hkeep h0
      have hlen : (done ++ [cleared e]).length = done.length + 1 := by simp
      obtain ⟨a, b⟩ := detachAll_ok debug id r _ (done ++ [cleared e]) hi' (by simp [AMap.get?_set]) (by
        intro j vl p hj
        rw [hlen]
        apply hkeep
        · intro hc
          simp only [Prod.mk.injEq, true_and] at hc
          omega
        · have := hall (j + 1) vl p (by simpa using hj)
          have e : done.length + 1 + j = done.length + (j + 1) := by omega
          rw [e]
          exact this)
      refine ⟨a, ?_⟩
      intro vl k x hx hm
      apply b vl k x hx
      apply hkeep vl k x _ hm
      rintro rfl
      exact hx rfl

end Verif.Adders
