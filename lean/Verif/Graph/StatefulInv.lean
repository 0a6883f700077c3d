import Verif.Graph.Stateful

/-!
General facts about traversals whose callback keeps a state: they end whatever the callback answers, and with answers that
do not depend on the state they make the calls of the plain traversal.
-/

namespace Verif.Graph

open Verif

variable {ν ε σ : Type}

/-- The call is for a live edge and its own two end points. -/
def Valid (g : G ν ε) (u e w : Nat) : Prop := ∃ ed, g.edgeAt e = some ed ∧ Joins ed u w

theorem InRange.occ {g : G ν ε} (hwf : WF g) (v : Nat) : InRange g g.vertices.length (occ 0 g.edges v) := by
  intro e he
  obtain ⟨ed, hed, _⟩ := mem_occ.mp he
  obtain ⟨k1, k2⟩ := hwf.ends e ed hed
  exact ⟨ed, hed, vertexAt_lt k1, vertexAt_lt k2⟩

theorem count_set_false {l : List Bool} {w : Nat} (hw : l[w]? = some false) :
    (l.set w true).count false + 1 = l.count false := by
  induction l generalizing w with
  | nil => cases hw
  | cons b l ih =>
    cases w with
    | zero => simp at hw; subst hw; simp
    | succ w => simp at hw; simp only [List.set_cons_succ, List.count_cons]; have := ih hw; omega

theorem count_set_le (l : List Bool) (w : Nat) : (l.set w true).count false ≤ l.count false := by
  induction l generalizing w with
  | nil => simp
  | cons b l ih =>
    cases w with
    | zero => cases b <;> simp
    | succ w => simp only [List.set_cons_succ, List.count_cons]; have := ih w; omega

/-- What holds after a part of the traversal: the vector keeps its length, no mark is taken back, the invariant of the
    callback holds and what it knew about the vertices still does. -/
def IPost (P : σ → Prop) (R : σ → Nat → Prop) (N : Nat) (st : SSt σ) (r : Out (SSt σ)) : Prop :=
  ∃ st', r = .ok st' ∧ st'.enc.length = N ∧ st'.enc.count false ≤ st.enc.count false ∧
    (∀ x : Nat, st.enc[x]? = some true → st'.enc[x]? = some true) ∧ P st'.s ∧ ∀ x, R st.s x → R st'.s x

/-- The callback ends normally for the calls that the traversal makes, keeps an invariant `P`, establishes `R` for the
    vertices it accepts and keeps it for the others; it may use `R` of the vertex it comes from. -/
def Keeps (g : G ν ε) (P : σ → Prop) (R : σ → Nat → Prop) (cb : σ → Nat → Nat → Nat → Out (σ × Bool)) : Prop :=
  ∀ s u e w, P s → R s u → Valid g u e w →
    ∃ s' b, cb s u e w = .ok (s', b) ∧ P s' ∧ (b = true → R s' w) ∧ ∀ x, R s x → R s' x

theorem set_true_keeps {l : List Bool} {w x : Nat} (h : l[x]? = some true) : (l.set w true)[x]? = some true := by
  rw [List.getElem?_set]
  split
  · subst_vars
    have : x < l.length := by
      rcases Nat.lt_or_ge x l.length with h' | h'
      · exact h'
      · rw [List.getElem?_eq_none h'] at h; cases h
    simp [this]
  · exact h

theorem sLoop_inv {g : G ν ε} {P : σ → Prop} {R : σ → Nat → Prop} {cb : σ → Nat → Nat → Nat → Out (σ × Bool)}
    (hcb : Keeps g P R cb) {N k v : Nat} {rec : Nat → SSt σ → Out (SSt σ)}
    (hrec : ∀ w st, w < N → g.vertexAt w ≠ none → st.enc.length = N → st.enc.count false < k → P st.s → R st.s w →
      IPost P R N st (rec w st))
    (es : List Nat) (hlive : ∀ e ∈ es, ∀ ed, g.edgeAt e = some ed → (ed.v1 = v ∨ ed.v2 = v) ∧
      g.vertexAt ed.v1 ≠ none ∧ g.vertexAt ed.v2 ≠ none) :
    ∀ st : SSt σ, InRange g N es → st.enc.length = N → st.enc.count false ≤ k → st.enc[v]? = some true → P st.s → R st.s v →
      IPost P R N st (sLoop g cb rec es st) := by
  induction es with
  | nil => intro st _ hlen _ _ hP _; exact ⟨st, rfl, hlen, Nat.le_refl _, fun _ h => h, hP, fun _ h => h⟩
  | cons e es ih =>
    intro st hr hlen hk hv hP hR
    obtain ⟨ed, hed, h1, h2⟩ := hr e (by simp)
    obtain ⟨hev, hv1, hv2⟩ := hlive e (by simp) ed hed
    have hr' : InRange g N es := fun e' he' => hr e' (List.mem_cons_of_mem _ he')
    have ih' := ih (fun e' he' => hlive e' (List.mem_cons_of_mem _ he'))
    have key : ∀ u w, u = v → w < N → g.vertexAt w ≠ none → Joins ed u w → st.enc[w]? = some false →
        IPost P R N st ((cb st.s u e w).bind fun r =>
          if r.2 then (rec w ⟨st.enc.set w true, r.1⟩).bind (sLoop g cb rec es) else sLoop g cb rec es ⟨st.enc, r.1⟩) := by
      intro u w hu hw hlw hj hf
      subst hu
      obtain ⟨s', b, q1, q2, q3, q4⟩ := hcb st.s u e w hP hR ⟨ed, hed, hj⟩
      rw [q1, Out.bind_ok]
      cases b with
      | false =>
        simp only [Bool.false_eq_true, if_false]
        obtain ⟨st2, t1, t2, t3, t4, t5, t6⟩ := ih' ⟨st.enc, s'⟩ hr' hlen hk hv q2 (q4 _ hR)
        exact ⟨st2, t1, t2, t3, t4, t5, fun x hx => t6 x (q4 x hx)⟩
      | true =>
        simp only [if_true]
        have hc := count_set_false hf
        obtain ⟨st1, r1, r2, r3, r5, r4, r6⟩ := hrec w ⟨st.enc.set w true, s'⟩ hw hlw (by simpa using hlen)
          (by show (st.enc.set w true).count false < k; omega) q2 (q3 rfl)
        have r3' : st1.enc.count false ≤ (st.enc.set w true).count false := r3
        obtain ⟨st2, t1, t2, t3, t4, t5, t6⟩ := ih' st1 hr' r2 (by omega) (r5 _ (set_true_keeps hv)) r4 (r6 _ (q4 _ hR))
        exact ⟨st2, by rw [r1, Out.bind_ok, t1], t2, by omega, fun x hx => t4 x (r5 x (set_true_keeps hx)), t5,
          fun x hx => t6 x (r6 x (q4 x hx))⟩
    unfold sLoop
    rw [hed]
    have h1' : ed.v1 < st.enc.length := by rw [hlen]; exact h1
    have h2' : ed.v2 < st.enc.length := by rw [hlen]; exact h2
    simp only [List.getElem?_eq_getElem h1', List.getElem?_eq_getElem h2']
    cases hb1 : st.enc[ed.v1] with
    | false =>
      have hb1' : st.enc[ed.v1]? = some false := by rw [List.getElem?_eq_getElem h1', hb1]
      refine key ed.v2 ed.v1 ?_ h1 hv1 (Or.inr ⟨rfl, rfl⟩) hb1'
      rcases hev with hh | hh
      · rw [hh, hv] at hb1'; cases hb1'
      · exact hh
    | true =>
      cases hb2 : st.enc[ed.v2] with
      | false =>
        have hb2' : st.enc[ed.v2]? = some false := by rw [List.getElem?_eq_getElem h2', hb2]
        refine key ed.v1 ed.v2 ?_ h2 hv2 (Or.inl ⟨rfl, rfl⟩) hb2'
        rcases hev with hh | hh
        · exact hh
        · rw [hh, hv] at hb2'; cases hb2'
      | true => exact ih' st hr' hlen hk hv hP hR

theorem sRec_inv {g : G ν ε} (hwf : WF g) {adj : List (List Nat)} (hadj : AdjOk g adj) {P : σ → Prop} {R : σ → Nat → Prop}
    {cb : σ → Nat → Nat → Nat → Out (σ × Bool)} (hcb : Keeps g P R cb) (n : Nat) :
    ∀ v (st : SSt σ), g.vertexAt v ≠ none → st.enc.length = g.vertices.length → st.enc.count false < n → P st.s → R st.s v →
      IPost P R g.vertices.length st (sRec g cb adj n v st) := by
  induction n with
  | zero => intro v st _ _ h; omega
  | succ n ih =>
    intro v st hv hlen hk hP hR
    have hv' : g.vertexExists v = true := Option.isSome_iff_ne_none.mpr hv
    unfold sRec
    simp only [hv', Bool.not_true, Bool.false_eq_true, if_false, adj_get hadj hv, resize_self hlen]
    have hle := count_set_le st.enc v
    have hlt : v < st.enc.length := by rw [hlen]; exact vertexAt_lt hv
    obtain ⟨st', r1, r2, r3, r5, r4, r6⟩ := sLoop_inv (k := n) (v := v) hcb (fun w s _ hw hl hk hP hR => ih w s hw hl hk hP hR)
      (occ 0 g.edges v)
      (fun e he ed hed => by
        obtain ⟨ed', hed', hh⟩ := mem_occ.mp he
        rw [hed] at hed'; cases hed'
        exact ⟨hh, hwf.ends e ed hed⟩)
      ⟨st.enc.set v true, st.s⟩ (InRange.occ hwf v) (by simpa using hlen)
      (by show (st.enc.set v true).count false ≤ n; omega) (by simp [hlt]) hP hR
    have r3' : st'.enc.count false ≤ (st.enc.set v true).count false := r3
    exact ⟨st', r1, r2, by omega, fun x hx => r5 x (set_true_keeps hx), r4, r6⟩

/-- Whatever the callback answers, and however its answers depend on what it saw, the traversal from a live vertex ends
    normally, as long as the callback itself does; an invariant kept by the callback holds at the end. -/
theorem sTraverse_inv {g : G ν ε} (h : Reached g) {P : σ → Prop} {R : σ → Nat → Prop}
    {cb : σ → Nat → Nat → Nat → Out (σ × Bool)} (hcb : Keeps g P R cb) {s : σ} (hs : P s) {v : Nat} (hR : R s v)
    (hv : g.vertexExists v = true) : ∃ s', g.sTraverse cb s v = .ok s' ∧ P s' ∧ ∀ x, R s x → R s' x := by
  obtain ⟨adj, e1, hadj⟩ := adjacency_ok h.wf
  obtain ⟨st', r1, _, _, _, r4, r5⟩ := sRec_inv h.wf hadj hcb (g.vertices.length + 1) v
    ⟨List.replicate g.vertices.length false, s⟩ (Option.isSome_iff_ne_none.mp hv) (by simp) (by simp) hs hR
  refine ⟨st'.s, ?_, r4, r5⟩
  unfold G.sTraverse
  simp only [hv, Bool.not_true, Bool.false_eq_true, if_false]
  rw [e1, Out.bind_ok, r1]; rfl

/-! ### Answers that do not depend on the state -/

/-- The state after the calls. -/
def afterCalls (step : σ → Call → σ) : σ → List Call → σ
  | s, [] => s
  | s, c :: cs => afterCalls step (step s c) cs

theorem afterCalls_append (step : σ → Call → σ) (s : σ) (cs ds : List Call) :
    afterCalls step s (cs ++ ds) = afterCalls step (afterCalls step s cs) ds := by
  induction cs generalizing s with
  | nil => rfl
  | cons c cs ih => exact ih _

theorem sim_loop {g : G ν ε} {acc : Nat → Nat → Nat → Bool} {step : σ → Call → σ}
    {cb : σ → Nat → Nat → Nat → Out (σ × Bool)}
    (hcb : ∀ s u e w, Valid g u e w → cb s u e w = .ok (step s ⟨u, e, w, acc u e w⟩, acc u e w))
    {prec : Nat → TSt → Out TSt} {rec : Nat → SSt σ → Out (SSt σ)}
    (hrec : ∀ w (st st' : TSt) s, prec w st = .ok st' → ∃ calls, st'.log = st.log ++ calls ∧
      rec w ⟨st.enc, s⟩ = .ok ⟨st'.enc, afterCalls step s calls⟩) (es : List Nat) :
    ∀ (st st' : TSt) s, edgeLoop g acc prec es st = .ok st' → ∃ calls, st'.log = st.log ++ calls ∧
      sLoop g cb rec es ⟨st.enc, s⟩ = .ok ⟨st'.enc, afterCalls step s calls⟩ := by
  induction es with
  | nil => intro st st' s h; cases h; exact ⟨[], by simp, rfl⟩
  | cons e es ih =>
    intro st st' s h
    unfold edgeLoop at h
    unfold sLoop
    cases hed : g.edgeAt e with
    | none => rw [hed] at h; cases h
    | some ed =>
      rw [hed] at h
      simp only [] at h ⊢
      have key : ∀ u w, Joins ed u w →
          ((if acc u e w then (prec w ((st.call u e w true).mark w)).bind (edgeLoop g acc prec es)
            else edgeLoop g acc prec es (st.call u e w false)) = .ok st' →
          ∃ calls, st'.log = st.log ++ calls ∧
            ((cb s u e w).bind fun r => if r.2 then (rec w ⟨st.enc.set w true, r.1⟩).bind (sLoop g cb rec es)
              else sLoop g cb rec es ⟨st.enc, r.1⟩) = .ok ⟨st'.enc, afterCalls step s calls⟩) := by
        intro u w hj hk
        rw [hcb s u e w ⟨ed, hed, hj⟩, Out.bind_ok]
        cases ha : acc u e w with
        | false =>
          rw [ha] at hk
          simp only [Bool.false_eq_true, if_false] at hk ⊢
          obtain ⟨c2, l2, r2⟩ := ih _ _ (step s ⟨u, e, w, false⟩) hk
          exact ⟨⟨u, e, w, false⟩ :: c2, by rw [l2]; simp [TSt.call], r2⟩
        | true =>
          rw [ha] at hk
          simp only [if_true] at hk ⊢
          cases hp : prec w ((st.call u e w true).mark w) with
          | thrown => rw [hp] at hk; cases hk
          | ub => rw [hp] at hk; cases hk
          | ok st1 =>
            rw [hp, Out.bind_ok] at hk
            obtain ⟨c1, l1, r1⟩ := hrec w _ st1 (step s ⟨u, e, w, true⟩) hp
            obtain ⟨c2, l2, r2⟩ := ih st1 st' (afterCalls step (step s ⟨u, e, w, true⟩) c1) hk
            refine ⟨⟨u, e, w, true⟩ :: (c1 ++ c2), by rw [l2, l1]; simp [TSt.call, TSt.mark], ?_⟩
            have r1' : rec w ⟨st.enc.set w true, step s ⟨u, e, w, true⟩⟩ =
                .ok ⟨st1.enc, afterCalls step (step s ⟨u, e, w, true⟩) c1⟩ := r1
            rw [r1', Out.bind_ok, r2]
            show _ = Out.ok (SSt.mk st'.enc (afterCalls step (step s ⟨u, e, w, true⟩) (c1 ++ c2)))
            rw [afterCalls_append]
      cases hb1 : st.enc[ed.v1]? with
      | none => rw [hb1] at h; cases h
      | some b1 =>
        rw [hb1] at h
        cases b1 with
        | false => exact key ed.v2 ed.v1 (Or.inr ⟨rfl, rfl⟩) h
        | true =>
          simp only [] at h ⊢
          cases hb2 : st.enc[ed.v2]? with
          | none => rw [hb2] at h; cases h
          | some b2 =>
            rw [hb2] at h
            cases b2 with
            | false => exact key ed.v1 ed.v2 (Or.inl ⟨rfl, rfl⟩) h
            | true => exact ih st st' s h

theorem sim_rec {g : G ν ε} {acc : Nat → Nat → Nat → Bool} {step : σ → Call → σ}
    {cb : σ → Nat → Nat → Nat → Out (σ × Bool)}
    (hcb : ∀ s u e w, Valid g u e w → cb s u e w = .ok (step s ⟨u, e, w, acc u e w⟩, acc u e w)) (adj : List (List Nat))
    (n : Nat) : ∀ v (st st' : TSt) s, traverseRec g acc adj n v st = .ok st' → ∃ calls, st'.log = st.log ++ calls ∧
      sRec g cb adj n v ⟨st.enc, s⟩ = .ok ⟨st'.enc, afterCalls step s calls⟩ := by
  induction n with
  | zero => intro v st st' s h; cases h
  | succ n ih =>
    intro v st st' s h
    unfold traverseRec at h
    unfold sRec
    cases hv : g.vertexExists v with
    | false => simp [hv] at h
    | true =>
      simp only [hv, Bool.not_true, Bool.false_eq_true, if_false] at h ⊢
      cases ha : adj[v]? with
      | none => rw [ha] at h; cases h
      | some es =>
        rw [ha] at h
        exact sim_loop hcb ih es _ st' s h

/-- A callback whose answers do not depend on its state: the calls are those of the plain traversal, the state is what
    they make of it. -/
theorem sTraverse_pure {g : G ν ε} {acc : Nat → Nat → Nat → Bool} {step : σ → Call → σ}
    {cb : σ → Nat → Nat → Nat → Out (σ × Bool)}
    (hcb : ∀ s u e w, Valid g u e w → cb s u e w = .ok (step s ⟨u, e, w, acc u e w⟩, acc u e w)) {v : Nat} {st : TSt}
    (hst : g.traverseFrom acc v = .ok st) (s : σ) : g.sTraverse cb s v = .ok (afterCalls step s st.log) := by
  unfold G.traverseFrom G.traverse at hst
  unfold G.sTraverse
  cases hv : g.vertexExists v with
  | false => simp [hv] at hst
  | true =>
    simp only [hv, Bool.not_true, Bool.false_eq_true, if_false] at hst ⊢
    cases ha : g.adjacency with
    | thrown => rw [ha] at hst; cases hst
    | ub => rw [ha] at hst; cases hst
    | ok adj =>
      rw [ha, Out.bind_ok] at hst
      rw [Out.bind_ok]
      obtain ⟨calls, l1, l2⟩ := sim_rec hcb adj _ v _ st s hst
      have l1' : st.log = calls := by rw [l1]; rfl
      rw [l2, l1']; rfl

end Verif.Graph
