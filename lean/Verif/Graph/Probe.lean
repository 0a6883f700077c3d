import Verif.Graph.Stateful

/-!
Searches in `UndirectedGraph` (UndirectedGraph.hxx l.420-451) that do not cross some edges: once something is found every
direction is refused, and a barred edge is never crossed nor is its end looked at.
-/

namespace Verif.Graph

open Verif

variable {ν ε σ α : Type}

/-- The callback of such a search. -/
def probeCb (bar : Nat → Bool) (look : Nat → Out (Option α)) : Option α → Nat → Nat → Nat → Out (Option α × Bool)
  | some a, _, _, _ => .ok (some a, false)
  | none, _, e, w => if bar e then .ok (none, false) else (look w).bind fun r => .ok (r, r.isNone)

theorem probe_done {g : G ν ε} {bar : Nat → Bool} {look : Nat → Out (Option α)}
    {rec : Nat → SSt (Option α) → Out (SSt (Option α))} (a : α) (es : List Nat) :
    ∀ enc, InRange g enc.length es → sLoop g (probeCb bar look) rec es ⟨enc, some a⟩ = .ok ⟨enc, some a⟩ := by
  induction es with
  | nil => intro enc _; rfl
  | cons e es ih =>
    intro enc hr
    obtain ⟨ed, hed, h1, h2⟩ := hr e (by simp)
    have hr' : InRange g enc.length es := fun e' he' => hr e' (List.mem_cons_of_mem _ he')
    unfold sLoop
    rw [hed]
    simp only [List.getElem?_eq_getElem h1, List.getElem?_eq_getElem h2]
    cases enc[ed.v1] with
    | false => simp only [probeCb, Out.bind_ok, Bool.false_eq_true, if_false]; exact ih enc hr'
    | true =>
      simp only []
      cases enc[ed.v2] with
      | false => simp only [probeCb, Out.bind_ok, Bool.false_eq_true, if_false]; exact ih enc hr'
      | true => exact ih enc hr'

/-- The call found something: the edge is not barred and there is something at its end. -/
def hit (bar : Nat → Bool) (f : Nat → Option α) (c : Call) : Bool := !bar c.edge && (f c.dst).isSome

/-- What the search ends with, given the calls that a search that does not stop makes. -/
def ProbePost (bar : Nat → Bool) (f : Nat → Option α) (calls : List Call) (enc' : List Bool) (s' : SSt (Option α)) : Prop :=
  s'.enc.length = enc'.length ∧
  match calls.find? (hit bar f) with
  | none => s' = ⟨enc', none⟩
  | some c => ∃ a, s'.s = some a ∧ f c.dst = some a

/-- The pure callback: go on where there is nothing to find. -/
def probeAcc (bar : Nat → Bool) (f : Nat → Option α) (_v1 e w : Nat) : Bool := !bar e && (f w).isNone

theorem probe_loop {g : G ν ε} {bar : Nat → Bool} {look : Nat → Out (Option α)} {f : Nat → Option α} {N : Nat}
    (hlook : ∀ e ed, g.edgeAt e = some ed → look ed.v1 = .ok (f ed.v1) ∧ look ed.v2 = .ok (f ed.v2))
    {prec : Nat → TSt → Out TSt} {rec : Nat → SSt (Option α) → Out (SSt (Option α))}
    (hrec : ∀ w (st st' : TSt), st.enc.length = N → prec w st = .ok st' →
      st'.enc.length = N ∧ ∃ calls, st'.log = st.log ++ calls ∧
        ∃ s', rec w ⟨st.enc, none⟩ = .ok s' ∧ ProbePost bar f calls st'.enc s')
    (es : List Nat) : ∀ (st st' : TSt), InRange g N es → st.enc.length = N →
      edgeLoop g (probeAcc bar f) prec es st = .ok st' →
      st'.enc.length = N ∧ ∃ calls, st'.log = st.log ++ calls ∧
        ∃ s', sLoop g (probeCb bar look) rec es ⟨st.enc, none⟩ = .ok s' ∧ ProbePost bar f calls st'.enc s' := by
  induction es with
  | nil =>
    intro st st' _ hlen h
    cases h
    exact ⟨hlen, [], by simp, ⟨st.enc, none⟩, rfl, rfl, rfl⟩
  | cons e es ih =>
    intro st st' hr hlen h
    obtain ⟨ed, hed, h1, h2⟩ := hr e (by simp)
    have hr' : InRange g N es := fun e' he' => hr e' (List.mem_cons_of_mem _ he')
    -- the treatment of a call
    have key : ∀ src w, look w = .ok (f w) →
        ((if probeAcc bar f src e w then (prec w ((st.call src e w true).mark w)).bind (edgeLoop g (probeAcc bar f) prec es)
          else edgeLoop g (probeAcc bar f) prec es (st.call src e w false)) = .ok st' →
        st'.enc.length = N ∧ ∃ calls, st'.log = st.log ++ calls ∧
          ∃ s', ((probeCb bar look none src e w).bind fun r =>
            if r.2 then (rec w ⟨st.enc.set w true, r.1⟩).bind (sLoop g (probeCb bar look) rec es)
            else sLoop g (probeCb bar look) rec es ⟨st.enc, r.1⟩) = .ok s' ∧ ProbePost bar f calls st'.enc s') := by
      intro src w hw hk
      cases hbar : bar e with
      | true =>
        have ha : probeAcc bar f src e w = false := by simp [probeAcc, hbar]
        rw [if_neg (by rw [ha]; simp)] at hk
        obtain ⟨hlen2, c2, l2, s2, r2, p2⟩ := ih (st.call src e w false) st' hr' hlen hk
        refine ⟨hlen2, ⟨src, e, w, false⟩ :: c2, ?_, s2, ?_, ?_⟩
        · rw [l2]; simp [TSt.call]
        · simp only [probeCb, hbar, if_true, Out.bind_ok, Bool.false_eq_true, if_false]; exact r2
        · refine ⟨p2.1, ?_⟩
          have hff : (⟨src, e, w, false⟩ :: c2 : List Call).find? (hit bar f) = c2.find? (hit bar f) := by
            simp [hit, hbar]
          rw [hff]; exact p2.2
      | false =>
        simp only [probeCb, hbar, hw, Out.bind_ok, Bool.false_eq_true, if_false]
        cases hf : f w with
        | none =>
          have ha : probeAcc bar f src e w = true := by simp [probeAcc, hf, hbar]
          rw [if_pos ha] at hk
          cases hp : prec w ((st.call src e w true).mark w) with
          | thrown => rw [hp] at hk; cases hk
          | ub => rw [hp] at hk; cases hk
          | ok st1 =>
            rw [hp, Out.bind_ok] at hk
            have hl1 : ((st.call src e w true).mark w).enc.length = N := by rw [len_mark]; exact hlen
            obtain ⟨hlen1, c1, l1, s1, r1, p1⟩ := hrec w _ st1 hl1 hp
            obtain ⟨hlen2, c2, l2, s2, r2, p2⟩ := ih st1 st' hr' hlen1 hk
            refine ⟨hlen2, ⟨src, e, w, true⟩ :: (c1 ++ c2), ?_, ?_⟩
            · rw [l2, l1]; simp [TSt.call, TSt.mark]
            · have hr1 : rec w ⟨st.enc.set w true, none⟩ = .ok s1 := r1
              simp only [Option.isNone_none, if_true, hr1, Out.bind_ok]
              have hff : (⟨src, e, w, true⟩ :: (c1 ++ c2) : List Call).find? (hit bar f) =
                  (c1.find? (hit bar f)).or (c2.find? (hit bar f)) := by
                simp [hit, hf]
              obtain ⟨pl, p1⟩ := p1
              cases hc1 : c1.find? (hit bar f) with
              | none =>
                rw [hc1] at p1 hff
                simp only [] at p1
                rw [p1]
                refine ⟨s2, r2, p2.1, ?_⟩
                rw [hff]
                exact p2.2
              | some c =>
                rw [hc1] at p1 hff
                simp only [] at p1
                obtain ⟨a, hs, hfa⟩ := p1
                have : s1 = ⟨s1.enc, some a⟩ := by cases s1; cases hs; rfl
                rw [this, probe_done a es s1.enc (by rw [pl, hlen1]; exact hr')]
                refine ⟨_, rfl, ?_, ?_⟩
                · show s1.enc.length = _; rw [pl, hlen1, hlen2]
                · rw [hff]; exact ⟨a, rfl, hfa⟩
        | some a =>
          have ha : probeAcc bar f src e w = false := by simp [probeAcc, hf]
          rw [if_neg (by rw [ha]; simp)] at hk
          obtain ⟨hlen2, c2, l2, s2, r2, p2⟩ := ih (st.call src e w false) st' hr' hlen hk
          refine ⟨hlen2, ⟨src, e, w, false⟩ :: c2, ?_, ?_⟩
          · rw [l2]; simp [TSt.call]
          · simp only [Option.isNone_some, Bool.false_eq_true, if_false]
            rw [probe_done a es st.enc (by rw [hlen]; exact hr')]
            refine ⟨_, rfl, ?_, ?_⟩
            · show st.enc.length = _; rw [hlen, hlen2]
            · have hff : (⟨src, e, w, false⟩ :: c2 : List Call).find? (hit bar f) = some ⟨src, e, w, false⟩ := by
                simp [hit, hbar, hf]
              rw [hff]; exact ⟨a, rfl, hf⟩
    unfold edgeLoop at h
    unfold sLoop
    rw [hed] at h ⊢
    have h1' : ed.v1 < st.enc.length := by rw [hlen]; exact h1
    have h2' : ed.v2 < st.enc.length := by rw [hlen]; exact h2
    simp only [List.getElem?_eq_getElem h1', List.getElem?_eq_getElem h2'] at h ⊢
    cases hb1 : st.enc[ed.v1] with
    | false => simp only [hb1] at h; exact key ed.v2 ed.v1 (hlook e ed hed).1 h
    | true =>
      simp only [hb1] at h
      cases hb2 : st.enc[ed.v2] with
      | false => simp only [hb2] at h; exact key ed.v1 ed.v2 (hlook e ed hed).2 h
      | true => simp only [hb2] at h; exact ih st st' hr' hlen h

theorem probe_rec {g : G ν ε} (hwf : WF g) {adj : List (List Nat)} (hadj : AdjOk g adj) {bar : Nat → Bool}
    {look : Nat → Out (Option α)} {f : Nat → Option α}
    (hlook : ∀ e ed, g.edgeAt e = some ed → look ed.v1 = .ok (f ed.v1) ∧ look ed.v2 = .ok (f ed.v2)) (n : Nat) :
    ∀ v (st st' : TSt), st.enc.length = g.vertices.length → traverseRec g (probeAcc bar f) adj n v st = .ok st' →
      st'.enc.length = g.vertices.length ∧ ∃ calls, st'.log = st.log ++ calls ∧
        ∃ s', sRec g (probeCb bar look) adj n v ⟨st.enc, none⟩ = .ok s' ∧ ProbePost bar f calls st'.enc s' := by
  induction n with
  | zero => intro v st st' _ h; cases h
  | succ n ih =>
    intro v st st' hlen h
    unfold traverseRec at h
    unfold sRec
    cases hv : g.vertexExists v with
    | false => simp [hv] at h
    | true =>
      have hv' : g.vertexAt v ≠ none := Option.isSome_iff_ne_none.mp hv
      simp only [hv, Bool.not_true, Bool.false_eq_true, if_false, adj_get hadj hv', resize_self hlen] at h ⊢
      have hr : InRange g g.vertices.length (occ 0 g.edges v) := by
        intro e he
        obtain ⟨ed, hed, _⟩ := mem_occ.mp he
        obtain ⟨k1, k2⟩ := hwf.ends e ed hed
        exact ⟨ed, hed, vertexAt_lt k1, vertexAt_lt k2⟩
      exact probe_loop hlook ih _ (st.mark v) st' hr (by rw [len_mark]; exact hlen) h

/-- Some edge that is not barred joins the vertices. -/
def Unbarred (g : G ν ε) (bar : Nat → Bool) (u w : Nat) : Prop := ∃ e ed, g.edgeAt e = some ed ∧ bar e = false ∧ Joins ed u w

theorem reach_probe {g : G ν ε} {bar : Nat → Bool} {f : Nat → Option α} {v u : Nat} :
    Reach (StepR g (probeAcc bar f)) (fun _ => False) v u ↔ Reach (Unbarred g bar) (fun w => f w ≠ none) v u := by
  constructor
  · intro h
    induction h with
    | refl => exact .refl
    | step _ h2 _ ih =>
      obtain ⟨e, ed, k1, k2, k3⟩ := h2
      simp only [probeAcc, Bool.and_eq_true, Bool.not_eq_true', Option.isNone_iff_eq_none] at k3
      exact .step ih ⟨e, ed, k1, k3.1, k2⟩ (by simp [k3.2])
  · intro h
    induction h with
    | refl => exact .refl
    | step _ h2 h3 ih =>
      obtain ⟨e, ed, k1, k2, k3⟩ := h2
      exact .step ih ⟨e, ed, k1, k3, by simp only [probeAcc, k2]; simpa using h3⟩ (fun h => h)

/-- A search from a live vertex with nothing on it ends normally.  What it finds is on a vertex joined, by an edge that is
    not barred, to a vertex reachable by such edges through vertices with nothing on them; and when it finds nothing there
    is nothing on any vertex reachable by edges that are not barred. -/
theorem probe_spec {g : G ν ε} (h : Reached g) {bar : Nat → Bool} {look : Nat → Out (Option α)} {f : Nat → Option α}
    (hlook : ∀ e ed, g.edgeAt e = some ed → look ed.v1 = .ok (f ed.v1) ∧ look ed.v2 = .ok (f ed.v2)) {v : Nat}
    (hv : g.vertexExists v = true) (hfv : f v = none) :
    ∃ r, g.sTraverse (probeCb bar look) none v = .ok r ∧
      (∀ a, r = some a → ∃ u w, Reach (Unbarred g bar) (fun x => f x ≠ none) v u ∧ Unbarred g bar u w ∧ f w = some a) ∧
      (r = none → ∀ w, Reach (Unbarred g bar) (fun _ => False) v w → f w = none) := by
  obtain ⟨adj, e1, hadj⟩ := adjacency_ok h.wf
  have hlen : (List.replicate g.vertices.length false).length = g.vertices.length := by simp
  obtain ⟨st, t1, t2, t3⟩ := traverse_visits_reachable h (probeAcc bar f) hv hlen
  obtain ⟨q1, q2, q3, q4⟩ := traverse_calls h (probeAcc bar f) hv hlen t1
  have hE : ∀ u, ¬ Enc (List.replicate g.vertices.length false) u := by
    intro u hu
    unfold Enc at hu
    rw [List.getElem?_replicate] at hu
    split at hu <;> simp at hu
  have hR : ∀ u, Reach (StepR g (probeAcc bar f)) (Enc (List.replicate g.vertices.length false)) v u ↔
      Reach (Unbarred g bar) (fun w => f w ≠ none) v u := by
    intro u
    rw [← reach_probe]
    exact ⟨fun h => h.mono (fun x hx => hx.elim), fun h => h.mono (fun x hx => absurd hx (hE x))⟩
  have t1' : traverseRec g (probeAcc bar f) adj (g.vertices.length + 1) v
      ⟨List.replicate g.vertices.length false, []⟩ = .ok st := by
    unfold G.traverse at t1
    simp only [hv, Bool.not_true, Bool.false_eq_true, if_false] at t1
    rw [e1, Out.bind_ok] at t1; exact t1
  obtain ⟨_, calls, l1, s', l2, l3⟩ := probe_rec h.wf hadj hlook _ v _ st (by simp) t1'
  have l1' : st.log = calls := by rw [l1]; rfl
  refine ⟨s'.s, ?_, ?_, ?_⟩
  · unfold G.sTraverse
    simp only [hv, Bool.not_true, Bool.false_eq_true, if_false]
    rw [e1, Out.bind_ok, l2]; rfl
  · intro a ha
    obtain ⟨_, l3⟩ := l3
    cases hc : calls.find? (hit bar f) with
    | none => rw [hc] at l3; simp only [] at l3; rw [l3] at ha; cases ha
    | some c =>
      rw [hc] at l3
      obtain ⟨a', k1, k2⟩ := l3
      rw [k1] at ha; cases ha
      have hm := List.mem_of_find?_eq_some hc
      have hb := List.find?_some hc
      simp only [hit, Bool.and_eq_true, Bool.not_eq_true'] at hb
      rw [← l1'] at hm
      obtain ⟨⟨ed, m1, m2⟩, m3, m4, m5, m6⟩ := q1 c hm
      exact ⟨c.src, c.dst, (hR _).mp m4, ⟨c.edge, ed, m1, hb.1, m2⟩, k2⟩
  · intro hn
    obtain ⟨_, l3⟩ := l3
    cases hc : calls.find? (hit bar f) with
    | some c =>
      rw [hc] at l3
      obtain ⟨a', k1, _⟩ := l3
      rw [k1] at hn; cases hn
    | none =>
      intro w hw
      suffices hs : Reach (Unbarred g bar) (fun x => f x ≠ none) v w by
        cases hs with
        | refl => exact hfv
        | step _ _ h3 => simpa using h3
      induction hw with
      | refl => exact .refl
      | @step u w _ h2 _ ih =>
        obtain ⟨e, ed, k1, k2, k3⟩ := h2
        refine .step ih ⟨e, ed, k1, k2, k3⟩ ?_
        intro hfw
        have hnw : ¬ Enc st.enc w := by
          intro hw
          rcases (t3 w).mp hw with hw | hw
          · exact hE w hw
          · have := (hR w).mp hw
            cases this with
            | refl => exact hfw hfv
            | step _ _ h3 => exact h3 hfw
        have := q4 u ((hR u).mpr ih) e ed w k1 k3 hnw
        rw [l1'] at this
        have hall := List.find?_eq_none.mp hc _ this
        simp only [hit, k2, Bool.not_false, Bool.true_and] at hall
        exact hall (by rw [Option.isSome_iff_ne_none]; exact hfw)

end Verif.Graph
