import Verif.Graph.TraverseProps

/-!
Traversals of `UndirectedGraph` whose callback keeps a state between its calls (UndirectedGraph.hxx l.420-451): the
callbacks of `Search.lean` answer from their arguments alone, these also from what they saw before.
-/

namespace Verif.Graph

open Verif

variable {ν ε σ : Type}

/-- State of such a traversal: the `encountered` vector and the state captured by the callback. -/
structure SSt (σ : Type) where
  enc : List Bool
  s : σ
  deriving DecidableEq, Repr

/-- Loop over the adjacent edges (UndirectedGraph.hxx l.437-450).  `cb s from edge to` is the new state of the callback
    and its answer (`true` is `CONTINUE`); it may throw. -/
def sLoop (g : G ν ε) (cb : σ → Nat → Nat → Nat → Out (σ × Bool)) (rec : Nat → SSt σ → Out (SSt σ)) :
    List Nat → SSt σ → Out (SSt σ)
  | [], st => .ok st
  | e :: es, st =>
    match g.edgeAt e with
    | none => .ub
    | some ed =>
      match st.enc[ed.v1]? with
      | none => .ub
      | some false =>
        (cb st.s ed.v2 e ed.v1).bind fun r =>
          if r.2 then (rec ed.v1 ⟨st.enc.set ed.v1 true, r.1⟩).bind (sLoop g cb rec es)
          else sLoop g cb rec es ⟨st.enc, r.1⟩
      | some true =>
        match st.enc[ed.v2]? with
        | none => .ub
        | some false =>
          (cb st.s ed.v1 e ed.v2).bind fun r =>
            if r.2 then (rec ed.v2 ⟨st.enc.set ed.v2 true, r.1⟩).bind (sLoop g cb rec es)
            else sLoop g cb rec es ⟨st.enc, r.1⟩
        | some true => sLoop g cb rec es st

/-- The recursive `traverse` (UndirectedGraph.hxx l.427-451). -/
def sRec (g : G ν ε) (cb : σ → Nat → Nat → Nat → Out (σ × Bool)) (adj : List (List Nat)) : Nat → Nat → SSt σ → Out (SSt σ)
  | 0, _, _ => .ub
  | n + 1, v, st =>
    if !g.vertexExists v then .thrown
    else
      match adj[v]? with
      | none => .ub
      | some es => sLoop g cb (sRec g cb adj n) es ⟨(resize st.enc g.vertices.length).set v true, st.s⟩

/-- `traverse(v, traverser)` (UndirectedGraph.hxx l.420-425): the final state of the callback. -/
def G.sTraverse (g : G ν ε) (cb : σ → Nat → Nat → Nat → Out (σ × Bool)) (s : σ) (v : Nat) : Out σ :=
  if !g.vertexExists v then .thrown
  else g.adjacency.bind (fun adj =>
    (sRec g cb adj (g.vertices.length + 1) v ⟨List.replicate g.vertices.length false, s⟩).map SSt.s)

/-! ### Searches: the callback stops everywhere once it has found something -/

/-- The callback of a search: once something is found every direction is refused; otherwise `look` is asked about the
    vertex, and the traversal goes on as long as it finds nothing. -/
def seekCb {α : Type} (look : Nat → Out (Option α)) : Option α → Nat → Nat → Nat → Out (Option α × Bool)
  | some a, _, _, _ => .ok (some a, false)
  | none, _, _, w => (look w).bind fun r => .ok (r, r.isNone)

variable {α : Type}

/-- The edges have ends within the vector. -/
def InRange (g : G ν ε) (n : Nat) (es : List Nat) : Prop :=
  ∀ e ∈ es, ∃ ed, g.edgeAt e = some ed ∧ ed.v1 < n ∧ ed.v2 < n

theorem seek_done {g : G ν ε} {look : Nat → Out (Option α)} {rec : Nat → SSt (Option α) → Out (SSt (Option α))} (a : α)
    (es : List Nat) : ∀ enc, InRange g enc.length es → sLoop g (seekCb look) rec es ⟨enc, some a⟩ = .ok ⟨enc, some a⟩ := by
  induction es with
  | nil => intro enc _; rfl
  | cons e es ih =>
    intro enc hr
    obtain ⟨ed, hed, h1, h2⟩ := hr e (by simp)
    have hr' : InRange g enc.length es := fun e' he' => hr e' (List.mem_cons_of_mem _ he')
    unfold sLoop
    rw [hed]
    simp only [List.getElem?_eq_getElem h1, List.getElem?_eq_getElem h2]
    cases enc[ed.v1] with
    | false => simp only [seekCb, Out.bind_ok, Bool.false_eq_true, if_false]; exact ih enc hr'
    | true =>
      simp only []
      cases enc[ed.v2] with
      | false => simp only [seekCb, Out.bind_ok, Bool.false_eq_true, if_false]; exact ih enc hr'
      | true => exact ih enc hr'

/-- The first refused call. -/
def firstRefused (calls : List Call) : Option Call := calls.find? (fun c => !c.go)

/-- What the search ends with, given the calls that a search that does not stop makes. -/
def SeekPost (f : Nat → Option α) (calls : List Call) (enc' : List Bool) (s' : SSt (Option α)) : Prop :=
  s'.enc.length = enc'.length ∧
  match firstRefused calls with
  | none => s' = ⟨enc', none⟩
  | some c => ∃ a, s'.s = some a ∧ f c.dst = some a

/-- The pure callback: go on where there is nothing to find. -/
def seekAcc (f : Nat → Option α) (_v1 _e w : Nat) : Bool := (f w).isNone

theorem seek_loop {g : G ν ε} {look : Nat → Out (Option α)} {f : Nat → Option α} {N : Nat}
    (hlook : ∀ w, w < N → look w = .ok (f w))
    {prec : Nat → TSt → Out TSt} {rec : Nat → SSt (Option α) → Out (SSt (Option α))}
    (hrec : ∀ w (st st' : TSt), st.enc.length = N → prec w st = .ok st' →
      st'.enc.length = N ∧ ∃ calls, st'.log = st.log ++ calls ∧
        ∃ s', rec w ⟨st.enc, none⟩ = .ok s' ∧ SeekPost f calls st'.enc s')
    (es : List Nat) : ∀ (st st' : TSt), InRange g N es → st.enc.length = N →
      edgeLoop g (seekAcc f) prec es st = .ok st' →
      st'.enc.length = N ∧ ∃ calls, st'.log = st.log ++ calls ∧
        ∃ s', sLoop g (seekCb look) rec es ⟨st.enc, none⟩ = .ok s' ∧ SeekPost f calls st'.enc s' := by
  induction es with
  | nil =>
    intro st st' _ hlen h
    cases h
    exact ⟨hlen, [], by simp, ⟨st.enc, none⟩, rfl, rfl, rfl⟩
  | cons e es ih =>
    intro st st' hr hlen h
    obtain ⟨ed, hed, h1, h2⟩ := hr e (by simp)
    have hr' : InRange g N es := fun e' he' => hr e' (List.mem_cons_of_mem _ he')
    -- the treatment of a call
    have key : ∀ src w, w < N →
        ((if seekAcc f src e w then (prec w ((st.call src e w true).mark w)).bind (edgeLoop g (seekAcc f) prec es)
          else edgeLoop g (seekAcc f) prec es (st.call src e w false)) = .ok st' →
        st'.enc.length = N ∧ ∃ calls, st'.log = st.log ++ calls ∧
          ∃ s', ((seekCb look none src e w).bind fun r =>
            if r.2 then (rec w ⟨st.enc.set w true, r.1⟩).bind (sLoop g (seekCb look) rec es)
            else sLoop g (seekCb look) rec es ⟨st.enc, r.1⟩) = .ok s' ∧ SeekPost f calls st'.enc s') := by
      intro src w hw hk
      simp only [seekCb, hlook w hw, Out.bind_ok]
      cases hf : f w with
      | none =>
        have ha : seekAcc f src e w = true := by simp [seekAcc, hf]
        rw [if_pos ha] at hk
        cases hp : prec w ((st.call src e w true).mark w) with
        | thrown => rw [hp] at hk; cases hk
        | ub => rw [hp] at hk; cases hk
        | ok st1 =>
          rw [hp, Out.bind_ok] at hk
          have hl1 : ((st.call src e w true).mark w).enc.length = N := by rw [len_mark]; exact hlen
          obtain ⟨hlen1, c1, l1, s1, r1, p1⟩ := hrec w _ st1 hl1 hp
          obtain ⟨hlen2, c2, l2, s2, r2, p2⟩ := ih st1 st' hr' hlen1 hk
          refine ⟨hlen2, ⟨src, e, w, true⟩ :: (c1 ++ c2), ?_, ?_⟩
          · rw [l2, l1]; simp [TSt.call, TSt.mark]
          · have hr1 : rec w ⟨st.enc.set w true, none⟩ = .ok s1 := r1
            simp only [Option.isNone_none, if_true, hr1, Out.bind_ok]
            have hff : firstRefused (⟨src, e, w, true⟩ :: (c1 ++ c2)) = (firstRefused c1).or (firstRefused c2) := by
              simp [firstRefused]
            obtain ⟨pl, p1⟩ := p1
            cases hc1 : firstRefused c1 with
            | none =>
              rw [hc1] at p1 hff
              simp only [] at p1
              rw [p1]
              refine ⟨s2, r2, p2.1, ?_⟩
              rw [hff]
              exact p2.2
            | some c =>
              rw [hc1] at p1 hff
              simp only [] at p1
              obtain ⟨a, hs, hfa⟩ := p1
              have : s1 = ⟨s1.enc, some a⟩ := by cases s1; cases hs; rfl
              rw [this, seek_done a es s1.enc (by rw [pl, hlen1]; exact hr')]
              refine ⟨_, rfl, ?_, ?_⟩
              · show s1.enc.length = _; rw [pl, hlen1, hlen2]
              · rw [hff]; exact ⟨a, rfl, hfa⟩
      | some a =>
        have ha : seekAcc f src e w = false := by simp [seekAcc, hf]
        rw [if_neg (by rw [ha]; simp)] at hk
        obtain ⟨hlen2, c2, l2, s2, r2, p2⟩ := ih (st.call src e w false) st' hr' hlen hk
        refine ⟨hlen2, ⟨src, e, w, false⟩ :: c2, ?_, ?_⟩
        · rw [l2]; simp [TSt.call]
        · simp only [Option.isNone_some, Bool.false_eq_true, if_false]
          rw [seek_done a es st.enc (by rw [hlen]; exact hr')]
          refine ⟨_, rfl, ?_, ?_⟩
          · show st.enc.length = _; rw [hlen, hlen2]
          · exact ⟨a, rfl, hf⟩
    unfold edgeLoop at h
    unfold sLoop
    rw [hed] at h ⊢
    have h1' : ed.v1 < st.enc.length := by rw [hlen]; exact h1
    have h2' : ed.v2 < st.enc.length := by rw [hlen]; exact h2
    simp only [List.getElem?_eq_getElem h1', List.getElem?_eq_getElem h2'] at h ⊢
    cases hb1 : st.enc[ed.v1] with
    | false => simp only [hb1] at h; exact key ed.v2 ed.v1 h1 h
    | true =>
      simp only [hb1] at h
      cases hb2 : st.enc[ed.v2] with
      | false => simp only [hb2] at h; exact key ed.v1 ed.v2 h2 h
      | true => simp only [hb2] at h; exact ih st st' hr' hlen h

theorem seek_rec {g : G ν ε} (hwf : WF g) {adj : List (List Nat)} (hadj : AdjOk g adj) {look : Nat → Out (Option α)}
    {f : Nat → Option α} (hlook : ∀ w, w < g.vertices.length → look w = .ok (f w)) (n : Nat) :
    ∀ v (st st' : TSt), st.enc.length = g.vertices.length → traverseRec g (seekAcc f) adj n v st = .ok st' →
      st'.enc.length = g.vertices.length ∧ ∃ calls, st'.log = st.log ++ calls ∧
        ∃ s', sRec g (seekCb look) adj n v ⟨st.enc, none⟩ = .ok s' ∧ SeekPost f calls st'.enc s' := by
  induction n with
  | zero => intro v st st' _ h; cases h
  | succ n ih =>
    intro v st st' hlen h
    unfold traverseRec at h
    unfold sRec
    cases hv : g.vertexExists v with
    | false => simp [hv] at h
    | true =>
      have hv' : g.vertexAt v ≠ none := Option.isSome_iff_ne_none.mp hv
      simp only [hv, Bool.not_true, Bool.false_eq_true, if_false, adj_get hadj hv', resize_self hlen] at h ⊢
      have hr : InRange g g.vertices.length (occ 0 g.edges v) := by
        intro e he
        obtain ⟨ed, hed, _⟩ := mem_occ.mp he
        obtain ⟨k1, k2⟩ := hwf.ends e ed hed
        exact ⟨ed, hed, vertexAt_lt k1, vertexAt_lt k2⟩
      exact seek_loop hlook ih _ (st.mark v) st' hr (by rw [len_mark]; exact hlen) h

/-- Some edge joins the vertices. -/
def Linked (g : G ν ε) (u w : Nat) : Prop := ∃ e ed, g.edgeAt e = some ed ∧ Joins ed u w

theorem reach_seek {g : G ν ε} {f : Nat → Option α} {v u : Nat} :
    Reach (StepR g (seekAcc f)) (fun _ => False) v u ↔ Reach (Linked g) (fun w => f w ≠ none) v u := by
  constructor
  · intro h
    induction h with
    | refl => exact .refl
    | step _ h2 _ ih =>
      obtain ⟨e, ed, k1, k2, k3⟩ := h2
      exact .step ih ⟨e, ed, k1, k2⟩ (by unfold seekAcc at k3; simpa using k3)
  · intro h
    induction h with
    | refl => exact .refl
    | step _ h2 h3 ih =>
      obtain ⟨e, ed, k1, k2⟩ := h2
      exact .step ih ⟨e, ed, k1, k2, by unfold seekAcc; simpa using h3⟩ (fun h => h)

/-- A search from a live vertex ends normally.  It finds something exactly when some vertex with something on it is linked
    to a vertex reachable from the start through vertices with nothing on them, and then it answers what is on such a
    vertex. -/
theorem seek_spec {g : G ν ε} (h : Reached g) {look : Nat → Out (Option α)} {f : Nat → Option α}
    (hlook : ∀ w, w < g.vertices.length → look w = .ok (f w)) {v : Nat} (hv : g.vertexExists v = true)
    (hfv : f v = none) :
    ∃ r, g.sTraverse (seekCb look) none v = .ok r ∧
      (∀ a, r = some a → ∃ u w, Reach (Linked g) (fun x => f x ≠ none) v u ∧ Linked g u w ∧ f w = some a) ∧
      (r = none → ∀ u w, Reach (Linked g) (fun x => f x ≠ none) v u → Linked g u w → f w = none) := by
  obtain ⟨adj, e1, hadj⟩ := adjacency_ok h.wf
  have hlen : (List.replicate g.vertices.length false).length = g.vertices.length := by simp
  obtain ⟨st, t1, t2, t3⟩ := traverse_visits_reachable h (seekAcc f) hv hlen
  obtain ⟨q1, q2, q3, q4⟩ := traverse_calls h (seekAcc f) hv hlen t1
  have hE : ∀ u, ¬ Enc (List.replicate g.vertices.length false) u := by
    intro u hu
    unfold Enc at hu
    rw [List.getElem?_replicate] at hu
    split at hu <;> simp at hu
  have hR : ∀ u, Reach (StepR g (seekAcc f)) (Enc (List.replicate g.vertices.length false)) v u ↔
      Reach (Linked g) (fun w => f w ≠ none) v u := by
    intro u
    rw [← reach_seek]
    exact ⟨fun h => h.mono (fun x hx => hx.elim), fun h => h.mono (fun x hx => absurd hx (hE x))⟩
  have t1' : traverseRec g (seekAcc f) adj (g.vertices.length + 1) v ⟨List.replicate g.vertices.length false, []⟩ = .ok st := by
    unfold G.traverse at t1
    simp only [hv, Bool.not_true, Bool.false_eq_true, if_false] at t1
    rw [e1, Out.bind_ok] at t1; exact t1
  obtain ⟨_, calls, l1, s', l2, l3⟩ := seek_rec h.wf hadj hlook _ v _ st (by simp) t1'
  have l1' : st.log = calls := by rw [l1]; rfl
  refine ⟨s'.s, ?_, ?_, ?_⟩
  · unfold G.sTraverse
    simp only [hv, Bool.not_true, Bool.false_eq_true, if_false]
    rw [e1, Out.bind_ok, l2]; rfl
  · intro a ha
    obtain ⟨_, l3⟩ := l3
    cases hc : firstRefused calls with
    | none => rw [hc] at l3; simp only [] at l3; rw [l3] at ha; cases ha
    | some c =>
      rw [hc] at l3
      obtain ⟨a', k1, k2⟩ := l3
      rw [k1] at ha; cases ha
      have hm := List.mem_of_find?_eq_some hc
      rw [← l1'] at hm
      obtain ⟨⟨ed, m1, m2⟩, m3, m4, m5, m6⟩ := q1 c hm
      exact ⟨c.src, c.dst, (hR _).mp m4, ⟨c.edge, ed, m1, m2⟩, k2⟩
  · intro hn u w hu hw
    obtain ⟨_, l3⟩ := l3
    cases hc : firstRefused calls with
    | some c =>
      rw [hc] at l3
      obtain ⟨a', k1, _⟩ := l3
      rw [k1] at hn; cases hn
    | none =>
      obtain ⟨e, ed, k1, k2⟩ := hw
      cases hfw : f w with
      | none => rfl
      | some a =>
        exfalso
        have hnw : ¬ Enc st.enc w := by
          intro hw
          rcases (t3 w).mp hw with hw | hw
          · exact hE w hw
          · have := (hR w).mp hw
            cases this with
            | refl => rw [hfv] at hfw; cases hfw
            | step _ _ h3 => exact h3 (by rw [hfw]; simp)
        have := q4 u ((hR u).mpr hu) e ed w k1 k2 hnw
        rw [l1'] at this
        have hall := List.find?_eq_none.mp hc _ this
        simp [seekAcc, hfw] at hall

end Verif.Graph
