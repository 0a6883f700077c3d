import Verif.Traverse.Lemmas

/-! Helper lemmas for traversals with a traverser whose answers depend on the question only. -/

namespace Verif.Traverse

open Verif Verif.Graph

theorem acceptedOf_append (l l' : List (Q × Bool)) : acceptedOf (l ++ l') = acceptedOf l ++ acceptedOf l' := by
  induction l with
  | nil => rfl
  | cons p l ih =>
    obtain ⟨q, b⟩ := p
    cases q with
    | term t c => cases b <;> simp [acceptedOf, ih]
    | sw h => simp [acceptedOf, ih]

/-- One edge of a voltage level crossed to an open place. -/
def Step (net : Net) (f : Q → Bool) (vl u w : Nat) : Prop :=
  ∃ obj, Joined net vl u w obj ∧ Crossed f obj ∧ Open net f vl w

abbrev Walk (net : Net) (f : Q → Bool) (vl u x : Nat) : Prop := Reach (Step net f vl) (fun _ => False) u x

theorem Joined.symm {net : Net} {vl u w : Nat} {obj : Option Nat} (h : Joined net vl u w obj) : Joined net vl w u obj := by
  unfold Joined at h ⊢
  cases ht : net.topo vl with
  | node g =>
    rw [ht] at h
    obtain ⟨e, ed, h1, h2, h3⟩ := h
    exact ⟨e, ed, h1, h2.elim (fun h => Or.inr ⟨h.2, h.1⟩) (fun h => Or.inl ⟨h.2, h.1⟩), h3⟩
  | bus g =>
    rw [ht] at h
    obtain ⟨e, ed, h1, h2, h3⟩ := h
    exact ⟨e, ed, h1, h2.elim (fun h => Or.inr ⟨h.2, h.1⟩) (fun h => Or.inl ⟨h.2, h.1⟩), h3⟩

theorem Walk.cons {net : Net} {f : Q → Bool} {vl u w x : Nat} (h1 : Step net f vl u w) (h : Walk net f vl w x) :
    Walk net f vl u x := by
  induction h with
  | refl => exact .step .refl h1 (fun h => h)
  | step _ h2 h3 ih => exact .step ih h2 h3

theorem Walk.trans {net : Net} {f : Q → Bool} {vl u w x : Nat} (h1 : Walk net f vl u w) (h : Walk net f vl w x) :
    Walk net f vl u x := by
  induction h with
  | refl => exact h1
  | step _ h2 h3 ih => exact .step ih h2 h3

theorem Walk.open {net : Net} {f : Q → Bool} {vl u x : Nat} (h : Walk net f vl u x) (hu : Open net f vl u) :
    Open net f vl x := by
  cases h with
  | refl => exact hu
  | step _ h2 _ => obtain ⟨_, _, _, h⟩ := h2; exact h

theorem Walk.symm {net : Net} {f : Q → Bool} {vl u x : Nat} (h : Walk net f vl u x) (hu : Open net f vl u) :
    Walk net f vl x u := by
  induction h with
  | refl => exact .refl
  | @step a b h1 h2 _ ih =>
    obtain ⟨obj, k1, k2, k3⟩ := h2
    exact Walk.cons ⟨obj, k1.symm, k2, Walk.open h1 hu⟩ ih

theorem Walk.visited {net : Net} {f : Q → Bool} {t0 vl u x : Nat} (h : Walk net f vl u x)
    (hv : Visited net f t0 (vl, u)) : Visited net f t0 (vl, x) := by
  induction h with
  | refl => exact hv
  | step _ h2 _ ih =>
    obtain ⟨obj, k1, k2, k3⟩ := h2
    exact .edge ih k1 k2 k3

/-- The answers as the graph sees them. -/
def accN (f : Q → Bool) (g : G Nat Nat) (_u e w : Nat) : Bool :=
  (match g.edgeAt e with | some ⟨_, _, some h⟩ => f (.sw h) | _ => true) &&
  (match g.vertexAt w with | some (some t) => f (.term t true) | _ => true)

theorem crossed_iff {f : Q → Bool} {g : G Nat Nat} {e : Nat} {ed : Edge Nat} (hed : g.edgeAt e = some ed) :
    (match g.edgeAt e with | some ⟨_, _, some h⟩ => f (.sw h) | _ => true) = true ↔ Crossed f ed.obj := by
  rw [hed]
  obtain ⟨a, b, obj⟩ := ed
  cases obj with
  | none => simp [Crossed]
  | some h => simp [Crossed]

theorem open_iff {net : Net} (hwf : net.WF) {f : Q → Bool} {vl w : Nat} {g : G Nat Nat} (hg : net.topo vl = .node g) :
    (match g.vertexAt w with | some (some t) => f (.term t true) | _ => true) = true ↔ Open net f vl w := by
  constructor
  · intro h t ht hpl
    have := hwf.nodeAt ht (g := g) (by rw [hpl]; exact hg)
    rw [hpl] at this
    have this' : g.vertexAt w = some (some t) := this
    rw [this'] at h; exact h
  · intro h
    cases hv : g.vertexAt w with
    | none => rfl
    | some o =>
      cases o with
      | none => rfl
      | some t =>
        obtain ⟨h1, h2⟩ := hwf.nodeObj hg hv
        exact h t h1 h2

theorem stepR_iff {net : Net} (hwf : net.WF) {f : Q → Bool} {vl u w : Nat} {g : G Nat Nat} (hg : net.topo vl = .node g) :
    StepR g (accN f g) u w ↔ Step net f vl u w := by
  unfold StepR Step Joined
  rw [hg]
  constructor
  · rintro ⟨e, ed, h1, h2, h3⟩
    unfold accN at h3
    rw [Bool.and_eq_true] at h3
    exact ⟨ed.obj, ⟨e, ed, h1, h2, rfl⟩, (crossed_iff h1).mp h3.1, (open_iff hwf hg).mp h3.2⟩
  · rintro ⟨obj, ⟨e, ed, h1, h2, rfl⟩, h3, h4⟩
    refine ⟨e, ed, h1, h2, ?_⟩
    unfold accN
    rw [Bool.and_eq_true]
    exact ⟨(crossed_iff h1).mpr h3, (open_iff hwf hg).mpr h4⟩

/-- The state after a call of the callback. -/
def stepN (net : Net) (f : Q → Bool) (g : G Nat Nat) (w : W) (c : Call) : W :=
  match nodeCb net (pureAsk f) g w c.src c.edge c.dst with
  | .ok r => r.1
  | _ => w

/-- The terminal accepted by a call. -/
def callTerm (g : G Nat Nat) (c : Call) : Option Nat := if c.go then (g.vertexAt c.dst).join else none

def callTerms (g : G Nat Nat) : List Call → List Nat
  | [] => []
  | c :: cs => (match callTerm g c with | some t => [t] | none => []) ++ callTerms g cs

/-- The effect of a call. -/
structure CallPost (net : Net) (f : Q → Bool) (vl : Nat) (g : G Nat Nat) (w : W) (u e v : Nat) (w' : W) (b : Bool) : Prop where
  go : b = accN f g u e v
  trav : ∀ x, x ∈ w'.st.traversed ↔ x ∈ w.st.traversed ∨ callTerm g ⟨u, e, v, b⟩ = some x
  travEq : (∀ x, callTerm g ⟨u, e, v, b⟩ = some x → x ∉ w.st.traversed) →
    w'.st.traversed = w.st.traversed ++ callTerms g [⟨u, e, v, b⟩]
  acc : acceptedOf w'.st.log = acceptedOf w.st.log ++ callTerms g [⟨u, e, v, b⟩]
  next : ∀ n, n ∈ w'.next ↔ n ∈ w.next ∨ ∃ t, callTerm g ⟨u, e, v, b⟩ = some t ∧ Mate net t n
  log : ∀ t c b', (Q.term t c, b') ∈ w'.st.log ↔ (Q.term t c, b') ∈ w.st.log ∨
    (c = true ∧ b' = f (.term t true) ∧ t ∈ net.terms ∧ net.place t = (vl, v) ∧
      ∃ obj, Joined net vl u v obj ∧ Crossed f obj ∧ ∃ ed, g.edgeAt e = some ed ∧ ed.obj = obj)
  sub : Sub w.st.log w'.st.log

theorem askEdge_sub (f : Ask) (st : St) (obj : Option Nat) : Sub st.log (askEdge f st obj).1.log := by
  cases obj with
  | none => exact fun _ h => h
  | some h => exact ask_sub f st _

theorem askEdge_pure (f : Q → Bool) (st : St) (obj : Option Nat) :
    ((askEdge (pureAsk f) st obj).2 = true ↔ Crossed f obj) ∧
    (askEdge (pureAsk f) st obj).1.traversed = st.traversed ∧
    acceptedOf (askEdge (pureAsk f) st obj).1.log = acceptedOf st.log ∧
    ∀ t c b, (Q.term t c, b) ∈ (askEdge (pureAsk f) st obj).1.log ↔ (Q.term t c, b) ∈ st.log := by
  cases obj with
  | none => simp [askEdge, Crossed]
  | some h =>
    refine ⟨by simp [askEdge, St.ask, Crossed], rfl, ?_, ?_⟩
    · show acceptedOf (st.log ++ [_]) = _
      rw [acceptedOf_append]
      simp [acceptedOf]
    · intro t c b
      show _ ∈ st.log ++ [_] ↔ _
      simp

theorem nodeCb_pure {net : Net} (hwf : net.WF) (f : Q → Bool) {vl : Nat} {g : G Nat Nat} (hg : net.topo vl = .node g)
    (w : W) {u e v : Nat} (hval : Valid g u e v) :
    ∃ w' b, nodeCb net (pureAsk f) g w u e v = .ok (w', b) ∧ CallPost net f vl g w u e v w' b := by
  obtain ⟨ed, hed, hj⟩ := hval
  have hlive : g.vertexAt v ≠ none := by
    obtain ⟨k1, k2⟩ := (hwf.nodeG hg).wf.ends e ed hed
    rcases hj with ⟨_, rfl⟩ | ⟨_, rfl⟩
    · exact k2
    · exact k1
  obtain ⟨other, hoth⟩ := Option.ne_none_iff_exists'.mp hlive
  have hjoin : Joined net vl u v ed.obj := by unfold Joined; rw [hg]; exact ⟨e, ed, hed, hj, rfl⟩
  obtain ⟨a1, a2, a3, a4⟩ := askEdge_pure f w.st ed.obj
  have a5 := askEdge_sub (pureAsk f) w.st ed.obj
  have hcr := crossed_iff (f := f) hed
  unfold nodeCb
  rw [hed, hoth]
  simp only []
  generalize askEdge (pureAsk f) w.st ed.obj = r at a1 a2 a3 a4 a5
  have hacc : accN f g u e v = true ↔ Crossed f ed.obj ∧
      (match g.vertexAt v with | some (some t) => f (.term t true) | _ => true) = true := by
    unfold accN; rw [Bool.and_eq_true, hcr]
  cases hb : r.2 with
  | false =>
    have hnc : ¬ Crossed f ed.obj := fun hh => by rw [a1.mpr hh] at hb; cases hb
    have hacc' : accN f g u e v = false := by
      cases ha : accN f g u e v with
      | false => rfl
      | true => exact absurd (hacc.mp ha).1 hnc
    refine ⟨_, _, rfl, ⟨hacc'.symm, ?_, ?_, ?_, ?_, ?_, ?_⟩⟩
    · intro x; simp [a2, callTerm]
    · intro _; simp [a2, callTerm, callTerms]
    · simp [a3, callTerm, callTerms]
    · intro n; simp [callTerm]
    · intro t c b
      rw [a4]
      constructor
      · exact Or.inl
      · rintro (h | ⟨_, _, _, _, obj, _, h2, ed', h3, h4⟩)
        · exact h
        · rw [hed] at h3; cases h3; rw [← h4] at h2; exact absurd h2 hnc
    · exact a5
  | true =>
    have hc : Crossed f ed.obj := a1.mp hb
    simp only [if_true]
    cases other with
    | none =>
      have hacc' : accN f g u e v = true := hacc.mpr ⟨hc, by rw [hoth]⟩
      refine ⟨_, _, rfl, ⟨hacc'.symm, ?_, ?_, ?_, ?_, ?_, ?_⟩⟩
      · intro x; simp [a2, callTerm, hoth]
      · intro _; simp [a2, callTerm, callTerms, hoth]
      · simp [a3, callTerm, callTerms, hoth]
      · intro n; simp [callTerm, hoth]
      · intro t c b
        rw [a4]
        constructor
        · exact Or.inl
        · rintro (h | ⟨_, _, h1, h2, _⟩)
          · exact h
          · have := hwf.nodeAt h1 (g := g) (by rw [h2]; exact hg)
            rw [h2] at this
            have this' : g.vertexAt v = some (some t) := this
            rw [hoth] at this'; cases this'
      · exact a5
    | some t =>
      obtain ⟨ht, hpl⟩ := hwf.nodeObj hg hoth
      simp only []
      have hloc : ∀ x, x ∈ net.terms → net.place x = (vl, v) → x = t := by
        intro x hx hp
        have := hwf.nodeAt hx (g := g) (by rw [hp]; exact hg)
        rw [hp] at this
        have this' : g.vertexAt v = some (some x) := this
        rw [hoth] at this'; cases this'; rfl
      have hlog : ∀ x c b, (Q.term x c, b) ∈ r.1.log ++ [(Q.term t true, f (.term t true))] ↔
          (Q.term x c, b) ∈ w.st.log ∨ (c = true ∧ b = f (.term x true) ∧ x ∈ net.terms ∧ net.place x = (vl, v) ∧
            ∃ obj, Joined net vl u v obj ∧ Crossed f obj ∧ ∃ ed', g.edgeAt e = some ed' ∧ ed'.obj = obj) := by
        intro x c b
        rw [List.mem_append, a4, List.mem_singleton]
        constructor
        · rintro (h | h)
          · exact Or.inl h
          · cases h
            exact Or.inr ⟨rfl, rfl, ht, hpl, ed.obj, hjoin, hc, ed, hed, rfl⟩
        · rintro (h | ⟨h1, h2, h3, h4, _⟩)
          · exact Or.inl h
          · have := hloc x h3 h4
            subst this; subst h1; subst h2
            exact Or.inr rfl
      cases hft : f (.term t true) with
      | false =>
        have hacc' : accN f g u e v = false := by
          cases ha : accN f g u e v with
          | false => rfl
          | true =>
            have := (hacc.mp ha).2
            rw [hoth] at this
            simp only [] at this
            rw [hft] at this; cases this
        have hask : (r.1.ask (pureAsk f) (.term t true)).2 = false := hft
        rw [hask]
        refine ⟨_, _, rfl, ⟨hacc'.symm, ?_, ?_, ?_, ?_, ?_, ?_⟩⟩
        · intro x
          show x ∈ r.1.traversed ↔ _
          simp [a2, callTerm]
        · intro _
          show r.1.traversed = _
          simp [a2, callTerm, callTerms]
        · show acceptedOf (r.1.log ++ [(Q.term t true, f (.term t true))]) = _
          rw [hft, acceptedOf_append]
          simp [a3, callTerm, callTerms, acceptedOf]
        · intro n; simp [callTerm]
        · exact hlog
        · exact fun x hx => ask_sub (pureAsk f) r.1 _ x (a5 x hx)
      | true =>
        have hacc' : accN f g u e v = true := hacc.mpr ⟨hc, by rw [hoth]; exact hft⟩
        have hask : (r.1.ask (pureAsk f) (.term t true)).2 = true := hft
        rw [hask]
        obtain ⟨nx, q1, q2⟩ := addNext_spec hwf ht w.next
        simp only [if_true, q1, Out.map]
        refine ⟨_, _, rfl, ⟨hacc'.symm, ?_, ?_, ?_, ?_, ?_, ?_⟩⟩
        · intro x
          show x ∈ ins t r.1.traversed ↔ _
          rw [mem_ins, a2]
          simp only [callTerm, hoth, if_true, Option.join_some, Option.some.injEq]
          constructor
          · rintro (rfl | h)
            · exact Or.inr rfl
            · exact Or.inl h
          · rintro (h | rfl)
            · exact Or.inr h
            · exact Or.inl rfl
        · intro hnew
          show ins t r.1.traversed = _
          have : t ∉ w.st.traversed := hnew t (by simp [callTerm, hoth])
          rw [a2]
          simp [ins, this, callTerm, callTerms, hoth]
        · show acceptedOf (r.1.log ++ [(Q.term t true, f (.term t true))]) = _
          rw [hft, acceptedOf_append]
          simp [a3, callTerm, callTerms, acceptedOf, hoth]
        · intro n
          show n ∈ nx ↔ _
          rw [q2]
          simp [callTerm, hoth]
        · exact hlog
        · exact fun x hx => ask_sub (pureAsk f) r.1 _ x (a5 x hx)

/-- The effect of a list of calls. -/
structure CallsPost (net : Net) (f : Q → Bool) (vl : Nat) (g : G Nat Nat) (w : W) (cs : List Call) (w' : W) : Prop where
  trav : w'.st.traversed = w.st.traversed ++ callTerms g cs
  acc : acceptedOf w'.st.log = acceptedOf w.st.log ++ callTerms g cs
  next : ∀ n, n ∈ w'.next ↔ n ∈ w.next ∨ ∃ t ∈ callTerms g cs, Mate net t n
  log : ∀ t c b', (Q.term t c, b') ∈ w'.st.log ↔ (Q.term t c, b') ∈ w.st.log ∨
    (c = true ∧ b' = f (.term t true) ∧ t ∈ net.terms ∧ ∃ k ∈ cs, net.place t = (vl, k.dst) ∧
      ∃ obj, Joined net vl k.src k.dst obj ∧ Crossed f obj ∧ ∃ ed, g.edgeAt k.edge = some ed ∧ ed.obj = obj)
  sub : Sub w.st.log w'.st.log

theorem callTerms_cons (g : G Nat Nat) (c : Call) (cs : List Call) :
    callTerms g (c :: cs) = callTerms g [c] ++ callTerms g cs := by
  simp [callTerms]

theorem mem_callTerms_one {g : G Nat Nat} {c : Call} {t : Nat} : t ∈ callTerms g [c] ↔ callTerm g c = some t := by
  unfold callTerms callTerms
  cases callTerm g c with
  | none => simp
  | some x => simp [eq_comm]

theorem mem_callTerms {g : G Nat Nat} {cs : List Call} {t : Nat} :
    t ∈ callTerms g cs ↔ ∃ c ∈ cs, c.go = true ∧ g.vertexAt c.dst = some (some t) := by
  induction cs with
  | nil => simp [callTerms]
  | cons c cs ih =>
    rw [callTerms_cons, List.mem_append, mem_callTerms_one, ih]
    have : callTerm g c = some t ↔ c.go = true ∧ g.vertexAt c.dst = some (some t) := by
      unfold callTerm
      cases hg : c.go with
      | false => simp
      | true =>
        simp only [if_true, true_and]
        cases g.vertexAt c.dst with
        | none => simp
        | some o => cases o <;> simp
    rw [this]
    simp

theorem calls_pure {net : Net} (hwf : net.WF) (f : Q → Bool) {vl : Nat} {g : G Nat Nat} (hg : net.topo vl = .node g)
    (cs : List Call) : ∀ w : W, (∀ c ∈ cs, Valid g c.src c.edge c.dst ∧ c.go = accN f g c.src c.edge c.dst) →
      (w.st.traversed ++ callTerms g cs).Nodup → CallsPost net f vl g w cs (afterCalls (stepN net f g) w cs) := by
  induction cs with
  | nil =>
    intro w _ _
    exact ⟨by simp [afterCalls, callTerms], by simp [afterCalls, callTerms], by simp [afterCalls, callTerms], by simp [afterCalls],
      fun _ h => h⟩
  | cons c cs ih =>
    intro w hcs hnd
    obtain ⟨hval, hgo⟩ := hcs c (by simp)
    obtain ⟨w1, b, e1, p⟩ := nodeCb_pure hwf f hg w hval
    have hc : (⟨c.src, c.edge, c.dst, b⟩ : Call) = c := by
      obtain ⟨a1, a2, a3, a4⟩ := c
      have hb := p.go
      simp only at hb hgo ⊢
      rw [hb, hgo]
    have hstep : stepN net f g w c = w1 := by unfold stepN; rw [e1]
    have p1 := p.travEq; have p2 := p.acc; have p3 := p.next; have p4 := p.log
    rw [hc] at p1 p2 p3
    rw [callTerms_cons] at hnd
    have p1' := p1 (by
      intro x hx hm
      rw [← List.append_assoc, List.nodup_append] at hnd
      have := (List.nodup_append.mp hnd.1).2.2 x hm x (mem_callTerms_one.mpr hx)
      exact this rfl)
    have q := ih w1 (fun k hk => hcs k (List.mem_cons_of_mem _ hk)) (by rw [p1', List.append_assoc]; exact hnd)
    show CallsPost net f vl g w (c :: cs) (afterCalls (stepN net f g) (stepN net f g w c) cs)
    rw [hstep]
    refine ⟨?_, ?_, ?_, ?_, fun x hx => q.sub x (p.sub x hx)⟩
    · rw [q.trav, p1', callTerms_cons g c cs, List.append_assoc]
    · rw [q.acc, p2, callTerms_cons g c cs, List.append_assoc]
    · intro n
      rw [q.next, p3, callTerms_cons g c cs]
      simp only [List.mem_append, mem_callTerms_one]
      constructor
      · rintro ((h | ⟨t, h1, h2⟩) | ⟨t, h1, h2⟩)
        · exact Or.inl h
        · exact Or.inr ⟨t, Or.inl h1, h2⟩
        · exact Or.inr ⟨t, Or.inr h1, h2⟩
      · rintro (h | ⟨t, h1 | h1, h2⟩)
        · exact Or.inl (Or.inl h)
        · exact Or.inl (Or.inr ⟨t, h1, h2⟩)
        · exact Or.inr ⟨t, h1, h2⟩
    · intro t cc b'
      rw [q.log, p4]
      constructor
      · rintro ((h | ⟨h1, h2, h3, h4, h5⟩) | ⟨h1, h2, h3, k, hk, h4⟩)
        · exact Or.inl h
        · exact Or.inr ⟨h1, h2, h3, c, by simp, h4, h5⟩
        · exact Or.inr ⟨h1, h2, h3, k, List.mem_cons_of_mem _ hk, h4⟩
      · rintro (h | ⟨h1, h2, h3, k, hk, h4, h5⟩)
        · exact Or.inl (Or.inl h)
        · rcases List.mem_cons.mp hk with rfl | hk
          · exact Or.inl (Or.inr ⟨h1, h2, h3, h4, h5⟩)
          · exact Or.inr ⟨h1, h2, h3, k, hk, h4, h5⟩

theorem callTerms_nodup {net : Net} (hwf : net.WF) {vl : Nat} {g : G Nat Nat} (hg : net.topo vl = .node g)
    (cs : List Call) (h : ((cs.filter Call.go).map Call.dst).Nodup) : (callTerms g cs).Nodup := by
  induction cs with
  | nil => simp [callTerms]
  | cons c cs ih =>
    rw [callTerms_cons]
    cases hgo : c.go with
    | false =>
      have : callTerms g [c] = [] := by simp [callTerms, callTerm, hgo]
      rw [this]
      rw [List.filter_cons, hgo] at h
      exact ih (by simpa using h)
    | true =>
      rw [List.filter_cons, hgo] at h
      simp only [if_true, List.map_cons, List.nodup_cons] at h
      rw [List.nodup_append]
      refine ⟨?_, ih h.2, ?_⟩
      · unfold callTerms callTerms
        cases callTerm g c <;> simp
      · intro a ha b hb hab
        subst hab
        rw [mem_callTerms] at ha hb
        obtain ⟨c1, hc1, _, h1⟩ := ha
        obtain ⟨c2, hc2, hg2, h2⟩ := hb
        rw [List.mem_singleton] at hc1; subst hc1
        have e1 := (hwf.nodeObj hg h1).2
        have e2 := (hwf.nodeObj hg h2).2
        rw [e1] at e2
        have : c1.dst = c2.dst := by simpa using e2
        exact h.1 (by rw [this]; exact List.mem_map.mpr ⟨c2, List.mem_filter.mpr ⟨hc2, hg2⟩, rfl⟩)

/-! ### The recursion over the terminals -/

/-- The terminals within reach in the voltage level of the terminal. -/
def Within (net : Net) (f : Q → Bool) (t t' : Nat) : Prop :=
  t' ∈ net.terms ∧ (net.place t').1 = (net.place t).1 ∧ Walk net f (net.place t).1 (net.place t).2 (net.place t').2

/-- The terminals behind an edge that may be crossed, at the border of what is within reach. -/
def Border (net : Net) (f : Q → Bool) (t t' : Nat) : Prop :=
  t' ∈ net.terms ∧ ∃ x y obj, Walk net f (net.place t).1 (net.place t).2 x ∧ Joined net (net.place t).1 x y obj ∧
    Crossed f obj ∧ net.place t' = ((net.place t).1, y)

structure PInv (net : Net) (f : Q → Bool) (t0 : Nat) (st : St) : Prop where
  eq : acceptedOf st.log = st.traversed
  nd : st.traversed.Nodup
  sound : ∀ t ∈ st.traversed, t ∈ net.terms ∧ f (.term t true) = true ∧ Visited net f t0 (net.place t)
  closed : ∀ t ∈ st.traversed, ∀ t', Within net f t t' → t' ∈ st.traversed
  border : ∀ t ∈ st.traversed, ∀ t', Border net f t t' → Asked st.log t'
  asked : ∀ t c b, (Q.term t c, b) ∈ st.log → t ∈ net.terms ∧ c = true ∧ b = f (.term t true) ∧ Beside net f t0 t

theorem mem_acceptedOf {l : List (Q × Bool)} {t : Nat} : t ∈ acceptedOf l ↔ Accepted l t := by
  induction l with
  | nil => simp [acceptedOf, Accepted, Yes]
  | cons p l ih =>
    obtain ⟨q, b⟩ := p
    unfold Accepted Yes at ih ⊢
    cases q with
    | term t' c =>
      cases b with
      | false => simp [acceptedOf, ih]
      | true =>
        simp only [acceptedOf, List.mem_cons, ih]
        constructor
        · rintro (rfl | ⟨c', h⟩)
          · exact ⟨c, Or.inl rfl⟩
          · exact ⟨c', Or.inr h⟩
        · rintro ⟨c', h | h⟩
          · cases h; exact Or.inl rfl
          · exact Or.inr ⟨c', h⟩
    | sw h => simp [acceptedOf, ih]

theorem PInv.askedOf {net : Net} {f : Q → Bool} {t0 : Nat} {st : St} (h : PInv net f t0 st) {t : Nat}
    (ht : t ∈ st.traversed) : Asked st.log t := by
  rw [← h.eq, mem_acceptedOf] at ht
  obtain ⟨c, hc⟩ := ht
  have := (h.asked t c true hc).2.1
  subst this
  exact ⟨true, hc⟩

/-- What a visit of a terminal makes of the state. -/
structure VPost (net : Net) (f : Q → Bool) (t0 : Nat) (t : Nat) (st st' : St) : Prop where
  inv : PInv net f t0 st'
  grow : Grow st st'
  self : Asked st'.log t ∧ (f (.term t true) = true → t ∈ st'.traversed)
  mates : ∀ u ∈ st'.traversed, u ∉ st.traversed → ∀ m, Mate net u m →
    Asked st'.log m ∧ (f (.term m true) = true → m ∈ st'.traversed)

theorem Asked.mono {l l' : List (Q × Bool)} (h : Sub l l') {t : Nat} (ha : Asked l t) : Asked l' t := by
  obtain ⟨b, hb⟩ := ha
  exact ⟨b, h _ hb⟩

/-- All voltage levels have a node/breaker topology. -/
def Net.AllNode (net : Net) : Prop := ∀ t ∈ net.terms, ∃ g, net.topo (net.place t).1 = .node g

theorem inLevel_pure {net : Net} (hwf : net.WF) (hall : net.AllNode) (f : Q → Bool) (t0 : Nat) {t : Nat} (ht : t ∈ net.terms) {st : St}
    (hi : PInv net f t0 st) (hn : t ∉ st.traversed) (hb : Beside net f t0 t) (hv : Visited net f t0 (net.place t))
    (hf : f (.term t true) = true) :
    ∃ w, inLevel net (pureAsk f) t ((st.ask (pureAsk f) (.term t true)).1.mark t) = .ok w ∧ PInv net f t0 w.st ∧
      Grow st w.st ∧ t ∈ w.st.traversed ∧
      (∀ u ∈ w.st.traversed, u ∉ st.traversed → ∀ m, Mate net u m → m ∈ w.next) ∧
      ∀ n ∈ w.next, ∃ u ∈ w.st.traversed, Mate net u n := by
  obtain ⟨g, hg⟩ := hall t ht
  have hat := hwf.nodeAt ht hg
  have hex : g.vertexExists (net.place t).2 = true := by unfold G.vertexExists; rw [hat]; rfl
  obtain ⟨nx, q1, q2⟩ := addNext_spec hwf ht []
  unfold inLevel
  rw [q1, Out.bind_ok]
  simp only [hg]
  have hlen : (List.replicate g.vertices.length false).length = g.vertices.length := by simp
  have hE : ∀ u, ¬ Enc (List.replicate g.vertices.length false) u := by
    intro u hu
    unfold Enc at hu
    rw [List.getElem?_replicate] at hu
    split at hu <;> simp at hu
  obtain ⟨T, t1, t2, t3⟩ := traverse_visits_reachable (hwf.nodeG hg) (accN f g) hex hlen
  obtain ⟨c1, c2, c3, c4⟩ := traverse_calls (hwf.nodeG hg) (accN f g) hex hlen t1
  have hR : ∀ u, Reach (StepR g (accN f g)) (Enc (List.replicate g.vertices.length false)) (net.place t).2 u ↔
      Walk net f (net.place t).1 (net.place t).2 u := by
    intro u
    constructor
    · intro h
      induction h with
      | refl => exact .refl
      | step _ h2 _ ih => exact .step ih ((stepR_iff hwf hg).mp h2) (fun h => h)
    · intro h
      induction h with
      | refl => exact .refl
      | step _ h2 _ ih => exact .step ih ((stepR_iff hwf hg).mpr h2) (hE _)
  have hopen : Open net f (net.place t).1 (net.place t).2 := by
    intro x hx hp
    have := hwf.nodeAt hx (g := g) (by rw [hp]; exact hg)
    rw [hp, hat] at this; cases this; exact hf
  have hvisit : ∀ u, Walk net f (net.place t).1 (net.place t).2 u → Visited net f t0 ((net.place t).1, u) :=
    fun u hu => hu.visited hv
  -- the accepted terminals are those within reach, besides the start
  have hct : ∀ x, x ∈ callTerms g T.log ↔ Within net f t x ∧ x ≠ t := by
    intro x
    rw [mem_callTerms]
    constructor
    · rintro ⟨c, hc, hgo, hx⟩
      obtain ⟨k1, k2⟩ := hwf.nodeObj hg hx
      have hm := (c3 c.dst).mp (List.mem_map.mpr ⟨c, List.mem_filter.mpr ⟨hc, hgo⟩, rfl⟩)
      have hr := (t3 c.dst).mp hm.1
      refine ⟨⟨k1, by rw [k2], ?_⟩, ?_⟩
      · rw [k2]
        rcases hr with h | h
        · exact absurd h (hE _)
        · exact (hR _).mp h
      · rintro rfl
        exact hm.2.2 (by rw [k2])
    · rintro ⟨⟨k1, k2, k3⟩, hne⟩
      have hx : g.vertexAt (net.place x).2 = some (some x) := hwf.nodeAt k1 (by rw [k2]; exact hg)
      have hne' : (net.place x).2 ≠ (net.place t).2 := by
        intro hh; rw [hh, hat] at hx; cases hx; exact hne rfl
      have := (c3 (net.place x).2).mpr ⟨(t3 _).mpr (Or.inr ((hR _).mpr k3)), hE _, hne'⟩
      obtain ⟨c, hc, hd⟩ := List.mem_map.mp this
      obtain ⟨hc1, hc2⟩ := List.mem_filter.mp hc
      exact ⟨c, hc1, hc2, by rw [hd]; exact hx⟩
  have hcalls : ∀ c ∈ T.log, Valid g c.src c.edge c.dst ∧ c.go = accN f g c.src c.edge c.dst :=
    fun c hc => ⟨(c1 c hc).1, (c1 c hc).2.1⟩
  have htrav : ((st.ask (pureAsk f) (.term t true)).1.mark t).traversed = st.traversed ++ [t] := by
    show ins t st.traversed = _
    unfold ins; rw [if_neg hn]
  have hnd : (((st.ask (pureAsk f) (.term t true)).1.mark t).traversed ++ callTerms g T.log).Nodup := by
    rw [htrav, List.append_assoc, List.nodup_append]
    refine ⟨hi.nd, ?_, ?_⟩
    · rw [List.singleton_append, List.nodup_cons]
      exact ⟨fun hh => ((hct t).mp hh).2 rfl, callTerms_nodup hwf hg _ c2⟩
    · intro a ha b hb hab
      subst hab
      rcases List.mem_append.mp hb with hb | hb
      · rw [List.mem_singleton] at hb; subst hb; exact hn ha
      · obtain ⟨⟨k1, k2, k3⟩, _⟩ := (hct a).mp hb
        refine hn (hi.closed a ha t ⟨ht, k2.symm, ?_⟩)
        rw [k2]
        exact k3.symm hopen
  have P := calls_pure hwf f hg T.log ⟨(st.ask (pureAsk f) (.term t true)).1.mark t, nx⟩ hcalls hnd
  have hsim := sTraverse_pure (g := g) (acc := accN f g) (step := stepN net f g) (cb := nodeCb net (pureAsk f) g)
    (fun s u e w hval => by
      obtain ⟨w', b, e1, p⟩ := nodeCb_pure hwf f hg s hval
      have : stepN net f g s ⟨u, e, w, accN f g u e w⟩ = w' := by unfold stepN; simp only [e1]
      rw [e1, this, ← p.go]) (v := (net.place t).2) (st := T) t1 ⟨(st.ask (pureAsk f) (.term t true)).1.mark t, nx⟩
  refine ⟨_, hsim, ?_⟩
  generalize afterCalls (stepN net f g) ⟨(st.ask (pureAsk f) (.term t true)).1.mark t, nx⟩ T.log = w at P
  have p1 : w.st.traversed = st.traversed ++ [t] ++ callTerms g T.log := by rw [P.trav, htrav]
  have p2 : acceptedOf w.st.log = st.traversed ++ [t] ++ callTerms g T.log := by
    rw [P.acc]
    show acceptedOf (st.log ++ [(Q.term t true, f (.term t true))]) ++ _ = _
    rw [acceptedOf_append, hi.eq, hf]; rfl
  have p4 : ∀ x c b, (Q.term x c, b) ∈ w.st.log ↔ ((Q.term x c, b) ∈ st.log ∨ (x = t ∧ c = true ∧ b = true)) ∨
      (c = true ∧ b = f (.term x true) ∧ x ∈ net.terms ∧ ∃ k ∈ T.log, net.place x = ((net.place t).1, k.dst) ∧
        ∃ obj, Joined net (net.place t).1 k.src k.dst obj ∧ Crossed f obj ∧ ∃ ed, g.edgeAt k.edge = some ed ∧ ed.obj = obj) := by
    intro x c b
    rw [P.log]
    have : (Q.term x c, b) ∈ ((st.ask (pureAsk f) (.term t true)).1.mark t).log ↔
        (Q.term x c, b) ∈ st.log ∨ (x = t ∧ c = true ∧ b = true) := by
      show _ ∈ st.log ++ [(Q.term t true, f (.term t true))] ↔ _
      rw [List.mem_append, List.mem_singleton, hf]
      simp [and_assoc]
    exact or_congr this Iff.rfl
  have hmem : ∀ x, x ∈ w.st.traversed ↔ x ∈ st.traversed ∨ Within net f t x := by
    intro x
    rw [p1]
    simp only [List.mem_append, List.mem_singleton, hct]
    constructor
    · rintro ((h | rfl) | h)
      · exact Or.inl h
      · exact Or.inr ⟨ht, rfl, .refl⟩
      · exact Or.inr h.1
    · rintro (h | h)
      · exact Or.inl (Or.inl h)
      · by_cases hx : x = t
        · exact Or.inl (Or.inr hx)
        · exact Or.inr ⟨h, hx⟩
  -- asked at the border of what is new
  have hborder : ∀ x, Border net f t x → Asked w.st.log x := by
    rintro x ⟨hx, a, y, obj, k1, k2, k3, k4⟩
    have hvx : g.vertexAt y = some (some x) := by
      have := hwf.nodeAt hx (g := g) (by rw [k4]; exact hg)
      rw [k4] at this; exact this
    by_cases hen : Enc T.enc y
    · -- visited
      have hw : Walk net f (net.place t).1 (net.place t).2 y := by
        rcases (t3 y).mp hen with h | h
        · exact absurd h (hE _)
        · exact (hR _).mp h
      have hin : x ∈ w.st.traversed := (hmem x).mpr (Or.inr ⟨hx, by rw [k4], by rw [k4]; exact hw⟩)
      rw [p1, ← p2, mem_acceptedOf] at hin
      obtain ⟨c, hc⟩ := hin
      have hct : c = true := by
        rcases (p4 x c true).mp hc with (h | h) | h
        · exact (hi.asked x c true h).2.1
        · exact h.2.1
        · exact h.1
      subst hct
      exact ⟨true, hc⟩
    · unfold Joined at k2
      rw [hg] at k2
      obtain ⟨e, ed, m1, m2, m3⟩ := k2
      have := c4 a ((hR a).mpr k1) e ed y m1 m2 hen
      refine ⟨f (.term x true), (p4 x true _).mpr (Or.inr ⟨rfl, rfl, hx, _, this, k4, obj, ?_, k3, ed, m1, m3⟩)⟩
      unfold Joined; rw [hg]; exact ⟨e, ed, m1, m2, m3⟩
  have hsub : Grow st w.st :=
    ⟨fun x hx => P.sub x (ask_sub (pureAsk f) st (.term t true) x hx), fun x hx => (hmem x).mpr (Or.inl hx)⟩
  have hin : t ∈ w.st.traversed := (hmem t).mpr (Or.inr ⟨ht, rfl, .refl⟩)
  have hwithin : ∀ x, Within net f t x → ∀ y, Walk net f (net.place x).1 (net.place x).2 y →
      Walk net f (net.place t).1 (net.place t).2 y := by
    rintro x ⟨_, k2, k3⟩ y hy
    rw [k2] at hy
    exact Walk.trans k3 hy
  refine ⟨⟨by rw [p2, p1], ?_, ?_, ?_, ?_, ?_⟩, hsub, hin, ?_, ?_⟩
  · rw [p1, ← htrav]; exact hnd
  · intro x hx
    rcases (hmem x).mp hx with h | ⟨k1, k2, k3⟩
    · exact hi.sound x h
    · have hpl : net.place x = ((net.place t).1, (net.place x).2) := by rw [← k2]
      refine ⟨k1, k3.open hopen x k1 hpl, ?_⟩
      rw [hpl]; exact hvisit _ k3
  · intro x hx x' hx'
    rcases (hmem x).mp hx with h | h
    · exact hsub.trav _ (hi.closed x h x' hx')
    · exact (hmem x').mpr (Or.inr ⟨hx'.1, by rw [hx'.2.1, h.2.1], hwithin x h _ hx'.2.2⟩)
  · intro x hx x' hx'
    rcases (hmem x).mp hx with h | h
    · exact (hi.border x h x' hx').mono hsub.log
    · obtain ⟨k1, a, y, obj, k2, k3, k4, k5⟩ := hx'
      have e := h.2.1
      exact hborder x' ⟨k1, a, y, obj, hwithin x h a k2, e ▸ k3, k4, by rw [k5, e]⟩
  · intro x c b hx
    rcases (p4 x c b).mp hx with (h | ⟨h1, h2, h3⟩) | ⟨h1, h2, h3, k, hk, h4, obj, h5, h6, _⟩
    · exact hi.asked x c b h
    · subst h1; subst h2; subst h3; exact ⟨ht, rfl, hf.symm, hb⟩
    · refine ⟨h3, h1, h2, Or.inr (Or.inl ⟨_, k.src, k.dst, obj, hvisit _ ((hR _).mp (c1 k hk).2.2.1), h5, h6, h4⟩)⟩
  · intro u hu hnu m hm
    rw [P.next]
    rw [p1] at hu
    simp only [List.mem_append, List.mem_singleton] at hu
    rcases hu with (hu | rfl) | hu
    · exact absurd hu hnu
    · exact Or.inl ((q2 m).mpr (Or.inr hm))
    · exact Or.inr ⟨u, hu, hm⟩
  · intro n hn'
    rcases (P.next n).mp hn' with h | ⟨u, hu, hm⟩
    · rcases (q2 n).mp h with h | h
      · cases h
      · exact ⟨t, hin, h⟩
    · exact ⟨u, by rw [p1]; exact List.mem_append_right _ hu, hm⟩

theorem each_pure {net : Net} {f : Q → Bool} {t0 k : Nat} {rec : Nat → St → Out St}
    (hrec : ∀ t st, t ∈ net.terms → PInv net f t0 st → Beside net f t0 t →
      (f (.term t true) = true → Visited net f t0 (net.place t)) → unseen net st < k →
      ∃ st', rec t st = .ok st' ∧ VPost net f t0 t st st') (ts : List Nat) :
    ∀ st, (∀ t ∈ ts, t ∈ net.terms ∧ Beside net f t0 t ∧ (f (.term t true) = true → Visited net f t0 (net.place t))) →
      PInv net f t0 st → unseen net st < k →
      ∃ st', each rec ts st = .ok st' ∧ PInv net f t0 st' ∧ Grow st st' ∧
        (∀ t ∈ ts, Asked st'.log t ∧ (f (.term t true) = true → t ∈ st'.traversed)) ∧
        ∀ u ∈ st'.traversed, u ∉ st.traversed → ∀ m, Mate net u m →
          Asked st'.log m ∧ (f (.term m true) = true → m ∈ st'.traversed) := by
  induction ts with
  | nil => intro st _ hi _; exact ⟨st, rfl, hi, Grow.refl _, nofun, fun u h h' => absurd h h'⟩
  | cons t ts ih =>
    intro st hts hi hk
    obtain ⟨h1, h2, h3⟩ := hts t (by simp)
    obtain ⟨st1, r1, r⟩ := hrec t st h1 hi h2 h3 hk
    have := unseen_mono net r.grow
    obtain ⟨st2, s1, s2, s3, s4, s5⟩ := ih st1 (fun x hx => hts x (List.mem_cons_of_mem _ hx)) r.inv (by omega)
    refine ⟨st2, by unfold each; rw [r1, Out.bind_ok, s1], s2, r.grow.trans s3, ?_, ?_⟩
    · intro x hx
      rcases List.mem_cons.mp hx with rfl | hx
      · exact ⟨r.self.1.mono s3.log, fun hh => s3.trav _ (r.self.2 hh)⟩
      · exact s4 x hx
    · intro u hu hnu m hm
      by_cases hu1 : u ∈ st1.traversed
      · obtain ⟨k1, k2⟩ := r.mates u hu1 hnu m hm
        exact ⟨k1.mono s3.log, fun hh => s3.trav _ (k2 hh)⟩
      · exact s5 u hu hu1 m hm

theorem visit_pure {net : Net} (hwf : net.WF) (hall : net.AllNode) (f : Q → Bool) (t0 : Nat) {order : List Nat → List Nat}
    (hord : ∀ l x, x ∈ order l ↔ x ∈ l) (n : Nat) :
    ∀ t st, t ∈ net.terms → PInv net f t0 st → Beside net f t0 t →
      (f (.term t true) = true → Visited net f t0 (net.place t)) → unseen net st < n →
      ∃ st', visit net (pureAsk f) order n t st = .ok st' ∧ VPost net f t0 t st st' := by
  induction n with
  | zero => intro t st _ _ _ _ h; omega
  | succ n ih =>
    intro t st ht hi hb hv hk
    obtain ⟨g, hg⟩ := hall t ht
    have hflag : net.flag t = true := by unfold Net.flag; rw [hg]
    unfold visit
    by_cases hm : t ∈ st.traversed
    · rw [if_pos hm]
      exact ⟨st, rfl, hi, Grow.refl _, ⟨hi.askedOf hm, fun _ => hm⟩, fun u h h' => absurd h h'⟩
    · rw [if_neg hm, hflag]
      simp only []
      have hask : (st.ask (pureAsk f) (.term t true)).2 = f (.term t true) := rfl
      rw [hask]
      cases hf : f (.term t true) with
      | false =>
        simp only [Bool.false_eq_true, if_false]
        have hlog : (st.ask (pureAsk f) (.term t true)).1.log = st.log ++ [(Q.term t true, false)] := by
          rw [ask_log, hask, hf]
        have hsub := ask_sub (pureAsk f) st (.term t true)
        refine ⟨_, rfl, ⟨?_, hi.nd, hi.sound, hi.closed, fun x hx x' hx' => (hi.border x hx x' hx').mono hsub, ?_⟩,
          ask_grow _ _ _, ⟨⟨false, by rw [hlog]; simp⟩, fun h => by cases hf.symm.trans h⟩, fun u h h' => absurd h h'⟩
        · rw [hlog, acceptedOf_append]; simp [acceptedOf, hi.eq]; rfl
        · intro x c b hx
          rw [hlog] at hx
          rcases List.mem_append.mp hx with h | h
          · exact hi.asked x c b h
          · rw [List.mem_singleton] at h; cases h
            exact ⟨ht, rfl, hf.symm, hb⟩
      | true =>
        simp only [if_true]
        obtain ⟨w, r1, r2, r3, r4, r5, r6⟩ := inLevel_pure hwf hall f t0 ht hi hm hb (hv hf) hf
        rw [r1, Out.bind_ok]
        have h1 : unseen net w.st < unseen net st := by
          refine Nat.lt_of_le_of_lt (unseen_mono net (st := st.mark t) ⟨r3.log, ?_⟩) (unseen_mark net ht hm)
          intro x hx
          rcases mem_ins.mp hx with rfl | hx
          · exact r4
          · exact r3.trav x hx
        obtain ⟨st', s1, s2, s3, s4, s5⟩ := each_pure (k := n) ih (order w.next) w.st (by
          intro x hx
          obtain ⟨u, hu, hmate⟩ := r6 x ((hord _ _).mp hx)
          obtain ⟨k1, _, k2⟩ := r2.sound u hu
          exact ⟨hwf.mem k1 hmate.2.1, Or.inr (Or.inr ⟨u, k1, k2, hmate⟩), fun hh => .across k1 k2 hmate hh⟩) r2 (by omega)
        refine ⟨st', s1, s2, r3.trans s3, ⟨(r2.askedOf r4).mono s3.log, fun _ => s3.trav _ r4⟩, ?_⟩
        intro u hu hnu m hmate
        by_cases hu1 : u ∈ w.st.traversed
        · exact s4 m ((hord _ _).mpr (r5 u hu1 hnu m hmate))
        · exact s5 u hu hu1 m hmate

end Verif.Traverse
