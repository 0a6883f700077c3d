import Verif.BusEquip.Lemmas

/-!
Property C82: the equipment of a bus, its listings and its balance.
-/

namespace Verif.BusEquip

open Verif Spec

/-- C82.  The number of connected terminals of a bus is the number of those it gives. -/
theorem connected_terminals {n : Net} {b : Bus} (h : Usable n b) :
    n.connectedTerminals b = .ok (on n b) ∧ n.connectedCount b = .ok (on n b).length :=
  ⟨connectedTerminals_ok h, connectedCount_ok h⟩

/-- C82.  After any sequence of calls, visiting the equipment connected to a bus calls, for each connected terminal in turn,
    the method of the visitor made for the class of its equipment, with the equipment and the side of the terminal; whatever the
    visitor, which may throw. -/
theorem visits_connected {n : Net} (hr : Reach n) {b : Bus} (hb : Usable n b) :
    ∃ cs, TellsAll n (on n b) cs ∧
      ∀ {σ : Type} (v : Call → σ → Out σ) (s : σ), n.visitConnected v b s = doAll v cs s := by
  obtain ⟨cs, h1, h2⟩ := visitEquipments_ok (reach_wf hr) (ts := on n b) (fun t ht => hb.2 t (on_sub ht))
  refine ⟨cs, h1, fun v s => ?_⟩
  rw [Net.visitConnected, connectedTerminals_ok hb, Out.bind_ok]
  exact h2 v s

/-- C82.  The same for the connected or connectable equipment: all the terminals of the bus, connected or not. -/
theorem visits_held {n : Net} (hr : Reach n) {b : Bus} (hb : Usable n b) :
    ∃ cs, TellsAll n (held b) cs ∧ ∀ {σ : Type} (v : Call → σ → Out σ) (s : σ), n.visitAll v b s = doAll v cs s := by
  obtain ⟨cs, h1, h2⟩ := visitEquipments_ok (reach_wf hr) (ts := held b) hb.2
  refine ⟨cs, h1, fun v s => ?_⟩
  cases b with
  | calculated valid ts => exact h2 v s
  | configured ts => exact h2 v s
  | merged valid bs =>
    have : valid = true := hb.1
    simp only [Net.visitAll, this, if_true]
    rw [visitMerged_eq]
    exact h2 v s

/-- C82.  There is one way to tell of a terminal: one method, one equipment, one side. -/
theorem told_one_way {n : Net} (hr : Reach n) {t : Nat} {c c' : Call} (h : Tells n t c) (h' : Tells n t c') : c = c' :=
  tells_unique (reach_wf hr) h h'

/-- C82.  A terminal that is not one of the equipment has no side: the question is refused. -/
theorem stranger_refused {q : Equip} {t : Nat} (h : t ∉ q.terms) : branchSide q t = .thrown ∧ legSide q t = .thrown := by
  have key : ∀ (k a : Nat), q.terms[k]? = some a → t ≠ a := by
    rintro k a hk rfl
    exact h (List.mem_of_getElem? hk)
  constructor
  · unfold branchSide
    cases h0 : q.terms[0]? with
    | none => rfl
    | some a =>
      simp only [if_neg (key 0 a h0)]
      cases h1 : q.terms[1]? with
      | none => rfl
      | some b => simp only [if_neg (key 1 b h1)]
  · unfold legSide
    cases h0 : q.terms[0]? with
    | none => rfl
    | some a =>
      simp only [if_neg (Ne.symm (key 0 a h0))]
      cases h1 : q.terms[1]? with
      | none => rfl
      | some b =>
        simp only [if_neg (Ne.symm (key 1 b h1))]
        cases h2 : q.terms[2]? with
        | none => rfl
        | some c => simp only [if_neg (Ne.symm (key 2 c h2))]

example : branchSide ⟨.line, [1, 2]⟩ 3 = .thrown := (stranger_refused (by decide)).1

/-- C82.  A visitor of terminals sees the connected terminals themselves, each once, in order: going from a terminal to its
    equipment and its side and back to the terminal of that side is the identity. -/
theorem sees_terminals {n : Net} (hr : Reach n) {b : Bus} (hb : Usable n b) {σ : Type} (f : Nat → σ → Out σ) (s : σ) :
    n.visitConnected (terminalVisitor n f) b s = doAll f (on n b) s ∧
    n.visitAll (terminalVisitor n f) b s = doAll f (held b) s := by
  constructor
  · rw [Net.visitConnected, connectedTerminals_ok hb, Out.bind_ok]
    exact terminalVisitor_ok (reach_wf hr) f (fun t ht => hb.2 t (on_sub ht)) s
  · have key := terminalVisitor_ok (reach_wf hr) f (ts := held b) hb.2 s
    cases b with
    | calculated valid ts => exact key
    | configured ts => exact key
    | merged valid bs =>
      have : valid = true := hb.1
      simp only [Net.visitAll, this, if_true]
      rw [visitMerged_eq]
      exact key

/-- C82.  A listing of a bus has exactly the equipment of its classes that have a terminal connected to the bus, each as many
    times as it has such terminals. -/
theorem listing_counts {n : Net} (hr : Reach n) {b : Bus} (hb : Usable n b) (ty : Ty) :
    ∃ es, n.getAll ty b = .ok es ∧
      ∀ e, es.count e = if ∃ q, n.equips e = some q ∧ q.cls ∈ listed ty then (on n b).countP (Of n e) else 0 := by
  obtain ⟨es, h1, h2⟩ := allOf_ok (reach_wf hr) ty (ts := on n b) (fun t ht => hb.2 t (on_sub ht))
  exact ⟨es, by rw [Net.getAll, connectedTerminals_ok hb, Out.bind_ok]; exact h1, h2⟩

theorem countP_of {n : Net} (hw : WF n) {e : Nat} {q : Equip} (he : n.equips e = some q) {ts : List Nat} (hn : ts.Nodup) :
    ts.countP (Of n e) = q.terms.countP (fun t => decide (t ∈ ts)) := by
  have hq := (hw.owns e q he).2.1
  have h1 : ∀ t, Of n e t = decide (t ∈ q.terms) := by
    intro t; simp [Of, he]
  rw [List.countP_eq_length_filter, List.countP_eq_length_filter]
  refine List.Perm.length_eq ?_
  refine (List.perm_ext_iff_of_nodup (hn.filter _) (hq.filter _)).mpr ?_
  intro a
  simp [List.mem_filter, h1, and_comm]

/-- C82.  A bus that holds a terminal at most once lists an equipment as many times as the equipment has terminals connected to
    it: an injection at most once, a branch at most twice. -/
theorem listed_per_terminal {n : Net} (hr : Reach n) {b : Bus} (hb : Usable n b) (hn : (on n b).Nodup) {ty : Ty} {e : Nat}
    {q : Equip} (he : n.equips e = some q) (hc : q.cls ∈ listed ty) :
    ∃ es, n.getAll ty b = .ok es ∧ es.count e = q.terms.countP (fun t => decide (t ∈ on n b)) ∧
      es.count e ≤ q.cls.arity := by
  obtain ⟨es, h1, h2⟩ := listing_counts hr hb ty
  have h3 : es.count e = q.terms.countP (fun t => decide (t ∈ on n b)) := by
    rw [h2 e, if_pos ⟨q, he, hc⟩, countP_of (reach_wf hr) he hn]
  refine ⟨es, h1, h3, ?_⟩
  rw [h3, ← ((reach_wf hr).owns e q he).1]
  exact List.countP_le_length

/-- The equipment is in the listing. -/
def Lists (n : Net) (b : Bus) (e : Nat) (ty : Ty) : Prop := ∃ es, n.getAll ty b = .ok es ∧ e ∈ es

theorem lists_iff {n : Net} (hr : Reach n) {b : Bus} (hb : Usable n b) {e : Nat} {q : Equip} (he : n.equips e = some q)
    {t : Nat} (ht : t ∈ on n b) (hm : t ∈ q.terms) (ty : Ty) : Lists n b e ty ↔ q.cls ∈ listed ty := by
  obtain ⟨es, h1, h2⟩ := listing_counts hr hb ty
  have h3 : Lists n b e ty ↔ e ∈ es := by
    constructor
    · rintro ⟨es', h, hm'⟩
      rw [h1] at h
      cases h
      exact hm'
    · exact fun h => ⟨es, h1, h⟩
  rw [h3, ← List.count_pos_iff, h2 e]
  constructor
  · intro h
    by_cases hc : ∃ q, n.equips e = some q ∧ q.cls ∈ listed ty
    · obtain ⟨q', h3, h4⟩ := hc
      rw [he] at h3
      cases h3
      exact h4
    · rw [if_neg hc] at h
      exact absurd h (by simp)
  · intro h
    rw [if_pos ⟨q, he, h⟩]
    exact List.countP_pos_iff.mpr ⟨t, ht, by simp [Of, he, hm]⟩

/-- C82.  Every equipment with a terminal connected to the bus is in exactly one of the listings of the bus, unless it is a
    busbar section, which is in none. -/
theorem in_one_listing {n : Net} (hr : Reach n) {b : Bus} (hb : Usable n b) {e : Nat} {q : Equip}
    (he : n.equips e = some q) {t : Nat} (ht : t ∈ on n b) (hm : t ∈ q.terms) :
    (q.cls ≠ .busbarSection → ∃ ty ∈ listings, Lists n b e ty ∧ ∀ ty' ∈ listings, Lists n b e ty' → ty' = ty) ∧
    (q.cls = .busbarSection → ∀ ty ∈ listings, ¬ Lists n b e ty) := by
  simp only [lists_iff hr hb he ht hm]
  constructor
  · intro hc
    have key : ∀ c : Cls, c ≠ .busbarSection →
        ∃ ty ∈ listings, c ∈ listed ty ∧ ∀ ty' ∈ listings, c ∈ listed ty' → ty' = ty := by
      intro c
      cases c <;> simp [listings, listed]
    exact key _ hc
  · intro hc
    rw [hc]
    decide

/-- C82.  The active power of a bus is NaN when no terminal is connected to it; otherwise it is the sum, made in the order of the
    terminals with the addition of the machine, of the active powers that are set of the connected generators, batteries, loads
    and converter stations. -/
theorem active_power {n : Net} (hr : Reach n) {b : Bus} (hb : Usable n b) (add : Dbl → Dbl → Dbl) :
    ∃ vs, Amounts n active Term.p (on n b) vs ∧
      n.getP add b = .ok (if on n b = [] then .nan else vs.foldl add 0) := by
  obtain ⟨vs, h1, h2⟩ := sumLoop_ok (reach_wf hr) add (kind := CType.inP) (cs := active) (fun _ => inP_iff) Term.p
    (ts := on n b) (fun t ht => hb.2 t (on_sub ht))
  refine ⟨vs, h1, ?_⟩
  rw [Net.getP, connectedCount_ok hb, connectedTerminals_ok hb, Out.bind_ok, Out.bind_ok, h2]
  by_cases h0 : on n b = []
  · simp [h0]
  · have : (on n b).length ≠ 0 := by simpa using h0
    rw [if_neg this, if_neg h0]

/-- C82.  The reactive power of a bus, with the shunts and static var compensators too. -/
theorem reactive_power {n : Net} (hr : Reach n) {b : Bus} (hb : Usable n b) (add : Dbl → Dbl → Dbl) :
    ∃ vs, Amounts n reactive Term.q (on n b) vs ∧
      n.getQ add b = .ok (if on n b = [] then .nan else vs.foldl add 0) := by
  obtain ⟨vs, h1, h2⟩ := sumLoop_ok (reach_wf hr) add (kind := CType.inQ) (cs := reactive) (fun _ => inQ_iff) Term.q
    (ts := on n b) (fun t ht => hb.2 t (on_sub ht))
  refine ⟨vs, h1, ?_⟩
  rw [Net.getQ, connectedCount_ok hb, connectedTerminals_ok hb, Out.bind_ok, Out.bind_ok, h2]
  by_cases h0 : on n b = []
  · simp [h0]
  · have : (on n b).length ≠ 0 := by simpa using h0
    rw [if_neg this, if_neg h0]

/-- C82.  The amounts are determined by the terminals. -/
theorem amounts_determined {n : Net} {cs : List Cls} {value : Term → Dbl} {ts : List Nat} {vs ws : List Dbl}
    (h : Amounts n cs value ts vs) (h' : Amounts n cs value ts ws) : vs = ws := amounts_unique h h'

/-- The powers that are set are finite. -/
def FinitePowers (n : Net) : Prop :=
  ∀ t x, n.terms t = some x → (x.p = .nan ∨ Finite x.p) ∧ (x.q = .nan ∨ Finite x.q)

/-- C82.  Without rounding, finite powers have a finite sum: the power of a bus is NaN exactly when no terminal is connected. -/
theorem power_nan_iff {n : Net} (hr : Reach n) (hf : FinitePowers n) {b : Bus} (hb : Usable n b) :
    (n.getP Dbl.add b = .ok .nan ↔ on n b = []) ∧ (n.getQ Dbl.add b = .ok .nan ↔ on n b = []) := by
  constructor
  · obtain ⟨vs, h1, h2⟩ := active_power hr hb Dbl.add
    rw [h2]
    by_cases h0 : on n b = []
    · simp [h0]
    · have : vs.foldl Dbl.add (.fin 0) = .fin (0 + total vs) := foldl_finite vs 0 (fun v hv => by
        obtain ⟨t, x, _, h4, h5, h6⟩ := amounts_mem h1 v hv
        rcases (hf t x h4).1 with h | h
        · exact absurd (h5.trans h) h6
        · rw [h5]; exact h)
      rw [if_neg h0]
      show (Out.ok (vs.foldl Dbl.add (.fin 0)) = .ok .nan) ↔ _
      rw [this]
      simp [h0]
  · obtain ⟨vs, h1, h2⟩ := reactive_power hr hb Dbl.add
    rw [h2]
    by_cases h0 : on n b = []
    · simp [h0]
    · have : vs.foldl Dbl.add (.fin 0) = .fin (0 + total vs) := foldl_finite vs 0 (fun v hv => by
        obtain ⟨t, x, _, h4, h5, h6⟩ := amounts_mem h1 v hv
        rcases (hf t x h4).2 with h | h
        · exact absurd (h5.trans h) h6
        · rw [h5]; exact h)
      rw [if_neg h0]
      show (Out.ok (vs.foldl Dbl.add (.fin 0)) = .ok .nan) ↔ _
      rw [this]
      simp [h0]

theorem balance_aux {n : Net} {cs : List Cls} {value : Term → Dbl} {get : Bus → Out Dbl}
    (hf : ∀ t x, n.terms t = some x → value x = .nan ∨ Finite (value x)) : ∀ {bs : List Bus},
    (∀ b ∈ bs, ∃ vs, Amounts n cs value (on n b) vs ∧ get b = .ok (if on n b = [] then .nan else vs.foldl Dbl.add 0)) →
    ∃ ws vs, Amounts n cs value (bs.flatMap (on n)) vs ∧ bs.map get = ws.map .ok ∧ total ws = total vs := by
  intro bs
  induction bs with
  | nil => intro _; exact ⟨[], [], .nil, rfl, rfl⟩
  | cons b bs ih =>
    intro h
    obtain ⟨ws, vs, h1, h2, h3⟩ := ih (fun c hc => h c (by simp [hc]))
    obtain ⟨us, h4, h5⟩ := h b (by simp)
    have hfin : us.foldl Dbl.add (.fin 0) = .fin (0 + total us) := foldl_finite us 0 (fun v hv => by
      obtain ⟨t, x, _, h7, h8, h9⟩ := amounts_mem h4 v hv
      rcases hf t x h7 with h | h
      · exact absurd (h8.trans h) h9
      · rw [h8]; exact h)
    refine ⟨(if on n b = [] then .nan else us.foldl Dbl.add 0) :: ws, us ++ vs, ?_, ?_, ?_⟩
    · rw [List.flatMap_cons]; exact amounts_append h4 h1
    · simp only [List.map_cons, h5, h2]
    · rw [total, total_append, h3]
      by_cases h0 : on n b = []
      · rw [if_pos h0]
        rw [h0] at h4
        cases h4
        rfl
      · rw [if_neg h0]
        show number (us.foldl Dbl.add (.fin 0)) + _ = _
        rw [hfin]
        simp [number, Rat.zero_add]

/-- C82.  Balance: whatever the buses and the order of their terminals, the sum of the active powers of the buses is the sum of
    the active powers of the connected generators, batteries, loads and converter stations, without rounding. -/
theorem active_balance {n : Net} (hr : Reach n) (hf : FinitePowers n) {bs : List Bus} (hb : ∀ b ∈ bs, Usable n b)
    {ts : List Nat} (hp : (bs.flatMap (on n)).Perm ts) :
    ∃ ws vs, bs.map (n.getP Dbl.add) = ws.map .ok ∧ Amounts n active Term.p ts vs ∧ total ws = total vs := by
  obtain ⟨ws, vs, h1, h2, h3⟩ := balance_aux (get := n.getP Dbl.add) (fun t x h => (hf t x h).1)
    (fun b hm => active_power hr (hb b hm) Dbl.add)
  obtain ⟨us, h4, h5⟩ := amounts_perm hp h1
  exact ⟨ws, us, h2, h4, by rw [h3, total_perm h5]⟩

/-- C82.  Balance of the reactive powers. -/
theorem reactive_balance {n : Net} (hr : Reach n) (hf : FinitePowers n) {bs : List Bus} (hb : ∀ b ∈ bs, Usable n b)
    {ts : List Nat} (hp : (bs.flatMap (on n)).Perm ts) :
    ∃ ws vs, bs.map (n.getQ Dbl.add) = ws.map .ok ∧ Amounts n reactive Term.q ts vs ∧ total ws = total vs := by
  obtain ⟨ws, vs, h1, h2, h3⟩ := balance_aux (get := n.getQ Dbl.add) (fun t x h => (hf t x h).2)
    (fun b hm => reactive_power hr (hb b hm) Dbl.add)
  obtain ⟨us, h4, h5⟩ := amounts_perm hp h1
  exact ⟨ws, us, h2, h4, by rw [h3, total_perm h5]⟩

/-- C82.  A merged bus has the active power of its configured buses: with finite powers and no rounding, the sums agree. -/
theorem merged_active {n : Net} (hr : Reach n) (hf : FinitePowers n) {bs : List (List Nat)}
    (hb : Usable n (.merged true bs)) : ∃ w ws, n.getP Dbl.add (.merged true bs) = .ok w ∧
      bs.map (fun b => n.getP Dbl.add (.configured b)) = ws.map .ok ∧ number w = total ws := by
  have hus : ∀ b ∈ bs.map Bus.configured, Usable n b := by
    intro b hm
    obtain ⟨l, hl, rfl⟩ := List.mem_map.mp hm
    exact ⟨trivial, fun t ht => hb.2 t (List.mem_flatten.mpr ⟨l, hl, ht⟩)⟩
  have hflat : (bs.map Bus.configured).flatMap (on n) = on n (.merged true bs) := by
    show (bs.map Bus.configured).flatMap (on n) = bs.flatten.filter (connected n)
    clear hb hus
    induction bs with
    | nil => rfl
    | cons b bs ih => simp only [List.map_cons, List.flatMap_cons, List.flatten_cons, List.filter_append, ih]; rfl
  obtain ⟨ws, vs, h1, h2, h3⟩ := active_balance hr hf hus (List.Perm.refl _)
  obtain ⟨ws', vs', h1', h2', h3'⟩ := active_balance hr hf (bs := [.merged true bs]) (by simpa using hb) (List.Perm.refl _)
  rw [hflat] at h2
  simp only [List.flatMap_cons, List.flatMap_nil, List.append_nil] at h2'
  cases amounts_unique h2 h2'
  cases ws' with
  | nil => cases h1'
  | cons w rest =>
    cases rest with
    | cons _ _ => simp at h1'
    | nil =>
      rw [List.map_map] at h1
      refine ⟨w, ws, by simpa using h1', h1, ?_⟩
      rw [h3, ← h3']
      simp [total, Rat.add_zero]

/-- C82.  Nothing is lost by not adding the active power of shunts and busbar sections: it can never be set. -/
theorem never_set {n : Net} (hr : Reach n) {e : Nat} {q : Equip} (he : n.equips e = some q) {t : Nat} (hm : t ∈ q.terms)
    {x : Term} (hx : n.terms t = some x) :
    (q.cls = .busbarSection ∨ q.cls = .shunt → x.p = .nan) ∧ (q.cls = .busbarSection → x.q = .nan) :=
  ⟨(reach_wf hr).noP e q t x he hm hx, (reach_wf hr).noQ e q t x he hm hx⟩

/-- C82.  A bus that has been invalidated answers nothing: it throws, except that visiting the connected or connectable
    equipment of a calculated bus visits nothing (its list was emptied) instead of throwing. -/
theorem invalidated {n : Net} {ts : List Nat} {bs : List (List Nat)} {add : Dbl → Dbl → Dbl} {ty : Ty} {σ : Type}
    (v : Call → σ → Out σ) (s : σ) :
    (∀ b, b = .calculated false ts ∨ b = .merged false bs → n.connectedTerminals b = .thrown ∧ n.connectedCount b = .thrown ∧
      n.getAll ty b = .thrown ∧ n.getP add b = .thrown ∧ n.getQ add b = .thrown ∧ n.visitConnected v b s = .thrown) ∧
    n.visitAll v (.merged false bs) s = .thrown ∧ n.visitAll v (.calculated false []) s = .ok s := by
  refine ⟨?_, rfl, rfl⟩
  rintro b (rfl | rfl) <;> exact ⟨rfl, rfl, rfl, rfl, rfl, rfl⟩

/-- A line with both ends on the bus, a load of 10 MW, a generator of -25 MW, a shunt and a station without powers. -/
def exOps : List Op :=
  [.add .line true, .add .load true, .add .generator true, .add .shunt true, .add .vsc true, .add .load false,
   .setP 4 10, .setP 6 (.fin (-25)), .setQ 8 3, .setP 1 50, .setP 12 7]

def exNet : Net := exOps.foldl (fun n op => (step n op).2) Net.init

theorem exReach : Reach exNet :=
  .step _ (.step _ (.step _ (.step _ (.step _ (.step _ (.step _ (.step _ (.step _ (.step _ (.step _ .init
    (by decide)) (by decide)) (by decide)) (by decide)) (by decide)) (by decide)) (by decide)) (by decide)) (by decide))
    (by decide)) (by decide)

def exBus : Bus := .merged true [[1, 4, 2], [6, 8, 10, 12]]

example : Usable exNet exBus := ⟨rfl, by decide⟩
example : exNet.connectedTerminals exBus = .ok [1, 4, 2, 6, 8, 10] := by decide
example : exNet.getAll .line exBus = .ok [0, 0] := by decide
example : exNet.getAll .load exBus = .ok [3] := by decide
example : exNet.getAll .vsc exBus = .ok [9] := by decide
example : exNet.getP Dbl.add exBus = .ok (.fin (-15)) := by decide +kernel
example : exNet.getQ Dbl.add exBus = .ok 3 := by decide +kernel
example : exNet.getP Dbl.add (.configured []) = .ok .nan := by decide
example : exNet.visitConnected (fun c s => .ok (s ++ [c])) exBus [] =
    .ok [.line 0 .one, .load 3, .line 0 .two, .generator 5, .shunt 7, .station 9] := by decide
example : exNet.visitAll (terminalVisitor exNet (fun t s => .ok (s ++ [t]))) exBus [] =
    .ok [1, 4, 2, 6, 8, 10, 12] := by decide

end Verif.BusEquip
