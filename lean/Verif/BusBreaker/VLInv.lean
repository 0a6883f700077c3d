import Verif.BusBreaker.VLLemmas

/-! Histories of a bus/breaker voltage level and their invariants. -/

namespace Verif.BusBreaker

open Verif
open Verif.Graph hiding upd
open Verif.NodeBreaker (EqType Conn Branchy upd query_graph)

/-- Calls on a bus/breaker voltage level, its switches, terminals and variants; `w` is the working variant. -/
inductive Act where
  | addBus (registered : Bool) (b : CBus)
  | addSwitch (registered : Bool) (sw : BSw) (opened : Bool) (id1 id2 : String)
  | removeSwitch (id : String)
  | removeAllSwitches
  | removeBus (w : Nat) (id : String)
  | removeAllBuses (w : Nat)
  | setOpen (w sw : Nat) (b : Bool)
  | attachNew (w t : Nat) (kind : EqType) (connected : Bool) (busId : String)
  | detach (w t : Nat)
  | setConnectableBus (w t : Nat) (busId : String)
  | connect (w t : Nat)
  | disconnect (w t : Nat)
  | getMergedBus (w : Nat) (busId : String)
  | cloneVariant (src dst : Nat)
  | removeVariant (w : Nat)

/-- The state after the call. -/
def run1 (s : VL) : Act → VL
  | .addBus reg b => (s.addBus reg b).2
  | .addSwitch reg sw o id1 id2 => (s.addSwitch reg sw o id1 id2).2
  | .removeSwitch id => (s.removeSwitch id).2
  | .removeAllSwitches => s.removeAllSwitches.2
  | .removeBus w id => (s.removeBus w id).2
  | .removeAllBuses w => (s.removeAllBuses w).2
  | .setOpen w sw b => s.setOpen w sw b
  | .attachNew w t k c id => (s.attachNew w t k c id).2
  | .detach w t => (s.detach w t).2
  | .setConnectableBus w t id => (s.setConnectableBus w t id).2
  | .connect w t => (s.connect w t).2
  | .disconnect w t => (s.disconnect w t).2
  | .getMergedBus w id => (s.getMergedBus w id).2
  | .cloneVariant src dst => s.cloneVariant src dst
  | .removeVariant w => s.removeVariant w

/-- What the rest of the library guarantees about the arguments: the working variant exists, the initial variant is never
    removed; an object just created is at an address of its own; an id accepted by the network index is used by no other
    object (C01) and is not empty; busbar sections exist in node/breaker voltage levels only. -/
def Ok (s : VL) : Act → Prop
  | .addBus reg b => reg = true → b.id ≠ "" ∧ s.buses.get? b.id = none ∧ ∀ u b', BusAt s.graph u b' → b'.handle ≠ b.handle
  | .addSwitch reg sw _ _ _ => reg = true → s.switches.get? sw.id = none
  | .removeBus w _ => w ∈ s.variants
  | .removeAllBuses w => w ∈ s.variants
  | .setOpen w _ _ => w ∈ s.variants
  | .attachNew w t k _ _ => w ∈ s.variants ∧ k ≠ .busbarSection ∧
    ∀ v ∈ s.variants, ∀ u b, BusAt s.graph u b → t ∉ s.terms v b.handle
  | .detach w _ => w ∈ s.variants
  | .setConnectableBus w _ _ => w ∈ s.variants
  | .connect w _ => w ∈ s.variants
  | .disconnect w _ => w ∈ s.variants
  | .getMergedBus w _ => w ∈ s.variants
  | .cloneVariant src _ => src ∈ s.variants
  | .removeVariant w => w ∈ s.variants ∧ w ≠ 0
  | _ => True

/-- States after any history of calls (until buses dangle, see `removeAllBuses_dangles`). -/
inductive VReach (id : String) : VL → Prop
  | init : VReach id { id := id }
  | step {s : VL} {a : Act} : VReach id s → s.dangling = false → Ok s a → VReach id (run1 s a)

/-- Where the terminals are: `loc t` is the bus that lists `t`, in every variant; the bus a terminal refers to, if any, is
    that one (for the terminals not in `ex`), and with `S` it does refer to it. -/
structure Loc (s : VL) (loc : Nat → Option CBus) (S : Prop) (ex : Nat → Prop) : Prop where
  live : ∀ t b, loc t = some b → ∃ u, BusAt s.graph u b
  count : ∀ v ∈ s.variants, ∀ u b, BusAt s.graph u b → ∀ t, (s.terms v b.handle).count t = if loc t = some b then 1 else 0
  bus : ∀ v ∈ s.variants, ∀ t, ¬ ex t → s.busOf v t = "" ∨ ∃ b, loc t = some b ∧ s.busOf v t = b.id
  strong : S → ∀ v ∈ s.variants, ∀ t, ¬ ex t → ∀ b, loc t = some b → s.busOf v t = b.id

/-- A move of a terminal to another bus while there is only one variant. -/
def Single (s : VL) : Act → Prop
  | .setConnectableBus w _ _ => s.variants = [w]
  | _ => True

theorem count_zero_of_not_mem {l : List Nat} {t : Nat} (h : t ∉ l) : l.count t = 0 := List.count_eq_zero.mpr h

theorem VInv.same {s s' : VL} (h : VInv s) (hg : s'.graph = s.graph) (hb : s'.buses = s.buses) (hs : s'.switches = s.switches)
    (hk : ∀ v ∈ s'.variants, ∀ x t, t ∈ s'.terms v x → s'.kind t ≠ .busbarSection) (hn : s'.variants.Nodup) : VInv s' := by
  refine ⟨by rw [hg]; exact h.g, by rw [hg]; exact h.furn, ?_, ?_, ?_, ?_, hk, hn⟩
  · rw [hg, hb]; exact h.busKey
  · rw [hg, hb]; exact h.keyBus
  · rw [hg, hs]; exact h.edge
  · rw [hg, hs]; exact h.sw

/-- Attaching a terminal listed nowhere. -/
theorem attach_good {s : VL} {loc : Nat → Option CBus} {S : Prop} {w t u : Nat} {b : CBus} (h : VInv s)
    (hl : Loc s loc S (fun x => x = t)) (ht : loc t = none) (hk : s.kind t ≠ .busbarSection) (hb : BusAt s.graph u b)
    (hw : s.busOf w t = b.id) (hv : ∀ v ∈ s.variants, s.busOf v t = "" ∨ s.busOf v t = b.id)
    (hS : S → ∀ v ∈ s.variants, s.busOf v t = b.id) :
    ∃ tm ca, s.attach w t = (.ok (), { s with terms := tm, cache := ca }) ∧
      VInv { s with terms := tm, cache := ca } ∧
      Loc { s with terms := tm, cache := ca } (upd loc t (some b)) S (fun _ => False) ∧
      ∀ v ∈ s.variants, ca v = none := by
  unfold VL.attach
  rcases getConfiguredBus_cases h (s.busOf w t) with ⟨u', b', k1, k2, k3⟩ | ⟨_, k⟩
  · obtain ⟨_, e⟩ := h.id_inj k1 hb (k2.trans hw)
    subst e
    rw [k3]
    simp only []
    obtain ⟨tm, ca, e1, e2, e3⟩ := attachLoop_eff b'.handle t s.variants s h.nd
    rw [e1]
    have hmem : ∀ v x y, y ∈ tm v x → y ∈ s.terms v x ∨ y = t := by
      intro v x y hy
      rw [e2] at hy
      split at hy
      · rename_i hx
        rw [List.mem_append, List.mem_singleton] at hy
        rw [hx.2]; exact hy
      · exact Or.inl hy
    refine ⟨tm, ca, rfl, h.same rfl rfl rfl ?_ h.nd, ⟨?_, ?_, ?_, ?_⟩, fun v hv => by rw [e3, if_pos hv]⟩
    · intro v hv' x y hy
      rcases hmem v x y hy with hy | hy
      · exact h.kinds v hv' x y hy
      · rw [hy]; exact hk
    · intro t' c hc
      unfold upd at hc
      split at hc
      · cases hc; exact ⟨u, hb⟩
      · exact hl.live t' c hc
    · intro v hv' x c hc t'
      show (tm v c.handle).count t' = _
      have h0 := hl.count v hv' x c hc
      rw [e2]
      unfold upd
      by_cases hch : c.handle = b'.handle
      · obtain ⟨_, e⟩ := h.handle_inj hc hb hch
        subst e
        rw [if_pos ⟨hv', rfl⟩, List.count_append, h0]
        by_cases htt : t' = t
        · subst htt; simp [ht]
        · simp [htt, Ne.symm htt]
      · rw [if_neg (fun hh => hch hh.2), h0]
        by_cases htt : t' = t
        · subst htt
          have : ¬ b' = c := fun hh => hch (by rw [hh])
          simp [ht, this]
        · simp [htt]
    · intro v hv' t' _
      by_cases htt : t' = t
      · subst htt
        rcases hv v hv' with hh | hh
        · exact Or.inl hh
        · exact Or.inr ⟨b', by simp [upd], hh⟩
      · rcases hl.bus v hv' t' htt with hh | ⟨c, hc, hh⟩
        · exact Or.inl hh
        · exact Or.inr ⟨c, by simp [upd, htt, hc], hh⟩
    · intro hs v hv' t' _ c hc
      unfold upd at hc
      by_cases htt : t' = t
      · rw [if_pos htt] at hc
        cases hc; subst htt
        exact hS hs v hv'
      · rw [if_neg htt] at hc
        exact hl.strong hs v hv' t' htt c hc
  · exact absurd hw.symm (k u b hb)

/-- Detaching a terminal. -/
theorem detach_good {s : VL} {loc : Nat → Option CBus} {S : Prop} {w t : Nat} (h : VInv s)
    (hl : Loc s loc S (fun _ => False)) (hw : w ∈ s.variants) :
    s.detach w t = (.thrown, s) ∨
    ∃ tm bo ca b, s.detach w t = (.ok (), { s with terms := tm, busOf := bo, cache := ca }) ∧
      loc t = some b ∧ s.busOf w t = b.id ∧ s.kind t ≠ .busbarSection ∧
      VInv { s with terms := tm, busOf := bo, cache := ca } ∧
      Loc { s with terms := tm, busOf := bo, cache := ca } (upd loc t none) S (fun _ => False) ∧
      (∀ v ∈ s.variants, ca v = none) ∧ (∀ v ∈ s.variants, bo v t = "") := by
  unfold VL.detach
  rcases getConfiguredBus_cases h (s.busOf w t) with ⟨u, b, k1, k2, k3⟩ | ⟨k, _⟩
  · right
    rw [k3]
    simp only []
    have hne : s.busOf w t ≠ "" := by rw [← k2]; exact (h.busKey u b k1).2
    have hloc : loc t = some b := by
      rcases hl.bus w hw t (fun hh => hh) with hh | ⟨c, hc, hh⟩
      · exact absurd hh hne
      · obtain ⟨x, hx⟩ := hl.live t c hc
        obtain ⟨_, e⟩ := h.id_inj hx k1 (hh.symm.trans k2.symm)
        rw [hc, e]
    have hmem : ∀ v ∈ s.variants, t ∈ s.terms v b.handle := by
      intro v hv
      have := hl.count v hv u b k1 t
      rw [if_pos hloc] at this
      exact List.count_pos_iff.mp (by omega)
    obtain ⟨tm, bo, ca, e1, e2, e3, e4⟩ := detachLoop_eff b.handle t s.variants s h.nd hmem
    have hsub : ∀ v x y, y ∈ tm v x → y ∈ s.terms v x := by
      intro v x y hy
      rw [e2] at hy
      split at hy
      · rename_i hx; rw [hx.2]; exact List.mem_of_mem_erase hy
      · exact hy
    refine ⟨tm, bo, ca, b, e1, hloc, k2.symm, h.kinds w hw b.handle t (hmem w hw), h.same rfl rfl rfl ?_ h.nd, ⟨?_, ?_, ?_, ?_⟩, ?_, ?_⟩
    · intro v hv x y hy
      exact h.kinds v hv x y (hsub v x y hy)
    · intro t' c hc
      unfold upd at hc
      split at hc
      · cases hc
      · exact hl.live t' c hc
    · intro v hv x c hc t'
      show (tm v c.handle).count t' = _
      have h0 := hl.count v hv x c hc
      rw [e2]
      unfold upd
      by_cases hch : c.handle = b.handle
      · obtain ⟨_, e⟩ := h.handle_inj hc k1 hch
        subst e
        rw [if_pos ⟨hv, rfl⟩]
        by_cases htt : t' = t
        · subst htt
          rw [List.count_erase_self, h0, if_pos hloc]; simp
        · rw [List.count_erase_of_ne htt, h0]; simp [htt]
      · rw [if_neg (fun hh => hch hh.2), h0]
        by_cases htt : t' = t
        · subst htt
          have : ¬ loc t' = some c := by
            rw [hloc]; intro hh; exact hch (by rw [Option.some.inj hh])
          simp [this]
        · simp [htt]
    · intro v hv t' _
      show bo v t' = "" ∨ ∃ b, upd loc t none t' = some b ∧ bo v t' = b.id
      rw [e3]
      by_cases htt : t' = t
      · left; rw [if_pos ⟨hv, htt⟩]
      · rw [if_neg (fun hh => htt hh.2)]
        rcases hl.bus v hv t' (fun hh => hh) with hh | ⟨c, hc, hh⟩
        · exact Or.inl hh
        · exact Or.inr ⟨c, by simp [upd, htt, hc], hh⟩
    · intro hs v hv t' _ c hc
      show bo v t' = _
      unfold upd at hc
      by_cases htt : t' = t
      · rw [if_pos htt] at hc; cases hc
      · rw [if_neg htt] at hc
        rw [e3, if_neg (fun hh => htt hh.2)]
        exact hl.strong hs v hv t' (fun hh => hh) c hc
    · intro v hv; rw [e4, if_pos hv]
    · intro v hv; rw [e3, if_pos ⟨hv, rfl⟩]
  · left; rw [k]

theorem attachNew_good {s : VL} {loc : Nat → Option CBus} {S : Prop} {w t : Nat} {k : EqType} {c : Bool} {id : String}
    (h : VInv s) (hl : Loc s loc S (fun _ => False)) (ho : Ok s (.attachNew w t k c id)) :
    s.attachNew w t k c id = (.thrown, s) ∨
    ∃ tm ca b, let s' : VL := { s with
        kind := upd s.kind t k
        connected := fun v => upd (s.connected v) t c
        busOf := fun v => upd (s.busOf v) t id
        terms := tm
        cache := ca }
      s.attachNew w t k c id = (.ok (), s') ∧ b.id = id ∧ VInv s' ∧ Loc s' (upd loc t (some b)) S (fun _ => False) ∧
        ∀ v ∈ s.variants, ca v = none := by
  obtain ⟨o1, o2, o3⟩ := ho
  unfold VL.attachNew
  have hI : VInv ({ s with
    kind := upd s.kind t k
    connected := fun v => upd (s.connected v) t c
    busOf := fun v => upd (s.busOf v) t id } : VL) := by
    refine h.same rfl rfl rfl ?_ h.nd
    intro v hv x y hy
    show upd s.kind t k y ≠ _
    unfold upd
    split
    · exact o2
    · exact h.kinds v hv x y hy
  have hb0 : ∀ v, (fun v => upd (s.busOf v) t id) v t = id := by intro v; simp [upd]
  have hnone : loc t = none := by
    cases hh : loc t with
    | none => rfl
    | some b =>
      obtain ⟨u, hu⟩ := hl.live t b hh
      have := hl.count w o1 u b hu t
      rw [if_pos hh, count_zero_of_not_mem (o3 w o1 u b hu)] at this
      cases this
  rcases getConfiguredBus_cases h id with ⟨u, b, k1, k2, k3⟩ | ⟨k1, _⟩
  · right
    obtain ⟨tm, ca, e1, e2, e3, e4⟩ := attach_good (w := w) (t := t) (u := u) (b := b) (S := S) (loc := loc) hI (by
      refine ⟨hl.live, hl.count, ?_, ?_⟩
      · intro v hv t' htt
        show upd (s.busOf v) t id t' = "" ∨ ∃ b, loc t' = some b ∧ upd (s.busOf v) t id t' = b.id
        unfold upd
        rw [if_neg htt]
        exact hl.bus v hv t' (fun hh => hh)
      · intro hs v hv t' htt b' hb'
        show upd (s.busOf v) t id t' = _
        unfold upd
        rw [if_neg htt]
        exact hl.strong hs v hv t' (fun hh => hh) b' hb') hnone (by simp [upd, o2]) k1 (by simp [upd, k2])
        (fun v _ => Or.inr (by simp [upd, k2])) (fun _ v _ => by simp [upd, k2])
    rw [e1]
    exact ⟨tm, ca, b, rfl, k2, e2, e3, e4⟩
  · left
    unfold VL.attach
    have : VL.getConfiguredBus ({ s with
      kind := upd s.kind t k
      connected := fun v => upd (s.connected v) t c
      busOf := fun v => upd (s.busOf v) t id } : VL) ((fun v => upd (s.busOf v) t id) w t) = .thrown := by
      rw [hb0]; exact k1
    simp only [this]

theorem setConnectableBus_good {s : VL} {loc : Nat → Option CBus} {S : Prop} {w t : Nat} {id : String}
    (h : VInv s) (hl : Loc s loc S (fun _ => False)) (hw : w ∈ s.variants) (hS : S → s.variants = [w]) :
    s.setConnectableBus w t id = (.thrown, s) ∨
    ∃ tm bo ca b, let s' : VL := { s with terms := tm, busOf := bo, cache := ca }
      s.setConnectableBus w t id = (.ok (), s') ∧ b.id = id ∧ (∃ u, BusAt s.graph u b) ∧ VInv s' ∧
        Loc s' (upd loc t (some b)) S (fun _ => False) ∧
        (∀ v ∈ s.variants, ca v = none) ∧ bo w t = id ∧ ∀ v ∈ s.variants, v ≠ w → bo v t = "" := by
  unfold VL.setConnectableBus
  rcases getConfiguredBus_cases h id with ⟨u, b, k1, k2, k3⟩ | ⟨k1, _⟩
  · rw [k3]
    simp only []
    rcases detach_good (t := t) h hl hw with e | ⟨tm, bo, ca, b0, e1, e2, e3, e4, e5, e6, e7, e8⟩
    · left; rw [e]
    · right
      rw [e1]
      simp only []
      have hI : VInv ({ s with
        terms := tm
        busOf := upd bo w (upd (bo w) t id)
        cache := ca } : VL) := e5.same rfl rfl rfl e5.kinds e5.nd
      have hbw : upd bo w (upd (bo w) t id) w t = id := by simp [upd]
      have hbo : ∀ v, v ≠ w → upd bo w (upd (bo w) t id) v t = bo v t := by intro v hv; simp [upd, hv]
      have hbt : ∀ v t', t' ≠ t → upd bo w (upd (bo w) t id) v t' = bo v t' := by
        intro v t' ht; unfold upd; by_cases hv : v = w
        · subst hv; simp [ht]
        · simp [hv]
      obtain ⟨tm', ca', f1, f2, f3, f4⟩ := attach_good (w := w) (t := t) (u := u) (b := b) (S := S) (loc := upd loc t none) hI (by
        refine ⟨e6.live, e6.count, ?_, ?_⟩
        · intro v hv t' htt
          have := e6.bus v hv t' (fun hh => hh)
          show upd bo w (upd (bo w) t id) v t' = "" ∨ ∃ b, upd loc t none t' = some b ∧ upd bo w (upd (bo w) t id) v t' = b.id
          rw [hbt v t' htt]; exact this
        · intro hs v hv t' htt b' hb'
          show upd bo w (upd (bo w) t id) v t' = _
          rw [hbt v t' htt]
          exact e6.strong hs v hv t' (fun hh => hh) b' hb') (by simp [upd]) e4 k1 (by rw [k2]; exact hbw) (by
          intro v hv
          show upd bo w (upd (bo w) t id) v t = "" ∨ upd bo w (upd (bo w) t id) v t = b.id
          by_cases hvw : v = w
          · right; subst hvw; rw [hbw, k2]
          · left; rw [hbo v hvw]; exact e8 v hv) (by
          intro hs v hv
          have : v = w := by
            have hv' : v ∈ s.variants := hv
            rw [hS hs] at hv'; exact List.mem_singleton.mp hv'
          show upd bo w (upd (bo w) t id) v t = b.id
          subst this; rw [hbw, k2])
      refine ⟨tm', _, ca', b, f1, k2, ⟨u, k1⟩, f2, ?_, f4, hbw, fun v hv hvw => (hbo v hvw).trans (e8 v hv)⟩
      have : upd (upd loc t none) t (some b) = upd loc t (some b) := by
        funext x; unfold upd; by_cases hx : x = t <;> simp [hx]
      rw [this] at f3; exact f3
  · left; rw [k1]

/-! ### Preservation -/

theorem furnished_of {g g' : BGr} (hf : Furnished g) (hV : g'.vertexAt = g.vertexAt) : Furnished g' := by
  refine ⟨?_, ?_⟩
  · unfold BusAt; rw [hV]; exact hf.bus
  · unfold BusAt; rw [hV]; exact hf.handles

theorem busAt_of {g g' : BGr} (hV : g'.vertexAt = g.vertexAt) (u : Nat) (b : CBus) : BusAt g' u b ↔ BusAt g u b := by
  unfold BusAt; rw [hV]

theorem Loc.graph {s s' : VL} {loc : Nat → Option CBus} {S : Prop} {ex : Nat → Prop} (hl : Loc s loc S ex)
    (hV : ∀ u b, BusAt s'.graph u b ↔ BusAt s.graph u b) (hv : s'.variants = s.variants) (ht : s'.terms = s.terms)
    (hb : s'.busOf = s.busOf) : Loc s' loc S ex := by
  refine ⟨?_, ?_, ?_, ?_⟩
  · intro t b h
    obtain ⟨u, hu⟩ := hl.live t b h
    exact ⟨u, (hV u b).mpr hu⟩
  · rw [hv, ht]
    intro v hv' u b hu
    exact hl.count v hv' u b ((hV u b).mp hu)
  · rw [hv, hb]; exact hl.bus
  · rw [hv, hb]; exact hl.strong

theorem update_eff {s : VL} (h : VInv s) (w : Nat) :
    ∃ g' ca, (s.update w).2 = { s with graph := g', cache := ca } ∧ Reached g' ∧ g'.vertexAt = s.graph.vertexAt ∧
      g'.edgeAt = s.graph.edgeAt ∧ g'.vertices = s.graph.vertices ∧ g'.edges = s.graph.edges ∧
      (∀ w', w' ≠ w → ca w' = s.cache w') ∧
      ((s.update w).1 = .ub ∧ ca = s.cache ∨ (s.update w).1 = .thrown ∧ ca = s.cache ∨
        ∃ c, (s.update w).1 = .ok c ∧ ca w = some c ∧
          (s.cache w = some c ∨ s.cache w = none ∧ compute s.id s.graph (s.opened w) (s.types w) = .ok c)) := by
  obtain ⟨q1, q2, q3⟩ := query_graph h.g
  unfold VL.update
  cases hc : s.cache w with
  | some c => exact ⟨s.graph, s.cache, rfl, h.g, rfl, rfl, rfl, rfl, fun _ _ => rfl, Or.inr (Or.inr ⟨c, rfl, hc, Or.inl rfl⟩)⟩
  | none =>
    simp only []
    cases hcomp : compute s.id s.graph (s.opened w) (s.types w) with
    | ok c =>
      refine ⟨s.graph.query.2, _, rfl, q3, NodeBreaker.vertexAt_congr q1, NodeBreaker.edgeAt_congr q2, q1, q2,
        fun w' hw => by simp [upd, hw], Or.inr (Or.inr ⟨c, rfl, by simp [upd], Or.inr ⟨trivial, rfl⟩⟩)⟩
    | thrown => exact ⟨s.graph, s.cache, rfl, h.g, rfl, rfl, rfl, rfl, fun _ _ => rfl, Or.inr (Or.inl ⟨rfl, rfl⟩)⟩
    | ub => exact ⟨s.graph, s.cache, rfl, h.g, rfl, rfl, rfl, rfl, fun _ _ => rfl, Or.inl ⟨rfl, rfl⟩⟩

theorem getMergedBus_snd (s : VL) (w : Nat) (id : String) :
    (s.getMergedBus w id).2 = s ∨ (s.getMergedBus w id).2 = (s.update w).2 := by
  unfold VL.getMergedBus
  cases s.getConfiguredBus id with
  | thrown => left; rfl
  | ub => left; rfl
  | ok b =>
    right
    simp only []
    rcases s.update w with ⟨o, s'⟩
    cases o <;> rfl

theorem good_run {s : VL} {loc : Nat → Option CBus} {S : Prop} {a : Act} (h : VInv s) (hl : Loc s loc S (fun _ => False))
    (ho : Ok s a) (hS : S → Single s a) :
    VInv (run1 s a) ∧ ∃ loc', Loc (run1 s a) loc' S (fun _ => False) := by
  cases a with
  | addBus reg b =>
    cases reg with
    | false => exact ⟨h, loc, hl⟩
    | true =>
      obtain ⟨o1, o2, o3⟩ := ho rfl
      obtain ⟨v, g', e1, e2, e3, e4, e5⟩ := addBus_eff h b
      show VInv (s.addBus true b).2 ∧ ∃ loc', Loc (s.addBus true b).2 loc' S _
      rw [e1]
      have hat : ∀ u c, BusAt g' u c ↔ (u = v ∧ c = b) ∨ BusAt s.graph u c := by
        intro u c
        unfold BusAt
        rw [e4]
        by_cases hu : u = v
        · subst hu
          rw [if_pos rfl, e3]
          constructor
          · intro hh; exact Or.inl ⟨rfl, (Option.some.inj (Option.some.inj hh)).symm⟩
          · rintro (⟨_, rfl⟩ | hh)
            · rfl
            · cases hh
        · rw [if_neg hu]; simp [hu]
      refine ⟨⟨e2, ⟨?_, ?_⟩, ?_, ?_, ?_, ?_, ?_, h.nd⟩, loc, ?_, ?_, hl.bus, hl.strong⟩
      · intro u hu
        by_cases huv : u = v
        · exact ⟨b, (hat u b).mpr (Or.inl ⟨huv, rfl⟩)⟩
        · have : s.graph.vertexAt u ≠ none := by
            have hu' : g'.vertexAt u ≠ none := hu
            rw [e4, if_neg huv] at hu'; exact hu'
          obtain ⟨c, hc⟩ := h.furn.bus u this
          exact ⟨c, (hat u c).mpr (Or.inr hc)⟩
      · intro u x c d hu hx he
        rcases (hat u c).mp hu with ⟨rfl, rfl⟩ | hu
        · rcases (hat x d).mp hx with ⟨rfl, rfl⟩ | hx
          · rfl
          · exact absurd he.symm (o3 x d hx)
        · rcases (hat x d).mp hx with ⟨rfl, rfl⟩ | hx
          · exact absurd he (o3 u c (by assumption))
          · exact h.furn.handles u x c d hu hx he
      · intro u c hu
        show AMap.get? (AMap.emplace s.buses b.id v) c.id = some u ∧ _
        rw [AMap.get?_emplace]
        rcases (hat u c).mp hu with ⟨rfl, rfl⟩ | hu
        · rw [if_pos rfl, o2]; exact ⟨rfl, o1⟩
        · obtain ⟨q1, q2⟩ := h.busKey u c hu
          have : b.id ≠ c.id := by intro hh; rw [← hh, o2] at q1; cases q1
          rw [if_neg this]; exact ⟨q1, q2⟩
      · intro id u hu
        have hu' : AMap.get? (AMap.emplace s.buses b.id v) id = some u := hu
        rw [AMap.get?_emplace] at hu'
        by_cases hid : b.id = id
        · rw [if_pos hid, o2] at hu'
          exact ⟨b, (hat u b).mpr (Or.inl ⟨(Option.some.inj hu').symm, rfl⟩), hid⟩
        · rw [if_neg hid] at hu'
          obtain ⟨c, hc, hc'⟩ := h.keyBus id u hu'
          exact ⟨c, (hat u c).mpr (Or.inr hc), hc'⟩
      · intro e ed he
        have he' : g'.edgeAt e = some ed := he
        rw [e5] at he'; exact h.edge e ed he'
      · intro id e he
        show ∃ ed sw, g'.edgeAt e = some ed ∧ _
        rw [e5]; exact h.sw id e he
      · intro w hw x t ht
        have ht' : t ∈ upd (s.terms w) b.handle [] x := ht
        unfold upd at ht'
        split at ht'
        · cases ht'
        · exact h.kinds w hw x t ht'
      · intro t c hc
        obtain ⟨u, hu⟩ := hl.live t c hc
        exact ⟨u, (hat u c).mpr (Or.inr hu)⟩
      · intro w hw u c hu t
        show (upd (s.terms w) b.handle [] c.handle).count t = _
        unfold upd
        rcases (hat u c).mp hu with ⟨rfl, rfl⟩ | hu
        · rw [if_pos rfl]
          have : ¬ loc t = some c := by
            intro hh
            obtain ⟨x, hx⟩ := hl.live t c hh
            exact o3 x c hx rfl
          rw [if_neg this]; rfl
        · rw [if_neg (o3 u c hu)]
          exact hl.count w hw u c hu t
  | addSwitch reg sw o id1 id2 =>
    show VInv (s.addSwitch reg sw o id1 id2).2 ∧ ∃ loc', Loc (s.addSwitch reg sw o id1 id2).2 loc' S _
    rcases addSwitch_eff h reg sw o id1 id2 with e | ⟨v1, v2, e, g', e1, e2, e3, e4, e5, e6⟩
    · rw [e]; exact ⟨h, loc, hl⟩
    · rw [e1]
      have o1 := ho e2
      refine ⟨⟨e3, furnished_of h.furn e6, ?_, ?_, ?_, ?_, h.kinds, h.nd⟩, loc, hl.graph (busAt_of e6) rfl rfl rfl⟩
      · intro u b hu; exact h.busKey u b ((busAt_of e6 u b).mp hu)
      · intro id u hu
        obtain ⟨b, h1, h2⟩ := h.keyBus id u hu
        exact ⟨b, (busAt_of e6 u b).mpr h1, h2⟩
      · intro i ed hi
        have hi' : g'.edgeAt i = some ed := hi
        rw [e5] at hi'
        show ∃ x, ed.obj = some x ∧ AMap.get? (AMap.emplace s.switches sw.id e) x.id = some i
        by_cases hie : i = e
        · rw [if_pos hie] at hi'
          cases hi'
          refine ⟨sw, rfl, ?_⟩
          rw [AMap.get?_emplace, if_pos rfl, o1, hie]; rfl
        · rw [if_neg hie] at hi'
          obtain ⟨x, hx1, hx2⟩ := h.edge i ed hi'
          refine ⟨x, hx1, ?_⟩
          have : sw.id ≠ x.id := by intro hh; rw [← hh, o1] at hx2; cases hx2
          rw [AMap.get?_emplace, if_neg this]; exact hx2
      · intro id i hi
        have hi' : AMap.get? (AMap.emplace s.switches sw.id e) id = some i := hi
        rw [AMap.get?_emplace] at hi'
        show ∃ ed x, g'.edgeAt i = some ed ∧ _
        by_cases hid : sw.id = id
        · rw [if_pos hid, o1] at hi'
          have : e = i := Option.some.inj hi'
          refine ⟨⟨v1, v2, some sw⟩, sw, ?_, rfl, hid⟩
          rw [e5, if_pos this.symm]
        · rw [if_neg hid] at hi'
          obtain ⟨ed, x, k1, k2⟩ := h.sw id i hi'
          refine ⟨ed, x, ?_, k2⟩
          have : i ≠ e := by intro hh; rw [hh, e4] at k1; cases k1
          rw [e5, if_neg this]; exact k1
  | removeSwitch id =>
    show VInv (s.removeSwitch id).2 ∧ ∃ loc', Loc (s.removeSwitch id).2 loc' S _
    rcases removeSwitch_eff h id with e | ⟨e, g', e1, e2, e3, e4, e5⟩
    · rw [e]; exact ⟨h, loc, hl⟩
    · rw [e1]
      refine ⟨⟨e3, furnished_of h.furn e5, ?_, ?_, ?_, ?_, h.kinds, h.nd⟩, loc, hl.graph (busAt_of e5) rfl rfl rfl⟩
      · intro u b hu; exact h.busKey u b ((busAt_of e5 u b).mp hu)
      · intro id u hu
        obtain ⟨b, h1, h2⟩ := h.keyBus id u hu
        exact ⟨b, (busAt_of e5 u b).mpr h1, h2⟩
      · intro i ed hi
        have hi' : g'.edgeAt i = some ed := hi
        rw [e4] at hi'
        by_cases hie : i = e
        · rw [if_pos hie] at hi'; cases hi'
        · rw [if_neg hie] at hi'
          obtain ⟨x, hx1, hx2⟩ := h.edge i ed hi'
          refine ⟨x, hx1, ?_⟩
          show AMap.get? (AMap.erase s.switches id) x.id = some i
          have : id ≠ x.id := by
            intro hh; rw [← hh, e2] at hx2; exact hie (Option.some.inj hx2).symm
          rw [AMap.get?_erase, if_neg this]; exact hx2
      · intro id' i hi
        have hi' : AMap.get? (AMap.erase s.switches id) id' = some i := hi
        rw [AMap.get?_erase] at hi'
        by_cases hid : id = id'
        · rw [if_pos hid] at hi'; cases hi'
        · rw [if_neg hid] at hi'
          obtain ⟨ed, x, k1, k2, k3⟩ := h.sw id' i hi'
          refine ⟨ed, x, ?_, k2, k3⟩
          show g'.edgeAt i = some ed
          have : i ≠ e := by
            intro hh
            obtain ⟨ed', x', k1', k2', k3'⟩ := h.sw id e e2
            rw [hh, k1'] at k1
            cases k1
            rw [k2'] at k2
            cases k2
            exact hid (k3'.symm.trans k3)
          rw [e4, if_neg this]; exact k1
  | removeAllSwitches =>
    obtain ⟨e1, e2, e3⟩ := removeAllSwitches_eff h
    refine ⟨⟨e1, furnished_of h.furn e3, ?_, ?_, ?_, ?_, h.kinds, h.nd⟩, loc, hl.graph (busAt_of e3) rfl rfl rfl⟩
    · intro u b hu; exact h.busKey u b ((busAt_of e3 u b).mp hu)
    · intro id u hu
      obtain ⟨b, h1, h2⟩ := h.keyBus id u hu
      exact ⟨b, (busAt_of e3 u b).mpr h1, h2⟩
    · intro i ed hi
      have hi' : s.graph.removeAllEdges.edgeAt i = some ed := hi
      rw [e2] at hi'; cases hi'
    · intro id i hi
      have hi' : AMap.get? ([] : AMap String Nat) id = some i := hi
      cases hi'
  | removeBus w id =>
    have hw : w ∈ s.variants := ho
    show VInv (s.removeBus w id).2 ∧ ∃ loc', Loc (s.removeBus w id).2 loc' S _
    rcases removeBus_eff h w id with e | ⟨u, b, g', e1, e2, e3, e4, e5, e6, e7, e8⟩
    · rw [e]; exact ⟨h, loc, hl⟩
    · rw [e1]
      have hat : ∀ x c, BusAt g' x c ↔ x ≠ u ∧ BusAt s.graph x c := by
        intro x c
        unfold BusAt
        rw [e7]
        by_cases hx : x = u
        · simp [hx]
        · simp [hx]
      have hloc : ∀ t c, loc t = some c → c ≠ b := by
        rintro t c hc rfl
        have := hl.count w hw u c e2 t
        rw [e4, if_pos hc] at this; cases this
      refine ⟨⟨e6, ⟨?_, ?_⟩, ?_, ?_, ?_, ?_, h.kinds, h.nd⟩, loc, ?_, ?_, hl.bus, hl.strong⟩
      · intro x hx
        have hx' : g'.vertexAt x ≠ none := hx
        rw [e7] at hx'
        by_cases hxu : x = u
        · rw [if_pos hxu] at hx'; exact absurd rfl hx'
        · rw [if_neg hxu] at hx'
          obtain ⟨c, hc⟩ := h.furn.bus x hx'
          exact ⟨c, (hat x c).mpr ⟨hxu, hc⟩⟩
      · intro x y c d hx hy he
        exact h.furn.handles x y c d ((hat x c).mp hx).2 ((hat y d).mp hy).2 he
      · intro x c hx
        obtain ⟨q1, q2⟩ := (hat x c).mp hx
        obtain ⟨p1, p2⟩ := h.busKey x c q2
        show AMap.get? (AMap.erase s.buses id) c.id = some x ∧ _
        have : id ≠ c.id := by
          intro hh
          exact q1 (h.id_inj q2 e2 (hh.symm.trans e3.symm)).1
        rw [AMap.get?_erase, if_neg this]
        exact ⟨p1, p2⟩
      · intro id' x hx
        have hx' : AMap.get? (AMap.erase s.buses id) id' = some x := hx
        rw [AMap.get?_erase] at hx'
        by_cases hid : id = id'
        · rw [if_pos hid] at hx'; cases hx'
        · rw [if_neg hid] at hx'
          obtain ⟨c, h1, h2⟩ := h.keyBus id' x hx'
          refine ⟨c, (hat x c).mpr ⟨?_, h1⟩, h2⟩
          rintro rfl
          have := e2.unique h1
          subst this
          exact hid (e3.symm.trans h2)
      · intro i ed hi
        have hi' : g'.edgeAt i = some ed := hi
        rw [e8] at hi'; exact h.edge i ed hi'
      · intro id' i hi
        show ∃ ed sw, g'.edgeAt i = some ed ∧ _
        rw [e8]; exact h.sw id' i hi
      · intro t c hc
        obtain ⟨x, hx⟩ := hl.live t c hc
        refine ⟨x, (hat x c).mpr ⟨?_, hx⟩⟩
        rintro rfl
        exact hloc t c hc (hx.unique e2)
      · intro v hv x c hx t
        exact hl.count v hv x c ((hat x c).mp hx).2 t
  | removeAllBuses w =>
    have hw : w ∈ s.variants := ho
    show VInv (s.removeAllBuses w).2 ∧ ∃ loc', Loc (s.removeAllBuses w).2 loc' S _
    rcases removeAllBuses_eff h w with ⟨d, _, e⟩ | ⟨g', e1, e2, e3, e4, e5, e6⟩
    · rw [e]
      exact ⟨h.same rfl rfl rfl h.kinds h.nd, loc, hl.graph (fun _ _ => Iff.rfl) rfl rfl rfl⟩
    · rw [e1]
      have hno : ∀ x c, ¬ BusAt g' x c := by intro x c hh; unfold BusAt at hh; rw [e3] at hh; cases hh
      have hloc : ∀ t c, ¬ loc t = some c := by
        intro t c hc
        obtain ⟨u, hu⟩ := hl.live t c hc
        have := hl.count w hw u c hu t
        rw [e6 u c hu, if_pos hc] at this; cases this
      refine ⟨⟨e2, ⟨?_, ?_⟩, ?_, ?_, ?_, ?_, h.kinds, h.nd⟩, loc, ?_, ?_, hl.bus, hl.strong⟩
      · intro x hx; exact absurd (e3 x) hx
      · intro x y c d hx; exact absurd hx (hno x c)
      · intro x c hx; exact absurd hx (hno x c)
      · intro id x hx
        have hx' : AMap.get? ([] : AMap String Nat) id = some x := hx
        cases hx'
      · intro i ed hi
        have hi' : g'.edgeAt i = some ed := hi
        rw [e4] at hi'; cases hi'
      · intro id i hi
        obtain ⟨ed, sw, k1, _⟩ := h.sw id i hi
        rw [e5] at k1; cases k1
      · intro t c hc; exact absurd hc (hloc t c)
      · intro v hv x c hx; exact absurd hx (hno x c)
  | setOpen w sw b =>
    show VInv (s.setOpen w sw b) ∧ ∃ loc', Loc (s.setOpen w sw b) loc' S _
    unfold VL.setOpen
    split
    · exact ⟨h.same rfl rfl rfl h.kinds h.nd, loc, hl.graph (fun _ _ => Iff.rfl) rfl rfl rfl⟩
    · exact ⟨h, loc, hl⟩
  | attachNew w t k c id =>
    show VInv (s.attachNew w t k c id).2 ∧ ∃ loc', Loc (s.attachNew w t k c id).2 loc' S _
    rcases attachNew_good h hl ho with e | ⟨tm, ca, b, e1, _, e2, e3, _⟩
    · rw [e]; exact ⟨h, loc, hl⟩
    · rw [e1]; exact ⟨e2, _, e3⟩
  | detach w t =>
    show VInv (s.detach w t).2 ∧ ∃ loc', Loc (s.detach w t).2 loc' S _
    rcases detach_good (t := t) h hl ho with e | ⟨tm, bo, ca, b0, e1, e2, e3, e4, e5, e6, e7, e8⟩
    · rw [e]; exact ⟨h, loc, hl⟩
    · rw [e1]; exact ⟨e5, _, e6⟩
  | setConnectableBus w t id =>
    show VInv (s.setConnectableBus w t id).2 ∧ ∃ loc', Loc (s.setConnectableBus w t id).2 loc' S _
    rcases setConnectableBus_good (t := t) (id := id) h hl ho hS with e | ⟨tm, bo, ca, b, e1, _, _, e2, e3, _⟩
    · rw [e]; exact ⟨h, loc, hl⟩
    · rw [e1]; exact ⟨e2, _, e3⟩
  | connect w t =>
    show VInv (s.connect w t).2 ∧ ∃ loc', Loc (s.connect w t).2 loc' S _
    unfold VL.connect
    split
    · exact ⟨h, loc, hl⟩
    · exact ⟨h.same rfl rfl rfl h.kinds h.nd, loc, hl.graph (fun _ _ => Iff.rfl) rfl rfl rfl⟩
  | disconnect w t =>
    show VInv (s.disconnect w t).2 ∧ ∃ loc', Loc (s.disconnect w t).2 loc' S _
    unfold VL.disconnect
    split
    · exact ⟨h.same rfl rfl rfl h.kinds h.nd, loc, hl.graph (fun _ _ => Iff.rfl) rfl rfl rfl⟩
    · exact ⟨h, loc, hl⟩
  | getMergedBus w id =>
    show VInv (s.getMergedBus w id).2 ∧ ∃ loc', Loc (s.getMergedBus w id).2 loc' S _
    rcases getMergedBus_snd s w id with e | e
    · rw [e]; exact ⟨h, loc, hl⟩
    · obtain ⟨g', ca, e1, e2, e3, e4, _⟩ := update_eff h w
      rw [e, e1]
      refine ⟨⟨e2, furnished_of h.furn e3, ?_, ?_, ?_, ?_, h.kinds, h.nd⟩, loc, hl.graph (busAt_of e3) rfl rfl rfl⟩
      · intro u b hu; exact h.busKey u b ((busAt_of e3 u b).mp hu)
      · intro id u hu
        obtain ⟨b, h1, h2⟩ := h.keyBus id u hu
        exact ⟨b, (busAt_of e3 u b).mpr h1, h2⟩
      · intro i ed hi
        have hi' : g'.edgeAt i = some ed := hi
        rw [e4] at hi'; exact h.edge i ed hi'
      · intro id' i hi
        show ∃ ed sw, g'.edgeAt i = some ed ∧ _
        rw [e4]; exact h.sw id' i hi
  | cloneVariant src dst =>
    have hsrc : src ∈ s.variants := ho
    have hmem : ∀ v, v ∈ (s.cloneVariant src dst).variants → v = dst ∨ (v ≠ dst ∧ v ∈ s.variants) := by
      intro v hv
      have hv' : v ∈ (if dst ∈ s.variants then s.variants else s.variants ++ [dst]) := hv
      by_cases hvd : v = dst
      · exact Or.inl hvd
      · right
        split at hv'
        · exact ⟨hvd, hv'⟩
        · simp only [List.mem_append, List.mem_singleton, hvd, or_false] at hv'
          exact ⟨hvd, hv'⟩
    have hterm : ∀ v, v ∈ (s.cloneVariant src dst).variants → ∃ v0 ∈ s.variants,
        (s.cloneVariant src dst).terms v = s.terms v0 ∧ (s.cloneVariant src dst).busOf v = s.busOf v0 := by
      intro v hv
      rcases hmem v hv with rfl | ⟨h1, h2⟩
      · exact ⟨src, hsrc, by simp [VL.cloneVariant, upd], by simp [VL.cloneVariant, upd]⟩
      · exact ⟨v, h2, by simp [VL.cloneVariant, upd, h1], by simp [VL.cloneVariant, upd, h1]⟩
    refine ⟨h.same rfl rfl rfl ?_ ?_, loc, hl.live, ?_, ?_, ?_⟩
    · intro v hv x t ht
      obtain ⟨v0, k1, k2, _⟩ := hterm v hv
      have ht' : t ∈ (s.cloneVariant src dst).terms v x := ht
      rw [k2] at ht'
      exact h.kinds v0 k1 x t ht'
    · show (if dst ∈ s.variants then s.variants else s.variants ++ [dst]).Nodup
      split
      · exact h.nd
      · rename_i hd
        rw [List.nodup_append]
        refine ⟨h.nd, by simp, ?_⟩
        intro a ha b hb hab
        rw [List.mem_singleton] at hb
        exact hd (by rw [← hb, ← hab]; exact ha)
    · intro v hv u b hu t
      obtain ⟨v0, k1, k2, _⟩ := hterm v hv
      show ((s.cloneVariant src dst).terms v b.handle).count t = _
      rw [k2]; exact hl.count v0 k1 u b hu t
    · intro v hv t ht
      obtain ⟨v0, k1, _, k2⟩ := hterm v hv
      show (s.cloneVariant src dst).busOf v t = "" ∨ ∃ b, loc t = some b ∧ (s.cloneVariant src dst).busOf v t = b.id
      rw [k2]; exact hl.bus v0 k1 t ht
    · intro hs v hv t ht b hb
      obtain ⟨v0, k1, _, k2⟩ := hterm v hv
      show (s.cloneVariant src dst).busOf v t = b.id
      rw [k2]; exact hl.strong hs v0 k1 t ht b hb
  | removeVariant w =>
    have hmem : ∀ v, v ∈ s.variants.erase w → v ≠ w ∧ v ∈ s.variants := fun v hv => (h.nd.mem_erase_iff).mp hv
    have hterm : ∀ v, v ∈ s.variants.erase w →
        (s.removeVariant w).terms v = s.terms v ∧ (s.removeVariant w).busOf v = s.busOf v := by
      intro v hv
      have := (hmem v hv).1
      exact ⟨by simp [VL.removeVariant, upd, this], by simp [VL.removeVariant, upd, this]⟩
    refine ⟨h.same rfl rfl rfl ?_ (h.nd.erase w), loc, hl.live, ?_, ?_, ?_⟩
    · intro v hv x t ht
      have ht' : t ∈ (s.removeVariant w).terms v x := ht
      rw [(hterm v hv).1] at ht'
      exact h.kinds v (hmem v hv).2 x t ht'
    · intro v hv u b hu t
      show ((s.removeVariant w).terms v b.handle).count t = _
      rw [(hterm v hv).1]; exact hl.count v (hmem v hv).2 u b hu t
    · intro v hv t ht
      show (s.removeVariant w).busOf v t = "" ∨ ∃ b, loc t = some b ∧ (s.removeVariant w).busOf v t = b.id
      rw [(hterm v hv).2]; exact hl.bus v (hmem v hv).2 t ht
    · intro hs v hv t ht b hb
      show (s.removeVariant w).busOf v t = b.id
      rw [(hterm v hv).2]; exact hl.strong hs v (hmem v hv).2 t ht b hb

end Verif.BusBreaker
