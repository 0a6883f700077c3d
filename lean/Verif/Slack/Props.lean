import Verif.Slack.Steps

/-! C81: the slack terminals of a network. -/

namespace Verif.Slack

open Verif Verif.Variants

/-- Calls after which the vectors of the extensions are in order: all but some removals of the last variant (see
    `remove_last_reads`). -/
def Clean (s : Net) : Op → Prop
  | .remove id => CleanRemove s id
  | _ => True

/-- Sequences of clean calls. -/
def CleanHistory : Net → List Op → Prop
  | _, [] => True
  | s, op :: ops => Clean s op ∧ CleanHistory (step s op).2 ops

/-- Sequences of calls of the abstract state, with what they answer. -/
inductive Abs.Run : Abs → List Op → List (Out Unit) → Abs → Prop where
  | nil {a} : Run a [] [] a
  | cons {a op r b ops rs c} : Step a op (r, b) → Run b ops rs c → Run a (op :: ops) (r :: rs) c

/-- What the calls of a sequence answer. -/
def answers (s : Net) : List Op → List (Out Unit)
  | [] => []
  | op :: ops => (step s op).1 :: answers (step s op).2 ops

theorem add_frame (s : Net) (l : String) (t : Slot) : (add s l t).2.bk = s.bk ∧ (add s l t).2.cur = s.cur := by
  unfold add
  by_cases h1 : l ∈ s.levels
  · rw [if_pos h1]
    cases t with
    | none => exact ⟨rfl, rfl⟩
    | some x =>
      simp only []
      by_cases h2 : x.level = l
      · rw [if_pos h2]
        cases assign s.cur l (List.replicate s.bk.size (some none)) (some x) <;> exact ⟨rfl, rfl⟩
      · rw [if_neg h2]; exact ⟨rfl, rfl⟩
  · rw [if_neg h1]; exact ⟨rfl, rfl⟩

theorem setTerminal_frame (s : Net) (l : String) (t : Slot) (c : Bool) :
    (setTerminal s l t c).2.bk = s.bk ∧ (setTerminal s l t c).2.cur = s.cur := by
  unfold setTerminal
  cases s.exts.get? l with
  | none => exact ⟨rfl, rfl⟩
  | some x =>
    simp only []
    cases assign s.cur l x t with
    | ok y => simp only []; by_cases h : (c && isEmpty y) = true <;> simp [h]
    | thrown => exact ⟨rfl, rfl⟩
    | ub => exact ⟨rfl, rfl⟩

theorem reset_frame (s : Net) (l : String) (t : Slot) : (reset s l t).2.bk = s.bk ∧ (reset s l t).2.cur = s.cur := by
  unfold reset
  cases s.exts.get? l with
  | none =>
    cases t with
    | none => exact ⟨rfl, rfl⟩
    | some x => exact add_frame s l (some x)
  | some x => exact setTerminal_frame s l t true

/-- One call. -/
theorem step_shows {s : Net} (h : Inv s) {a : Abs} (g : Shows s a) {op : Op} (hc : Clean s op) :
    ∃ b, a.Step op ((step s op).1, b) ∧ Inv (step s op).2 ∧ Shows (step s op).2 b := by
  have g' := (shows_iff h a).1 g
  have fin : ∀ {r : Out Unit × Net} {q : Out Unit × Abs}, r.1 = q.1 ∧ Inv r.2 ∧ ShowsV r.2 q.2 → a.Step op q →
      ∃ b, a.Step op (r.1, b) ∧ Inv r.2 ∧ Shows r.2 b := by
    intro r q ⟨h1, h2, h3⟩ h4
    exact ⟨q.2, by rw [h1]; exact h4, h2, (shows_iff h2 _).2 h3⟩
  cases op with
  | clone src tgt m => exact fin (clone_shows h g' src tgt m) .clone
  | remove id => exact fin (remove_shows h g' hc) .remove
  | select id => exact fin (select_shows h g' id) .select
  | add l t => exact fin (add_shows h g' l t) .add
  | setTerminal l t c => exact fin (setTerminal_shows h g' l t c) .setTerminal
  | reset l t => exact fin (reset_shows h g' l t) .reset
  | resetAll => exact fin (resetAll_shows h g') .resetAll
  | attach l ts =>
    obtain ⟨f1, f2⟩ := find_is_best ts
    show ∃ b, a.Step (.attach l ts) ((attach s l ts).1, b) ∧ Inv (attach s l ts).2 ∧ Shows (attach s l ts).2 b
    unfold attach
    cases hf : Finder.find rules ts with
    | none =>
      have := f1.1 hf
      subst this
      exact ⟨a, .attachNone, h, g⟩
    | some t => exact fin (reset_shows h g' l (some t)) (.attach ((f2 t).1 hf))
  | removeExt l =>
    refine fin (r := removeExt s l) (q := (.ok (), { a with ext := fun l' => l' ≠ l && a.ext l', slack := fun v l' => if l' = l then none else a.slack v l' })) ⟨rfl, inv_erase h l, ⟨g'.levels, g'.vars, g'.cur, ?_, ?_⟩⟩ .removeExt
    · intro l'
      show (decide (l' ≠ l) && a.ext l') = ((s.exts.erase l).get? l').isSome
      rw [AMap.get?_erase, g'.ext]
      by_cases e : l = l'
      · simp [e]
      · simp [e, Ne.symm e]
    · intro v l'
      show (if l' = l then none else a.slack v l') = _
      rw [show val (removeExt s l).2 v l' = if l = l' then none else val s v l' from val_erase v l', g'.slack]
      by_cases e : l = l'
      · simp [e]
      · simp [e, Ne.symm e]

/-- The abstract calls have one result. -/
theorem step_unique {a : Abs} {op : Op} {q q' : Out Unit × Abs} (h : a.Step op q) (h' : a.Step op q') : q = q' := by
  cases h with
  | attach hb =>
    cases h' with
    | attach hb' =>
      have h1 := ((find_is_best _).2 _).2 hb
      have h2 := ((find_is_best _).2 _).2 hb'
      rw [h1] at h2; cases h2; rfl
    | attachNone => obtain ⟨pre, suf, e, _⟩ := hb; simp at e
  | attachNone =>
    cases h' with
    | attach hb' => obtain ⟨pre, suf, e, _⟩ := hb'; simp at e
    | attachNone => rfl
  | _ => cases h'; rfl

theorem shows_init (levels : List String) : Shows (init levels) (Abs.init levels) := by
  rw [shows_iff (inv_init levels)]
  refine ⟨rfl, ?_, ?_, fun _ => rfl, ?_⟩
  · intro v
    show v ∈ [initialId] ↔ (AMap.get? [(initialId, 0)] v).isSome
    rw [AMap.get?_cons]
    by_cases e : initialId = v
    · simp [e]
    · simp [e, Ne.symm e]
  · intro v
    show some initialId = some v ↔ ∃ i, some 0 = some i ∧ AMap.get? [(initialId, 0)] v = some i
    rw [AMap.get?_cons]
    by_cases e : initialId = v
    · simp [e]
    · simp [e]
  · intro v l
    show none = val (init levels) v l
    unfold val
    show none = match AMap.get? [(initialId, 0)] v, AMap.get? ([] : AMap String Vec) l with | some i, some a => _ | _, _ => none
    rw [AMap.get?_nil]
    cases AMap.get? [(initialId, 0)] v <;> rfl

theorem run_shows (ops : List Op) : ∀ {s : Net} {a : Abs}, Inv s → Shows s a → CleanHistory s ops →
    ∃ b, a.Run ops (answers s ops) b ∧ Inv (run s ops) ∧ Shows (run s ops) b := by
  induction ops with
  | nil => intro s a h g _; exact ⟨a, .nil, h, g⟩
  | cons op ops ih =>
    intro s a h g hc
    obtain ⟨b, h1, h2, h3⟩ := step_shows h g hc.1
    obtain ⟨c, k1, k2, k3⟩ := ih h2 h3 hc.2
    exact ⟨c, .cons h1 k1, k2, k3⟩

/-- C81: after any sequence of calls each voltage level has in each variant the slack terminal that the calls gave it, and every call
    answers what it should: `attach` gives the voltage level of the bus its best connected terminal in the working variant only, `reset`
    takes the terminals of the working variant away, an extension that no variant uses is dropped by both, a clone copies the terminals
    of its source.  What is missing: the removals of the last variant of which `remove_last_reads` and `lost_by_removal` speak. -/
theorem slack_after_calls_partial (levels : List String) (ops : List Op) (hc : CleanHistory (init levels) ops) :
    ∃ b, (Abs.init levels).Run ops (answers (init levels) ops) b ∧ Shows (run (init levels) ops) b := by
  obtain ⟨b, h1, _, h2⟩ := run_shows ops (inv_init levels) (shows_init levels) hc
  exact ⟨b, h1, h2⟩

/-- No sequence without removal of a variant needs the condition. -/
theorem clean_without_removal (ops : List Op) (h : ∀ id, .remove id ∉ ops) : ∀ s, CleanHistory s ops := by
  induction ops with
  | nil => intro s; trivial
  | cons op ops ih =>
    intro s
    refine ⟨?_, ih (fun id hid => h id (List.mem_cons_of_mem _ hid)) _⟩
    cases op with
    | remove id => exact absurd List.mem_cons_self (h id)
    | _ => trivial

/-! Samples: two voltage levels, a generator and a busbar section in the first one, a line in the second one. -/

def gen : Tm := ⟨1, .injection, "A"⟩
def bar : Tm := ⟨2, .busbarSection, "A"⟩
def line : Tm := ⟨3, .branch, "B"⟩

def sampleOps : List Op :=
  [.attach "A" [gen, bar], .clone initialId "v" false, .select "v", .reset "A" (some gen), .attach "B" [line], .clone "v" "w" false,
   .resetAll, .remove "v", .select "w"]

def sample : Net := run (init ["A", "B"]) sampleOps

instance (s : Net) (op : Op) : Decidable (Clean s op) := by
  unfold Clean; split <;> infer_instance

instance decCleanHistory : (s : Net) → (ops : List Op) → Decidable (CleanHistory s ops)
  | _, [] => isTrue trivial
  | s, op :: ops =>
    have := decCleanHistory (step s op).2 ops
    inferInstanceAs (Decidable (Clean s op ∧ CleanHistory (step s op).2 ops))

example : CleanHistory (init ["A", "B"]) sampleOps ∧ answers (init ["A", "B"]) sampleOps = List.replicate 9 (.ok ()) ∧
    getTerminal sample "A" = .ok (some gen) ∧ getTerminal sample "B" = .ok (some line) ∧
    getTerminal (select sample initialId).2 "A" = .ok (some bar) ∧ getTerminal (select sample initialId).2 "B" = .ok none := by decide +kernel

example : ∃ b, (Abs.init ["A", "B"]).Run sampleOps (answers (init ["A", "B"]) sampleOps) b ∧ Shows sample b :=
  slack_after_calls_partial _ _ (by decide +kernel)

/-- States reached by clean calls on a new network. -/
def Reached (s : Net) : Prop := ∃ levels ops, CleanHistory (init levels) ops ∧ s = run (init levels) ops

theorem Reached.inv {s : Net} (h : Reached s) : Inv s := by
  obtain ⟨levels, ops, hc, rfl⟩ := h
  obtain ⟨b, _, h2, _⟩ := run_shows ops (inv_init levels) (shows_init levels) hc
  exact h2

theorem Reached.abs {s : Net} (h : Reached s) : ∃ a, Shows s a := by
  obtain ⟨levels, ops, hc, rfl⟩ := h
  obtain ⟨b, _, h2⟩ := slack_after_calls_partial levels ops hc
  exact ⟨b, h2⟩

theorem sample_reached : Reached sample := ⟨_, _, by decide +kernel, rfl⟩

/-- The slack terminal of a voltage level is in the voltage level, in every variant; reading it is never undefined. -/
theorem slack_in_its_level_partial {s : Net} (h : Reached s) {v l : String} (hv : (s.bk.byId.get? v).isSome)
    (hl : (s.exts.get? l).isSome) : ∃ t, getTerminal (select s v).2 l = .ok t ∧ ∀ x, t = some x → x.level = l := by
  refine ⟨_, getTerminal_select h.inv hv hl, ?_⟩
  obtain ⟨i, hi⟩ := Option.isSome_iff_exists.1 hv
  obtain ⟨a, ha⟩ := Option.isSome_iff_exists.1 hl
  obtain ⟨w, hw, hf⟩ := (h.inv.vec l a ha).filled i (h.inv.w.lt _ _ hi)
  intro x hx
  unfold val at hx
  simp only [hi, ha, hw, Option.join] at hx
  have hx' : w = some x := hx
  subst hx'
  simpa [fits] using hf

example : ∃ t, getTerminal (select sample "w").2 "B" = .ok t ∧ ∀ x, t = some x → x.level = "B" :=
  slack_in_its_level_partial sample_reached (by decide +kernel) (by decide +kernel)

/-- No clean call is undefined. -/
theorem calls_defined_partial {s : Net} (h : Reached s) {op : Op} (hc : Clean s op) : (step s op).1 ≠ .ub := by
  obtain ⟨a, g⟩ := h.abs
  obtain ⟨b, h1, _, _⟩ := step_shows h.inv g hc
  intro e
  rw [e] at h1
  have key : ∀ (q : Out Unit × Abs), a.Step op q → q.1 ≠ .ub := by
    intro q hq
    have nr : ∀ l t, (a.reset l t).1 ≠ .ub := by
      intro l t; unfold Abs.reset
      split <;> repeat' split
      all_goals simp
    cases hq with
    | clone => unfold Abs.clone; split <;> simp
    | remove => unfold Abs.remove; split <;> simp
    | select => unfold Abs.select; split <;> simp
    | add => unfold Abs.add; split <;> repeat' split
             all_goals simp
    | setTerminal => unfold Abs.setTerminal; split <;> repeat' split
                     all_goals simp
    | reset => exact nr _ _
    | resetAll => unfold Abs.resetAll; split <;> repeat' split
                  all_goals simp
    | attach _ => exact nr _ _
    | attachNone => simp
    | removeExt => simp
  exact key _ h1 rfl

example : (step sample (.clone "w" "u" false)).1 ≠ .ub := calls_defined_partial sample_reached trivial

/-- `attach`: the voltage level of the bus has the best connected terminal in the working variant; the other voltage levels and the
    other variants keep theirs. -/
theorem attach_only_its_level {s : Net} (h : Reached s) {l : String} {ts : List Tm} {t : Tm} (hb : Best ts t) (hl : l ∈ s.levels)
    (ht : t.level = l) {cur : String} {i : Nat} (hi : s.cur = some i) (hcur : s.bk.byId.get? cur = some i) :
    (attach s l ts).1 = .ok () ∧ (attach s l ts).2.bk = s.bk ∧ (attach s l ts).2.cur = s.cur ∧
    getTerminal (attach s l ts).2 l = .ok (some t) ∧
    (∀ l', l' ≠ l → ((attach s l ts).2.exts.get? l').isSome = (s.exts.get? l').isSome) ∧
    ∀ v l', (s.bk.byId.get? v).isSome → (s.exts.get? l').isSome → v ≠ cur ∨ l' ≠ l →
      getTerminal (select (attach s l ts).2 v).2 l' = getTerminal (select s v).2 l' := by
  obtain ⟨a, g⟩ := h.abs
  have hinv := h.inv
  have g' := (shows_iff hinv a).1 g
  have hat : attach s l ts = reset s l (some t) := by unfold attach; rw [((find_is_best ts).2 t).2 hb]
  rw [hat]
  obtain ⟨k1, k2, k3⟩ := reset_shows hinv g' l (some t)
  have hac : a.cur = some cur := (g'.cur cur).2 ⟨i, hi, hcur⟩
  have hcv : cur ∈ a.vars := var_of g' hcur
  have hres : a.reset l (some t) = (.ok (), Abs.clean { a.put cur l (some t) with ext := fun l' => l' = l || a.ext l' } [l]) := by
    unfold Abs.reset
    rw [hac]
    simp only [reduceCtorEq, and_false, if_false]
    rw [if_pos ⟨by rw [← g'.levels]; exact hl, by simp [fits, ht]⟩]
  rw [hres] at k1 k3
  have hext : ∀ l', (Abs.clean { a.put cur l (some t) with ext := fun l' => l' = l || a.ext l' } [l]).ext l' = (decide (l' = l) || a.ext l') := by
    intro l'
    show ((decide (l' = l) || a.ext l') && (![l].contains l' || Abs.used _ l')) = _
    by_cases e : l' = l
    · subst e
      have : (Abs.used { a.put cur l' (some t) with ext := fun l => decide (l = l') || a.ext l } l') = true := by
        unfold Abs.used
        rw [List.any_eq_true]
        exact ⟨cur, hcv, by simp [Abs.put]⟩
      rw [this]; simp
    · simp [e]
  have hbk : (reset s l (some t)).2.bk = s.bk ∧ (reset s l (some t)).2.cur = s.cur := by
    exact reset_frame s l (some t)
  have hsome : ∀ l', ((reset s l (some t)).2.exts.get? l').isSome = (decide (l' = l) || (s.exts.get? l').isSome) := by
    intro l'
    rw [← k3.ext, hext, g'.ext]
  have hslack := fun v l' => (k3.slack v l').symm
  refine ⟨k1, hbk.1, hbk.2, ?_, ?_, ?_⟩
  · have h1 := getTerminal_select (v := cur) (l := l) k2 (by rw [hbk.1, hcur]; rfl) (by rw [hsome]; simp)
    have h2 : (select (reset s l (some t)).2 cur).2 = (reset s l (some t)).2 := by
      rw [select_ok (i := i) (by rw [hbk.1]; exact hcur)]
      show ({ (reset s l (some t)).2 with cur := some i } : Net) = _
      rw [← hi, ← hbk.2]
    rw [h2, hslack] at h1
    rw [h1]
    show Out.ok (if cur = cur ∧ l = l then some t else a.slack cur l) = _
    simp
  · intro l' hne; rw [hsome]; simp [hne]
  · intro v l' hv hl' hne
    rw [getTerminal_select k2 (by rw [hbk.1]; exact hv) (by rw [hsome, hl']; simp), getTerminal_select hinv hv hl', hslack]
    show Out.ok (if v = cur ∧ l' = l then some t else a.slack v l') = _
    rw [g'.slack]
    have : ¬ (v = cur ∧ l' = l) := by rintro ⟨q1, q2⟩; rcases hne with c | c <;> contradiction
    simp [this]

example : getTerminal (select (attach sample "A" [gen, bar]).2 initialId).2 "A" = getTerminal (select sample initialId).2 "A" :=
  (attach_only_its_level sample_reached (l := "A") (ts := [gen, bar]) (t := bar) (cur := "w") (i := 2)
    ⟨[gen], [], rfl, by simp [Best.rank, gen, bar], by simp⟩ (by decide +kernel) rfl (by decide +kernel) (by decide +kernel)).2.2.2.2.2
    initialId "A" (by decide +kernel) (by decide +kernel) (.inl (by decide))

/-- `reset(network)`: no voltage level has a slack terminal in the working variant, the other variants keep theirs, and a voltage level has
    the extension exactly when some other variant uses it. -/
theorem reset_clears_working_variant {s : Net} (h : Reached s) {cur : String} {i : Nat} (hi : s.cur = some i)
    (hcur : s.bk.byId.get? cur = some i) :
    (resetAll s).1 = .ok () ∧ (resetAll s).2.bk = s.bk ∧
    (∀ l, ((resetAll s).2.exts.get? l).isSome ↔ ∃ v t, v ≠ cur ∧ (s.bk.byId.get? v).isSome ∧ (s.exts.get? l).isSome ∧
      getTerminal (select s v).2 l = .ok (some t)) ∧
    ∀ v l, (s.bk.byId.get? v).isSome → ((resetAll s).2.exts.get? l).isSome →
      getTerminal (select (resetAll s).2 v).2 l = if v = cur then .ok none else getTerminal (select s v).2 l := by
  obtain ⟨a, g⟩ := h.abs
  have hinv := h.inv
  have g' := (shows_iff hinv a).1 g
  have hac : a.cur = some cur := (g'.cur cur).2 ⟨i, hi, hcur⟩
  obtain ⟨k1, k2, k3⟩ := resetLoop_shows s.levels hinv g' hac (fun l hl => by rw [← g'.levels]; exact hl)
  have hbk : ∀ ls (s : Net), (resetLoop ls s).2.bk = s.bk := by
    intro ls
    induction ls with
    | nil => intro s; rfl
    | cons l ls ih =>
      intro s
      have hr : (reset s l none).2.bk = s.bk := (reset_frame s l none).1
      unfold resetLoop
      generalize reset s l none = r at hr
      obtain ⟨r1, s'⟩ := r
      cases r1 with
      | ok u => simp only []; rw [ih]; exact hr
      | thrown => exact hr
      | ub => exact hr
  have hb : (resetAll s).2.bk = s.bk := hbk _ _
  have hexti : ∀ l, ((resetAll s).2.exts.get? l).isSome = (a.wipe cur s.levels).ext l := fun l => (k3.ext l).symm
  have hlev : ∀ l, (s.exts.get? l).isSome → l ∈ s.levels := by
    intro l hl
    obtain ⟨x, hx⟩ := Option.isSome_iff_exists.1 hl
    exact hinv.lev l x hx
  refine ⟨k1, hb, ?_, ?_⟩
  · intro l
    rw [hexti, wipe_ext, g'.ext]
    constructor
    · intro q
      simp only [Bool.and_eq_true] at q
      obtain ⟨q1, q2⟩ := q
      simp only [hlev l q1, decide_true, Bool.not_true, Bool.false_or, List.any_eq_true, Bool.and_eq_true, Bool.not_eq_true',
        decide_eq_false_iff_not] at q2
      obtain ⟨v, hv, hne, hs⟩ := q2
      obtain ⟨t, ht⟩ := Option.isSome_iff_exists.1 hs
      refine ⟨v, t, hne, (g'.vars v).1 hv, q1, ?_⟩
      rw [getTerminal_select hinv ((g'.vars v).1 hv) q1, ← g'.slack, ht]
    · rintro ⟨v, t, hne, hv, hl, ht⟩
      rw [getTerminal_select hinv hv hl] at ht
      simp only [hl, Bool.true_and, hlev l hl, decide_true, Bool.not_true, Bool.false_or, List.any_eq_true, Bool.and_eq_true,
        Bool.not_eq_true', decide_eq_false_iff_not]
      exact ⟨v, (g'.vars v).2 hv, hne, by rw [g'.slack, Out.ok.inj ht]; rfl⟩
  · intro v l hv hl
    have hl0 : (s.exts.get? l).isSome := by
      have := hl
      rw [hexti, wipe_ext, g'.ext] at this
      simp only [Bool.and_eq_true] at this
      exact this.1
    have e1 := getTerminal_select (v := v) (l := l) k2 (by rw [hbk]; exact hv) hl
    have e2 : getTerminal (select (resetAll s).2 v).2 l = .ok ((a.wipe cur s.levels).slack v l) := by
      rw [k3.slack]; exact e1
    rw [e2, getTerminal_select hinv hv hl0, ← g'.slack]
    show Out.ok (if v = cur ∧ l ∈ s.levels then none else a.slack v l) = _
    by_cases e : v = cur <;> simp [e, hlev l hl0]

example : (resetAll sample).1 = .ok () ∧ ((resetAll sample).2.exts.get? "A").isSome ∧ ¬ ((resetAll sample).2.exts.get? "B").isSome := by decide +kernel

example : (resetAll sample).1 = .ok () :=
  (reset_clears_working_variant sample_reached (cur := "w") (i := 2) (by decide +kernel) (by decide +kernel)).1

/-! ### Where the code does not keep the slack terminals -/

/-- The removal of the variant with the last index keeps exactly `n` elements of each vector, where `n` is the number of indices that are
    freed: a remaining variant whose index is below `n` reads what it read, every other one reads out of bounds. -/
theorem remove_last_reads {s : Net} (h : Reached s) {id v l : String} {index j : Nat} (hid : id ≠ initialId)
    (hi : s.bk.byId.get? id = some index) (hlast : index = s.bk.size - 1) (hv : v ≠ id) (hj : s.bk.byId.get? v = some j)
    (hl : (s.exts.get? l).isSome) :
    (remove s id).1 = .ok () ∧
    getTerminal (select (remove s id).2 v).2 l =
      if j < s.bk.size - (remove s id).2.bk.size then getTerminal (select s v).2 l else .ub := by
  have hinv := h.inv
  obtain ⟨k1, _, _, k4, k5⟩ := remove_last_bk hinv.w hid hi hlast
  obtain ⟨x, hx⟩ := Option.isSome_iff_exists.1 hl
  have hw := hinv.vec l x hx
  have hjlt := hinv.w.lt _ _ hj
  have hrem := remove_last hid hi hlast (s := s)
  generalize hn : 1 + (trim index s.bk.unused).1 = n at *
  rw [hrem]
  refine ⟨rfl, ?_⟩
  have hsz : s.bk.size - (s.bk.size - n) = n := by omega
  show getTerminal (select _ v).2 l = if j < s.bk.size - (s.bk.size - n) then _ else _
  rw [hsz]
  have hj' : (s.bk.byId.erase id).get? v = some j := by rw [AMap.get?_erase]; simp [Ne.symm hv, hj]
  rw [select_ok (i := j) hj', select_ok (i := j) hj]
  unfold getTerminal
  simp only [get?_mapVal, hx, Option.map_some]
  obtain ⟨y, hy, _⟩ := hw.filled j hjlt
  have hc : (cut n x)[j]? = if j < n then x[j]? else none := by
    unfold cut
    rw [List.getElem?_append, List.length_take, hw.len]
    by_cases q : j < n
    · have : j < min n s.bk.size := by omega
      rw [if_pos this, List.getElem?_take, if_pos q]
    · have : ¬ j < min n s.bk.size := by omega
      rw [if_neg this, if_neg q, List.getElem?_replicate]
      rw [if_neg (by omega)]
  unfold Arr.read
  rw [hc]
  by_cases q : j < n
  · simp only [q, if_true]
  · simp only [q, if_false]; rfl

/-- Three variants, the last one removed: the second one cannot be read any more. -/
theorem unreadable_after_removal :
    let s := run (init ["A"]) [.add "A" (some gen), .clone initialId "v" false, .clone initialId "w" false]
    getTerminal (select s "v").2 "A" = .ok (some gen) ∧ (remove s "w").1 = .ok () ∧
    getTerminal (select (remove s "w").2 "v").2 "A" = .ub := by decide +kernel

example :
    let s := run (init ["A"]) [.add "A" (some gen), .clone initialId "v" false, .clone initialId "w" false]
    getTerminal (select (remove s "w").2 initialId).2 "A" = .ok (some gen) := by
  intro s
  have := (remove_last_reads (s := s) ⟨["A"], _, clean_without_removal _ (by simp) _, rfl⟩ (id := "w") (v := initialId) (l := "A") (index := 2) (j := 0)
    (by decide) (by decide +kernel) (by decide +kernel) (by decide) (by decide +kernel) (by decide +kernel)).2
  rw [this]; decide +kernel

/-- Both clones removed, a new clone of the initial variant: it has no slack terminal although its source has one. -/
theorem lost_by_removal :
    let s := run (init ["A"]) [.add "A" (some gen), .clone initialId "v" false, .clone initialId "w" false, .remove "v", .remove "w",
      .clone initialId "u" false]
    getTerminal (select s initialId).2 "A" = .ok (some gen) ∧ getTerminal (select s "u").2 "A" = .ok none := by decide +kernel

/-- An extension that no variant uses may stay: after the removal of the only variant that had a slack terminal. -/
theorem empty_extension_stays :
    let s := run (init ["A"]) [.clone initialId "v" false, .select "v", .add "A" (some gen), .remove "v"]
    (s.exts.get? "A").isSome ∧ s.bk.byId = [(initialId, 0)] ∧ getTerminal (select s initialId).2 "A" = .ok none := by decide +kernel

/-- A new extension forgets the slack terminals of the other variants. -/
theorem add_forgets_other_variants :
    let s := run (init ["A"]) [.add "A" (some gen), .clone initialId "v" false, .select "v", .add "A" (some bar)]
    getTerminal (select s initialId).2 "A" = .ok none ∧ getTerminal s "A" = .ok (some bar) := by decide +kernel

/-- `setTerminal(terminal, true)` may return a reference to the extension it has destroyed: exactly when no terminal is given and no
    other variant has one. -/
theorem returned_reference_dangles_iff {s : Net} (h : Reached s) {l cur : String} {t : Slot} {clean : Bool} {i : Nat}
    (hl : (s.exts.get? l).isSome) (hi : s.cur = some i) (hcur : s.bk.byId.get? cur = some i) (hf : fits l t = true) :
    setThenGet s l t clean = .ub ↔
      clean = true ∧ t = none ∧ ∀ v, v ≠ cur → (s.bk.byId.get? v).isSome → getTerminal (select s v).2 l = .ok none := by
  have hinv := h.inv
  obtain ⟨a, g⟩ := h.abs
  have g' := (shows_iff hinv a).1 g
  obtain ⟨x, hx⟩ := Option.isSome_iff_exists.1 hl
  have hw := hinv.vec l x hx
  have hilt := hinv.w.lt _ _ hcur
  obtain ⟨p1, p2⟩ := put_shows hinv g' hx hcur hf
  have hy : (s.exts.set l (x.set i (some t))).get? l = some (x.set i (some t)) := by rw [AMap.get?_set]; simp
  have hemp : isEmpty (x.set i (some t)) = true ↔
      t = none ∧ ∀ v, v ≠ cur → (s.bk.byId.get? v).isSome → getTerminal (select s v).2 l = .ok none := by
    rw [isEmpty_iff p1 (p1.vec l _ hy)]
    constructor
    · intro q
      refine ⟨?_, ?_⟩
      · have := q cur i hcur
        rw [List.getElem?_set] at this
        simpa [hw.len, hilt, Option.join] using this
      · intro v hv hvs
        obtain ⟨k, hk⟩ := Option.isSome_iff_exists.1 hvs
        have := q v k hk
        have hne : i ≠ k := by rintro rfl; exact hv (hinv.w.inj _ _ _ hk hcur)
        rw [List.getElem?_set, if_neg hne] at this
        rw [getTerminal_select hinv hvs hl]
        unfold val
        simp only [hk, hx, this]
    · rintro ⟨rfl, q⟩ v k hk
      by_cases e : v = cur
      · subst e
        have hk' : s.bk.byId.get? v = some k := hk
        rw [hcur] at hk'; cases hk'
        rw [List.getElem?_set]; simp [hw.len, hilt, Option.join]
      · have hk' : s.bk.byId.get? v = some k := hk
        have hne : i ≠ k := by rintro rfl; exact e (hinv.w.inj _ _ _ hk' hcur)
        have := q v e (by rw [hk']; rfl)
        rw [getTerminal_select hinv (by rw [hk']; rfl) hl] at this
        have := Out.ok.inj this
        unfold val at this
        simp only [hk', hx] at this
        rw [List.getElem?_set, if_neg hne]; exact this
  rw [← hemp]
  have hread : getTerminal { s with exts := s.exts.set l (x.set i (some t)) } l ≠ .ub := by
    unfold getTerminal
    simp only [hy, hi, Arr.read, List.getElem?_set]
    simp [hw.len, hilt]
  unfold setThenGet setTerminal
  simp only [hx, assign_ok hf hi (by rw [hw.len]; exact hilt)]
  cases clean with
  | false =>
    simp only [Bool.false_and, Bool.false_eq_true, if_false, false_and, iff_false]
    rw [hy]; simpa using hread
  | true =>
    cases he : isEmpty (x.set i (some t)) with
    | true =>
      simp only [Bool.and_self, if_true, and_self, iff_true]
      rw [AMap.get?_erase]; simp
    | false =>
      simp only [Bool.true_and, Bool.false_eq_true, if_false, and_false, iff_false]
      rw [hy]; simpa using hread

example :
    let s := run (init ["A"]) [.add "A" (some gen)]
    setThenGet s "A" none true = .ub ∧ setThenGet s "A" (some bar) true = .ok (some bar) := by decide +kernel

end Verif.Slack
