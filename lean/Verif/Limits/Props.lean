import Verif.Limits.Model
import Verif.UniqueId.Props

/-! Properties C38 (temporary limits kept and ordered) and C39 (overload detection). -/

namespace Verif.Limits

open Verif

/-! ### C38 -/

/-- Decreasing order of duration. -/
def Desc (ts : TLs) : Prop := ts.Pairwise (fun t u => u.duration < t.duration)

theorem mem_emplace {t x : TL} : ∀ {ts : TLs}, x ∈ emplace t ts → x = t ∨ x ∈ ts := by
  intro ts
  induction ts with
  | nil => intro h; exact .inl (List.mem_singleton.1 h)
  | cons u us ih =>
    simp only [emplace]
    split
    · intro h
      rcases List.mem_cons.1 h with rfl | h
      · exact .inr List.mem_cons_self
      · rcases ih h with h | h
        · exact .inl h
        · exact .inr (List.mem_cons_of_mem _ h)
    · split
      · intro h
        rcases List.mem_cons.1 h with rfl | h
        · exact .inl rfl
        · exact .inr h
      · exact .inr

theorem mem_emplace_old {t x : TL} : ∀ {ts : TLs}, x ∈ ts → x ∈ emplace t ts := by
  intro ts
  induction ts with
  | nil => intro h; cases h
  | cons u us ih =>
    intro h
    simp only [emplace]
    split
    · rcases List.mem_cons.1 h with rfl | h
      · exact List.mem_cons_self
      · exact List.mem_cons_of_mem _ (ih h)
    · split
      · exact List.mem_cons_of_mem _ h
      · exact h

theorem mem_emplace_new {t : TL} : ∀ {ts : TLs}, (∀ u ∈ ts, u.duration ≠ t.duration) → t ∈ emplace t ts := by
  intro ts
  induction ts with
  | nil => intro _; exact List.mem_singleton.2 rfl
  | cons u us ih =>
    intro h
    simp only [emplace]
    split
    · exact List.mem_cons_of_mem _ (ih fun v hv => h v (List.mem_cons_of_mem _ hv))
    · split
      · exact List.mem_cons_self
      · exact absurd (by omega) (h u List.mem_cons_self)

theorem emplace_present {t : TL} : ∀ {ts : TLs}, Desc ts → (∃ u ∈ ts, u.duration = t.duration) → emplace t ts = ts := by
  intro ts
  induction ts with
  | nil => rintro _ ⟨u, h, _⟩; cases h
  | cons u us ih =>
    rintro hd ⟨v, hv, e⟩
    have hd := List.pairwise_cons.1 hd
    simp only [emplace]
    rcases List.mem_cons.1 hv with rfl | hv
    · rw [if_neg (by omega), if_neg (by omega)]
    · have := hd.1 v hv
      rw [if_pos (by omega), ih hd.2 ⟨v, hv, e⟩]

theorem desc_emplace {t : TL} : ∀ {ts : TLs}, Desc ts → Desc (emplace t ts) := by
  intro ts
  induction ts with
  | nil => intro _; exact List.pairwise_singleton _ _
  | cons u us ih =>
    intro hd
    have hd' := List.pairwise_cons.1 hd
    simp only [emplace]
    split
    · refine List.pairwise_cons.2 ⟨?_, ih hd'.2⟩
      intro v hv
      rcases mem_emplace hv with rfl | hv
      · assumption
      · exact hd'.1 v hv
    · split
      · refine List.pairwise_cons.2 ⟨?_, hd⟩
        intro v hv
        rcases List.mem_cons.1 hv with rfl | hv
        · assumption
        · have := hd'.1 v hv; omega
      · exact hd

/-- An `endTemporaryLimit` call that the adder accepts: value set and positive, duration set, name not empty. -/
def Args.Valid (a : Args) : Prop := Dbl.lt 0 a.value = true ∧ a.duration.isSome = true ∧ a.name ≠ ""

instance (a : Args) : Decidable a.Valid := inferInstanceAs (Decidable (_ ∧ _ ∧ _))

theorem end_invalid {a : Args} (h : ¬ a.Valid) (ts : TLs) : endTemporaryLimit a ts = (.thrown, ts) := by
  simp only [endTemporaryLimit]
  split
  · rfl
  · split
    · rfl
    · rename_i h1 h2
      split
      · rfl
      · rename_i d hd
        split
        · rfl
        · rename_i hn
          exfalso; apply h
          exact ⟨Dbl.lt_of_not_le (by simpa using h1) rfl (by simpa using h2), by simp [hd], hn⟩

/-- The name under which an accepted limit is stored. -/
def storedName (a : Args) (ts : TLs) : String :=
  if a.ensureNameUnicity then uniqueLoop ts a.name UniqueId.ulongMax 0 a.name else a.name

theorem end_valid {a : Args} (h : a.Valid) (ts : TLs) :
    ∃ d, a.duration = some d ∧ endTemporaryLimit a ts = (.ok (), emplace ⟨storedName a ts, a.value, d, a.fictitious⟩ ts) := by
  rcases h with ⟨h1, h2, h3⟩
  rcases Option.isSome_iff_exists.1 h2 with ⟨d, hd⟩
  refine ⟨d, hd, ?_⟩
  have n := (Dbl.not_nan_of_lt h1).2
  have l := Dbl.not_le_of_lt h1
  simp only [endTemporaryLimit, n, l, hd, h3, if_false, Bool.false_eq_true]
  rfl

/-- A call is accepted exactly when value, duration and name are set and the value is positive; a refused call changes nothing. -/
theorem end_accepts_iff (a : Args) (ts : TLs) :
    ((endTemporaryLimit a ts).1 = .ok () ↔ a.Valid) ∧ ((endTemporaryLimit a ts).1 ≠ .ok () → (endTemporaryLimit a ts).2 = ts) := by
  by_cases h : a.Valid
  · rcases end_valid h ts with ⟨d, _, e⟩
    rw [e]
    exact ⟨⟨fun _ => h, fun _ => rfl⟩, fun h' => absurd rfl h'⟩
  · rw [end_invalid h]
    exact ⟨⟨fun h' => (by cases h'), fun h' => absurd h' h⟩, fun _ => rfl⟩

theorem uniqueLoop_search (ts : TLs) (base : String) : ∀ (fuel i : Nat),
    uniqueLoop ts base fuel (i + 1) (UniqueId.candidate base i) = UniqueId.searchLoop (nameExists ts) base fuel i := by
  intro fuel
  induction fuel with
  | zero => intro i; rfl
  | succ n ih => intro i; simp only [uniqueLoop, UniqueId.searchLoop, ih]

/-- The name made unique is fresh, and the given one when that is free. -/
theorem unique_name_spec {ts : TLs} {base : String} (hb : base ≠ "") (hsize : ts.length < UniqueId.ulongMax) :
    let n := uniqueLoop ts base UniqueId.ulongMax 0 base
    (∀ t ∈ ts, t.name ≠ n) ∧ ((∀ t ∈ ts, t.name ≠ base) → n = base) := by
  have key : uniqueLoop ts base UniqueId.ulongMax 0 base = UniqueId.getUniqueId base (fun n => decide (n ∈ ts.map TL.name)) := by
    have hc : nameExists ts = fun n => decide (n ∈ ts.map TL.name) := by
      funext n
      simp only [nameExists]
      rw [Bool.eq_iff_iff]
      simp
    show (if nameExists ts base then uniqueLoop ts base (UniqueId.ulongMax - 1) (0 + 1) (UniqueId.candidate base 0) else base) = _
    rw [uniqueLoop_search, hc]
    simp only [UniqueId.getUniqueId, UniqueId.getUniqueIdMax, ne_eq, hb, not_false_iff, if_true, UniqueId.loopFuel]
  have hfresh := UniqueId.getUniqueId_fresh base (ts.map TL.name) (by simpa using hsize)
  intro n
  refine ⟨?_, ?_⟩
  · intro t ht e
    apply hfresh
    rw [← key]
    exact List.mem_map.2 ⟨t, ht, e⟩
  · intro h
    show uniqueLoop ts base UniqueId.ulongMax 0 base = base
    rw [key]
    have : base ∉ ts.map TL.name := by
      intro hm
      rcases List.mem_map.1 hm with ⟨t, ht, e⟩
      exact h t ht e
    simp [UniqueId.getUniqueId, UniqueId.getUniqueIdMax, hb, this]

theorem namesOk_iff : ∀ (ts : TLs) (seen : List String),
    namesOk seen ts = true ↔ (∀ t ∈ ts, t.name ∉ seen) ∧ ts.Pairwise (fun t u => t.name ≠ u.name) := by
  intro ts
  induction ts with
  | nil => intro seen; simp [namesOk]
  | cons t ts ih =>
    intro seen
    simp only [namesOk]
    split
    · rename_i h
      simp only [Bool.false_eq_true, false_iff]
      rintro ⟨h', _⟩
      exact h' t List.mem_cons_self h
    · rename_i h
      rw [ih]
      simp only [List.mem_cons, forall_eq_or_imp, List.pairwise_cons, not_or]
      constructor
      · rintro ⟨a, b⟩
        exact ⟨⟨h, fun u hu => (a u hu).2⟩, fun u hu => Ne.symm (a u hu).1, b⟩
      · rintro ⟨⟨_, a⟩, b, c⟩
        exact ⟨fun u hu => ⟨Ne.symm (b u hu), a u hu⟩, c⟩

/-- The limits object is created exactly when the permanent limit is not `<= 0` (it may be unset) and the names are distinct. -/
theorem add_accepts_iff (p : Dbl) (ts : TLs) :
    (∃ l, add p ts = .ok l) ↔ Dbl.le p 0 = false ∧ ts.Pairwise (fun t u => t.name ≠ u.name) := by
  have hn := namesOk_iff ts []
  simp only [List.not_mem_nil, not_false_iff, implies_true, true_and] at hn
  simp only [add]
  cases hp : Dbl.le p 0 with
  | true => simp
  | false =>
    simp only [Bool.false_eq_true, if_false, true_and]
    rw [← hn]
    cases namesOk [] ts <;> simp

theorem add_ok {p : Dbl} {ts : TLs} {l : LL} (h : add p ts = .ok l) : l = ⟨p, ts⟩ ∧ ts.Pairwise (fun t u => t.name ≠ u.name) := by
  have := (add_accepts_iff p ts).1 ⟨l, h⟩
  simp only [add] at h
  split at h
  · cases h
  · split at h
    · cases h; exact ⟨rfl, this.2⟩
    · cases h

theorem desc_runAdder : ∀ (as : List Args) (ts : TLs), Desc ts → Desc (runAdder ts as) := by
  intro as
  induction as with
  | nil => intro ts h; exact h
  | cons a as ih =>
    intro ts h
    refine ih _ ?_
    by_cases hv : a.Valid
    · rcases end_valid hv ts with ⟨d, _, e⟩
      rw [e]; exact desc_emplace h
    · rw [end_invalid hv]; exact h

theorem mem_runAdder_old : ∀ (as : List Args) (ts : TLs) (x : TL), x ∈ ts → x ∈ runAdder ts as := by
  intro as
  induction as with
  | nil => intro ts x h; exact h
  | cons a as ih =>
    intro ts x h
    refine ih _ x ?_
    by_cases hv : a.Valid
    · rcases end_valid hv ts with ⟨d, _, e⟩
      rw [e]; exact mem_emplace_old h
    · rw [end_invalid hv]; exact h

/-- What the property asks of a limit given to the adder: it is there with its duration, value and kind, and under its own name unless a
    unique one was asked for. -/
def Kept (a : Args) (ts : TLs) : Prop :=
  ∃ t ∈ ts, a.duration = some t.duration ∧ t.value = a.value ∧ t.fictitious = a.fictitious ∧ (a.ensureNameUnicity = false → t.name = a.name)

theorem kept_mono {a : Args} {ts us : TLs} (h : Kept a ts) (hsub : ∀ t ∈ ts, t ∈ us) : Kept a us := by
  rcases h with ⟨t, ht, h⟩
  exact ⟨t, hsub t ht, h⟩

theorem kept_runAdder : ∀ (as : List Args) (ts : TLs), Desc ts →
    (∀ a ∈ as, a.Valid → ∀ t ∈ ts, a.duration ≠ some t.duration) →
    as.Pairwise (fun a b => a.Valid → b.Valid → a.duration ≠ b.duration) →
    ∀ a ∈ as, a.Valid → Kept a (runAdder ts as) := by
  intro as
  induction as with
  | nil => intro ts _ _ _ a ha; cases ha
  | cons b bs ih =>
    intro ts hd hfree hp a ha hv
    have hp := List.pairwise_cons.1 hp
    by_cases hb : b.Valid
    · rcases end_valid hb ts with ⟨d, hd', e⟩
      have e' : runAdder ts (b :: bs) = runAdder (emplace ⟨storedName b ts, b.value, d, b.fictitious⟩ ts) bs := by
        show runAdder (endTemporaryLimit b ts).2 bs = _; rw [e]
      rw [e']
      rcases List.mem_cons.1 ha with rfl | ha
      · have : Kept a (emplace ⟨storedName a ts, a.value, d, a.fictitious⟩ ts) := by
          refine ⟨_, mem_emplace_new ?_, hd', rfl, rfl, ?_⟩
          · intro u hu h
            exact hfree a List.mem_cons_self hv u hu (by rw [hd', h])
          · intro hu; simp [storedName, hu]
        exact kept_mono this (fun t ht => mem_runAdder_old bs _ t ht)
      · refine ih _ (desc_emplace hd) ?_ hp.2 a ha hv
        intro c hc hcv t ht
        rcases mem_emplace ht with rfl | ht
        · have := hp.1 c hc hb hcv
          rw [hd'] at this
          exact fun h => this h.symm
        · exact hfree c (List.mem_cons_of_mem _ hc) hcv t ht
    · have e' : runAdder ts (b :: bs) = runAdder ts bs := by
        show runAdder (endTemporaryLimit b ts).2 bs = _; rw [end_invalid hb]
      rw [e']
      rcases List.mem_cons.1 ha with rfl | ha
      · exact absurd hv hb
      · exact ih ts hd (fun c hc => hfree c (List.mem_cons_of_mem _ hc)) hp.2 a ha hv

/-- **C38**, partial: the limits object contains every accepted temporary limit, in strictly decreasing order of duration, with distinct
    names, when the accepted limits have distinct durations.  False otherwise (`duplicate_duration_dropped`); calls that throw are allowed
    anywhere in the history. -/
theorem limits_kept_partial {as : List Args} {p : Dbl} {l : LL} (h : add p (runAdder [] as) = .ok l)
    (hd : as.Pairwise (fun a b => a.Valid → b.Valid → a.duration ≠ b.duration)) :
    ∀ a ∈ as, a.Valid → Kept a l.temps := by
  rw [(add_ok h).1]
  exact kept_runAdder as [] List.Pairwise.nil (by intro _ _ _ t ht; cases ht) hd

/-- **C38**: order and names hold for every sequence of calls. -/
theorem limits_ordered {as : List Args} {p : Dbl} {l : LL} (h : add p (runAdder [] as) = .ok l) :
    l.permanent = p ∧ l.temps.Pairwise (fun t u => u.duration < t.duration) ∧ l.temps.Pairwise (fun t u => t.name ≠ u.name) := by
  have := add_ok h
  rw [this.1]
  exact ⟨rfl, desc_runAdder as [] List.Pairwise.nil, this.2⟩

theorem origin_runAdder : ∀ (as : List Args) (ts : TLs) (t : TL), t ∈ runAdder ts as →
    t ∈ ts ∨ ∃ a ∈ as, a.Valid ∧ a.duration = some t.duration ∧ t.value = a.value ∧ t.fictitious = a.fictitious := by
  intro as
  induction as with
  | nil => intro ts t h; exact .inl h
  | cons b bs ih =>
    intro ts t h
    rcases ih _ t h with h' | ⟨a, ha, h'⟩
    · by_cases hb : b.Valid
      · rcases end_valid hb ts with ⟨d, hd, e⟩
        rw [e] at h'
        rcases mem_emplace h' with rfl | h'
        · exact .inr ⟨b, List.mem_cons_self, hb, hd, rfl, rfl⟩
        · exact .inl h'
      · rw [end_invalid hb] at h'; exact .inl h'
    · exact .inr ⟨a, List.mem_cons_of_mem _ ha, h'⟩

/-- **C38**: nothing else is in the limits object; in particular every temporary limit is positive. -/
theorem limits_origin {as : List Args} {p : Dbl} {l : LL} (h : add p (runAdder [] as) = .ok l) {t : TL} (ht : t ∈ l.temps) :
    (∃ a ∈ as, a.Valid ∧ a.duration = some t.duration ∧ t.value = a.value ∧ t.fictitious = a.fictitious) ∧ Dbl.lt 0 t.value = true := by
  rw [(add_ok h).1] at ht
  rcases origin_runAdder as [] t ht with h' | ⟨a, ha, hv, h1, h2, h3⟩
  · cases h'
  · exact ⟨⟨a, ha, hv, h1, h2, h3⟩, by rw [h2]; exact hv.1⟩

/-- Every accepted duration is present, whatever the sequence. -/
theorem durations_kept : ∀ (as : List Args) (ts : TLs), Desc ts → ∀ a ∈ as, a.Valid → ∃ t ∈ runAdder ts as, a.duration = some t.duration := by
  intro as
  induction as with
  | nil => intro ts _ a ha; cases ha
  | cons b bs ih =>
    intro ts hd a ha hv
    rcases List.mem_cons.1 ha with rfl | ha
    · rcases end_valid hv ts with ⟨d, hd', e⟩
      have e' : runAdder ts (a :: bs) = runAdder (emplace ⟨storedName a ts, a.value, d, a.fictitious⟩ ts) bs := by
        show runAdder (endTemporaryLimit a ts).2 bs = _; rw [e]
      rw [e']
      by_cases hx : ∃ u ∈ ts, u.duration = d
      · rcases hx with ⟨u, hu, hud⟩
        exact ⟨u, mem_runAdder_old _ _ _ (mem_emplace_old hu), by rw [hd', hud]⟩
      · exact ⟨_, mem_runAdder_old _ _ _ (mem_emplace_new (fun u hu h' => hx ⟨u, hu, h'⟩)), hd'⟩
    · refine ih _ ?_ a ha hv
      by_cases hb : b.Valid
      · rcases end_valid hb ts with ⟨d, _, e⟩
        rw [e]; exact desc_emplace hd
      · rw [end_invalid hb]; exact hd

theorem find_duration {ts : TLs} (hd : Desc ts) {t : TL} (ht : t ∈ ts) : ts.find? (fun u => u.duration == t.duration) = some t := by
  induction ts with
  | nil => cases ht
  | cons u us ih =>
    have hd := List.pairwise_cons.1 hd
    simp only [List.find?_cons]
    rcases List.mem_cons.1 ht with rfl | ht
    · simp
    · have := hd.1 t ht
      have hne : (u.duration == t.duration) = false := by simp; omega
      rw [hne]; exact ih hd.2 ht

/-- **C38**, lookups: by duration one gets the limit with that duration, and nothing (an exception, NaN) exactly when there is none. -/
theorem lookup_by_duration {as : List Args} {p : Dbl} {l : LL} (h : add p (runAdder [] as) = .ok l) :
    (∀ t ∈ l.temps, getTemporaryLimit l t.duration = .ok t ∧ getTemporaryLimitValue l t.duration = t.value) ∧
      ∀ d, (∀ t ∈ l.temps, t.duration ≠ d) → getTemporaryLimit l d = .thrown ∧ getTemporaryLimitValue l d = .nan := by
  have hd := (limits_ordered h).2.1
  refine ⟨fun t ht => ?_, fun d hn => ?_⟩
  · simp [getTemporaryLimit, getTemporaryLimitValue, find_duration hd ht]
  · have : l.temps.find? (fun u => u.duration == d) = none := by
      rw [List.find?_eq_none]; intro t ht; simpa using hn t ht
    simp [getTemporaryLimit, getTemporaryLimitValue, this]

/-- A history with a refused call, a unique name asked for, and limits given out of order. -/
def exampleArgs : List Args :=
  [⟨"a", 100, some 60, false, false⟩, ⟨"", 100, some 60, false, false⟩, ⟨"b", 120, some 600, true, false⟩, ⟨"a", 90, some 1200, false, true⟩]

example : add 80 (runAdder [] exampleArgs) = .ok ⟨80, [⟨"a#0", 90, 1200, false⟩, ⟨"b", 120, 600, true⟩, ⟨"a", 100, 60, false⟩]⟩ ∧
    exampleArgs.Pairwise (fun a b => a.Valid → b.Valid → a.duration ≠ b.duration) := by
  constructor
  · decide +kernel
  · decide +kernel

/-- The second limit given for a duration disappears without notice. -/
theorem duplicate_duration_dropped :
    ∃ l, add 80 (runAdder [] [⟨"a", 100, some 60, false, false⟩, ⟨"b", 120, some 60, false, false⟩]) = .ok l ∧
      l.temps = [⟨"a", 100, 60, false⟩] ∧
      (endTemporaryLimit ⟨"b", 120, some 60, false, false⟩ [⟨"a", 100, 60, false⟩]).1 = .ok () := ⟨_, rfl, rfl, rfl⟩

/-- The permanent limit of a limits object is never zero or negative. -/
theorem permanent_positive {as : List Args} {p : Dbl} {l : LL} (h : add p (runAdder [] as) = .ok l) (xs : List Dbl) :
    Dbl.le (xs.foldl (fun l x => (setPermanentLimit x l).2) l).permanent 0 = false := by
  have h0 : Dbl.le l.permanent 0 = false := by
    rw [(add_ok h).1]; exact ((add_accepts_iff _ _).1 ⟨l, h⟩).1
  clear h
  induction xs generalizing l with
  | nil => exact h0
  | cons x xs ih =>
    refine ih ?_
    simp only [setPermanentLimit]
    split
    · exact h0
    · rename_i hx; simpa using hx

/-! ### C39 -/

/-- The interval between the reported previous limit and the reported limit, times the reduction factor, contains the current. -/
def Contains (o : Overload) (r i : Dbl) : Prop := Dbl.le (Dbl.mul o.previous r) i = true ∧ Dbl.lt i (Dbl.mul o.limit.value r) = true

/-- Two neighbouring limits of the list, the permanent one coming first. -/
def Neighbours (l : LL) (o : Overload) : Prop :=
  (o.previous = l.permanent ∧ o.previousName = "" ∧ l.temps.head? = some o.limit) ∨
    ∃ pre t post, l.temps = pre ++ t :: o.limit :: post ∧ o.previous = t.value ∧ o.previousName = t.name

theorem scan_sound {r i : Dbl} : ∀ (ts : TLs) (n : String) (prev : Dbl) (o : Overload), scan r i n prev ts = some o →
    Contains o r i ∧ ((o.previous = prev ∧ o.previousName = n ∧ ts.head? = some o.limit) ∨
      ∃ pre t post, ts = pre ++ t :: o.limit :: post ∧ o.previous = t.value ∧ o.previousName = t.name) := by
  intro ts
  induction ts with
  | nil => intro n prev o h; cases h
  | cons t ts ih =>
    intro n prev o h
    simp only [scan] at h
    split at h
    · rename_i hc
      cases h
      rw [Bool.and_eq_true] at hc
      exact ⟨hc, .inl ⟨rfl, rfl, rfl⟩⟩
    · rcases ih _ _ _ h with ⟨hc, ⟨h1, h2, h3⟩ | ⟨pre, u, post, h1, h2, h3⟩⟩
      · refine ⟨hc, .inr ⟨[], t, ts.tail, ?_, h1, h2⟩⟩
        cases ts with
        | nil => cases h3
        | cons u us => cases h3; rfl
      · exact ⟨hc, .inr ⟨t :: pre, u, post, by rw [h1]; rfl, h2, h3⟩⟩

/-- **C39**: the reported interval is one between neighbouring limits and contains the current, for every set of limits, current and
    reduction factor. -/
theorem overload_sound {l : LL} {r i : Dbl} {o : Overload} (h : checkTemporaryLimits (some l) r i = some o) :
    Contains o r i ∧ Neighbours l o := by
  simp only [checkTemporaryLimits] at h
  split at h
  · cases h
  · exact scan_sound _ _ _ _ h

theorem scan_complete {i : Dbl} {r : Dbl} (hi : i.isNan = false) : ∀ (ts : TLs) (n : String) (prev : Dbl),
    (∀ t ∈ ts, (Dbl.mul t.value r).isNan = false) → Dbl.le (Dbl.mul prev r) i = true →
    (scan r i n prev ts = none ↔ ∀ t ∈ ts, Dbl.le (Dbl.mul t.value r) i = true) ∧
    ∀ o, scan r i n prev ts = some o → ∃ pre post, ts = pre ++ o.limit :: post ∧ ∀ t ∈ pre, Dbl.le (Dbl.mul t.value r) i = true := by
  intro ts
  induction ts with
  | nil => intro n prev _ _; exact ⟨⟨fun _ t ht => (by cases ht), fun _ => rfl⟩, fun o h => (by cases h)⟩
  | cons t ts ih =>
    intro n prev hn hp
    simp only [scan, hp, Bool.true_and]
    cases hl : Dbl.lt i (Dbl.mul t.value r) with
    | true =>
      simp only [if_true]
      refine ⟨⟨fun h => (by cases h), fun h => ?_⟩, fun o h => ?_⟩
      · have := h t List.mem_cons_self
        rw [Dbl.not_le_of_lt hl] at this; cases this
      · cases h; exact ⟨[], ts, rfl, by intro t ht; cases ht⟩
    | false =>
      have hle : Dbl.le (Dbl.mul t.value r) i = true := Dbl.le_of_not_lt hi (hn t List.mem_cons_self) hl
      simp only [Bool.false_eq_true, if_false]
      have := ih t.name t.value (fun u hu => hn u (List.mem_cons_of_mem _ hu)) hle
      refine ⟨?_, fun o h => ?_⟩
      · rw [this.1]
        simp [hle]
      · rcases this.2 o h with ⟨pre, post, e, h'⟩
        refine ⟨t :: pre, post, by rw [e]; rfl, ?_⟩
        intro u hu
        rcases List.mem_cons.1 hu with rfl | hu
        · exact hle
        · exact h' u hu

/-- **C39**, partial: for a current at or above the permanent limit (times a positive finite reduction factor), an overload is reported
    exactly when some temporary limit (times the factor) is above the current; it is then the first one, i.e. the one of longest acceptable
    duration.  Missing: currents at or above every temporary limit, for which nothing is reported (`beyond_last_limit_unreported`). -/
theorem overload_reported_partial {as : List Args} {p : Dbl} {l : LL} (h : add p (runAdder [] as) = .ok l) (hperm : l.permanent.isNan = false)
    {q : Rat} (hq : 0 < q) {i : Dbl} (hi : i.isNan = false) (hge : Dbl.le (Dbl.mul l.permanent (.fin q)) i = true) :
    ((∃ o, checkTemporaryLimits (some l) (.fin q) i = some o) ↔ ∃ t ∈ l.temps, Dbl.lt i (Dbl.mul t.value (.fin q)) = true) ∧
    ∀ o, checkTemporaryLimits (some l) (.fin q) i = some o →
      ∀ t ∈ l.temps, Dbl.lt i (Dbl.mul t.value (.fin q)) = true → t.duration ≤ o.limit.duration := by
  have hn : ∀ t ∈ l.temps, (Dbl.mul t.value (.fin q)).isNan = false :=
    fun t ht => Dbl.mul_not_nan hq (Dbl.not_nan_of_lt (limits_origin h ht).2).2
  have hs := scan_complete hi l.temps "" l.permanent hn hge
  have e : checkTemporaryLimits (some l) (.fin q) i = scan (.fin q) i "" l.permanent l.temps := by
    simp [checkTemporaryLimits, hperm, hi]
  rw [e]
  refine ⟨?_, ?_⟩
  · constructor
    · rintro ⟨o, ho⟩
      rcases hs.2 o ho with ⟨pre, post, e', _⟩
      exact ⟨o.limit, by rw [e']; simp, ((scan_sound _ _ _ _ ho).1).2⟩
    · rintro ⟨t, ht, hlt⟩
      cases hx : scan (.fin q) i "" l.permanent l.temps with
      | some o => exact ⟨o, rfl⟩
      | none =>
        have := hs.1.1 hx t ht
        rw [Dbl.not_le_of_lt hlt] at this; cases this
  · intro o ho t ht hlt
    rcases hs.2 o ho with ⟨pre, post, e', hpre⟩
    have hd := (limits_ordered h).2.1
    rw [e'] at ht hd
    rcases List.mem_append.1 ht with ht | ht
    · have := hpre t ht
      rw [Dbl.not_le_of_lt hlt] at this; cases this
    · rcases List.mem_cons.1 ht with rfl | ht
      · exact Nat.le_refl _
      · have := (List.pairwise_cons.1 (List.pairwise_append.1 hd).2.1).1 t ht
        omega

example : ∃ l, add 80 (runAdder [] exampleArgs) = .ok l ∧ Dbl.le (Dbl.mul l.permanent (.fin 1)) 95 = true ∧
    checkTemporaryLimits (some l) (.fin 1) 95 = some ⟨⟨"b", 120, 600, true⟩, "a#0", 90⟩ := by
  refine ⟨⟨80, [⟨"a#0", 90, 1200, false⟩, ⟨"b", 120, 600, true⟩, ⟨"a", 100, 60, false⟩]⟩, ?_, ?_, ?_⟩
  · decide +kernel
  · decide +kernel
  · decide +kernel

/-- A current above the permanent limit and every temporary limit is not reported. -/
theorem beyond_last_limit_unreported :
    ∃ l, add 80 (runAdder [] [⟨"a", 100, some 60, false, false⟩]) = .ok l ∧
      checkPermanentLimit (some l) 1 150 = true ∧ checkTemporaryLimits (some l) 1 150 = none ∧
      getOverloadDuration ⟨some l, 150⟩ ⟨none, 0⟩ = UniqueId.ulongMax := by
  refine ⟨_, rfl, ?_, ?_, ?_⟩ <;> decide +kernel

/-- With a temporary limit below the permanent one (only logged by the adder), an overload is reported below the permanent limit. -/
theorem overload_below_permanent :
    ∃ l, add 100 (runAdder [] [⟨"a", 50, some 600, false, false⟩, ⟨"b", 200, some 60, false, false⟩]) = .ok l ∧
      checkPermanentLimit (some l) 1 70 = false ∧ (checkTemporaryLimits (some l) 1 70).isSome = true := by
  refine ⟨_, rfl, ?_, ?_⟩ <;> decide +kernel

/-- When no temporary limit is below the permanent one, an overload is reported only above the permanent limit. -/
theorem overload_implies_permanent {l : LL} {q : Rat} (hq : 0 < q) {i : Dbl} {o : Overload}
    (hasc : ∀ t ∈ l.temps, Dbl.le l.permanent t.value = true) (h : checkTemporaryLimits (some l) (.fin q) i = some o) :
    checkPermanentLimit (some l) (.fin q) i = true := by
  have hs := overload_sound h
  have hmono : ∀ v, Dbl.le l.permanent v = true → Dbl.le (Dbl.mul v (.fin q)) i = true → Dbl.le (Dbl.mul l.permanent (.fin q)) i = true := by
    intro v h1 h2
    exact Dbl.le_trans (Dbl.mul_le_mul hq h1) h2
  simp only [checkTemporaryLimits] at h
  split at h
  · cases h
  · rename_i hn
    simp only [Bool.or_eq_true, not_or, Bool.not_eq_true] at hn
    simp only [checkPermanentLimit, hn.1, hn.2, Bool.not_false, Bool.true_and]
    rcases hs.2 with ⟨h1, _, _⟩ | ⟨pre, t, post, e, h1, _⟩
    · rw [← h1]; exact hs.1.1
    · exact hmono t.value (hasc t (by rw [e]; simp)) (by rw [← h1]; exact hs.1.1)

example : ∀ t ∈ [(⟨"a#0", 90, 1200, false⟩ : TL), ⟨"b", 120, 600, true⟩], Dbl.le 80 t.value = true := by decide

/-- One side is at or above its permanent limit, times the reduction factor. -/
def Exceeds (s : Side) (r : Dbl) : Prop := ∃ l, s.limits = some l ∧ l.permanent.isNan = false ∧ Dbl.le (Dbl.mul l.permanent r) s.i = true

theorem checkPermanent_iff (s : Side) (r : Dbl) : checkPermanentLimit s.limits r s.i = true ↔ Exceeds s r := by
  cases hl : s.limits with
  | none =>
    simp only [checkPermanentLimit, Bool.false_eq_true, false_iff]
    rintro ⟨l, h, _⟩; rw [hl] at h; cases h
  | some l =>
    simp only [checkPermanentLimit, Bool.and_eq_true, Bool.not_eq_true']
    constructor
    · rintro ⟨⟨a, _⟩, b⟩
      exact ⟨l, hl, a, b⟩
    · rintro ⟨l', h, a, b⟩
      rw [hl] at h; cases h
      exact ⟨⟨a, (Dbl.not_nan_of_le b).2⟩, b⟩

/-- **C39**: a branch is declared overloaded exactly when one side is at or above its permanent limit. -/
theorem overloaded_iff (s1 s2 : Side) (r : Dbl) : isOverloaded s1 s2 r = true ↔ Exceeds s1 r ∨ Exceeds s2 r := by
  simp only [isOverloaded, Bool.or_eq_true, checkPermanent_iff]

/-- The overload duration is the shortest duration among the overloads reported on the two sides, and the largest `unsigned long` when there
    is none. -/
theorem overloadDuration_spec (s1 s2 : Side) :
    (∀ s, s = s1 ∨ s = s2 → ∀ o, checkTemporaryLimits s.limits 1 s.i = some o → getOverloadDuration s1 s2 ≤ o.limit.duration) ∧
    (getOverloadDuration s1 s2 = UniqueId.ulongMax ∨
      ∃ s o, (s = s1 ∨ s = s2) ∧ checkTemporaryLimits s.limits 1 s.i = some o ∧ getOverloadDuration s1 s2 = o.limit.duration) ∧
    (checkTemporaryLimits s1.limits 1 s1.i = none → checkTemporaryLimits s2.limits 1 s2.i = none →
      getOverloadDuration s1 s2 = UniqueId.ulongMax) := by
  simp only [getOverloadDuration]
  cases h1 : checkTemporaryLimits s1.limits 1 s1.i with
  | none =>
    cases h2 : checkTemporaryLimits s2.limits 1 s2.i with
    | none =>
      refine ⟨?_, .inl (by simp), fun _ _ => (by simp)⟩
      rintro s (rfl | rfl) o ho
      · rw [h1] at ho; cases ho
      · rw [h2] at ho; cases ho
    | some o2 =>
      refine ⟨?_, ?_, fun _ h => (by cases h)⟩
      · rintro s (rfl | rfl) o ho
        · rw [h1] at ho; cases ho
        · rw [h2] at ho; cases ho; exact Nat.min_le_right _ _
      · simp only
        rcases Nat.le_total UniqueId.ulongMax o2.limit.duration with h | h
        · exact .inl (Nat.min_eq_left h)
        · exact .inr ⟨s2, o2, .inr rfl, h2, Nat.min_eq_right h⟩
  | some o1 =>
    cases h2 : checkTemporaryLimits s2.limits 1 s2.i with
    | none =>
      refine ⟨?_, ?_, fun h => (by cases h)⟩
      · rintro s (rfl | rfl) o ho
        · rw [h1] at ho; cases ho; exact Nat.min_le_left _ _
        · rw [h2] at ho; cases ho
      · simp only
        rcases Nat.le_total UniqueId.ulongMax o1.limit.duration with h | h
        · exact .inl (Nat.min_eq_right h)
        · exact .inr ⟨s1, o1, .inl rfl, h1, Nat.min_eq_left h⟩
    | some o2 =>
      refine ⟨?_, ?_, fun h => (by cases h)⟩
      · rintro s (rfl | rfl) o ho
        · rw [h1] at ho; cases ho; exact Nat.min_le_left _ _
        · rw [h2] at ho; cases ho; exact Nat.min_le_right _ _
      · simp only
        rcases Nat.le_total o1.limit.duration o2.limit.duration with h | h
        · exact .inr ⟨s1, o1, .inl rfl, h1, Nat.min_eq_left h⟩
        · exact .inr ⟨s2, o2, .inr rfl, h2, Nat.min_eq_right h⟩

end Verif.Limits
