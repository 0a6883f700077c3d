import Verif.Xml.Elements
import Verif.Xml.StreamLemmas
import Verif.Xml.VersionProps
import Verif.Limits.Props
import Verif.Curve.Props
import Verif.Enums.Props

/-!
C45: loading limits, reactive limits, shunt compensators, switches and internal connections are read back as they were written.
-/

namespace Verif.Xml

open Verif

/-- Spec of a round trip: the calls `cs`, made inside any element with or without indentation, succeed and write the nodes `ts` of one
element; the reader placed on the first of these nodes, whatever follows, returns `a` and stops on the last of them. -/
def RoundTrip {α : Type} (cs : List Cmd) (read : List Tok → Out (α × List Tok)) (a : α) : Prop :=
  ∀ i : Bool, ∃ ts : List Tok, ts ≠ [] ∧
    (∀ w : W, w.stack ≠ [] → wrun i w cs = .ok ⟨w.closed ++ (sp i ++ ts), w.stack, none⟩) ∧
    ∀ rest, read (ts ++ rest) = .ok (a, last1 ts ++ rest)

/-- The same for a reader that only looks at the attributes of the current element. -/
def AttrRoundTrip {α : Type} (cs : List Cmd) (read : List Tok → Out α) (a : α) : Prop :=
  ∀ i : Bool, ∃ ts : List Tok, ts ≠ [] ∧
    (∀ w : W, w.stack ≠ [] → wrun i w cs = .ok ⟨w.closed ++ (sp i ++ ts), w.stack, none⟩) ∧
    ∀ rest, read (ts ++ rest) = .ok a

theorem core_ne_nil (i : Bool) (n : String) (as : List (String × String)) (b : List Tok) : coreToks i n as b ≠ [] := by
  unfold coreToks; split <;> simp

theorem emits_run {i : Bool} {cs : List Cmd} {ts : List Tok} (h : Emits i cs ts) (hne : ts ≠ []) (w : W) (hw : w.stack ≠ []) :
    wrun i w cs = .ok ⟨w.closed ++ ts, w.stack, none⟩ := by
  rw [h.1 w hw, W.after, if_neg hne]

theorem core_start (i : Bool) (n : String) (as : List (String × String)) (b : List Tok) : ∃ e tl, coreToks i n as b = .start n as e :: tl := by
  unfold coreToks
  split
  · exact ⟨_, _, rfl⟩
  · exact ⟨_, _, rfl⟩

theorem roundTrip_intro {α : Type} {n : String} {as : List (String × String)} {body : List Cmd} {read : List Tok → Out (α × List Tok)} {a : α}
    (h : ∀ i, ∃ bt, Emits i body bt ∧ ∀ rest, read (coreToks i n as bt ++ rest) = .ok (a, last1 (coreToks i n as bt) ++ rest)) :
    RoundTrip (elemCmds n as body) read a := by
  intro i
  obtain ⟨bt, hb, hr⟩ := h i
  refine ⟨coreToks i n as bt, core_ne_nil _ _ _ _, ?_, hr⟩
  intro w hw
  refine emits_run (hb.elem n as) ?_ w hw
  unfold elemToks
  simp [core_ne_nil]

theorem attrRoundTrip_intro {α : Type} {n : String} {as : List (String × String)} {read : List Tok → Out α} {a : α}
    (h : ∀ e rest, read (.start n as e :: rest) = .ok a) : AttrRoundTrip (elemCmds n as []) read a := by
  intro i
  refine ⟨coreToks i n as [], core_ne_nil _ _ _ _, ?_, fun rest => h _ _⟩
  intro w hw
  refine emits_run ((emits_nil i).elem n as) ?_ w hw
  unfold elemToks
  simp [core_ne_nil]

/-! ### Attributes -/

theorem lookup_append (k : String) : ∀ a b : List (String × String), lookup k (a ++ b) = (lookup k a).or (lookup k b) := by
  intro a b
  induction a with
  | nil => simp [lookup]
  | cons p a ih =>
    obtain ⟨k', v⟩ := p
    rw [List.cons_append]
    show (if k' = k then some v else lookup k (a ++ b)) = (if k' = k then some v else lookup k a).or (lookup k b)
    split
    · simp
    · exact ih

theorem lookup_cons (k k' v : String) (a : List (String × String)) : lookup k ((k', v) :: a) = if k' = k then some v else lookup k a := rfl

theorem lookup_nil (k : String) : lookup k [] = none := rfl

theorem lookup_attrD (K : Codec) (k k' : String) (d : Dbl) : lookup k (attrD K k' d) = if k' = k then (if d.isNan then none else some (K.showD d)) else none := by
  unfold attrD
  split <;> simp [lookup]

theorem lookup_attrOptD (K : Codec) (k k' : String) (d x : Dbl) :
    lookup k (attrOptD K k' d x) = if k' = k then (if d.isNan || isEqual d x then none else some (K.showD d)) else none := by
  unfold attrOptD
  cases d.isNan <;> cases isEqual d x <;> simp [lookup]

theorem lookup_attrB (k k' : String) (b : Bool) : lookup k (attrB k' b) = if k' = k then some (if b then "true" else "false") else none := by
  simp [attrB, lookup]

theorem lookup_attrOptB (k k' : String) (b x : Bool) :
    lookup k (attrOptB k' b x) = if k' = k then (if b = x then none else some (if b then "true" else "false")) else none := by
  unfold attrOptB
  by_cases h : b = x
  · simp [h, lookup]
  · simp [h, lookup_attrB]

theorem lookup_attrN (K : Codec) (k k' : String) (n : Nat) : lookup k (attrN K k' n) = if k' = k then some (K.showN n) else none := by
  simp [attrN, lookup]

theorem lookup_attrOptN (K : Codec) (k k' : String) (n x : Nat) :
    lookup k (attrOptN K k' n x) = if k' = k then (if n = x then none else some (K.showN n)) else none := by
  unfold attrOptN
  by_cases h : n = x
  · simp [h, lookup]
  · simp [h, lookup_attrN]

theorem isTrue_show (b : Bool) : isTrue (if b then "true" else "false") = b := by cases b <;> decide

theorem isEqual_eq {a b : Dbl} (h : isEqual a b = true) : a = b := by
  unfold isEqual at h
  cases a <;> cases b <;> simp [Dbl.isNan, Dbl.lt] at h ⊢
  · exact Rat.le_antisymm (Rat.not_lt.1 h.2) (Rat.not_lt.1 h.1)

theorem isEqual_refl (a : Dbl) : isEqual a a = true := by
  unfold isEqual
  cases a <;> simp [Dbl.isNan, Dbl.lt]

theorem nan_of_isNan {d : Dbl} (h : d.isNan = true) : d = .nan := by
  cases d <;> simp [Dbl.isNan] at h ⊢

/-! ### Loading limits -/

/-- What every set of loading limits satisfies (see `built_limits_wf`). -/
structure LimitsWF (l : Limits.LL) : Prop where
  permanent : Dbl.le l.permanent 0 = false
  ordered : l.temps.Pairwise (fun t u => u.duration < t.duration)
  names : l.temps.Pairwise (fun t u => t.name ≠ u.name)
  temps : ∀ t ∈ l.temps, Dbl.lt 0 t.value = true ∧ t.name ≠ "" ∧ t.duration < 2 ^ 64

/-- The values are read back by `std::stod`. -/
def LimitsExact (K : Codec) (l : Limits.LL) : Prop := (l.permanent.isNan = false → K.Exact l.permanent) ∧ ∀ t ∈ l.temps, K.Exact t.value

theorem emplace_last {t : Limits.TL} : ∀ {ts : Limits.TLs}, (∀ u ∈ ts, t.duration < u.duration) → Limits.emplace t ts = ts ++ [t] := by
  intro ts
  induction ts with
  | nil => intro _; rfl
  | cons u us ih =>
    intro h
    unfold Limits.emplace
    rw [if_pos (h u (List.mem_cons_self ..)), ih (fun x hx => h x (List.mem_cons_of_mem _ hx))]
    rfl

theorem limitsCb_temp {K : Codec} (hN : K.Naturals) {t : Limits.TL} (hv : Dbl.lt 0 t.value = true) (hn : t.name ≠ "") (hd : t.duration < 2 ^ 64)
    (he : K.Exact t.value) {ts : Limits.TLs} (ho : ∀ u ∈ ts, t.duration < u.duration) (e : Bool) (rest : List Tok) :
    limitsCb K ts (.start "temporaryLimit" (tempAttrs K t) e :: rest) = .ok (ts ++ [t], .start "temporaryLimit" (tempAttrs K t) e :: rest) := by
  have hnan : t.value.isNan = false := (Dbl.not_nan_of_lt hv).2
  have h1 : getS "name" (.start "temporaryLimit" (tempAttrs K t) e :: rest) = .ok t.name := by
    simp [getS, rawAttr, tempAttrs, lookup]
  have h2 : optNOr K "acceptableDuration" ulongMax (.start "temporaryLimit" (tempAttrs K t) e :: rest) = .ok t.duration := by
    by_cases hx : t.duration = ulongMax
    · simp [optNOr, optN, rawAttr, tempAttrs, lookup_cons, lookup_append, lookup_attrOptN, lookup_attrOptD, lookup_attrOptB, hx, Out.map]
    · simp [optNOr, optN, rawAttr, tempAttrs, lookup_cons, lookup_append, lookup_attrOptN, lookup_attrOptD, lookup_attrOptB, hx, hN _ hd, Out.map]
  have h3 : optDOr K "value" dblMax (.start "temporaryLimit" (tempAttrs K t) e :: rest) = .ok t.value := by
    cases hx : isEqual t.value dblMax with
    | true =>
      simp [optDOr, rawAttr, tempAttrs, lookup_cons, lookup_append, lookup_attrOptN, lookup_attrOptD, lookup_attrOptB, hx]
      exact (isEqual_eq hx).symm
    | false =>
      simp [optDOr, rawAttr, tempAttrs, lookup_cons, lookup_append, lookup_attrOptN, lookup_attrOptD, lookup_attrOptB, hx, hnan]
      exact he
  have h4 : optBOr "fictitious" false (.start "temporaryLimit" (tempAttrs K t) e :: rest) = .ok t.fictitious := by
    cases hx : t.fictitious with
    | false => simp [optBOr, rawAttr, tempAttrs, lookup_cons, lookup_append, lookup_attrOptN, lookup_attrOptD, lookup_attrOptB, hx]
    | true => simp [optBOr, rawAttr, tempAttrs, lookup_cons, lookup_append, lookup_attrOptN, lookup_attrOptD, lookup_attrOptB, hx]; decide
  have hle : Dbl.le t.value 0 = false := Dbl.not_le_of_lt hv
  unfold limitsCb
  rw [h1, h2, h3, h4]
  simp [localName, Limits.endTemporaryLimit, hnan, hle, hn, emplace_last ho]

theorem temps_read {K : Codec} (hN : K.Naturals) (el : String) (i : Bool) : ∀ (ts pre : Limits.TLs),
    (pre ++ ts).Pairwise (fun t u => u.duration < t.duration) →
    (∀ t ∈ ts, Dbl.lt 0 t.value = true ∧ t.name ≠ "" ∧ t.duration < 2 ^ 64) → (∀ t ∈ ts, K.Exact t.value) →
    ∃ bt, Emits i (tempsCmds K ts) bt ∧ Reads (limitsCb K) el pre bt (pre ++ ts) ∧ (bt = [] → ts = []) := by
  intro ts
  induction ts with
  | nil => intro pre _ _ _; exact ⟨[], emits_nil i, by rw [List.append_nil]; exact reads_nil _ _ _, fun _ => rfl⟩
  | cons t ts ih =>
    intro pre ho hw he
    have ho' : (pre ++ [t] ++ ts).Pairwise (fun t u => u.duration < t.duration) := by simpa using ho
    obtain ⟨bt, h1, h2, _⟩ := ih (pre ++ [t]) ho' (fun u hu => hw u (List.mem_cons_of_mem _ hu)) (fun u hu => he u (List.mem_cons_of_mem _ hu))
    have hpre : ∀ u ∈ pre, t.duration < u.duration := by
      intro u hu
      exact (List.pairwise_append.1 ho).2.2 u hu t (List.mem_cons_self ..)
    obtain ⟨a, b, c⟩ := hw t (List.mem_cons_self ..)
    refine ⟨elemToks i "temporaryLimit" (tempAttrs K t) [] ++ bt, ((emits_nil i).elem _ _).append h1, ?_, ?_⟩
    · have hr : Reads (limitsCb K) el pre (elemToks i "temporaryLimit" (tempAttrs K t) []) (pre ++ [t]) := by
        refine (reads_sp _ _ _ i).append ?_
        exact reads_element (body := []) fun rest => limitsCb_temp hN a b c (he t (List.mem_cons_self ..)) hpre _ _
      have h2' : Reads (limitsCb K) el (pre ++ [t]) bt (pre ++ t :: ts) := by simpa using h2
      exact hr.append h2'
    · intro h
      simp [elemToks, coreToks] at h

theorem namesOk_of_pairwise {ts : Limits.TLs} (h : ts.Pairwise (fun t u => t.name ≠ u.name)) : Limits.namesOk [] ts = true := by
  rw [Limits.namesOk_iff]
  exact ⟨by intro t _; simp, h⟩

/-- **C45** Loading limits of every kind and side are read back as they were written, provided they are written at all. -/
theorem limits_round_trip_partial {K : Codec} (hN : K.Naturals) (el : String) {l : Limits.LL} (hw : LimitsWF l) (he : LimitsExact K l)
    (hsome : l.permanent.isNan = false ∨ l.temps ≠ []) : RoundTrip (writeLimits K el l) (readLimits K el) l := by
  have hcond : (!l.permanent.isNan || !l.temps.isEmpty) = true := by
    rcases hsome with h | h
    · simp [h]
    · simp [h]
  unfold writeLimits
  rw [if_pos hcond]
  apply roundTrip_intro
  intro i
  obtain ⟨bt, h1, h2, h3⟩ := temps_read hN el i l.temps [] (by simpa using hw.ordered) hw.temps he.2
  refine ⟨bt, h1, ?_⟩
  intro rest
  unfold readLimits
  have hp : optDOr K "permanentLimit" .nan (coreToks i el (attrD K "permanentLimit" l.permanent) bt ++ rest) = .ok l.permanent := by
    obtain ⟨e, tl, hc⟩ := core_start i el (attrD K "permanentLimit" l.permanent) bt
    rw [hc]
    cases hx : l.permanent.isNan with
    | true =>
      simp [optDOr, rawAttr, lookup_attrD, hx]
      exact (nan_of_isNan hx).symm
    | false => simp [optDOr, rawAttr, lookup_attrD, hx]; exact he.1 hx
  rw [hp, Out.bind_ok, readUntilEnd_core i (by simpa using h2) (fun hb => by simpa using h3 hb), Out.bind_ok]
  simp only [Limits.add, hw.permanent, namesOk_of_pairwise hw.names]
  rfl

theorem uniqueLoop_nonempty (ts : Limits.TLs) (base : String) : ∀ (fuel i : Nat) (cur : String), cur ≠ "" → Limits.uniqueLoop ts base fuel i cur ≠ "" := by
  intro fuel
  induction fuel with
  | zero => intro i cur h; exact h
  | succ n ih =>
    intro i cur h
    unfold Limits.uniqueLoop
    split
    · apply ih
      unfold UniqueId.candidate
      simp
    · exact h

theorem temp_names_nonempty : ∀ (as : List Limits.Args) (ts : Limits.TLs), (∀ t ∈ ts, t.name ≠ "") → ∀ t ∈ Limits.runAdder ts as, t.name ≠ "" := by
  intro as
  induction as with
  | nil => intro ts h; exact h
  | cons a as ih =>
    intro ts h
    unfold Limits.runAdder
    apply ih
    intro t ht
    unfold Limits.endTemporaryLimit at ht
    split at ht
    · exact h t ht
    · split at ht
      · exact h t ht
      · split at ht
        · exact h t ht
        · split at ht
          · exact h t ht
          · rename_i hne
            rcases Limits.mem_emplace ht with rfl | ht
            · show (if a.ensureNameUnicity = true then _ else a.name) ≠ ""
              split
              · exact uniqueLoop_nonempty _ _ _ _ _ hne
              · exact hne
            · exact h t ht

/-- Limits made by the adder, possibly with another permanent limit set later, satisfy `LimitsWF` (durations being `unsigned long`). -/
theorem built_limits_wf {as : List Limits.Args} {p : Dbl} {l : Limits.LL} (h : Limits.add p (Limits.runAdder [] as) = .ok l)
    (hd : ∀ a ∈ as, ∀ d, a.duration = some d → d < 2 ^ 64) (x : Dbl) :
    LimitsWF l ∧ LimitsWF (Limits.setPermanentLimit x l).2 := by
  have hl := Limits.add_ok h
  have hp : Dbl.le l.permanent 0 = false := by
    rw [hl.1]
    cases hx : Dbl.le p 0 with
    | false => rfl
    | true => simp [Limits.add, hx] at h
  have hw : LimitsWF l := by
    refine ⟨hp, ?_, ?_, ?_⟩
    · rw [hl.1]; exact Limits.desc_runAdder as [] List.Pairwise.nil
    · rw [hl.1]; exact hl.2
    · intro t ht
      obtain ⟨⟨a, ha, _, h1, _⟩, hv⟩ := Limits.limits_origin h ht
      refine ⟨hv, ?_, hd a ha _ h1⟩
      rw [hl.1] at ht
      exact temp_names_nonempty as [] (by intro t ht; cases ht) t ht
  refine ⟨hw, ?_⟩
  unfold Limits.setPermanentLimit
  split
  · exact hw
  · rename_i hx
    exact ⟨by simpa using hx, hw.ordered, hw.names, hw.temps⟩

/-! ### A codec, for the examples -/

/-- A number as that many marks. -/
def marks (c : Char) (n : Nat) : String := String.ofList (List.replicate n c)

/-- Counting the marks. -/
def count (c : Char) (s : String) : Nat := (s.toList.filter (· == c)).length

/-- A codec that reads back every number (real ones do not for subnormal doubles). -/
def toy : Codec where
  showD
    | .nan => "n"
    | .posInf => "p"
    | .negInf => "m"
    | .fin q => String.ofList ((if q.num < 0 then ['-'] else []) ++ List.replicate q.num.natAbs 'x' ++ List.replicate q.den 'y')
  readD s :=
    if s = "n" then .ok .nan
    else if s = "p" then .ok .posInf
    else if s = "m" then .ok .negInf
    else .ok (.fin (mkRat ((if count '-' s = 0 then 1 else -1) * (count 'x' s : Int)) (count 'y' s)))
  showN n := marks 'x' n
  readN s := .ok (count 'x' s)

theorem toy_naturals : toy.Naturals := by
  intro n _
  show Out.ok (count 'x' (marks 'x' n)) = .ok n
  simp [count, marks]

theorem toy_exact (d : Dbl) : toy.Exact d := by
  unfold Codec.Exact
  cases d with
  | nan => rfl
  | posInf => rfl
  | negInf => rfl
  | fin q =>
    have hden : q.den ≠ 0 := q.den_nz
    generalize hs : (String.ofList ((if q.num < 0 then ['-'] else []) ++ List.replicate q.num.natAbs 'x' ++ List.replicate q.den 'y')) = s
    have hl : s.toList = (if q.num < 0 then ['-'] else []) ++ List.replicate q.num.natAbs 'x' ++ List.replicate q.den 'y' := by rw [← hs]; simp
    have hy : 'y' ∈ s.toList := by
      rw [hl]
      simp [hden]
    have h1 : s ≠ "n" := by rintro rfl; revert hy; decide
    have h2 : s ≠ "p" := by rintro rfl; revert hy; decide
    have h3 : s ≠ "m" := by rintro rfl; revert hy; decide
    have hcx : count 'x' s = q.num.natAbs := by
      unfold count
      rw [hl]
      split <;> simp
    have hcy : count 'y' s = q.den := by
      unfold count
      rw [hl]
      split <;> simp
    have hcm : count '-' s = if q.num < 0 then 1 else 0 := by
      unfold count
      rw [hl]
      split <;> simp
    show toy.readD (String.ofList ((if q.num < 0 then ['-'] else []) ++ List.replicate q.num.natAbs 'x' ++ List.replicate q.den 'y')) = _
    rw [hs]
    simp only [toy, if_neg h1, if_neg h2, if_neg h3, hcx, hcy, hcm]
    congr 2
    have : ((if (if q.num < 0 then 1 else 0) = 0 then (1 : Int) else -1) * (q.num.natAbs : Int)) = q.num := by
      by_cases hneg : q.num < 0
      · simp [hneg]; omega
      · simp [hneg]; omega
    rw [this]
    exact Rat.mkRat_self q

/-- Current limits with a limit of unlimited duration, one of unlimited value. -/
def someLimits : Limits.LL := ⟨100, [⟨"20'", 120, 1200, false⟩, ⟨"10'", 140, 600, true⟩, ⟨"N/A", dblMax, 0, false⟩]⟩

example : RoundTrip (writeLimits toy "currentLimits1" someLimits) (readLimits toy "currentLimits1") someLimits :=
  limits_round_trip_partial toy_naturals _
    ⟨by decide, by simp [someLimits], by simp [someLimits], by
      intro t ht
      simp only [someLimits, List.mem_cons, List.not_mem_nil, or_false] at ht
      rcases ht with rfl | rfl | rfl
      · decide
      · decide
      · exact ⟨by
          have h : (0 : Rat) < (2 ^ 53 - 1) * 2 ^ 971 := by grind
          exact decide_eq_true h, by decide, by decide⟩⟩
    ⟨fun _ => toy_exact _, fun _ _ => toy_exact _⟩ (.inl (by decide))

/-- Limits without permanent nor temporary limit are accepted by the adder and not written: reading gives no limits at all. -/
theorem empty_limits_lost (K : Codec) (el : String) : Limits.add .nan [] = .ok ⟨.nan, []⟩ ∧ writeLimits K el ⟨.nan, []⟩ = [] := ⟨rfl, rfl⟩

/-! ### Reactive limits -/

theorem insertPt_last {x : Curve.Pt} : ∀ {pts : List Curve.Pt}, (∀ y ∈ pts, Dbl.lt y.p x.p = true) → Curve.insertPt x pts = pts ++ [x] := by
  intro pts
  induction pts with
  | nil => intro _; rfl
  | cons y ys ih =>
    intro h
    unfold Curve.insertPt
    rw [if_pos (h y (List.mem_cons_self ..)), ih (fun z hz => h z (List.mem_cons_of_mem _ hz))]
    rfl

theorem getD_attr {K : Codec} {k n : String} {as : List (String × String)} {e : Bool} {rest : List Tok} {d : Dbl} (h : lookup k as = some (K.showD d)) (he : K.Exact d) :
    getD K k (.start n as e :: rest) = .ok d := by
  simp [getD, getS, rawAttr, h]
  exact he

theorem getN_attr {K : Codec} (hN : K.Naturals) {k n : String} {as : List (String × String)} {e : Bool} {rest : List Tok} {d : Nat} (h : lookup k as = some (K.showN d)) (hd : d < 2 ^ 64) :
    getN K k (.start n as e :: rest) = .ok d := by
  simp [getN, rawAttr, h, hN d hd]

theorem getB_attr {k n : String} {as : List (String × String)} {e : Bool} {rest : List Tok} {b : Bool} (h : lookup k as = some (if b then "true" else "false")) :
    getB k (.start n as e :: rest) = .ok b := by
  simp [getB, rawAttr, h, isTrue_show]

theorem getS_attr {k n : String} {as : List (String × String)} {e : Bool} {rest : List Tok} {v : String} (h : lookup k as = some v) :
    getS k (.start n as e :: rest) = .ok v := by
  simp [getS, rawAttr, h]

theorem optDOr_attr {K : Codec} {k n : String} {as : List (String × String)} {e : Bool} {rest : List Tok} {d : Dbl}
    (h : lookup k as = if d.isNan then none else some (K.showD d)) (he : d.isNan = false → K.Exact d) :
    optDOr K k .nan (.start n as e :: rest) = .ok d := by
  cases hx : d.isNan with
  | true =>
    rw [hx] at h
    simp [optDOr, rawAttr, h]
    exact (nan_of_isNan hx).symm
  | false =>
    rw [hx] at h
    simp [optDOr, rawAttr, h]
    exact he hx

/-- The three values of a point are read back. -/
def PtExact (K : Codec) (x : Curve.Pt) : Prop := K.Exact x.p ∧ K.Exact x.minQ ∧ K.Exact x.maxQ

theorem pts_read {K : Codec} (el : String) (i : Bool) : ∀ (xs pre : List Curve.Pt), Curve.Sorted (pre ++ xs) →
    (∀ x ∈ xs, x.p.isNan = false ∧ x.minQ.isNan = false ∧ x.maxQ.isNan = false) → (∀ x ∈ xs, PtExact K x) →
    ∃ bt, Emits i (ptsCmds K xs) bt ∧ Reads (curveCb K) el pre bt (pre ++ xs) ∧ (bt = [] → xs = []) := by
  intro xs
  induction xs with
  | nil => intro pre _ _ _; exact ⟨[], emits_nil i, by rw [List.append_nil]; exact reads_nil _ _ _, fun _ => rfl⟩
  | cons x xs ih =>
    intro pre hs hn he
    have hs' : Curve.Sorted (pre ++ [x] ++ xs) := by simpa using hs
    obtain ⟨bt, h1, h2, _⟩ := ih (pre ++ [x]) hs' (fun u hu => hn u (List.mem_cons_of_mem _ hu)) (fun u hu => he u (List.mem_cons_of_mem _ hu))
    have hpre : ∀ y ∈ pre, Dbl.lt y.p x.p = true := by
      intro y hy
      exact (Curve.sorted_append hs).2 y hy x (List.mem_cons_self ..)
    obtain ⟨a, b, c⟩ := hn x (List.mem_cons_self ..)
    obtain ⟨ea, eb, ec⟩ := he x (List.mem_cons_self ..)
    have hadd : Curve.addPoint x pre = .ok (pre ++ [x]) := by
      have hf : Curve.found x.p pre = false := by
        rw [Curve.not_found]
        exact fun y hy => .inl (hpre y hy)
      simp [Curve.addPoint, a, b, c, hf, insertPt_last hpre]
    refine ⟨elemToks i "point" (ptAttrs K x) [] ++ bt, ((emits_nil i).elem _ _).append h1, ?_, ?_⟩
    · have hr : Reads (curveCb K) el pre (elemToks i "point" (ptAttrs K x) []) (pre ++ [x]) := by
        refine (reads_sp _ _ _ i).append ?_
        refine reads_element (body := []) fun rest => ?_
        show curveCb K pre (.start "point" (ptAttrs K x) true :: rest) = _
        unfold curveCb
        rw [getD_attr (d := x.p) (by simp [ptAttrs, lookup_append, lookup_attrD, a]) ea,
          getD_attr (d := x.minQ) (by simp [ptAttrs, lookup_append, lookup_attrD, b]) eb,
          getD_attr (d := x.maxQ) (by simp [ptAttrs, lookup_append, lookup_attrD, c]) ec]
        simp [localName, hadd, Out.map, last1]
      have h2' : Reads (curveCb K) el (pre ++ [x]) bt (pre ++ x :: xs) := by simpa using h2
      exact hr.append h2'
    · intro h
      simp [elemToks, coreToks] at h

/-- **C45** Every reactive capability curve that can be built is read back point by point. -/
theorem curve_round_trip {K : Codec} {args pts : List Curve.Pt} (h : Curve.build args = .ok pts) (he : ∀ x ∈ args, PtExact K x) :
    RoundTrip (writeReactive K (.curve pts)) (readReactive K) (.curve pts) := by
  have hb := Curve.build_spec h
  apply roundTrip_intro
  intro i
  obtain ⟨bt, h1, h2, h3⟩ := pts_read (K := K) "reactiveCapabilityCurve" i pts [] (by simpa using hb.2.1)
    (fun x hx => ⟨Curve.sorted_not_nan hb.2.1 x hx, hb.2.2.2 x hx⟩) (fun x hx => he x (hb.1.mem_iff.1 hx))
  refine ⟨bt, h1, ?_⟩
  intro rest
  have hl : localName (coreToks i "reactiveCapabilityCurve" [] bt ++ rest) = .ok "reactiveCapabilityCurve" := by
    obtain ⟨e, tl, hc⟩ := core_start i "reactiveCapabilityCurve" [] bt
    rw [hc]; rfl
  unfold readReactive
  rw [hl, Out.bind_ok, if_pos rfl, readUntilEnd_core i (by simpa using h2) (fun hb => by simpa using h3 hb), Out.bind_ok]
  rw [if_neg (by have := hb.2.2.1; simp only; omega)]

example : ∃ pts, Curve.build [⟨10, .fin (-5), 5⟩, ⟨0, .fin (-1), 1⟩] = .ok pts ∧ RoundTrip (writeReactive toy (.curve pts)) (readReactive toy) (.curve pts) := by
  refine ⟨[⟨0, .fin (-1), 1⟩, ⟨10, .fin (-5), 5⟩], by decide, ?_⟩
  exact curve_round_trip (args := [⟨10, .fin (-5), 5⟩, ⟨0, .fin (-1), 1⟩]) (by decide) (fun x _ => ⟨toy_exact _, toy_exact _, toy_exact _⟩)

/-- **C45** Every pair of minimum and maximum that can be set is read back. -/
theorem minMax_round_trip {K : Codec} {a b : Dbl} {x : Dbl × Dbl} (h : Curve.buildMinMax a b = .ok x) (ha : K.Exact a) (hb : K.Exact b) :
    RoundTrip (writeReactive K (.minMax x.1 x.2)) (readReactive K) (.minMax x.1 x.2) := by
  obtain ⟨rfl, hle⟩ := (Curve.minMax_ok_iff a b x).1 h
  have hn := Dbl.not_nan_of_le hle
  apply roundTrip_intro
  intro i
  refine ⟨[], emits_nil i, ?_⟩
  intro rest
  show readReactive K (.start "minMaxReactiveLimits" (attrD K "minQ" a ++ attrD K "maxQ" b) true :: rest) = _
  unfold readReactive
  rw [getD_attr (d := a) (by simp [lookup_append, lookup_attrD, hn.1]) ha, getD_attr (d := b) (by simp [lookup_append, lookup_attrD, hn.2]) hb]
  simp [localName, h, Out.map, last1, coreToks]

example : RoundTrip (writeReactive toy (.minMax (.fin (-10)) 20)) (readReactive toy) (.minMax (.fin (-10)) 20) :=
  minMax_round_trip (a := .fin (-10)) (b := 20) (x := (.fin (-10), 20)) (by decide) (toy_exact _) (toy_exact _)

end Verif.Xml
