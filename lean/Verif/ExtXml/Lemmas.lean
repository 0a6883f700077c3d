import Verif.ExtXml.Model
import Verif.ExtData.Props
import Verif.Measure.Props
import Verif.Measure.DiscreteProps
import Verif.XmlNet.AttrLemmas

/-! How the loop of the reader ends when a callback may refuse an element; enumerations; texts.  Helper lemmas, and the specification of what is read. -/

namespace Verif.Xml

open Verif

variable {σ : Type}

/-- Spec: the calls `cs`, made inside any element with or without indentation, succeed and write the nodes of one element, which the reader refuses with an
exception, whatever follows. -/
def Refused {α : Type} (cs : List Cmd) (read : List Tok → Out (α × List Tok)) : Prop :=
  ∀ i : Bool, ∃ ts : List Tok, ts ≠ [] ∧
    (∀ w : W, w.stack ≠ [] → wrun i w cs = .ok ⟨w.closed ++ (sp i ++ ts), w.stack, none⟩) ∧
    ∀ rest, read (ts ++ rest) = .thrown

/-- What is refused is not read back. -/
theorem Refused.not_roundTrip {α : Type} {cs : List Cmd} {read : List Tok → Out (α × List Tok)} (h : Refused cs read) (a : α) : ¬ RoundTrip cs read a := by
  intro h'
  obtain ⟨ts, -, hw, hr⟩ := h true
  obtain ⟨us, -, hw', hr'⟩ := h' true
  have h1 := hw ⟨[], ["x"], none⟩ (by simp)
  have h2 := hw' ⟨[], ["x"], none⟩ (by simp)
  rw [h1] at h2
  simp only [Out.ok.injEq, W.mk.injEq, and_true] at h2
  have h3 : ts = us := List.append_cancel_left (List.append_cancel_left h2)
  subst h3
  have := hr []
  rw [hr' []] at this
  cases this

/-- What the reader does with what is written. -/
def Reading {α : Type} (cs : List Cmd) (read : List Tok → Out (α × List Tok)) (o : Out α) : Prop :=
  ∀ i : Bool, ∃ ts : List Tok, ts ≠ [] ∧
    (∀ w : W, w.stack ≠ [] → wrun i w cs = .ok ⟨w.closed ++ (sp i ++ ts), w.stack, none⟩) ∧
    ∀ rest, read (ts ++ rest) = o.map fun a => (a, last1 ts ++ rest)

theorem Reading.roundTrip {α : Type} {cs : List Cmd} {read : List Tok → Out (α × List Tok)} {a : α} (h : Reading cs read (.ok a)) : RoundTrip cs read a := h

theorem Reading.refused {α : Type} {cs : List Cmd} {read : List Tok → Out (α × List Tok)} (h : Reading cs read .thrown) : Refused cs read := h

theorem reading_intro {α : Type} {n : String} {as : List (String × String)} {body : List Cmd} {read : List Tok → Out (α × List Tok)} {o : Out α}
    (h : ∀ i, ∃ bt, Emits i body bt ∧ ∀ rest, read (coreToks i n as bt ++ rest) = o.map fun a => (a, last1 (coreToks i n as bt) ++ rest)) :
    Reading (elemCmds n as body) read o := by
  intro i
  obtain ⟨bt, hb, hr⟩ := h i
  refine ⟨coreToks i n as bt, core_ne_nil _ _ _ _, ?_, hr⟩
  intro w hw
  refine emits_run (hb.elem n as) ?_ w hw
  unfold elemToks
  simp [core_ne_nil]

/-- An element without content. -/
theorem reading_empty {α : Type} {n : String} {as : List (String × String)} {read : List Tok → Out (α × List Tok)} {o : Out α}
    (h : ∀ rest, read (.start n as true :: rest) = o.map fun a => (a, .start n as true :: rest)) : Reading (elemCmds n as []) read o :=
  reading_intro fun i => ⟨[], emits_nil i, fun rest => h rest⟩

/-- An element with a text. -/
theorem reading_text {α : Type} {n t : String} {as : List (String × String)} {read : List Tok → Out (α × List Tok)} {o : Out α} (ht : ¬ Blank t)
    (h : ∀ rest, read (.start n as false :: .text t :: .stop n :: rest) = o.map fun a => (a, .stop n :: rest)) : Reading (elemCmds n as [.chars t]) read o := by
  intro i
  refine ⟨textCore n as t, by simp [textCore], fun w hw => emits_run (emits_text i n as t) (by simp [textCore]) w hw, fun rest => ?_⟩
  have h1 : textCore n as t = [.start n as false, .text t, .stop n] := by rw [textCore, textToks_of ht]; rfl
  rw [h1]
  exact h rest

/-! ### The loop -/

/-- Going over these nodes, the loop turns `s` into what `o` says, or ends with the exception. -/
def Runs (cb : Callback σ) (name : String) (s : σ) (ts : List Tok) : Out σ → Prop
  | .ok s' => ∀ (rest : List Tok) (n : Nat) (r : Out (σ × List Tok)), r ≠ .ub → loop cb name n s' rest = r → loop cb name (n + ts.length) s (ts ++ rest) = r
  | .thrown => ∀ (rest : List Tok) (n : Nat), loop cb name (n + ts.length) s (ts ++ rest) = .thrown
  | .ub => False

theorem runs_nil (cb : Callback σ) (name : String) (s : σ) : Runs cb name s [] (.ok s) := fun _ _ _ _ h => h

theorem Runs.append {cb : Callback σ} {name : String} {s : σ} {ts us : List Tok} {o : Out σ} {f : σ → Out σ} (h : Runs cb name s ts o)
    (h' : ∀ s', o = .ok s' → Runs cb name s' us (f s')) : Runs cb name s (ts ++ us) (o.bind f) := by
  cases o with
  | ub => exact h
  | thrown =>
    intro rest n
    have := h (us ++ rest) (n + us.length)
    rw [List.append_assoc, List.length_append, Nat.add_comm ts.length, ← Nat.add_assoc]
    exact this
  | ok s' =>
    have h' := h' s' rfl
    rw [Out.bind_ok]
    cases hf : f s' with
    | ub => rw [hf] at h'; exact h'
    | thrown =>
      rw [hf] at h'
      intro rest n
      have := h (us ++ rest) (n + us.length) .thrown (by simp) (h' rest n)
      rw [List.append_assoc, List.length_append, Nat.add_comm ts.length, ← Nat.add_assoc]
      exact this
    | ok s'' =>
      rw [hf] at h'
      intro rest n r hr hl
      have := h (us ++ rest) (n + us.length) r hr (h' rest n r hr hl)
      rw [List.append_assoc, List.length_append, Nat.add_comm ts.length, ← Nat.add_assoc]
      exact this

theorem Runs.reads {cb : Callback σ} {name : String} {s s' : σ} {ts : List Tok} (h : Runs cb name s ts (.ok s')) : Reads cb name s ts s' := h

theorem Reads.runs {cb : Callback σ} {name : String} {s s' : σ} {ts : List Tok} (h : Reads cb name s ts s') : Runs cb name s ts (.ok s') := h

theorem runs_sp (cb : Callback σ) (name : String) (s : σ) (i : Bool) : Runs cb name s (sp i) (.ok s) := by
  intro rest n r _ h
  cases i with
  | false => exact h
  | true => exact h

/-- A callback that goes over a whole element or refuses it. -/
theorem runs_element {cb : Callback σ} {name : String} {s : σ} {o : Out σ} {n : String} {a : List (String × String)} {e : Bool} {body : List Tok} (ho : o ≠ .ub)
    (h : ∀ rest, cb s ((.start n a e :: body) ++ rest) = o.map fun s' => (s', last1 (.start n a e :: body) ++ rest)) :
    Runs cb name s (.start n a e :: body) o := by
  have hl : ∀ rest k, loop cb name (k + (Tok.start n a e :: body).length) s ((Tok.start n a e :: body) ++ rest) = match cb s (.start n a e :: (body ++ rest)) with
      | .ok (s', ts') => loop cb name (k + body.length) s' ts'.tail
      | .thrown => .thrown
      | .ub => .ub := fun rest k => rfl
  cases o with
  | ub => exact absurd rfl ho
  | thrown =>
    intro rest k
    rw [hl]
    have := h rest
    rw [List.cons_append] at this
    rw [this]
    rfl
  | ok s' =>
    intro rest k r hr hk
    rw [hl]
    have := h rest
    rw [List.cons_append] at this
    rw [this]
    have ht : (last1 (.start n a e :: body) ++ rest).tail = rest := by
      obtain ⟨t, ht⟩ : ∃ t, last1 (.start n a e :: body) = [t] := by
        rcases List.eq_nil_or_concat body with rfl | ⟨b, x, rfl⟩
        · exact ⟨_, rfl⟩
        · exact ⟨x, by rw [List.concat_eq_append, ← List.cons_append, last1_snoc]⟩
      rw [ht]; rfl
    simp only [Out.map, ht]
    exact loop_mono' hk hr (by omega)

theorem readUntilEnd_runs {cb : Callback σ} {n : String} {as : List (String × String)} {body : List Tok} {s : σ} {o : Out σ} (i : Bool)
    (h : Runs cb n s body o) (hnil : body = [] → o = .ok s) (rest : List Tok) :
    readUntilEnd cb n s (coreToks i n as body ++ rest) = o.map fun s' => (s', last1 (coreToks i n as body) ++ rest) := by
  cases o with
  | ub => exact absurd h id
  | ok s' => exact readUntilEnd_core i h.reads (fun hb => Out.ok.inj (hnil hb)) rest
  | thrown =>
    unfold coreToks
    by_cases hb : body = []
    · cases hnil hb
    · rw [if_neg hb]
      show loop cb n _ s (body ++ sp i ++ [.stop n] ++ rest) = .thrown
      have h1 := h (sp i ++ ([.stop n] ++ rest)) 0
      have h2 : body ++ (sp i ++ ([Tok.stop n] ++ rest)) = body ++ sp i ++ [.stop n] ++ rest := by simp
      rw [h2] at h1
      refine loop_mono' h1 (by simp) ?_
      show 0 + body.length ≤ (body ++ sp i ++ [Tok.stop n] ++ rest).length + 1
      simp only [List.length_append]
      omega

/-! ### Attributes -/

theorem optSOr_some {k d n v : String} {as : List (String × String)} {e : Bool} {rest : List Tok} (h : lookup k as = some v) : optSOr k d (.start n as e :: rest) = .ok v := by
  simp [optSOr, rawAttr, h]

theorem optSOr_none {k d n : String} {as : List (String × String)} {e : Bool} {rest : List Tok} (h : lookup k as = none) : optSOr k d (.start n as e :: rest) = .ok d := by
  simp [optSOr, rawAttr, h]

theorem getS_none {k n : String} {as : List (String × String)} {e : Bool} {rest : List Tok} (h : lookup k as = none) : getS k (.start n as e :: rest) = .thrown := by
  simp [getS, rawAttr, h]

theorem getD_none {K : Codec} {k n : String} {as : List (String × String)} {e : Bool} {rest : List Tok} (h : lookup k as = none) : getD K k (.start n as e :: rest) = .thrown := by
  simp [getD, getS_none h]

theorem optDOr_opt {K : Codec} {k n : String} {as : List (String × String)} {e : Bool} {rest : List Tok} {d : Dbl}
    (h : lookup k as = if d.isNan || isEqual d .nan then none else some (K.showD d)) (he : d.isNan = false → K.Exact d) :
    optDOr K k .nan (.start n as e :: rest) = .ok d := by
  refine optDOr_attr ?_ he
  rw [h]
  cases d <;> simp [Dbl.isNan, isEqual]

theorem optNOr_opt {K : Codec} (hN : K.Naturals) {k n : String} {as : List (String × String)} {e : Bool} {rest : List Tok} {c : Nat}
    (h : lookup k as = if c = 0 then none else some (K.showN c)) (hc : c < 2 ^ 64) : optNOr K k 0 (.start n as e :: rest) = .ok c := by
  by_cases h0 : c = 0
  · subst h0; simp [optNOr, optN, rawAttr, h, Out.map]
  · simp [optNOr, optN, rawAttr, h, h0, hN c hc, Out.map]

end Verif.Xml

namespace Verif.ExtXml

open Verif Verif.Xml Verif.XmlNet Verif.ExtData Verif.Measure

/-! ### Enumerations and texts -/

theorem enum_rt {names : List String} (hd : names.Nodup) (v : Fin names.length) : ∃ n, Enums.toString names v = .ok n ∧ n ∈ names ∧ enumOf names n = .ok v := by
  obtain ⟨n, h1, h2⟩ := Enums.value_round_trip hd v.2
  refine ⟨n, h1, ?_, ?_⟩
  · exact (Enums.fromString_accepts_iff names n).1.1 ⟨_, h2⟩
  · unfold enumOf
    rw [h2, Out.bind_ok, dif_pos v.2]

theorem name_rt {ε : Type} [DecidableEq ε] {es : List ε} {names : List String} (hd : names.Nodup) (hl : es.length = names.length) {e : ε} (he : e ∈ es) :
    ∃ n, nameOf es names e = .ok n ∧ n ∈ names ∧ ofName es names n = .ok e := by
  have hv : es.idxOf e < names.length := hl ▸ List.idxOf_lt_length_of_mem he
  obtain ⟨n, h1, h2⟩ := Enums.value_round_trip hd hv
  refine ⟨n, h1, (Enums.fromString_accepts_iff names n).1.1 ⟨_, h2⟩, ?_⟩
  unfold ofName
  rw [h2, Out.bind_ok]
  have : es[es.idxOf e]? = some e := by
    clear h1 h2 hv hl
    induction es with
    | nil => cases he
    | cons x xs ih =>
      by_cases hx : x = e
      · subst hx; simp [List.idxOf_cons]
      · rw [List.idxOf_cons]
        have : (x == e) = false := by simpa using hx
        rw [this]
        exact ih (List.mem_of_ne_of_mem (fun h => hx h.symm) he)
  rw [this]

theorem texts_not_blank : (∀ n ∈ Enums.branchStatusStatus.names, ¬ Blank n) ∧ (∀ n ∈ Enums.entsoeGeographicalCode.names, ¬ Blank n) := by decide +kernel

theorem names_not_empty : (∀ n ∈ Enums.measurementSide.names, n ≠ "") ∧ (∀ n ∈ Enums.discreteMeasurementTapChanger.names, n ≠ "") := by decide

theorem nodup_tables : Enums.branchStatusStatus.names.Nodup ∧ Enums.entsoeGeographicalCode.names.Nodup ∧ Enums.connectablePositionDirection.names.Nodup ∧
    Enums.measurementType.names.Nodup ∧ Enums.measurementSide.names.Nodup ∧ Enums.discreteMeasurementType.names.Nodup ∧
    Enums.discreteMeasurementTapChanger.names.Nodup ∧ Enums.discreteMeasurementValueType.names.Nodup := by decide +kernel

theorem readText_read {n t : String} {as : List (String × String)} (rest : List Tok) :
    readText n (.start n as false :: .text t :: .stop n :: rest) = .ok (t, .stop n :: rest) := by
  simp [readText, textLoop]

end Verif.ExtXml
