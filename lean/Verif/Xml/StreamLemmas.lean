import Verif.Xml.Stream

/-!
How sequences of calls to the writer become nodes, and how the loop of the reader goes through them.  Helper lemmas only.
-/

namespace Verif.Xml

open Verif

variable {σ : Type}

/-! ### Writing -/

theorem wrun_append (i : Bool) : ∀ (cs ds : List Cmd) (w : W), wrun i w (cs ++ ds) = (wrun i w cs).bind fun w' => wrun i w' ds := by
  intro cs
  induction cs with
  | nil => intro ds w; rfl
  | cons c cs ih =>
    intro ds w
    show (wstep i w c).bind (fun w' => wrun i w' (cs ++ ds)) = ((wstep i w c).bind fun w' => wrun i w' cs).bind _
    cases wstep i w c with
    | ok w' => exact ih ds w'
    | thrown => rfl
    | ub => rfl

/-- The writer after some complete nodes. -/
def W.after (w : W) (ts : List Tok) : W := if ts = [] then w else ⟨w.closed ++ ts, w.stack, none⟩

/-- A complete element ends the nodes. -/
def EndsElement (ts : List Tok) : Prop := (∃ n, ts.getLast? = some (.stop n)) ∨ ∃ n a, ts.getLast? = some (.start n a true)

/-- These calls, made inside an element, write these nodes. -/
def Emits (i : Bool) (cs : List Cmd) (ts : List Tok) : Prop :=
  (∀ w : W, w.stack ≠ [] → wrun i w cs = .ok (w.after ts)) ∧ (ts ≠ [] → EndsElement ts)

theorem emits_nil (i : Bool) : Emits i [] [] := ⟨fun w _ => by simp [wrun, W.after], fun h => absurd rfl h⟩

theorem after_stack (w : W) (ts : List Tok) : (w.after ts).stack = w.stack := by
  unfold W.after; split <;> rfl

theorem after_after (w : W) (ts us : List Tok) : (w.after ts).after us = w.after (ts ++ us) := by
  unfold W.after
  by_cases ht : ts = []
  · subst ht; simp
  · by_cases hu : us = []
    · subst hu; simp [ht]
    · simp [ht, hu, W.closed]

theorem endsElement_append {ts us : List Tok} (h : EndsElement us) : EndsElement (ts ++ us) := by
  have hne : us ≠ [] := by
    rintro rfl
    rcases h with ⟨n, h⟩ | ⟨n, a, h⟩ <;> cases h
  unfold EndsElement at *
  rw [List.getLast?_append]
  rcases h with ⟨n, h⟩ | ⟨n, a, h⟩
  · exact .inl ⟨n, by rw [h]; rfl⟩
  · exact .inr ⟨n, a, by rw [h]; rfl⟩

theorem Emits.append {i : Bool} {cs ds : List Cmd} {ts us : List Tok} (h : Emits i cs ts) (h' : Emits i ds us) : Emits i (cs ++ ds) (ts ++ us) := by
  constructor
  · intro w hw
    rw [wrun_append, h.1 w hw, Out.bind_ok, h'.1 _ (by rw [after_stack]; exact hw), after_after]
  · intro hne
    by_cases hu : us = []
    · subst hu
      rw [List.append_nil] at hne ⊢
      exact h.2 hne
    · exact endsElement_append (h'.2 hu)

theorem wrun_attrs (i : Bool) : ∀ (as : List (String × String)) (o : List Tok) (st : List String) (a : List (String × String)),
    wrun i ⟨o, st, some a⟩ (attrCmds as) = .ok ⟨o, st, some (a ++ as)⟩ := by
  intro as
  induction as with
  | nil => intro o st a; simp [attrCmds, wrun]
  | cons p as ih =>
    intro o st a
    show wrun i ⟨o, st, some (a ++ [(p.1, p.2)])⟩ (attrCmds as) = _
    rw [ih]
    simp

/-- Nodes of an element with complete nodes inside, without the indentation before it. -/
def coreToks (i : Bool) (n : String) (as : List (String × String)) (body : List Tok) : List Tok :=
  if body = [] then [.start n as true] else .start n as false :: (body ++ sp i ++ [.stop n])

/-- Nodes of an element with complete nodes inside. -/
def elemToks (i : Bool) (n : String) (as : List (String × String)) (body : List Tok) : List Tok := sp i ++ coreToks i n as body

theorem endIndent_append (i : Bool) (o : List Tok) {ts : List Tok} (h : EndsElement ts) : endIndent i (o ++ ts) = sp i := by
  unfold endIndent
  rw [List.getLast?_append]
  rcases h with ⟨n, h⟩ | ⟨n, a, h⟩ <;> rw [h] <;> rfl

theorem Emits.elem {i : Bool} {body : List Cmd} {ts : List Tok} (n : String) (as : List (String × String)) (h : Emits i body ts) :
    Emits i (elemCmds n as body) (elemToks i n as ts) := by
  constructor
  · intro w hw
    have hne : elemToks i n as ts ≠ [] := by
      unfold elemToks coreToks
      split <;> simp
    show wrun i ⟨w.closed ++ sp i, n :: w.stack, some []⟩ (attrCmds as ++ (body ++ [.stop])) = _
    rw [wrun_append, wrun_attrs, Out.bind_ok, wrun_append, h.1 _ (by simp), Out.bind_ok]
    unfold W.after
    rw [if_neg hne]
    by_cases hts : ts = []
    · subst hts
      simp [wrun, wstep, elemToks, coreToks]
    · rw [if_neg hts]
      generalize w.closed = o
      simp only [wrun, wstep, W.closed, elemToks, coreToks, if_neg hts]
      rw [endIndent_append i _ (h.2 hts)]
      simp
  · intro _
    unfold elemToks
    apply endsElement_append
    unfold coreToks
    split
    · exact .inr ⟨n, as, rfl⟩
    · refine .inl ⟨n, ?_⟩
      rw [List.getLast?_cons]
      simp

/-- Nodes of an element with a text, without the indentation before it. -/
def textCore (n : String) (as : List (String × String)) (s : String) : List Tok := .start n as false :: (textToks s ++ [.stop n])

theorem emits_text (i : Bool) (n : String) (as : List (String × String)) (s : String) :
    Emits i (elemCmds n as [.chars s]) (sp i ++ textCore n as s) := by
  constructor
  · intro w hw
    show wrun i ⟨w.closed ++ sp i, n :: w.stack, some []⟩ (attrCmds as ++ [.chars s, .stop]) = _
    rw [wrun_append, wrun_attrs, Out.bind_ok]
    have hne : sp i ++ textCore n as s ≠ [] := by simp [textCore]
    unfold W.after
    rw [if_neg hne]
    have hi : endIndent i (w.closed ++ sp i ++ [Tok.start n ([] ++ as) false] ++ textToks s) = [] := by
      unfold endIndent textToks
      by_cases h1 : s = ""
      · simp [h1]
      · by_cases h2 : Blank s
        · simp [h1, h2]
        · simp [h1, h2]
    revert hi
    generalize w.closed = o
    intro hi
    simp only [wrun, wstep, W.closed, Out.bind_ok]
    rw [hi]
    simp [textCore]
  · intro _
    apply endsElement_append
    refine .inl ⟨n, ?_⟩
    unfold textCore
    rw [List.getLast?_cons]
    simp

/-! ### Reading -/

/-- The last node. -/
def last1 (ts : List Tok) : List Tok := ts.drop (ts.length - 1)

theorem last1_snoc (xs : List Tok) (x : Tok) : last1 (xs ++ [x]) = [x] := by
  unfold last1
  simp

theorem loop_mono' {cb : Callback σ} {name : String} : ∀ {n m : Nat} {s : σ} {ts : List Tok} {r : Out (σ × List Tok)},
    loop cb name n s ts = r → r ≠ .ub → n ≤ m → loop cb name m s ts = r := by
  intro n
  induction n with
  | zero => intro m s ts r h hr _; exact absurd h.symm hr
  | succ n ih =>
    intro m s ts r h hr hm
    obtain ⟨m, rfl⟩ : ∃ k, m = k + 1 := ⟨m - 1, by omega⟩
    have hm' : n ≤ m := by omega
    match ts with
    | [] => exact h
    | .stop k :: rest =>
      simp only [loop] at h ⊢
      split
      · rename_i hk; rw [if_pos hk] at h; exact h
      · rename_i hk; rw [if_neg hk] at h; exact ih h hr hm'
    | .start k a e :: rest =>
      simp only [loop] at h ⊢
      cases hcb : cb s (.start k a e :: rest) with
      | ok p =>
        rw [hcb] at h
        exact ih h hr hm'
      | thrown => rw [hcb] at h; exact h
      | ub => rw [hcb] at h; exact h
    | .text k :: rest =>
      simp only [loop] at h ⊢
      exact ih h hr hm'
    | .blank :: rest =>
      simp only [loop] at h ⊢
      exact ih h hr hm'

/-- Going over these nodes, the loop for element `name` turns `s` into `s'`. -/
def Reads (cb : Callback σ) (name : String) (s : σ) (ts : List Tok) (s' : σ) : Prop :=
  ∀ (rest : List Tok) (n : Nat) (r : Out (σ × List Tok)), r ≠ .ub → loop cb name n s' rest = r → loop cb name (n + ts.length) s (ts ++ rest) = r

theorem reads_nil (cb : Callback σ) (name : String) (s : σ) : Reads cb name s [] s := fun _ _ _ _ h => h

theorem Reads.append {cb : Callback σ} {name : String} {s s' s'' : σ} {ts us : List Tok} (h : Reads cb name s ts s') (h' : Reads cb name s' us s'') :
    Reads cb name s (ts ++ us) s'' := by
  intro rest n r hu hr
  have := h (us ++ rest) (n + us.length) r hu (h' rest n r hu hr)
  rw [List.append_assoc, List.length_append, Nat.add_comm ts.length, ← Nat.add_assoc]
  exact this

theorem reads_sp (cb : Callback σ) (name : String) (s : σ) (i : Bool) : Reads cb name s (sp i) s := by
  intro rest n r _ h
  cases i with
  | false => exact h
  | true => exact h

/-- A callback that consumes a whole element. -/
theorem reads_element {cb : Callback σ} {name : String} {s s' : σ} {n : String} {a : List (String × String)} {e : Bool} {body : List Tok}
    (h : ∀ rest, cb s ((.start n a e :: body) ++ rest) = .ok (s', last1 (.start n a e :: body) ++ rest)) :
    Reads cb name s (.start n a e :: body) s' := by
  intro rest k r hu hr
  rw [List.length_cons, ← Nat.add_assoc]
  show (match cb s (.start n a e :: (body ++ rest)) with
    | .ok (s', ts') => loop cb name (k + body.length) s' ts'.tail
    | .thrown => .thrown
    | .ub => .ub) = _
  have := h rest
  rw [List.cons_append] at this
  rw [this]
  have ht : (last1 (.start n a e :: body) ++ rest).tail = rest := by
    obtain ⟨t, ht⟩ : ∃ t, last1 (.start n a e :: body) = [t] := by
      rcases List.eq_nil_or_concat body with rfl | ⟨b, x, rfl⟩
      · exact ⟨_, rfl⟩
      · exact ⟨x, by rw [List.concat_eq_append, ← List.cons_append, last1_snoc]⟩
    rw [ht]; rfl
  simp only [ht]
  exact loop_mono' hr hu (by omega)

/-- A callback that reads the text of an element and stays on it. -/
theorem reads_text {cb : Callback σ} {name : String} {s s' : σ} {n : String} {a : List (String × String)} {t : String} (hn : n ≠ name)
    (h : ∀ rest, cb s (.start n a false :: .text t :: rest) = .ok (s', .text t :: rest)) :
    Reads cb name s [.start n a false, .text t, .stop n] s' := by
  intro rest k r hu hr
  show (match cb s (.start n a false :: .text t :: .stop n :: rest) with
    | .ok (s', ts') => loop cb name (k + 2) s' ts'.tail
    | .thrown => .thrown
    | .ub => .ub) = _
  rw [h]
  show loop cb name (k + 2) s' (.stop n :: rest) = _
  simp only [loop, if_neg hn]
  exact loop_mono' hr hu (by omega)

/-- Reading an element made of complete nodes. -/
theorem readUntilEnd_core {cb : Callback σ} {n : String} {as : List (String × String)} {body : List Tok} {s s' : σ} (i : Bool)
    (h : Reads cb n s body s') (hnil : body = [] → s' = s) (rest : List Tok) :
    readUntilEnd cb n s (coreToks i n as body ++ rest) = .ok (s', last1 (coreToks i n as body) ++ rest) := by
  unfold coreToks
  by_cases hb : body = []
  · rw [if_pos hb, hnil hb]
    rfl
  · rw [if_neg hb, ← List.cons_append, last1_snoc]
    show loop cb n _ s (body ++ sp i ++ [.stop n] ++ rest) = _
    have h1 : loop cb n 1 s' (.stop n :: rest) = .ok (s', .stop n :: rest) := by simp [loop]
    have h2 := (h.append (reads_sp cb n s' i)) (.stop n :: rest) 1 _ (by simp) h1
    rw [List.append_assoc _ [Tok.stop n] rest, List.singleton_append]
    refine loop_mono' h2 (by simp) ?_
    show 1 + (body ++ sp i).length ≤ (body ++ sp i ++ [Tok.stop n] ++ rest).length + 1
    simp only [List.length_append]
    omega

/-! ### The fuel of the loop is enough -/

/-- A callback that never goes back nor runs into undefined behaviour. -/
def Forward (cb : Callback σ) : Prop := ∀ s ts, cb s ts ≠ .ub ∧ ∀ s' ts', cb s ts = .ok (s', ts') → ts'.length ≤ ts.length

theorem loop_not_ub {cb : Callback σ} (h : Forward cb) (name : String) : ∀ (n : Nat) (s : σ) (ts : List Tok), ts.length < n → loop cb name n s ts ≠ .ub := by
  intro n
  induction n with
  | zero => intro s ts h; omega
  | succ n ih =>
    intro s ts hl
    match ts with
    | [] => simp [loop]
    | .stop k :: rest =>
      simp only [loop]
      split
      · simp
      · exact ih _ _ (by simpa using hl)
    | .start k a e :: rest =>
      simp only [loop]
      cases hcb : cb s (.start k a e :: rest) with
      | ok p =>
        have := (h s (.start k a e :: rest)).2 p.1 p.2 hcb
        refine ih _ _ ?_
        simp only [List.length_tail, List.length_cons] at this hl ⊢
        omega
      | thrown => simp
      | ub => exact absurd hcb (h _ _).1
    | .text k :: rest => simp only [loop]; exact ih _ _ (by simpa using hl)
    | .blank :: rest => simp only [loop]; exact ih _ _ (by simpa using hl)

/-- The fuel given by `readUntilEnd` is always enough. -/
theorem readUntilEnd_not_ub {cb : Callback σ} (h : Forward cb) (name : String) (s : σ) (ts : List Tok) : readUntilEnd cb name s ts ≠ .ub := by
  match ts with
  | [] => simp [readUntilEnd]
  | .start n a true :: rest => simp [readUntilEnd]
  | .start n a false :: rest => exact loop_not_ub h _ _ _ _ (by omega)
  | .text _ :: rest => exact loop_not_ub h _ _ _ _ (by omega)
  | .blank :: rest => exact loop_not_ub h _ _ _ _ (by omega)
  | .stop _ :: rest => exact loop_not_ub h _ _ _ _ (by omega)

end Verif.Xml
