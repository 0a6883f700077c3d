import Verif.XmlNet.Base
import Verif.Xml.IdentProps

/-!
Composition of round trips: elements inside elements.  Helper lemmas only; `RoundTrip` is the specification of `Verif.Xml.ElementsProps`.
-/

namespace Verif.XmlNet

open Verif Verif.Xml

/-- Writing `w` gives one element called `n`, which `read` gives back as `a`. -/
def ElemRT {α : Type} (n : String) (w : Out (List Cmd)) (read : List Tok → Out (α × List Tok)) (a : α) : Prop :=
  ∃ as body, w = .ok (elemCmds n as body) ∧ RoundTrip (elemCmds n as body) read a

/-! ### The nodes of an element that makes a round trip -/

theorem last_wstep_stop {i : Bool} {w w' : W} (h : wstep i w .stop = .ok w') : EndsElement w'.out := by
  obtain ⟨o, st, tag⟩ := w
  cases st with
  | nil => simp [wstep] at h
  | cons n st =>
    cases tag with
    | some a =>
      simp only [wstep, Out.ok.injEq] at h
      subst h
      exact .inr ⟨n, a, by simp⟩
    | none =>
      simp only [wstep, Out.ok.injEq] at h
      subst h
      exact .inl ⟨n, by simp⟩

/-- The start tag of the element `n` begun at `o` is still open, or written. -/
def Began (o : List Tok) (n : String) (w : W) : Prop :=
  (w.out = o ∧ (∃ st, w.stack = n :: st) ∧ w.tag.isSome = true) ∨ ∃ a e tl, w.out = o ++ .start n a e :: tl

theorem began_step {o : List Tok} {n : String} {i : Bool} {w w' : W} {c : Cmd} (hb : Began o n w) (h : wstep i w c = .ok w') : Began o n w' := by
  obtain ⟨out, stack, tag⟩ := w
  rcases hb with ⟨h1, ⟨st, h2⟩, h3⟩ | ⟨a, e, tl, h1⟩
  · simp only at h1 h2 h3
    subst h1 h2
    cases tag with
    | none => cases h3
    | some a =>
      cases c with
      | start m =>
        simp only [wstep, Out.ok.injEq] at h
        subst h
        exact .inr ⟨a, false, sp i, by simp [W.closed]⟩
      | attr k v =>
        simp only [wstep, Out.ok.injEq] at h
        subst h
        exact .inl ⟨rfl, ⟨st, rfl⟩, rfl⟩
      | chars s =>
        simp only [wstep, Out.ok.injEq] at h
        subst h
        exact .inr ⟨a, false, textToks s, by simp [W.closed]⟩
      | stop =>
        simp only [wstep, Out.ok.injEq] at h
        subst h
        exact .inr ⟨a, true, [], rfl⟩
  · simp only at h1
    have hcl : ∃ tl', W.closed ⟨out, stack, tag⟩ = o ++ .start n a e :: tl' := by
      unfold W.closed
      subst h1
      split
      · rename_i b m _ _ _
        exact ⟨tl ++ [.start m b false], by simp⟩
      · exact ⟨tl, rfl⟩
    obtain ⟨tl', hcl⟩ := hcl
    cases c with
    | start m =>
      simp only [wstep, Out.ok.injEq] at h
      subst h
      exact .inr ⟨a, e, tl' ++ sp i, by simp [hcl]⟩
    | attr k v =>
      cases tag with
      | none => simp [wstep] at h
      | some b =>
        simp only [wstep, Out.ok.injEq] at h
        subst h
        exact .inr ⟨a, e, tl, h1⟩
    | chars s =>
      cases stack with
      | nil => simp [wstep] at h
      | cons m st =>
        simp only [wstep, Out.ok.injEq] at h
        subst h
        exact .inr ⟨a, e, tl' ++ textToks s, by simp [hcl]⟩
    | stop =>
      cases stack with
      | nil => simp [wstep] at h
      | cons m st =>
        cases tag with
        | some b =>
          simp only [wstep, Out.ok.injEq] at h
          subst h
          exact .inr ⟨a, e, tl ++ [.start m b true], by simp [h1]⟩
        | none =>
          simp only [wstep, Out.ok.injEq] at h
          subst h
          exact .inr ⟨a, e, tl ++ (endIndent i out ++ [.stop m]), by simp [h1]⟩

theorem began_run {o : List Tok} {n : String} {i : Bool} : ∀ (cs : List Cmd) {w w' : W}, Began o n w → wrun i w cs = .ok w' → Began o n w' := by
  intro cs
  induction cs with
  | nil =>
    intro w w' hb h
    simp only [wrun, Out.ok.injEq] at h
    exact h ▸ hb
  | cons c cs ih =>
    intro w w' hb h
    obtain ⟨w1, h1, h2⟩ := Out.bind_eq_ok.1 h
    exact ih (began_step hb h1) h2

/-- The nodes written by an element that makes a round trip. -/
theorem roundTrip_item {α : Type} {n : String} {as : List (String × String)} {body : List Cmd} {read : List Tok → Out (α × List Tok)} {a : α}
    (h : RoundTrip (elemCmds n as body) read a) (i : Bool) :
    ∃ (b : List (String × String)) (e : Bool) (tl : List Tok), Emits i (elemCmds n as body) (sp i ++ .start n b e :: tl) ∧
      ∀ rest, read ((.start n b e :: tl) ++ rest) = .ok (a, last1 (.start n b e :: tl) ++ rest) := by
  obtain ⟨ts, hne, hw, hr⟩ := h i
  have hstart : ∃ b e tl, ts = .start n b e :: tl := by
    have h1 := hw ⟨[], ["x"], none⟩ (by simp)
    have h2 : wrun i ⟨sp i, [n, "x"], some []⟩ (attrCmds as ++ (body ++ [.stop])) = .ok ⟨sp i ++ ts, ["x"], none⟩ := by
      simpa [elemCmds, wrun, wstep, W.closed] using h1
    rcases began_run (o := sp i) (n := n) _ (.inl ⟨rfl, ⟨_, rfl⟩, rfl⟩) h2 with ⟨h3, _, _⟩ | ⟨b, e, tl, h3⟩
    · simp only at h3
      have : ts = [] := List.append_right_eq_self.1 h3
      exact absurd this hne
    · exact ⟨b, e, tl, List.append_cancel_left h3⟩
  obtain ⟨b, e, tl, rfl⟩ := hstart
  refine ⟨b, e, tl, ⟨?_, ?_⟩, hr⟩
  · intro w hws
    rw [hw w hws, W.after, if_neg (by simp)]
  · intro _
    have h1 := hw ⟨[], ["x"], none⟩ (by simp)
    have h2 : wrun i ⟨sp i, [n, "x"], some []⟩ ((attrCmds as ++ body) ++ [.stop]) = .ok ⟨sp i ++ .start n b e :: tl, ["x"], none⟩ := by
      simpa [elemCmds, wrun, wstep, W.closed] using h1
    rw [wrun_append] at h2
    obtain ⟨w1, _, h4⟩ := Out.bind_eq_ok.1 h2
    obtain ⟨w2, h5, h6⟩ := Out.bind_eq_ok.1 h4
    simp only [wrun, Out.ok.injEq] at h6
    subst h6
    exact last_wstep_stop h5

/-! ### Content of an element -/

variable {σ : Type}

/-- The calls `cs`, inside an element `root`, write complete nodes, on which the callback of a class turns `s` into `s'`. -/
def Body (A : Anon) (h : Handler σ) (root : String) (cs : List Cmd) (s s' : σ) : Prop :=
  ∀ i, ∃ bt, Emits i cs bt ∧ (∀ x, Reads (elemCb A h) root (x, s) bt (x, s')) ∧ (bt = [] → s' = s)

theorem body_nil (A : Anon) (h : Handler σ) (root : String) (s : σ) : Body A h root [] s s :=
  fun i => ⟨[], emits_nil i, fun _ => reads_nil _ _ _, fun _ => rfl⟩

theorem Body.append {A : Anon} {h : Handler σ} {root : String} {cs ds : List Cmd} {s s' s'' : σ} (h1 : Body A h root cs s s') (h2 : Body A h root ds s' s'') :
    Body A h root (cs ++ ds) s s'' := by
  intro i
  obtain ⟨bt, a1, a2, a3⟩ := h1 i
  obtain ⟨bu, b1, b2, b3⟩ := h2 i
  refine ⟨bt ++ bu, a1.append b1, fun x => (a2 x).append (b2 x), fun hn => ?_⟩
  obtain ⟨n1, n2⟩ := List.append_eq_nil_iff.1 hn
  rw [b3 n2, a3 n1]

/-- One sub element. -/
theorem body_item {α : Type} {A : Anon} {h : Handler σ} {root n : String} {as : List (String × String)} {body : List Cmd} {read : List Tok → Out (α × List Tok)} {a : α}
    (hrt : RoundTrip (elemCmds n as body) read a) {cb : Callback σ} (hh : h n = some cb) {s s' : σ}
    (hcb : ∀ toks r, read toks = .ok (a, r) → cb s toks = .ok (s', r)) : Body A h root (elemCmds n as body) s s' := by
  intro i
  obtain ⟨b, e, tl, h1, h2⟩ := roundTrip_item hrt i
  refine ⟨_, h1, fun x => (reads_sp _ _ _ i).append (reads_element fun rest => ?_), fun hn => by simp at hn⟩
  have h3 := hcb _ _ (h2 rest)
  show elemCb A h (x, s) (.start n b e :: (tl ++ rest)) = _
  rw [List.cons_append] at h3
  simp only [elemCb, localName, Out.monad_bind_ok, hh, h3]

theorem body_elem {α : Type} {A : Anon} {h : Handler σ} {root n : String} {w : Out (List Cmd)} {read : List Tok → Out (α × List Tok)} {a : α}
    (hrt : ElemRT n w read a) {cb : Callback σ} (hh : h n = some cb) {s s' : σ}
    (hcb : ∀ toks r, read toks = .ok (a, r) → cb s toks = .ok (s', r)) : ∃ cs, w = .ok cs ∧ Body A h root cs s s' := by
  obtain ⟨as, body, h1, h2⟩ := hrt
  exact ⟨_, h1, body_item h2 hh hcb⟩

/-- A list of sub elements of one kind, each of which `push` adds to what is kept. -/
theorem body_list {α : Type} {A : Anon} {h : Handler σ} {root n : String} {w : α → Out (List Cmd)} {read : List Tok → Out (α × List Tok)} {cb : Callback σ} {push : σ → α → σ}
    (hh : h n = some cb) (hcb : ∀ s toks a r, read toks = .ok (a, r) → cb s toks = .ok (push s a, r)) :
    ∀ (xs : List α) (s : σ), (∀ x ∈ xs, ElemRT n (w x) read x) → ∃ cs, writeList w xs = .ok cs ∧ Body A h root cs s (xs.foldl push s) := by
  intro xs
  induction xs with
  | nil => intro s _; exact ⟨[], rfl, body_nil _ _ _ _⟩
  | cons x xs ih =>
    intro s hx
    obtain ⟨c, h1, h2⟩ := body_elem (root := root) (A := A) (hx x (List.mem_cons_self ..)) hh (fun toks r hr => hcb s toks x r hr)
    obtain ⟨cs, h3, h4⟩ := ih (push s x) (fun y hy => hx y (List.mem_cons_of_mem _ hy))
    exact ⟨c ++ cs, by simp only [writeList, h1, h3, Out.monad_bind_ok], h2.append h4⟩

/-! ### Identifiables -/

/-- What holds of every identifiable of a network, and makes its names readable. -/
structure IdentOk (A : Anon) (x : Ident) : Prop where
  head : HeadOk A x.head
  aliases : ∀ a ∈ x.aliases, AliasOk A a.1 ∧ a.1 ≠ x.head.id
  nodup : (x.aliases.map Prod.fst).Nodup
  types : x.aliases.Pairwise fun a b => a.2 ≠ "" → a.2 ≠ b.2
  props : AMap.NodupKeys x.props

theorem identCb_alias {A : Anon} {x : Ident} {a : String × String} (ha : AliasOk A a.1) (hid : a.1 ≠ x.head.id) (hn : a.1 ∉ x.aliases.map Prod.fst)
    (ht : a.2 = "" ∨ a.2 ∉ x.aliases.map Prod.snd) (rest : List Tok) :
    identCb A x (.start "alias" (if a.2 ≠ "" then [("type", a.2)] else []) false :: .text (A.anon a.1) :: rest) =
      .ok ({ x with aliases := x.aliases ++ [a] }, .text (A.anon a.1) :: rest) := by
  have hty : optSOr "type" "" (.start "alias" (if a.2 ≠ "" then [("type", a.2)] else []) false :: .text (A.anon a.1) :: rest) = .ok a.2 := by
    by_cases h : a.2 = "" <;> simp [optSOr, rawAttr, h, lookup]
  have hadd : x.addAlias a.1 a.2 = .ok { x with aliases := x.aliases ++ [a] } := by
    unfold Ident.addAlias
    rw [if_neg (by rintro ⟨h1, h2⟩; exact ht.elim h1 (fun h => h h2)), if_neg (by rintro (h | h); exact hid h; exact hn h)]
  unfold identCb
  rw [hty]
  have hdean : A.dean (A.anon a.1) = .ok a.1 := ha.1
  simp only [localName, Out.monad_bind_ok, readCharacters, hdean, hadd, show ("alias" = "property") = False by decide, if_false, if_true]

theorem aliases_body {A : Anon} {h : Handler σ} {root : String} (hroot : root ≠ "alias") (hal : h "alias" = none) (s : σ) (i : Bool) :
    ∀ (as : List (String × String)) (x : Ident), (∀ a ∈ as, AliasOk A a.1 ∧ a.1 ≠ x.head.id) → ((x.aliases ++ as).map Prod.fst).Nodup →
      (x.aliases ++ as).Pairwise (fun a b => a.2 ≠ "" → a.2 ≠ b.2) →
      ∃ bt, Emits i (aliasesElems A as) bt ∧ Reads (elemCb A h) root (x, s) bt ({ x with aliases := x.aliases ++ as }, s) ∧ (bt = [] → as = []) := by
  intro as
  induction as with
  | nil => intro x _ _ _; exact ⟨[], emits_nil i, by simpa using reads_nil _ _ _, fun _ => rfl⟩
  | cons a as ih =>
    intro x hok hnd hty
    obtain ⟨h1, h2⟩ := hok a (List.mem_cons_self ..)
    have hn : a.1 ∉ x.aliases.map Prod.fst := by
      intro hm
      rw [List.map_append, List.nodup_append] at hnd
      exact hnd.2.2 _ hm a.1 (by simp) rfl
    have ht : a.2 = "" ∨ a.2 ∉ x.aliases.map Prod.snd := by
      by_cases h0 : a.2 = ""
      · exact .inl h0
      · refine .inr fun hm => ?_
        obtain ⟨b, hb, e⟩ := List.mem_map.1 hm
        have := (List.pairwise_append.1 hty).2.2 b hb a (List.mem_cons_self ..)
        exact this (e ▸ h0) e
    obtain ⟨bt, e1, e2, _⟩ := ih { x with aliases := x.aliases ++ [a] } (fun b hb => hok b (List.mem_cons_of_mem _ hb)) (by simpa using hnd) (by simpa using hty)
    refine ⟨(sp i ++ textCore "alias" _ (A.anon a.1)) ++ bt, (emits_text i "alias" _ _).append e1, ?_, fun hn => by simp [textCore] at hn⟩
    have hr : Reads (elemCb A h) root (x, s) (sp i ++ textCore "alias" (if a.2 ≠ "" then [("type", a.2)] else []) (A.anon a.1)) ({ x with aliases := x.aliases ++ [a] }, s) := by
      refine (reads_sp _ _ _ i).append ?_
      unfold textCore
      rw [textToks_of h1.2]
      refine reads_text (fun e => hroot e.symm) fun rest => ?_
      have := identCb_alias h1 h2 hn ht rest
      simp only [elemCb, localName, Out.monad_bind_ok, hal, this]
    have e2' : Reads (elemCb A h) root ({ x with aliases := x.aliases ++ [a] }, s) bt ({ x with aliases := x.aliases ++ a :: as }, s) := by simpa using e2
    exact hr.append e2'

theorem props_body {A : Anon} {h : Handler σ} (root : String) (hpr : h "property" = none) (s : σ) (i : Bool) :
    ∀ (ps : PropMap.Props) (x : Ident), AMap.NodupKeys (x.props ++ ps) →
      ∃ bt, Emits i (propsCmds ps) bt ∧ Reads (elemCb A h) root (x, s) bt ({ x with props := x.props ++ ps }, s) ∧ (bt = [] → ps = []) := by
  intro ps
  induction ps with
  | nil => intro x _; exact ⟨[], emits_nil i, by simpa using reads_nil _ _ _, fun _ => rfl⟩
  | cons p ps ih =>
    intro x hnd
    obtain ⟨k, val⟩ := p
    have hnone : AMap.get? x.props k = none := by
      rw [AMap.get?_eq_none_iff]
      intro hm
      have hnd : ((x.props ++ (k, val) :: ps).map Prod.fst).Nodup := hnd
      rw [List.map_append, List.nodup_append] at hnd
      exact hnd.2.2 k hm k (by simp) rfl
    have hset : (PropMap.set k val x.props).2 = x.props ++ [(k, val)] := by
      simp only [PropMap.set, hnone]
      simp [AMap.emplace, hnone]
    have hnd' : AMap.NodupKeys ((x.props ++ [(k, val)]) ++ ps) := by simpa using hnd
    obtain ⟨bt, h1, h2, _⟩ := ih { x with props := x.props ++ [(k, val)] } hnd'
    refine ⟨elemToks i "property" [("name", k), ("value", val)] [] ++ bt, ((emits_nil i).elem _ _).append h1, ?_, ?_⟩
    · have hr : Reads (elemCb A h) root (x, s) (elemToks i "property" [("name", k), ("value", val)] []) ({ x with props := x.props ++ [(k, val)] }, s) := by
        refine (reads_sp _ _ _ i).append ?_
        refine reads_element (body := []) fun rest => ?_
        show elemCb A h (x, s) (.start "property" [("name", k), ("value", val)] true :: rest) = _
        simp only [elemCb, localName, Out.monad_bind_ok, hpr, identCb]
        rw [getS_attr (v := k) (by simp [lookup]), getS_attr (v := val) (by simp [lookup])]
        simp only [Out.monad_bind_ok, if_true, hset]
        rfl
      have h2' : Reads (elemCb A h) root ({ x with props := x.props ++ [(k, val)] }, s) bt ({ x with props := x.props ++ (k, val) :: ps }, s) := by simpa using h2
      exact hr.append h2'
    · intro h
      simp [elemToks, coreToks] at h

/-- The attributes of a class do not clash with those of every identifiable. -/
def NoHead (as : List (String × String)) : Prop := lookup "name" as = none ∧ lookup "fictitious" as = none

theorem readHead_elem {A : Anon} {h : Head} (hA : HeadOk A h) {as : List (String × String)} (hn : NoHead as) (n : String) (e : Bool) (rest : List Tok) :
    readHead A .v15 (.start n (headAttrs A .v15 h ++ as) e :: rest) = .ok h := by
  have hv : Ver.ge .v15 .v12 = true := by decide
  rw [readHead_eq hA]
  · simp [hv]
  · simp [lookup_append, lookup_headAttrs]
  · by_cases h0 : h.name = "" <;> simp [lookup_append, lookup_headAttrs, h0, hn.1]
  · intro _
    cases hf : h.fictitious <;> simp [lookup_append, lookup_headAttrs, hf, hn.2, hv]

/-- **The round trip of an element**, from its parts. -/
theorem readElem_rt {α β : Type} {A : Anon} {root : String} {rd : List Tok → Out α} {h : Handler σ} {s0 s1 : σ} {mk : Ident → α → σ → Out β} {x : Ident} {as : List (String × String)}
    {sub : List Cmd} {a : α} {b : β} (hx : IdentOk A x) (hn : NoHead as) (hroot : root ≠ "alias") (hal : h "alias" = none) (hpr : h "property" = none)
    (hrd : ∀ e tl, rd (.start root (headAttrs A .v15 x.head ++ as) e :: tl) = .ok a) (hb : Body A h root sub s0 s1) (hmk : mk x a s1 = .ok b) :
    RoundTrip (writeElem A root x as sub) (readElem A root rd h s0 mk) b := by
  unfold writeElem
  apply roundTrip_intro
  intro i
  obtain ⟨bt, e1, e2, e3⟩ := aliases_body (A := A) hroot hal s0 i x.aliases ⟨x.head, [], []⟩ hx.aliases (by simpa using hx.nodup) (by simpa using hx.types)
  obtain ⟨bu, f1, f2, f3⟩ := props_body (A := A) root hpr s0 i x.props ⟨x.head, x.aliases, []⟩ (by simpa using hx.props)
  obtain ⟨bv, g1, g2, g3⟩ := hb i
  refine ⟨bt ++ bu ++ bv, (e1.append f1).append g1, fun rest => ?_⟩
  have hr : Reads (elemCb A h) root (⟨x.head, [], []⟩, s0) (bt ++ bu ++ bv) (x, s1) := by
    have h1 : Reads (elemCb A h) root (⟨x.head, [], []⟩, s0) bt (⟨x.head, x.aliases, []⟩, s0) := by simpa using e2
    have h2 : Reads (elemCb A h) root (⟨x.head, x.aliases, []⟩, s0) bu (x, s0) := by simpa using f2
    exact (h1.append h2).append (g2 x)
  have hru := readUntilEnd_core (as := headAttrs A .v15 x.head ++ as) i hr (by
    intro hnil
    obtain ⟨n12, n3⟩ := List.append_eq_nil_iff.1 hnil
    obtain ⟨n1, n2⟩ := List.append_eq_nil_iff.1 n12
    have h1 := e3 n1
    have h2 := f3 n2
    rw [g3 n3]
    obtain ⟨hd, al, pr⟩ := x
    simp only at h1 h2
    subst h1 h2
    rfl) rest
  obtain ⟨e, tl, hc⟩ := core_start i root (headAttrs A .v15 x.head ++ as) (bt ++ bu ++ bv)
  rw [hc] at hru ⊢
  rw [List.cons_append] at hru ⊢
  unfold readElem
  simp only [readHead_elem hx.head hn, hrd, hru, hmk, Out.monad_bind_ok]

theorem readElem_ert {α β : Type} {A : Anon} {root : String} {rd : List Tok → Out α} {h : Handler σ} {s0 s1 : σ} {mk : Ident → α → σ → Out β} {x : Ident} {as : List (String × String)}
    {sub : List Cmd} {a : α} {b : β} (hx : IdentOk A x) (hn : NoHead as) (hroot : root ≠ "alias") (hal : h "alias" = none) (hpr : h "property" = none)
    (hrd : ∀ e tl, rd (.start root (headAttrs A .v15 x.head ++ as) e :: tl) = .ok a) (hb : Body A h root sub s0 s1) (hmk : mk x a s1 = .ok b) :
    ElemRT root (.ok (writeElem A root x as sub)) (readElem A root rd h s0 mk) b :=
  ⟨_, _, rfl, readElem_rt hx hn hroot hal hpr hrd hb hmk⟩

end Verif.XmlNet
