import Verif.ExtNet.Model
import Verif.ExtXml.Props
import Verif.XmlNet.NetProps

/-! How the reader goes over the extensions of a document.  Helper lemmas; `Plain`, `Wanted` and `Carries` are part of the statements. -/

namespace Verif.ExtNet

open Verif Verif.Xml Verif.XmlNet Verif.ExtXml

variable {ε X : Type}

/-! ### Elements that can be skipped -/

/-- Spec: the element is written as one element, inside which no element has its name. -/
def Plain (n : String) (as : List (String × String)) (body : List Cmd) : Prop :=
  ∀ i : Bool, ∃ (b : List (String × String)) (e : Bool) (tl : List Tok), Emits i (elemCmds n as body) (sp i ++ .start n b e :: tl) ∧
    ((e = true ∧ tl = []) ∨ (e = false ∧ ∃ ts, tl = ts ++ [.stop n] ∧ Tok.stop n ∉ ts))

/-- Complete nodes, none of which is the end of an element of this name. -/
def Avoids (n : String) (body : List Cmd) : Prop := ∀ i : Bool, ∃ ts, Emits i body ts ∧ Tok.stop n ∉ ts

theorem avoids_nil (n : String) : Avoids n [] := fun i => ⟨[], emits_nil i, by simp⟩

theorem Avoids.append {n : String} {b c : List Cmd} (h : Avoids n b) (h' : Avoids n c) : Avoids n (b ++ c) := by
  intro i
  obtain ⟨ts, h1, h2⟩ := h i
  obtain ⟨us, h3, h4⟩ := h' i
  exact ⟨_, h1.append h3, by simp [h2, h4]⟩

theorem sp_not_stop (i : Bool) (n : String) : Tok.stop n ∉ sp i := by cases i <;> simp [sp]

theorem Avoids.elem {n m : String} {as : List (String × String)} {b : List Cmd} (hn : m ≠ n) (h : Avoids n b) : Avoids n (elemCmds m as b) := by
  intro i
  obtain ⟨ts, h1, h2⟩ := h i
  refine ⟨_, h1.elem m as, ?_⟩
  unfold elemToks coreToks
  split
  · simp [sp_not_stop]
  · simp [sp_not_stop, h2, Ne.symm hn]

theorem plain_of_avoids {n : String} {as : List (String × String)} {b : List Cmd} (h : Avoids n b) : Plain n as b := by
  intro i
  obtain ⟨ts, h1, h2⟩ := h i
  have := h1.elem n as
  unfold elemToks coreToks at this
  split at this
  · exact ⟨as, true, [], this, .inl ⟨rfl, rfl⟩⟩
  · exact ⟨as, false, _, this, .inr ⟨rfl, _, rfl, by simp [h2, sp_not_stop]⟩⟩

theorem plain_text (n : String) (as : List (String × String)) (t : String) : Plain n as [.chars t] := by
  intro i
  have := emits_text i n as t
  refine ⟨as, false, _, this, .inr ⟨rfl, _, rfl, ?_⟩⟩
  unfold textToks
  split
  · simp
  · split <;> simp

theorem skip_loop (n : String) : ∀ (ts rest : List Tok) (k : Nat), Tok.stop n ∉ ts → ts.length < k →
    loop (fun (u : Unit) ts => .ok (u, ts)) n k () (ts ++ .stop n :: rest) = .ok ((), .stop n :: rest) := by
  intro ts
  induction ts with
  | nil =>
    intro rest k _ hk
    obtain ⟨k, rfl⟩ : ∃ j, k = j + 1 := ⟨k - 1, by simp at hk; omega⟩
    simp [loop]
  | cons t ts ih =>
    intro rest k hn hk
    obtain ⟨k, rfl⟩ : ∃ j, k = j + 1 := ⟨k - 1, by simp at hk; omega⟩
    simp only [List.mem_cons, not_or] at hn
    have hk' : ts.length < k := by simpa using hk
    have := ih rest k hn.2 hk'
    cases t with
    | start m a e => exact this
    | text s => exact this
    | blank => exact this
    | stop m =>
      have hm : m ≠ n := by rintro rfl; exact hn.1 rfl
      simp only [List.cons_append, loop, if_neg hm]
      exact this

theorem skip_plain {n : String} {b : List (String × String)} {e : Bool} {tl : List Tok}
    (h : (e = true ∧ tl = []) ∨ (e = false ∧ ∃ ts, tl = ts ++ [.stop n] ∧ Tok.stop n ∉ ts)) (rest : List Tok) :
    skip n ((.start n b e :: tl) ++ rest) = .ok (last1 (.start n b e :: tl) ++ rest) := by
  rcases h with ⟨rfl, rfl⟩ | ⟨rfl, ts, rfl, hn⟩
  · rfl
  · rw [← List.cons_append, last1_snoc]
    unfold skip
    show (loop _ n _ () (ts ++ [.stop n] ++ rest)).map _ = _
    rw [List.append_assoc, List.singleton_append, skip_loop n ts rest _ hn (by simp; omega)]
    rfl

/-! ### The extensions of an object -/

/-- The extension is asked for: no list, or its name in the list. -/
def Wanted (list : List String) (n : String) : Prop := list = [] ∨ n ∈ list

instance (list : List String) (n : String) : Decidable (Wanted list n) := inferInstanceAs (Decidable (_ ∨ _))

theorem withExt_iff {list : List String} {n : String} : withExt list n = true ↔ Wanted list n := by simp [withExt, Wanted]

/-- Spec: the extension `x` is written as an element that can be skipped, and that the reader, if it wants it and has a serializer for it, turns into what `y` says when it
is in an object that looks like `e`. -/
def Carries (nm : X → String) (P Q : Providers ε X) (o : WOpts) (r : ROpts) (e : ε) (x : X) (y : Out X) : Prop :=
  ∃ as body, writeOne nm P o x = .ok (elemCmds (nm x) as body) ∧ Plain (nm x) as body ∧
    (Wanted r.list (nm x) → ∀ q, Q.get? (nm x) = some q → y ≠ .ub ∧ Reading (elemCmds (nm x) as body) (q.read e) y)

/-- What the reader does with one extension. -/
def take1 (nm : X → String) (Q : Providers ε X) (r : ROpts) (id : String) (x : X) (y : Out X) (s : Sect X) : Out (Sect X) :=
  if Wanted r.list (nm x) then
    (match Q.get? (nm x) with
    | some _ => y.map fun z => { s with got := s.got ++ [(id, z)] }
    | none => .ok { s with missing := insertName (nm x) s.missing })
  else .ok s

def takeAll (nm : X → String) (Q : Providers ε X) (r : ROpts) (id : String) (y : X → Out X) : List X → Sect X → Out (Sect X)
  | [], s => .ok s
  | x :: xs, s => (take1 nm Q r id x (y x) s).bind (takeAll nm Q r id y xs)

theorem one_runs {nm : X → String} {P Q : Providers ε X} {o : WOpts} {r : ROpts} {e : ε} {x : X} {y : Out X} (id : String) (h : Carries nm P Q o r e x y) :
    ∃ cs, writeOne nm P o x = .ok cs ∧ ∀ i, ∃ bt, Emits i cs bt ∧ bt ≠ [] ∧ ∀ s, Runs (extCb Q r id e) "extension" s bt (take1 nm Q r id x y s) := by
  obtain ⟨as, body, h1, h2, h3⟩ := h
  refine ⟨_, h1, fun i => ?_⟩
  obtain ⟨b, em, tl, h4, h5⟩ := h2 i
  refine ⟨_, h4, by simp, fun s => ?_⟩
  refine (runs_sp _ _ _ i).append (f := take1 nm Q r id x y) fun s' hs' => ?_
  cases hs'
  have hskip := skip_plain (b := b) h5
  by_cases hw : Wanted r.list (nm x)
  · cases hq : Q.get? (nm x) with
    | none =>
      refine runs_element (by simp [take1, hw, hq]) fun rest => ?_
      have := hskip rest
      rw [List.cons_append] at this ⊢
      simp only [extCb, localName, Out.monad_bind_ok, take1, hq, this, if_pos hw, withExt_iff.2 hw, Bool.not_true, Bool.false_eq_true, if_false]
      rfl
    | some q =>
      obtain ⟨hu, hr⟩ := h3 hw q hq
      refine runs_element (by cases y <;> simp [take1, hw, hq, Out.map] at hu ⊢) fun rest => ?_
      obtain ⟨ts, hne, g1, g2⟩ := hr i
      have hts : ts = .start (nm x) b em :: tl := by
        have k1 := g1 ⟨[], ["x"], none⟩ (by simp)
        have k2 := h4.1 ⟨[], ["x"], none⟩ (by simp)
        rw [k1, W.after, if_neg (by simp)] at k2
        simp only [Out.ok.injEq, W.mk.injEq, and_true] at k2
        exact List.append_cancel_left (List.append_cancel_left k2)
      subst hts
      have := g2 rest
      rw [List.cons_append] at this ⊢
      simp only [extCb, localName, Out.monad_bind_ok, take1, hq, this, if_pos hw, withExt_iff.2 hw, Bool.not_true, Bool.false_eq_true, if_false]
      cases y <;> rfl
  · refine runs_element (by simp [take1, hw]) fun rest => ?_
    have := hskip rest
    rw [List.cons_append] at this ⊢
    have hf : withExt r.list (nm x) = false := by rw [← Bool.not_eq_true, withExt_iff]; exact hw
    simp only [extCb, localName, Out.monad_bind_ok, take1, this, if_neg hw, hf, Bool.not_false, if_true]
    rfl

theorem exts_runs {nm : X → String} {P Q : Providers ε X} {o : WOpts} {r : ROpts} {e : ε} {y : X → Out X} (id : String) : ∀ xs : List X, (∀ x ∈ xs, Carries nm P Q o r e x (y x)) →
    ∃ cs, writeList (writeOne nm P o) xs = .ok cs ∧ ∀ i, ∃ bt, Emits i cs bt ∧ (bt = [] → xs = []) ∧ ∀ s, Runs (extCb Q r id e) "extension" s bt (takeAll nm Q r id y xs s) := by
  intro xs
  induction xs with
  | nil => intro _; exact ⟨[], rfl, fun i => ⟨[], emits_nil i, fun _ => rfl, fun s => runs_nil _ _ _⟩⟩
  | cons x xs ih =>
    intro h
    obtain ⟨c, h1, h2⟩ := one_runs id (h x List.mem_cons_self)
    obtain ⟨cs, h3, h4⟩ := ih fun z hz => h z (List.mem_cons_of_mem _ hz)
    refine ⟨c ++ cs, by simp only [writeList, h1, h3, Out.monad_bind_ok], fun i => ?_⟩
    obtain ⟨bt, e1, e2, e3⟩ := h2 i
    obtain ⟨bu, f1, -, f3⟩ := h4 i
    exact ⟨bt ++ bu, e1.append f1, fun hn => absurd (List.append_eq_nil_iff.1 hn).1 e2, fun s => (e3 s).append fun s' _ => f3 s'⟩

/-! ### The objects -/

/-- The extensions of an object that are written. -/
def Holder.written (nm : X → String) (o : WOpts) (h : Holder X) : List X := if h.exported then h.exts.filter fun x => decide (Wanted o.list (nm x)) else []

theorem filter_wanted (nm : X → String) (o : WOpts) (l : List X) : (l.filter fun x => withExt o.list (nm x)) = l.filter fun x => decide (Wanted o.list (nm x)) := by
  congr 1
  funext x
  rw [Bool.eq_iff_iff, withExt_iff, decide_eq_true_iff]

theorem written_nil {nm : X → String} {o : WOpts} {h : Holder X} :
    (!h.exported || h.exts.isEmpty || !o.atLeastOne (h.exts.map nm)) = true ↔ h.written nm o = [] := by
  unfold Holder.written WOpts.atLeastOne
  cases h.exported with
  | false => simp
  | true =>
    simp only [Bool.not_true, Bool.false_or, if_true, List.filter_eq_nil_iff, decide_eq_true_eq, Bool.or_eq_true, Bool.not_eq_true', Bool.or_eq_false_iff, List.isEmpty_iff]
    constructor
    · rintro (h1 | ⟨h1, h2⟩) x hx
      · rw [h1] at hx; cases hx
      · rintro (h3 | h3)
        · rw [h3] at h1; cases h1
        · have := List.any_eq_false.1 h2 (nm x) (List.mem_map.2 ⟨x, hx, rfl⟩)
          exact this (List.contains_iff_mem.2 h3)
    · intro hx
      cases he : h.exts with
      | nil => exact .inl rfl
      | cons x xs =>
        refine .inr ⟨?_, ?_⟩
        · cases hl : o.list with
          | nil => exact absurd (Or.inl hl) (hx x (by rw [he]; exact List.mem_cons_self))
          | cons _ _ => rfl
        · rw [← he, List.any_eq_false]
          rintro n hn hc
          obtain ⟨z, hz, rfl⟩ := List.mem_map.1 hn
          exact hx z hz (.inr (List.contains_iff_mem.1 hc))

theorem writeHolder_eq (A : Anon) (nm : X → String) (P : Providers ε X) (o : WOpts) (h : Holder X) : writeHolder A nm P o h =
    if h.written nm o = [] then .ok [] else (writeList (writeOne nm P o) (h.written nm o)).map fun c => elemCmds "extension" [("id", A.anon h.id)] c := by
  unfold writeHolder
  by_cases hw : h.written nm o = []
  · rw [if_pos hw, if_pos (written_nil.2 hw)]
  · rw [if_neg hw, if_neg (fun hc => hw (written_nil.1 hc)), filter_wanted]
    have : h.exported = true := by
      cases he : h.exported with
      | true => rfl
      | false => exact absurd (by simp [Holder.written, he]) hw
    simp [Holder.written, this]

theorem holder_core {A : Anon} {nm : X → String} {P Q : Providers ε X} {o : WOpts} {r : ROpts} {get : String → Out ε} {e : ε} {y : X → Out X} {h : Holder X}
    (hA : A.Inverts h.id) (hg : get h.id = .ok e) (hc : ∀ x ∈ h.written nm o, Carries nm P Q o r e x (y x)) (hw : h.written nm o ≠ []) :
    ∃ cs, writeHolder A nm P o h = .ok (elemCmds "extension" [("id", A.anon h.id)] cs) ∧ ∀ i, ∃ bt, Emits i cs bt ∧ ∀ s rest,
      sectCb A Q r get s (coreToks i "extension" [("id", A.anon h.id)] bt ++ rest) =
        (takeAll nm Q r h.id y (h.written nm o) s).map fun s' => (s', last1 (coreToks i "extension" [("id", A.anon h.id)] bt) ++ rest) := by
  obtain ⟨cs, h1, h2⟩ := exts_runs h.id _ hc
  refine ⟨cs, by rw [writeHolder_eq, if_neg hw, h1]; rfl, fun i => ?_⟩
  obtain ⟨bt, h3, h4, h5⟩ := h2 i
  refine ⟨bt, h3, fun s rest => ?_⟩
  have hr := readUntilEnd_runs (as := [("id", A.anon h.id)]) i (h5 s) (fun hb => absurd (h4 hb) hw) rest
  obtain ⟨em, tl, hcore⟩ := core_start i "extension" [("id", A.anon h.id)] bt
  rw [hcore, List.cons_append] at hr ⊢
  have hid : getS "id" (.start "extension" [("id", A.anon h.id)] em :: (tl ++ rest)) = .ok (A.anon h.id) := getS_attr (by simp [lookup])
  have hdean : A.dean (A.anon h.id) = .ok h.id := hA
  simp only [sectCb, hid, hdean, hg, Out.monad_bind_ok, hr]

/-- What the reader does with all the objects. -/
def takeSection (nm : X → String) (Q : Providers ε X) (o : WOpts) (r : ROpts) (y : String → X → Out X) : List (Holder X) → Sect X → Out (Sect X)
  | [], s => .ok s
  | h :: hs, s => (takeAll nm Q r h.id (y h.id) (h.written nm o) s).bind (takeSection nm Q o r y hs)

theorem takeAll_ne_ub {nm : X → String} {P Q : Providers ε X} {o : WOpts} {r : ROpts} {e : ε} {y : X → Out X} (id : String) : ∀ xs : List X, (∀ x ∈ xs, Carries nm P Q o r e x (y x)) →
    ∀ s, takeAll nm Q r id y xs s ≠ .ub := by
  intro xs
  induction xs with
  | nil => intro _ s; simp [takeAll]
  | cons x xs ih =>
    intro h s
    simp only [takeAll]
    have h1 : take1 nm Q r id x (y x) s ≠ .ub := by
      unfold take1
      split
      · rename_i hw
        cases hq : Q.get? (nm x) with
        | none => simp
        | some q =>
          obtain ⟨_, _, _, _, h3⟩ := h x List.mem_cons_self
          have := (h3 hw q hq).1
          revert this
          cases y x <;> simp [Out.map]
      · simp
    cases hk : take1 nm Q r id x (y x) s with
    | ub => exact absurd hk h1
    | thrown => simp [Out.bind]
    | ok s' => exact ih (fun z hz => h z (List.mem_cons_of_mem _ hz)) s'

/-- The section of the extensions, read by the callback of the network. -/
theorem section_runs {K : XCodec} {A : Anon} {nm : X → String} {P Q : Providers ε X} {o : WOpts} {r : ROpts} {look : NetSub → String → Out ε} {e : String → ε} {y : String → X → Out X}
    (t : NetSub) : ∀ hs : List (Holder X), (∀ h ∈ hs, h.written nm o ≠ [] → A.Inverts h.id ∧ look t h.id = .ok (e h.id) ∧ ∀ x ∈ h.written nm o, Carries nm P Q o r (e h.id) x (y h.id x)) →
    ∃ cs, writeSection A nm P o hs = .ok cs ∧ ∀ i, ∃ bt, Emits i cs bt ∧ (bt = [] → ∀ s, takeSection nm Q o r y hs s = .ok s) ∧
      ∀ (z : Ident) (s : Sect X), Runs (elemCb A (netSubX K A Q r look)) "network" (z, (t, s)) bt ((takeSection nm Q o r y hs s).map fun s' => (z, (t, s'))) := by
  intro hs
  induction hs with
  | nil => intro _; exact ⟨[], rfl, fun i => ⟨[], emits_nil i, fun _ s => rfl, fun z s => runs_nil _ _ _⟩⟩
  | cons h hs ih =>
    intro hh
    obtain ⟨cs, w2, h2⟩ := ih fun z hz => hh z (List.mem_cons_of_mem _ hz)
    by_cases hw : h.written nm o = []
    · have w1 : writeHolder A nm P o h = .ok [] := by rw [writeHolder_eq, if_pos hw]
      refine ⟨[] ++ cs, by simp only [writeSection, writeList, w1, Out.monad_bind_ok]; rw [show writeList (writeHolder A nm P o) hs = _ from w2]; rfl, fun i => ?_⟩
      obtain ⟨bt, f1, f2, f3⟩ := h2 i
      have hts : ∀ s, takeSection nm Q o r y (h :: hs) s = takeSection nm Q o r y hs s := fun s => by simp only [takeSection, hw, takeAll, Out.bind_ok]
      exact ⟨bt, f1, fun hb s => by rw [hts]; exact f2 hb s, fun z s => by rw [hts]; exact f3 z s⟩
    · obtain ⟨hA, hl, hc⟩ := hh h List.mem_cons_self hw
      obtain ⟨c, w1, h1⟩ := holder_core (r := r) (get := look t) hA hl hc hw
      refine ⟨elemCmds "extension" [("id", A.anon h.id)] c ++ cs, by simp only [writeSection, writeList, w1, Out.monad_bind_ok]; rw [show writeList (writeHolder A nm P o) hs = _ from w2]; rfl, fun i => ?_⟩
      obtain ⟨bt, e1, e2⟩ := h1 i
      obtain ⟨bu, f1, -, f3⟩ := h2 i
      refine ⟨_, (e1.elem "extension" [("id", A.anon h.id)]).append f1, fun hb => by simp [elemToks, core_ne_nil] at hb, fun z s => ?_⟩
      have hub := takeAll_ne_ub (Q := Q) (r := r) h.id _ hc s
      have hel : Runs (elemCb A (netSubX K A Q r look)) "network" (z, (t, s)) (elemToks i "extension" [("id", A.anon h.id)] bt)
          ((takeAll nm Q r h.id (y h.id) (h.written nm o) s).map fun s' => (z, (t, s'))) := by
        unfold elemToks
        refine (runs_sp _ _ _ i).append (f := fun p => (takeAll nm Q r h.id (y h.id) (h.written nm o) s).map fun s' => (z, (t, s'))) fun p hp => ?_
        cases hp
        obtain ⟨em, tl, hcore⟩ := core_start i "extension" [("id", A.anon h.id)] bt
        have h5 := fun rest => e2 s rest
        rw [hcore] at h5 ⊢
        refine runs_element (by revert hub; cases takeAll nm Q r h.id (y h.id) (h.written nm o) s <;> simp [Out.map]) fun rest => ?_
        have h6 := h5 rest
        rw [List.cons_append] at h6 ⊢
        have hh : netSubX K A Q r look "extension" = some (fun s toks => (sectCb A Q r (look s.1) s.2 toks).bind fun r => .ok ((s.1, r.1), r.2)) := rfl
        simp only [elemCb, localName, Out.monad_bind_ok, hh, h6]
        cases takeAll nm Q r h.id (y h.id) (h.written nm o) s <;> rfl
      have hall := hel.append (us := bu) (f := fun p => (takeSection nm Q o r y hs p.2.2).map fun s' => (z, (t, s'))) (by
        intro p hp
        obtain ⟨s', hs', rfl⟩ : ∃ s', takeAll nm Q r h.id (y h.id) (h.written nm o) s = .ok s' ∧ (z, (t, s')) = p := by
          revert hp
          cases takeAll nm Q r h.id (y h.id) (h.written nm o) s <;> simp [Out.map]
        exact f3 z s')
      have heq : ((takeAll nm Q r h.id (y h.id) (h.written nm o) s).map fun s' => (z, (t, s'))).bind (fun p => (takeSection nm Q o r y hs p.2.2).map fun s' => (z, (t, s'))) =
          (takeSection nm Q o r y (h :: hs) s).map fun s' => (z, (t, s')) := by
        simp only [takeSection]
        cases takeAll nm Q r h.id (y h.id) (h.written nm o) s <;> rfl
      rw [← heq]
      exact hall

end Verif.ExtNet
