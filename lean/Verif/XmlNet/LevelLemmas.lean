import Verif.XmlNet.Levels
import Verif.XmlNet.BranchesProps

/-!
Helper lemmas for the round trips of voltage levels and substations: commas, sets of tags, lists of sub elements.
-/

namespace Verif.XmlNet

open Verif Verif.Xml

/-! ### Commas -/

theorem splitChars_clean : ∀ (s : List Char), ',' ∉ s → splitChars s = [s] := by
  intro s
  induction s with
  | nil => intro _; rfl
  | cons c cs ih =>
    intro h
    have h1 : c ≠ ',' := fun e => h (by rw [e]; exact List.mem_cons_self)
    simp only [splitChars, if_neg h1, ih fun h' => h (List.mem_cons_of_mem _ h')]

theorem splitChars_comma : ∀ (s rest : List Char), ',' ∉ s → splitChars (s ++ ',' :: rest) = s :: splitChars rest := by
  intro s
  induction s with
  | nil => intro rest _; simp [splitChars]
  | cons c cs ih =>
    intro rest h
    have h1 : c ≠ ',' := fun e => h (by rw [e]; exact List.mem_cons_self)
    simp only [List.cons_append, splitChars, if_neg h1, ih rest fun h' => h (List.mem_cons_of_mem _ h')]

/-- A text without comma. -/
def NoComma (s : String) : Prop := ',' ∉ s.toList

instance (s : String) : Decidable (NoComma s) := inferInstanceAs (Decidable (¬ _))

theorem split_join : ∀ (xs : List String), xs ≠ [] → (∀ x ∈ xs, NoComma x) → splitComma (String.ofList (joinComma xs)) = xs := by
  intro xs
  induction xs with
  | nil => intro h; exact absurd rfl h
  | cons x xs ih =>
    intro _ h
    have hx : ',' ∉ x.toList := h x List.mem_cons_self
    cases xs with
    | nil => simp [splitComma, joinComma, splitChars_clean _ hx]
    | cons y ys =>
      have h2 := ih (by simp) fun z hz => h z (List.mem_cons_of_mem _ hz)
      simp only [splitComma, String.toList_ofList] at h2 ⊢
      rw [joinComma, splitChars_comma _ _ hx, List.map_cons, h2, String.ofList_toList]

/-! ### Sets of tags -/

/-- Strictly increasing, as the elements of a `std::set`. -/
def Increasing (l : List String) : Prop := l.Pairwise (· < ·)

theorem insertTag_last (t : String) : ∀ (l : List String), (∀ u ∈ l, u < t) → insertTag t l = l ++ [t] := by
  intro l
  induction l with
  | nil => intro _; rfl
  | cons u us ih =>
    intro h
    have h1 : u < t := h u List.mem_cons_self
    have h2 : ¬ t < u := String.lt_asymm h1
    have h3 : t ≠ u := fun e => by subst e; exact String.lt_irrefl _ h1
    simp only [insertTag, if_neg h2, if_neg h3, ih fun v hv => h v (List.mem_cons_of_mem _ hv), List.cons_append]

theorem readTags_back {A : Anon} : ∀ (ts acc : List String), (∀ t ∈ ts, A.Inverts t) → Increasing (acc ++ ts) → readTags A (ts.map A.anon) acc = .ok (acc ++ ts) := by
  intro ts
  induction ts with
  | nil => intro acc _ _; simp [readTags]
  | cons t ts ih =>
    intro acc hA hi
    have h1 : A.dean (A.anon t) = .ok t := hA t List.mem_cons_self
    have h2 : insertTag t acc = acc ++ [t] := insertTag_last t acc fun u hu => (List.pairwise_append.1 hi).2.2 u hu t List.mem_cons_self
    simp only [List.map_cons, readTags, h1, Out.monad_bind_ok, h2]
    rw [ih (acc ++ [t]) (fun u hu => hA u (List.mem_cons_of_mem _ hu)) (by simpa using hi)]
    simp

/-! ### Lists of sub elements -/

theorem foldl_push {σ α : Type} {get : σ → List α} {put : σ → List α → σ} (gp : ∀ s l, get (put s l) = l) (pp : ∀ s l m, put (put s l) m = put s m) (pg : ∀ s, put s (get s) = s) :
    ∀ (xs : List α) (s : σ), xs.foldl (fun s x => put s (get s ++ [x])) s = put s (get s ++ xs) := by
  intro xs
  induction xs with
  | nil => intro s; simp [pg]
  | cons x xs ih =>
    intro s
    rw [List.foldl_cons, ih, gp, pp]
    simp

theorem push_list {σ α : Type} {A : Anon} {h : Handler σ} {root n : String} {w : α → Out (List Cmd)} {read : List Tok → Out (α × List Tok)} (get : σ → List α) (put : σ → List α → σ)
    (hh : h n = some (pushCb read fun s x => put s (get s ++ [x]))) (gp : ∀ s l, get (put s l) = l) (pp : ∀ s l m, put (put s l) m = put s m) (pg : ∀ s, put s (get s) = s)
    (xs : List α) (s : σ) (hx : ∀ x ∈ xs, ElemRT n (w x) read x) : ∃ cs, writeList w xs = .ok cs ∧ Body A h root cs s (put s (get s ++ xs)) := by
  have := body_list (A := A) (root := root) (push := fun s x => put s (get s ++ [x])) hh (fun s toks a r hr => by simp only [pushCb, hr, Out.monad_bind_ok]) xs s hx
  rwa [foldl_push gp pp pg] at this

theorem ppush_list {σ α : Type} {h : Handler σ} {root n : String} {w : α → Out (List Cmd)} {read : List Tok → Out (α × List Tok)} (get : σ → List α) (put : σ → List α → σ)
    (hh : h n = some (pushCb read fun s x => put s (get s ++ [x]))) (gp : ∀ s l, get (put s l) = l) (pp : ∀ s l m, put (put s l) m = put s m) (pg : ∀ s, put s (get s) = s)
    (xs : List α) (s : σ) (hx : ∀ x ∈ xs, ElemRT n (w x) read x) : ∃ cs, writeList w xs = .ok cs ∧ PBody h root cs s (put s (get s ++ xs)) := by
  have := pbody_list (root := root) (push := fun s x => put s (get s ++ [x])) hh (fun s toks a r hr => by simp only [pushCb, hr, Out.monad_bind_ok]) xs s hx
  rwa [foldl_push gp pp pg] at this

/-- A loop that succeeds stops on the end that it waits for. -/
theorem loop_stops {σ : Type} {cb : Callback σ} {name : String} : ∀ (fuel : Nat) (s : σ) (toks : List Tok) (s' : σ) (r : List Tok), loop cb name fuel s toks = .ok (s', r) →
    ∃ t, r = .stop name :: t := by
  intro fuel
  induction fuel with
  | zero => intro s toks s' r h; simp [loop] at h
  | succ fuel ih =>
    intro s toks s' r h
    cases toks with
    | nil => simp [loop] at h
    | cons t rest =>
      cases t with
      | start n a e =>
        rw [loop] at h
        split at h
        · exact ih _ _ _ _ h
        · cases h
        · cases h
      | text x => rw [loop] at h; exact ih _ _ _ _ h
      | blank => rw [loop] at h; exact ih _ _ _ _ h
      | stop n =>
        rw [loop] at h
        split at h
        · rename_i e
          simp only [Out.ok.injEq, Prod.mk.injEq] at h
          exact ⟨rest, by rw [← h.2, e]⟩
        · exact ih _ _ _ _ h

end Verif.XmlNet
