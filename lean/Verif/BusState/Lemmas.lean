import Verif.BusState.Spec
import Verif.NodeBreaker.BusProps
import Verif.Graph.Probe

/-! Helper lemmas on the voltage and the angle of a bus. -/

namespace Verif.BusState

open Verif Verif.Graph Verif.NodeBreaker

theorem checkVoltage_cases (x : Dbl) : (checkVoltage x = .ok () ∧ Acceptable x) ∨ (checkVoltage x = .thrown ∧ ¬ Acceptable x) := by
  unfold checkVoltage Acceptable
  cases x with
  | nan => left; simp [Dbl.isNan]
  | negInf => right; simp [Dbl.isNan, Dbl.lt, Dbl.le]
  | posInf => left; simp [Dbl.isNan, Dbl.lt, Dbl.le]
  | fin r =>
    simp only [Dbl.isNan, Dbl.lt, Dbl.le, Bool.not_false, Bool.true_and, decide_eq_true_eq]
    by_cases h : r < 0
    · right; rw [if_pos h]; exact ⟨rfl, by simp only [reduceCtorEq, false_or]; exact Rat.not_le.mpr h⟩
    · left; rw [if_neg h]; exact ⟨rfl, .inr (Rat.not_lt.mp h)⟩

theorem each_tv (w : Nat) (x : Dbl) (hx : checkVoltage x = .ok ()) (ts : List Nat) : ∀ s : St,
    ∃ s', each (termSetV w x) ts s = (.ok (), s') ∧ s'.ta = s.ta ∧ s'.bv = s.bv ∧ s'.ba = s.ba ∧
      ∀ t w', s'.tv t w' = if t ∈ ts ∧ w' = w then x else s.tv t w' := by
  induction ts with
  | nil => intro s; exact ⟨s, rfl, rfl, rfl, rfl, by simp⟩
  | cons t ts ih =>
    intro s
    obtain ⟨s', h1, h2, h3, h4, h5⟩ := ih { s with tv := put s.tv t w x }
    refine ⟨s', ?_, h2, h3, h4, ?_⟩
    · simp only [each, termSetV, hx]; exact h1
    · intro t' w'
      rw [h5 t' w']
      by_cases a : w' = w <;> by_cases b : t' ∈ ts <;> by_cases c : t' = t <;> simp [a, b, c, put]

theorem each_bv (w : Nat) (x : Dbl) (hx : checkVoltage x = .ok ()) (ts : List Nat) : ∀ s : St,
    ∃ s', each (confSetV w x) ts s = (.ok (), s') ∧ s'.ta = s.ta ∧ s'.tv = s.tv ∧ s'.ba = s.ba ∧
      ∀ t w', s'.bv t w' = if t ∈ ts ∧ w' = w then x else s.bv t w' := by
  induction ts with
  | nil => intro s; exact ⟨s, rfl, rfl, rfl, rfl, by simp⟩
  | cons t ts ih =>
    intro s
    obtain ⟨s', h1, h2, h3, h4, h5⟩ := ih { s with bv := put s.bv t w x }
    refine ⟨s', ?_, h2, h3, h4, ?_⟩
    · simp only [each, confSetV, hx]; exact h1
    · intro t' w'
      rw [h5 t' w']
      by_cases a : w' = w <;> by_cases b : t' ∈ ts <;> by_cases c : t' = t <;> simp [a, b, c, put]

theorem each_ta (w : Nat) (x : Dbl) (ts : List Nat) : ∀ s : St,
    ∃ s', each (termSetAngle w x) ts s = (.ok (), s') ∧ s'.tv = s.tv ∧ s'.bv = s.bv ∧ s'.ba = s.ba ∧
      ∀ t w', s'.ta t w' = if t ∈ ts ∧ w' = w then x else s.ta t w' := by
  induction ts with
  | nil => intro s; exact ⟨s, rfl, rfl, rfl, rfl, by simp⟩
  | cons t ts ih =>
    intro s
    obtain ⟨s', h1, h2, h3, h4, h5⟩ := ih { s with ta := put s.ta t w x }
    refine ⟨s', h1, h2, h3, h4, ?_⟩
    intro t' w'
    rw [h5 t' w']
    by_cases a : w' = w <;> by_cases b : t' ∈ ts <;> by_cases c : t' = t <;> simp [a, b, c, put]

theorem each_ba (w : Nat) (x : Dbl) (ts : List Nat) : ∀ s : St,
    ∃ s', each (confSetAngle w x) ts s = (.ok (), s') ∧ s'.tv = s.tv ∧ s'.bv = s.bv ∧ s'.ta = s.ta ∧
      ∀ t w', s'.ba t w' = if t ∈ ts ∧ w' = w then x else s.ba t w' := by
  induction ts with
  | nil => intro s; exact ⟨s, rfl, rfl, rfl, rfl, by simp⟩
  | cons t ts ih =>
    intro s
    obtain ⟨s', h1, h2, h3, h4, h5⟩ := ih { s with ba := put s.ba t w x }
    refine ⟨s', h1, h2, h3, h4, ?_⟩
    intro t' w'
    rw [h5 t' w']
    by_cases a : w' = w <;> by_cases b : t' ∈ ts <;> by_cases c : t' = t <;> simp [a, b, c, put]

/-- An acceptable voltage is written to what the bus owns, and nowhere else. -/
theorem setV_ok {s : St} {w : Nat} {b : Bus} {x : Dbl} (hv : Valid b) (hx : Acceptable x) :
    ∃ s', setV s w b x = (.ok (), s') ∧ angle s' = angle s ∧
      ∀ h w', voltage s' h w' = if Owns b h ∧ w' = w then x else voltage s h w' := by
  have hc : checkVoltage x = .ok () := by
    rcases checkVoltage_cases x with h | h
    · exact h.1
    · exact absurd hx h.2
  cases b with
  | calculated valid ts ref =>
    cases hv
    obtain ⟨s', h1, h2, h3, h4, h5⟩ := each_tv w x hc ts s
    refine ⟨s', h1, ?_, ?_⟩
    · funext h; cases h <;> simp [angle, h2, h4]
    · intro h w'
      cases h with
      | terminal t => simp only [voltage, Owns]; exact h5 t w'
      | bus b => simp [voltage, Owns, h3]
  | conf c =>
    refine ⟨{ s with bv := put s.bv c w x }, (by simp only [setV, confSetV, hc]), (by funext h; cases h <;> rfl), ?_⟩
    intro h w'
    cases h with
    | terminal t => simp [voltage, Owns]
    | bus b => by_cases h1 : b = c <;> by_cases h2 : w' = w <;> simp [voltage, Owns, put, h1, h2]
  | merged valid bs =>
    cases hv
    obtain ⟨s', h1, h2, h3, h4, h5⟩ := each_bv w x hc bs s
    refine ⟨s', h1, ?_, ?_⟩
    · funext h; cases h <;> simp [angle, h2, h4]
    · intro h w'
      cases h with
      | bus b => simp only [voltage, Owns]; exact h5 b w'
      | terminal t => simp [voltage, Owns, h3]

theorem setAngle_ok {s : St} {w : Nat} {b : Bus} {x : Dbl} (hv : Valid b) :
    ∃ s', setAngle s w b x = (.ok (), s') ∧ voltage s' = voltage s ∧
      ∀ h w', angle s' h w' = if Owns b h ∧ w' = w then x else angle s h w' := by
  cases b with
  | calculated valid ts ref =>
    cases hv
    obtain ⟨s', h1, h2, h3, h4, h5⟩ := each_ta w x ts s
    refine ⟨s', h1, ?_, ?_⟩
    · funext h; cases h <;> simp [voltage, h2, h3]
    · intro h w'
      cases h with
      | terminal t => simp only [angle, Owns]; exact h5 t w'
      | bus b => simp [angle, Owns, h4]
  | conf c =>
    refine ⟨_, rfl, (by funext h; cases h <;> rfl), ?_⟩
    intro h w'
    cases h with
    | terminal t => simp [angle, Owns]
    | bus b => by_cases h1 : b = c <;> by_cases h2 : w' = w <;> simp [angle, Owns, put, h1, h2]
  | merged valid bs =>
    cases hv
    obtain ⟨s', h1, h2, h3, h4, h5⟩ := each_ba w x bs s
    refine ⟨s', h1, ?_, ?_⟩
    · funext h; cases h <;> simp [voltage, h2, h3]
    · intro h w'
      cases h with
      | bus b => simp only [angle, Owns]; exact h5 b w'
      | terminal t => simp [angle, Owns, h4]

/-- A voltage that is not acceptable is refused by a bus that owns something, before anything is written. -/
theorem setV_thrown {s : St} {w : Nat} {b : Bus} {x : Dbl} (hx : ¬ Acceptable x) (ho : ∃ h, Owns b h) :
    setV s w b x = (.thrown, s) := by
  have hc : checkVoltage x = .thrown := by
    rcases checkVoltage_cases x with h | h
    · exact absurd h.2 hx
    · exact h.1
  obtain ⟨h, ho⟩ := ho
  cases b with
  | calculated valid ts ref =>
    cases ts with
    | nil => cases h <;> simp [Owns] at ho
    | cons t ts => cases valid <;> simp [setV, each, termSetV, hc]
  | conf c => simp [setV, confSetV, hc]
  | merged valid bs =>
    cases bs with
    | nil => cases h <;> simp [Owns] at ho
    | cons t ts => cases valid <;> simp [setV, each, confSetV, hc]

/-- A valid bus that owns nothing takes any value and keeps none. -/
theorem set_nothing {s : St} {w : Nat} {b : Bus} {x : Dbl} (hv : Valid b) (ho : ∀ h, ¬ Owns b h) :
    setV s w b x = (.ok (), s) ∧ setAngle s w b x = (.ok (), s) := by
  cases b with
  | calculated valid ts ref =>
    cases hv
    cases ts with
    | nil => exact ⟨rfl, rfl⟩
    | cons t ts => exact absurd (by simp [Owns]) (ho (.terminal t))
  | conf c => exact absurd rfl (ho (.bus c))
  | merged valid bs =>
    cases hv
    cases bs with
    | nil => exact ⟨rfl, rfl⟩
    | cons b bs => exact absurd (by simp [Owns]) (ho (.bus b))

theorem set_invalid {s : St} {w : Nat} {b : Bus} {x : Dbl} (hv : ¬ Valid b) :
    setV s w b x = (.thrown, s) ∧ setAngle s w b x = (.thrown, s) := by
  cases b with
  | calculated valid ts ref => cases valid with
    | false => exact ⟨rfl, rfl⟩
    | true => exact absurd rfl hv
  | conf c => exact absurd trivial hv
  | merged valid bs => cases valid with
    | false => exact ⟨rfl, rfl⟩
    | true => exact absurd rfl hv

/-! ### Where a bus reads its values -/

theorem firstKnown_all {f : Nat → Dbl} {x : Dbl} {bs : List Nat} (hb : bs ≠ []) (h : ∀ b ∈ bs, f b = x) :
    firstKnown f bs = x := by
  induction bs with
  | nil => exact absurd rfl hb
  | cons b bs ih =>
    unfold firstKnown
    rw [h b (by simp)]
    cases hx : x.isNan with
    | false => simp
    | true =>
      simp only [Bool.not_true, Bool.false_eq_true, if_false]
      cases bs with
      | nil => cases x <;> simp_all [Dbl.isNan, firstKnown]
      | cons c cs => exact ih (by simp) (fun b hb => h b (by simp [hb]))

theorem firstKnown_nan {f : Nat → Dbl} {bs : List Nat} : firstKnown f bs = .nan ↔ ∀ b ∈ bs, f b = .nan := by
  induction bs with
  | nil => simp [firstKnown]
  | cons b bs ih =>
    unfold firstKnown
    cases hb : f b <;> simp [Dbl.isNan, ih, hb]

theorem firstKnown_some {f : Nat → Dbl} {bs : List Nat} {x : Dbl} (hx : x ≠ .nan) :
    firstKnown f bs = x ↔ ∃ l b r, bs = l ++ b :: r ∧ (∀ c ∈ l, f c = .nan) ∧ f b = x := by
  induction bs with
  | nil => simp [firstKnown]; exact fun h => hx h.symm
  | cons b bs ih =>
    unfold firstKnown
    by_cases hb : f b = .nan
    · rw [hb]
      simp only [Dbl.isNan, Bool.not_true, Bool.false_eq_true, if_false]
      rw [ih]
      constructor
      · rintro ⟨l, c, r, h1, h2, h3⟩
        exact ⟨b :: l, c, r, by rw [h1]; rfl, (by intro d hd; rcases List.mem_cons.mp hd with h | h
                                                  · rw [h]; exact hb
                                                  · exact h2 d h), h3⟩
      · rintro ⟨l, c, r, h1, h2, h3⟩
        cases l with
        | nil => simp at h1; exact absurd (by rw [← h3, ← h1.1, hb]) hx
        | cons d l =>
          simp at h1
          exact ⟨l, c, r, h1.2, fun e he => h2 e (by simp [he]), h3⟩
    · have : (f b).isNan = false := by cases h : f b <;> simp_all [Dbl.isNan]
      rw [this]
      simp only [Bool.not_false, if_true]
      constructor
      · intro h; exact ⟨[], b, bs, rfl, by simp, h⟩
      · rintro ⟨l, c, r, h1, h2, h3⟩
        cases l with
        | nil => simp at h1; rw [h1.1]; exact h3
        | cons d l => simp at h1; exact absurd (by rw [h1.1]; exact h2 d (by simp)) hb

/-- What the constructors ensure. -/
theorem Made.shape {b : Bus} (h : Made b) : match b with
    | .calculated valid ts ref => (valid = false → ts = [] ∧ ref = none) ∧ (∀ t rest, ts = t :: rest → ref = some t)
    | .conf _ => True
    | .merged valid bs => (valid = true → bs ≠ []) ∧ (valid = false → bs = []) := by
  induction h with
  | @calculated g opened nb r hr =>
    unfold construct at hr
    cases hf : findTerminal g opened nb.nodes nb.terminals with
    | thrown => rw [hf] at hr; cases hr
    | ub => rw [hf] at hr; cases hr
    | ok o =>
      rw [hf] at hr
      cases hr
      refine ⟨(by intro h; cases h), ?_⟩
      intro t rest ht
      cases ht' : nb.terminals with
      | nil => rw [ht'] at ht; cases ht
      | cons u us =>
        rw [ht'] at ht hf
        unfold findTerminal at hf
        cases hf
        simp at ht
        simp [ht.1]
  | conf c => trivial
  | @merged bs r hr =>
    unfold merge at hr
    cases bs with
    | nil => simp at hr
    | cons b bs => simp at hr; cases hr; simp
  | @invalidated b _ _ => cases b <;> simp [invalidate]

/-! ### The reference terminal -/

/-- The edge holds an open switch. -/
def barred (g : Gr) (opened : Nat → Bool) (e : Nat) : Bool :=
  match g.edgeAt e with
  | some ed => match ed.obj with | some sw => opened sw.handle | none => false
  | none => false

theorem unbarred_iff {g : Gr} {opened : Nat → Bool} {u w : Nat} :
    Unbarred g (barred g opened) u w ↔
      ∃ e ed, g.edgeAt e = some ed ∧ Passing .bus opened (fun _ => false) ed.obj ∧ Joins ed u w := by
  constructor
  · rintro ⟨e, ed, h1, h2, h3⟩
    refine ⟨e, ed, h1, ?_, h3⟩
    unfold barred at h2
    rw [h1] at h2
    cases ho : ed.obj with
    | none => trivial
    | some sw => simp only [ho] at h2; exact ⟨h2, by simp⟩
  · rintro ⟨e, ed, h1, h2, h3⟩
    refine ⟨e, ed, h1, ?_, h3⟩
    unfold barred
    cases ho : ed.obj with
    | none => simp only [h1, ho]
    | some sw => rw [ho] at h2; simp only [h1, ho]; exact h2.1

theorem reach_tied {g : Gr} {opened : Nat → Bool} {M : Nat → Prop} {v u : Nat}
    (h : Reach (Unbarred g (barred g opened)) M v u) : Tied g opened v u := by
  induction h with
  | refl => exact .refl
  | step _ h2 _ ih =>
    obtain ⟨e, ed, k1, k2, k3⟩ := unbarred_iff.mp h2
    exact .step ih k1 k2 k3

theorem tied_reach {g : Gr} {opened : Nat → Bool} {v u : Nat} (h : Tied g opened v u) :
    Reach (Unbarred g (barred g opened)) (fun _ => False) v u := by
  induction h with
  | refl => exact .refl
  | step _ h2 h3 h4 ih => exact .step ih (unbarred_iff.mpr ⟨_, _, h2, h3, h4⟩) (fun h => h)

/-- The callback of the code is the callback of a search on the edges of the graph. -/
theorem refCb_eq {g : Gr} {opened : Nat → Bool} {e : Nat} {ed : Edge Sw} (he : g.edgeAt e = some ed) (f : Option Term) (a b : Nat) :
    refCb g opened f a e b = probeCb (barred g opened) (terminalAt g) f a e b := by
  unfold refCb
  rw [he]
  cases f with
  | some t => rfl
  | none => simp only [probeCb, barred, he]; cases ed.obj <;> rfl

theorem sLoop_congr {ν ε σ : Type} {g : G ν ε} {cb cb' : σ → Nat → Nat → Nat → Out (σ × Bool)}
    {rec rec' : Nat → SSt σ → Out (SSt σ)} (hcb : ∀ e ed, g.edgeAt e = some ed → ∀ s a b, cb s a e b = cb' s a e b)
    (hrec : ∀ v st, rec v st = rec' v st) (es : List Nat) : ∀ st, sLoop g cb rec es st = sLoop g cb' rec' es st := by
  have hr : rec = rec' := by funext v st; exact hrec v st
  subst hr
  induction es with
  | nil => intro st; rfl
  | cons e es ih =>
    intro st
    unfold sLoop
    cases he : g.edgeAt e with
    | none => rfl
    | some ed =>
      have hi : sLoop g cb rec es = sLoop g cb' rec es := by funext st; exact ih st
      simp only [hcb e ed he, hi]

theorem sTraverse_congr {ν ε σ : Type} {g : G ν ε} {cb cb' : σ → Nat → Nat → Nat → Out (σ × Bool)}
    (hcb : ∀ e ed, g.edgeAt e = some ed → ∀ s a b, cb s a e b = cb' s a e b) (s : σ) (v : Nat) :
    g.sTraverse cb s v = g.sTraverse cb' s v := by
  have hrec : ∀ (adj : List (List Nat)) n v st, sRec g cb adj n v st = sRec g cb' adj n v st := by
    intro adj n
    induction n with
    | zero => intro v st; rfl
    | succ n ih =>
      intro v st
      unfold sRec
      cases g.vertexExists v with
      | false => rfl
      | true =>
        simp only [Bool.not_true, Bool.false_eq_true, if_false]
        cases adj[v]? with
        | none => rfl
        | some es => exact sLoop_congr hcb ih es _
  unfold G.sTraverse
  simp only [hrec]

/-- The search for a reference terminal from a node without one. -/
theorem findTerminal_search {g : Gr} (hg : Reached g) (opened : Nat → Bool) {v : Nat} (hv : g.vertexAt v = some none) :
    ∃ r, g.sTraverse (refCb g opened) none v = .ok r ∧
      (∀ t, r = some t → ∃ x, Tied g opened v x ∧ g.vertexAt x = some (some t)) ∧
      (r = none → ∀ x, Tied g opened v x → ∀ t, g.vertexAt x ≠ some (some t)) := by
  rw [sTraverse_congr (cb' := probeCb (barred g opened) (terminalAt g)) (fun e ed he s a b => refCb_eq he s a b)]
  have hlook : ∀ e ed, g.edgeAt e = some ed →
      terminalAt g ed.v1 = .ok ((g.vertexAt ed.v1).join) ∧ terminalAt g ed.v2 = .ok ((g.vertexAt ed.v2).join) := by
    intro e ed he
    obtain ⟨k1, k2⟩ := hg.wf.ends e ed he
    unfold terminalAt
    constructor
    · cases h : g.vertexAt ed.v1 with
      | none => exact absurd h k1
      | some o => rfl
    · cases h : g.vertexAt ed.v2 with
      | none => exact absurd h k2
      | some o => rfl
  obtain ⟨r, h1, h2, h3⟩ := probe_spec hg (bar := barred g opened) (look := terminalAt g)
    (f := fun u => (g.vertexAt u).join) hlook (v := v) (by unfold G.vertexExists; rw [hv]; rfl) (by simp [hv])
  refine ⟨r, h1, ?_, ?_⟩
  · intro t ht
    obtain ⟨u, w, k1, k2, k3⟩ := h2 t ht
    refine ⟨w, ?_, ?_⟩
    · exact reach_tied (.step (k1.mono (fun x hx => (hx : False).elim)) k2 (fun h => h))
    · cases hw : g.vertexAt w with
      | none => simp [hw] at k3
      | some o => simp [hw] at k3; rw [k3]
  · intro hn x hx t ht
    have := h3 hn x (tied_reach hx)
    simp [ht] at this

theorem passing_tied {g : Gr} {view : View} {opened retained : Nat → Bool} {u w : Nat}
    (h : Conn g (Passing view opened retained) u w) : Tied g opened u w := by
  induction h with
  | refl => exact .refl
  | @step a b e ed _ h2 h3 h4 ih =>
    refine .step ih h2 ?_ h4
    cases ho : ed.obj with
    | none => trivial
    | some sw => rw [ho] at h3; exact ⟨h3.1, by simp⟩

theorem tied_conn {g : Gr} {opened retained : Nat → Bool} {u w : Nat} (h : Tied g opened u w) :
    Conn g (Passing .bus opened retained) u w := by
  unfold Tied at h
  induction h with
  | refl => exact .refl
  | @step a d e ed _ h2 h3 h4 ih =>
    refine .step ih h2 ?_ h4
    cases ho : ed.obj with
    | none => trivial
    | some sw => rw [ho] at h3; exact ⟨h3.1, by simp⟩

end Verif.BusState
