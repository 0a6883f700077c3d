import Verif.XmlNet.Valid
import Verif.Enums.Props
import Verif.Shunt.Props

/-!
What successful readings imply.  Helper lemmas of C69.
-/

namespace Verif.XmlNet

open Verif Verif.Xml

theorem bind_ok_iff {α β : Type} {x : Out α} {f : α → Out β} {b : β} : (x >>= f) = .ok b ↔ ∃ a, x = .ok a ∧ f a = .ok b := Out.bind_eq_ok

theorem check_ok_iff {b : Bool} {u : Unit} : check b = .ok u ↔ b = false := by cases b <;> simp [check]

theorem map_ok_iff {α β : Type} {x : Out α} {f : α → β} {b : β} : x.map f = .ok b ↔ ∃ a, x = .ok a ∧ f a = b := by cases x <;> simp [Out.map]

variable {σ : Type}

/-! ### Loops -/

theorem loop_inv {P : σ → Prop} {cb : Callback σ} (hcb : ∀ s toks s' r, P s → cb s toks = .ok (s', r) → P s') {root : String} :
    ∀ (n : Nat) (s : σ) (toks : List Tok) (s1 : σ) (r : List Tok), P s → loop cb root n s toks = .ok (s1, r) → P s1 := by
  intro n
  induction n with
  | zero => intro s toks s1 r _ h; cases h
  | succ n ih =>
    intro s toks s1 r hs h
    cases toks with
    | nil => cases h
    | cons t rest =>
      cases t with
      | stop m =>
        simp only [loop] at h
        split at h
        · simp only [Out.ok.injEq, Prod.mk.injEq] at h; exact h.1 ▸ hs
        · exact ih _ _ _ _ hs h
      | text x => exact ih _ _ _ _ hs h
      | blank => exact ih _ _ _ _ hs h
      | start m a e =>
        simp only [loop] at h
        split at h
        · rename_i s' ts' hc
          exact ih _ _ _ _ (hcb _ _ _ _ hs hc) h
        · cases h
        · cases h

theorem readUntilEnd_inv {P : σ → Prop} {cb : Callback σ} (hcb : ∀ s toks s' r, P s → cb s toks = .ok (s', r) → P s') {root : String} {s s1 : σ} {toks r : List Tok} (hs : P s)
    (h : readUntilEnd cb root s toks = .ok (s1, r)) : P s1 := by
  unfold readUntilEnd at h
  split at h
  · simp only [Out.ok.injEq, Prod.mk.injEq] at h; exact h.1 ▸ hs
  · exact loop_inv hcb _ _ _ _ _ hs h
  · cases h

/-- A handler keeps a property. -/
def Keeps (h : Handler σ) (P : σ → Prop) : Prop := ∀ n cb, h n = some cb → ∀ s toks s' r, P s → cb s toks = .ok (s', r) → P s'

theorem addAlias_valid {x x' : Ident} {a t : String} (hx : IdentValid x) (h : x.addAlias a t = .ok x') : IdentValid x' := by
  unfold Ident.addAlias at h
  split at h
  · cases h
  · rename_i ht
    split at h
    · simp only [Out.ok.injEq] at h; exact h ▸ hx
    · rename_i hn
      simp only [Out.ok.injEq] at h
      subst h
      rw [not_or] at hn
      refine ⟨?_, ?_, ?_, hx.props⟩
      · intro b hb
        rcases List.mem_append.1 hb with h1 | h1
        · exact hx.ids b h1
        · simp only [List.mem_singleton] at h1; subst h1; exact hn.1
      · show ((x.aliases ++ [(a, t)]).map Prod.fst).Nodup
        rw [List.map_append, List.nodup_append]
        refine ⟨hx.nodup, by simp, ?_⟩
        intro b hb c hc hbc
        simp only [List.map_cons, List.map_nil, List.mem_singleton] at hc
        subst hc
        exact hn.2 (hbc ▸ hb)
      · show (x.aliases ++ [(a, t)]).Pairwise _
        rw [List.pairwise_append]
        refine ⟨hx.types, by simp, ?_⟩
        intro b hb c hc hne heq
        simp only [List.mem_singleton] at hc
        subst hc
        have heq' : b.2 = t := heq
        exact ht ⟨heq' ▸ hne, List.mem_map.2 ⟨b, hb, heq'⟩⟩

theorem propset_nodup (k v : String) (m : PropMap.Props) (h : AMap.NodupKeys m) : AMap.NodupKeys (PropMap.set k v m).2 := by
  unfold PropMap.set
  split
  · exact AMap.nodupKeys_emplace h k v
  · exact AMap.nodupKeys_set h k v

theorem identCb_valid {A : Anon} {x x' : Ident} {toks r : List Tok} (hx : IdentValid x) (h : identCb A x toks = .ok (x', r)) : IdentValid x' := by
  unfold identCb at h
  simp only [bind_ok_iff] at h
  obtain ⟨n, _, h⟩ := h
  split at h
  · simp only [bind_ok_iff] at h
    obtain ⟨k, _, v, _, h⟩ := h
    simp only [Out.ok.injEq, Prod.mk.injEq] at h
    obtain ⟨rfl, rfl⟩ := h
    exact ⟨hx.ids, hx.nodup, hx.types, propset_nodup k v x.props hx.props⟩
  · split at h
    · simp only [bind_ok_iff] at h
      obtain ⟨t, _, c, _, a, _, y, hy, h⟩ := h
      simp only [Out.ok.injEq, Prod.mk.injEq] at h
      obtain ⟨rfl, rfl⟩ := h
      exact addAlias_valid hx hy
    · cases h

theorem elemCb_valid {A : Anon} {h : Handler σ} {P : σ → Prop} (hP : Keeps h P) {x x' : Ident × σ} {toks r : List Tok} (hx : IdentValid x.1 ∧ P x.2)
    (he : elemCb A h x toks = .ok (x', r)) : IdentValid x'.1 ∧ P x'.2 := by
  unfold elemCb at he
  simp only [bind_ok_iff] at he
  obtain ⟨n, _, he⟩ := he
  cases hn : h n with
  | none =>
    rw [hn] at he
    simp only [bind_ok_iff] at he
    obtain ⟨y, hy, he⟩ := he
    simp only [Out.ok.injEq, Prod.mk.injEq] at he
    obtain ⟨rfl, rfl⟩ := he
    exact ⟨identCb_valid hx.1 hy, hx.2⟩
  | some cb =>
    rw [hn] at he
    simp only [bind_ok_iff] at he
    obtain ⟨y, hy, he⟩ := he
    simp only [Out.ok.injEq, Prod.mk.injEq] at he
    obtain ⟨rfl, rfl⟩ := he
    exact ⟨hx.1, hP n cb hn _ _ _ _ hx.2 hy⟩

/-- A successful reading of an element: the attributes are read, the sub elements keep what their handler keeps. -/
theorem readElem_ok {α β : Type} {A : Anon} {root : String} {rd : List Tok → Out α} {h : Handler σ} {s0 : σ} {mk : Ident → α → σ → Out β} {toks rest : List Tok} {b : β}
    {P : σ → Prop} (hP : Keeps h P) (h0 : P s0) (hr : readElem A root rd h s0 mk toks = .ok (b, rest)) : ∃ i a s, IdentValid i ∧ rd toks = .ok a ∧ P s ∧ mk i a s = .ok b := by
  unfold readElem at hr
  simp only [bind_ok_iff] at hr
  obtain ⟨hd, _, a, ha, y, hy, c, hc, hr⟩ := hr
  simp only [Out.ok.injEq, Prod.mk.injEq] at hr
  obtain ⟨rfl, rfl⟩ := hr
  have := readUntilEnd_inv (P := fun x : Ident × σ => IdentValid x.1 ∧ P x.2) (s := (⟨hd, [], []⟩, s0)) (fun s toks s' r hs he => elemCb_valid hP hs he)
    ⟨⟨by simp, by simp, by simp, by simp⟩, h0⟩ (show _ = Out.ok (y.1, y.2) from hy)
  exact ⟨y.1.1, a, y.1.2, this.1, ha, this.2, hc⟩

theorem readPlain_ok {α β : Type} {root : String} {rd : List Tok → Out α} {h : Handler σ} {s0 : σ} {mk : α → σ → Out β} {toks rest : List Tok} {b : β}
    {P : σ → Prop} (hP : Keeps h P) (h0 : P s0) (hr : readPlain root rd h s0 mk toks = .ok (b, rest)) : ∃ a s, rd toks = .ok a ∧ P s ∧ mk a s = .ok b := by
  unfold readPlain at hr
  simp only [bind_ok_iff] at hr
  obtain ⟨a, ha, y, hy, c, hc, hr⟩ := hr
  simp only [Out.ok.injEq, Prod.mk.injEq] at hr
  obtain ⟨rfl, rfl⟩ := hr
  refine ⟨a, y.1, ha, readUntilEnd_inv (P := P) (fun s toks s' r hs he => ?_) h0 (show _ = Out.ok (y.1, y.2) from hy), hc⟩
  unfold plainCb at he
  simp only [bind_ok_iff] at he
  obtain ⟨n, _, he⟩ := he
  cases hn : h n with
  | none => rw [hn] at he; cases he
  | some cb => rw [hn] at he; exact hP n cb hn _ _ _ _ hs he

/-! ### Parts -/

theorem build_valid {a : Adders.Args} {pl : Adders.Place} (h : Adders.build a = .ok pl) : PlaceValid pl := by
  unfold Adders.build at h
  split at h
  · cases h
  · cases h
  · split at h
    · split at h
      · cases h
      · simp only [Out.ok.injEq] at h; subst h; trivial
    · split at h
      · cases h
      · rename_i hc
        unfold Adders.createBusTerminal at h
        rw [if_neg hc] at h
        simp only [Out.ok.injEq] at h
        subst h
        exact hc

theorem readPlace_valid {K : XCodec} {A : Anon} {toks : List Tok} {pl : Adders.Place} (h : readPlace K A toks = .ok pl) : PlaceValid pl := by
  unfold readPlace at h
  simp only [bind_ok_iff] at h
  obtain ⟨_, _, _, _, _, _, h⟩ := h
  exact build_valid h

theorem readTerm_place {K : XCodec} {s : String} {toks : List Tok} {pl : Adders.Place} {t : Term} (h : readTerm K s toks pl = .ok t) : t.place = pl := by
  unfold readTerm at h
  simp only [bind_ok_iff] at h
  obtain ⟨_, _, _, _, h⟩ := h
  simp only [Out.ok.injEq] at h
  subst h
  rfl

theorem readBranchPlace_valid {K : XCodec} {A : Anon} {s : String} {toks : List Tok} {p : String × Adders.Place} (h : readBranchPlace K A s toks = .ok p) : PlaceValid p.2 := by
  unfold readBranchPlace at h
  simp only [bind_ok_iff] at h
  obtain ⟨_, _, _, _, _, _, _, _, _, _, pl, hp, h⟩ := h
  simp only [Out.ok.injEq] at h
  subst h
  exact build_valid hp

theorem readLegSide_valid {K : XCodec} {A : Anon} {s : String} {toks : List Tok} {x : Side} (h : readLegSide K A s toks = .ok x) : PlaceValid x.term.place := by
  unfold readLegSide readLegPlace at h
  simp only [bind_ok_iff] at h
  obtain ⟨_, ⟨_, _, _, _, _, _, _, _, _, _, pl, hp, h1⟩, t, ht, h⟩ := h
  simp only [Out.ok.injEq] at h h1
  subst h1 h
  show PlaceValid t.place
  rw [readTerm_place ht]
  exact build_valid hp

theorem readSides_valid {K : XCodec} {A : Anon} {toks : List Tok} {x : Side × Side} (h : readSides K A toks = .ok x) :
    PlaceValid x.1.term.place ∧ PlaceValid x.2.term.place := by
  unfold readSides at h
  simp only [bind_ok_iff] at h
  obtain ⟨p1, h1, p2, h2, t1, h3, t2, h4, h⟩ := h
  simp only [Out.ok.injEq] at h
  subst h
  refine ⟨?_, ?_⟩
  · show PlaceValid t1.place
    rw [readTerm_place h3]
    exact readBranchPlace_valid h1
  · show PlaceValid t2.place
    rw [readTerm_place h4]
    exact readBranchPlace_valid h2

theorem enum_valid {names : List String} {n : String} {v : Nat} (h : Enums.fromString names n = .ok v) : v < names.length := by
  have := Enums.name_round_trip h
  unfold Enums.toString at this
  split at this
  · cases this
  · omega

theorem addPoint_ok {x : Curve.Pt} {pts pts' : List Curve.Pt} (hs : Curve.Sorted pts ∧ ∀ y ∈ pts, IsSet y.minQ ∧ IsSet y.maxQ) (h : Curve.addPoint x pts = .ok pts') :
    Curve.Sorted pts' ∧ ∀ y ∈ pts', IsSet y.minQ ∧ IsSet y.maxQ := by
  have := Curve.addPoints_spec [x] pts pts' hs.1 hs.2 (by simp [Curve.addPoints, h])
  exact ⟨this.1, this.2.2⟩

theorem readReactive_valid {K : Codec} {toks rest : List Tok} {l : Reactive} (h : readReactive K toks = .ok (l, rest)) : ReactiveValid l := by
  unfold readReactive at h
  obtain ⟨n, _, h⟩ := Out.bind_eq_ok.1 h
  split at h
  · obtain ⟨r, hr, h⟩ := Out.bind_eq_ok.1 h
    split at h
    · cases h
    · rename_i hl
      simp only [Out.ok.injEq, Prod.mk.injEq] at h
      obtain ⟨rfl, rfl⟩ := h
      have := readUntilEnd_inv (P := fun pts : List Curve.Pt => Curve.Sorted pts ∧ ∀ y ∈ pts, IsSet y.minQ ∧ IsSet y.maxQ) (s := []) (fun s toks s' r hs he => by
        unfold curveCb at he
        obtain ⟨n, _, he⟩ := Out.bind_eq_ok.1 he
        split at he
        · obtain ⟨p, _, he⟩ := Out.bind_eq_ok.1 he
          obtain ⟨a, _, he⟩ := Out.bind_eq_ok.1 he
          obtain ⟨b, _, he⟩ := Out.bind_eq_ok.1 he
          obtain ⟨c, hc, he⟩ := map_ok_iff.1 he
          simp only [Prod.mk.injEq] at he
          exact he.1 ▸ addPoint_ok hs hc
        · cases he) ⟨trivial, by simp⟩ (show _ = Out.ok (r.1, r.2) from hr)
      exact ⟨this.1, by omega, this.2⟩
  · split at h
    · obtain ⟨a, _, h⟩ := Out.bind_eq_ok.1 h
      obtain ⟨b, _, h⟩ := Out.bind_eq_ok.1 h
      obtain ⟨c, hc, h⟩ := map_ok_iff.1 h
      simp only [Prod.mk.injEq] at h
      obtain ⟨rfl, rfl⟩ := h
      unfold Curve.buildMinMax at hc
      split at hc
      · cases hc
      · rename_i hn
        split at hc
        · cases hc
        · rename_i hlt
          simp only [Out.ok.injEq] at hc
          subst hc
          simp only [Bool.or_eq_true, not_or, Bool.not_eq_true] at hn hlt
          exact ⟨hn.1, hn.2, hlt⟩
    · cases h

theorem defaultReactive_valid : ReactiveValid defaultReactive := by
  refine ⟨rfl, rfl, ?_⟩
  have h : ¬ ((2 ^ 53 - 1) * 2 ^ 971 : Rat) < -((2 ^ 53 - 1) * 2 ^ 971) := by grind
  exact decide_eq_false h

theorem readLimits_valid {K : Codec} {el : String} {toks rest : List Tok} {l : Limits.LL} (h : readLimits K el toks = .ok (l, rest)) : LimitsValid l := by
  unfold readLimits at h
  obtain ⟨p, _, h⟩ := Out.bind_eq_ok.1 h
  obtain ⟨r, hr, h⟩ := Out.bind_eq_ok.1 h
  obtain ⟨l', hl, h⟩ := map_ok_iff.1 h
  simp only [Prod.mk.injEq] at h
  obtain ⟨rfl, rfl⟩ := h
  have hinv := readUntilEnd_inv (P := fun ts : Limits.TLs => Limits.Desc ts ∧ ∀ t ∈ ts, Dbl.lt 0 t.value = true ∧ t.name ≠ "") (s := []) (fun s toks s' r hs he => by
    unfold limitsCb at he
    obtain ⟨n, _, he⟩ := Out.bind_eq_ok.1 he
    split at he
    · obtain ⟨name, _, he⟩ := Out.bind_eq_ok.1 he
      obtain ⟨duration, _, he⟩ := Out.bind_eq_ok.1 he
      obtain ⟨value, _, he⟩ := Out.bind_eq_ok.1 he
      obtain ⟨f, _, he⟩ := Out.bind_eq_ok.1 he
      unfold Limits.endTemporaryLimit at he
      by_cases h1 : value.isNan = true
      · simp [h1] at he
      · by_cases h2 : Dbl.le value 0 = true
        · simp [h1, h2] at he
        · by_cases h3 : name = ""
          · simp [h1, h2, h3] at he
          · simp only [h1, h2, h3] at he
            simp at he
            obtain ⟨rfl, rfl⟩ := he
            refine ⟨Limits.desc_emplace hs.1, ?_⟩
            intro t ht
            rcases Limits.mem_emplace ht with rfl | ht
            · exact ⟨Dbl.lt_of_not_le (by simpa using h1) rfl (by simpa using h2), h3⟩
            · exact hs.2 t ht
    · simp only [Out.ok.injEq, Prod.mk.injEq] at he
      exact he.1 ▸ hs) ⟨List.Pairwise.nil, by simp⟩ (show _ = Out.ok (r.1, r.2) from hr)
  have hadd := (Limits.add_accepts_iff p r.1).1 ⟨_, hl⟩
  obtain ⟨rfl, _⟩ := Limits.add_ok hl
  exact ⟨hadd.1, hinv.1, hadd.2, hinv.2⟩

theorem checkControl_valid {on : Bool} {v q : Dbl} {u : Unit} (h : checkControl on v q = .ok u) : ControlValid on v q := by
  unfold checkControl at h
  rw [check_ok_iff] at h
  cases on with
  | false => exact ⟨nofun, fun _ => by simpa using h⟩
  | true =>
    simp only [if_true, Bool.or_eq_false_iff] at h
    exact ⟨fun _ => Dbl.lt_of_not_le h.1 rfl h.2, nofun⟩

theorem checkRatedS_valid {s : Dbl} {u : Unit} (h : checkRatedS s = .ok u) : RatedValid s := by
  unfold checkRatedS at h
  rw [check_ok_iff] at h
  intro hs
  rw [hs] at h
  exact Dbl.lt_of_not_le hs rfl (by simpa using h)

theorem checkLoss_valid {f : Dbl} {u : Unit} (h : checkLoss f = .ok u) : Dbl.le 0 f = true ∧ Dbl.le f 100 = true := by
  unfold checkLoss at h
  rw [check_ok_iff] at h
  simp only [Bool.or_eq_false_iff] at h
  exact ⟨Dbl.le_of_not_lt h.1.1 rfl h.1.2, Dbl.le_of_not_lt rfl h.1.1 h.2⟩

theorem checkPowerFactor_valid {f : Dbl} {u : Unit} (h : checkPowerFactor f = .ok u) : Dbl.le (.fin (-1)) f = true ∧ Dbl.le f 1 = true := by
  unfold checkPowerFactor at h
  rw [check_ok_iff] at h
  simp only [Bool.or_eq_false_iff] at h
  exact ⟨Dbl.le_of_not_lt h.1.1 rfl h.2, Dbl.le_of_not_lt rfl h.1.1 h.1.2⟩

theorem range_valid {a b : Dbl} (ha : IsSet a) (hb : IsSet b) (h : Dbl.lt b a = false) : Dbl.le a b = true := Dbl.le_of_not_lt hb ha h

end Verif.XmlNet
